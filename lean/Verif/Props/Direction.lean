import Verif.Props.Atan
import Verif.Props.Atan2

/-!
# C87: `fast_atan2` depends on the direction of the vector only
-/

namespace Vdt
open FP details
variable {f : Fmt}

/-- Quotients that are equal as rational numbers are equal bit for bit. -/
theorem div_ratio {m M m' M' : FP f} (hm : m.isFinite = true) (hM : M.isFinite = true) (hm' : m'.isFinite = true) (hM' : M'.isFinite = true)
    (sm : m.sign = false) (sM : M.sign = false) (sm' : m'.sign = false) (sM' : M'.sign = false) (h0 : M.val ≠ 0) (h0' : M'.val ≠ 0)
    (h : m.val / M.val = m'.val / M'.val) : m / M = m' / M' := by
  have z : ∀ {a : FP f}, a.val ≠ 0 → a.isZero = false := by
    intro a ha
    by_contra hc
    simp only [Bool.not_eq_false, isZero, decide_eq_true_eq] at hc
    exact ha (val_eq_zero.2 hc)
  have e : ∀ {a b : FP f}, a.isFinite = true → b.isFinite = true → a.sign = false → b.sign = false → b.val ≠ 0 →
      a / b = ofRat f false (a.val / b.val) := by
    intro a b ha hb sa sb h0
    rw [div_def]
    unfold div
    simp [finite_not_nan ha, finite_not_nan hb, finite_not_inf ha, finite_not_inf hb, z h0, sa, sb]
  rw [e hm hM sm sM h0, e hm' hM' sm' sM' h0', h]

/-- The octant function is the arctangent of the quotient. -/
theorem oct64C_eq (p : Policy) {y m M : F64} (hm : m.isFinite = true) (hM : M.isFinite = true) (sm : m.sign = false) (sM : M.sign = false)
    (hle : m.val ≤ M.val) (h0 : M.val ≠ 0) (hc : FP.eq y (ofInt 0) = false) : oct64C p y M m = atanPosC p (m / M) := by
  have z0v : (lit 0 : F64).val = 0 ∧ (lit 0 : F64).isFinite = true := by decide +kernel
  obtain ⟨d1, d2, d3, -⟩ := quot_spec quot64 hm hM sm sM hle h0
  have e0 : FP.eq M (lit 0) = false := by rw [eq_fin hM z0v.2, z0v.1]; exact decide_eq_false h0
  have o0 : (ofBool false : F64) = zero false := by decide +kernel
  have o1 : (lit 1 - ofBool false : F64).isFinite = true ∧ (lit 1 - ofBool false : F64).sign = false ∧ (lit 1 - ofBool false : F64).val = 1 := by decide +kernel
  unfold oct64C
  rw [hc, e0, if_neg (by decide)]
  generalize (lit 1 - ofBool false : F64) = one at o1 ⊢
  have ax : M + ofBool false = M := by
    rw [add_def, add_fin hM (by rw [o0]; exact zero_finite false), o0, val_zero, add_zero]
    exact ofRat_val_fin hM h0
  rw [ax]
  have acc := atanPosC_acc p d1 d2
  have ab : |(atanPosC p (m / M)).val| ≤ b64.big := by
    rw [abs_of_nonneg (val_nonneg_of_sign acc.2.1)]
    exact acc.2.2.1.trans (by decide +kernel)
  exact mul_lit_one acc.1 ab o1

/-- Two vectors point in the same direction. -/
def SameDirection (x y x' y' : ℚ) : Prop := ∃ c : ℚ, 0 < c ∧ x' = c * x ∧ y' = c * y

/-- What a function of two arguments with finite values does with one vector it does with all vectors of its direction. -/
def OfDirection (g : FP f → FP f → FP f) : Prop :=
  ∀ x y x' y' : FP f, x.isFinite = true → y.isFinite = true → x'.isFinite = true → y'.isFinite = true →
    SameDirection x.val y.val x'.val y'.val → g y x = g y' x'

/-- The comparisons of the code are the same for two vectors of one direction. -/
theorem dir_tests {x y x' y' z : FP f} (hx : x.isFinite = true) (hy : y.isFinite = true) (hx' : x'.isFinite = true) (hy' : y'.isFinite = true)
    (hz : z.isFinite = true) (z0 : z.val = 0) (h : SameDirection x.val y.val x'.val y'.val) :
    FP.gt (FP.abs y) (FP.abs x) = FP.gt (FP.abs y') (FP.abs x') ∧ FP.lt x z = FP.lt x' z ∧ FP.lt y z = FP.lt y' z ∧ FP.eq y z = FP.eq y' z := by
  obtain ⟨c, c0, e1, e2⟩ := h
  have ax : ∀ {a : FP f}, a.isFinite = true → (FP.abs a).isFinite = true := fun ha => by simpa using ha
  rw [gt_fin (ax hy) (ax hx), gt_fin (ax hy') (ax hx'), lt_fin hx hz, lt_fin hx' hz, lt_fin hy hz, lt_fin hy' hz, eq_fin hy hz, eq_fin hy' hz,
    val_abs, val_abs, val_abs, val_abs, z0, e1, e2, abs_mul, abs_mul, abs_of_pos c0]
  refine ⟨?_, ?_, ?_, ?_⟩ <;> congr 1 <;> apply propext
  · exact (mul_lt_mul_iff_right₀ c0).symm
  · constructor <;> intro h <;> nlinarith
  · constructor <;> intro h <;> nlinarith
  · constructor
    · intro h; rw [h, mul_zero]
    · intro h; exact (mul_eq_zero.1 h).resolve_left c0.ne'

theorem fast_atan2C_direction (p : Policy) : OfDirection (fast_atan2C p) := by
  intro x y x' y' hx hy hx' hy' h
  have o : (ofInt 0 : F64).isFinite = true ∧ (ofInt 0 : F64).val = 0 := by decide +kernel
  obtain ⟨t1, t2, t3, t4⟩ := dir_tests hx hy hx' hy' o.1 o.2 h
  rw [fast_atan2C_eq, fast_atan2C_eq, ← t1, ← t2, ← t3]
  congr 1
  cases hc : FP.eq y (ofInt 0)
  · have hc' := t4.symm.trans hc
    have y0 : y.val ≠ 0 := by
      rw [eq_fin hy o.1, o.2] at hc; exact of_decide_eq_false hc
    have y0' : y'.val ≠ 0 := by
      rw [eq_fin hy' o.1, o.2] at hc'; exact of_decide_eq_false hc'
    have ax : ∀ {a : F64}, a.isFinite = true → (FP.abs a).isFinite = true := fun ha => by simpa using ha
    obtain ⟨c, c0, e1, e2⟩ := h
    have sx : ∀ a : F64, (FP.abs a).sign = false := fun a => by simp
    have v : |x'.val| = c * |x.val| ∧ |y'.val| = c * |y.val| := by rw [e1, e2, abs_mul, abs_mul, abs_of_pos c0]; exact ⟨rfl, rfl⟩
    rw [gt_fin (ax hy) (ax hx), val_abs, val_abs]
    by_cases hg : |x.val| < |y.val|
    · rw [decide_eq_true hg, if_pos rfl, if_pos rfl]
      have hg' : |x'.val| < |y'.val| := by rw [v.1, v.2]; exact mul_lt_mul_of_pos_left hg c0
      rw [oct64C_eq p (ax hx) (ax hy) (sx _) (sx _) (by rw [val_abs, val_abs]; exact hg.le) (by rw [val_abs]; exact abs_ne_zero.2 y0) hc,
        oct64C_eq p (ax hx') (ax hy') (sx _) (sx _) (by rw [val_abs, val_abs]; exact hg'.le) (by rw [val_abs]; exact abs_ne_zero.2 y0') hc',
        div_ratio (ax hx) (ax hy) (ax hx') (ax hy') (sx _) (sx _) (sx _) (sx _) (by rw [val_abs]; exact abs_ne_zero.2 y0)
          (by rw [val_abs]; exact abs_ne_zero.2 y0') (by rw [val_abs, val_abs, val_abs, val_abs, v.1, v.2, mul_div_mul_left _ _ c0.ne'])]
    · rw [decide_eq_false hg, if_neg (by decide), if_neg (by decide)]
      have hg2 := not_lt.1 hg
      have hg' : |y'.val| ≤ |x'.val| := by rw [v.1, v.2]; exact mul_le_mul_of_nonneg_left hg2 c0.le
      have x0 : |x.val| ≠ 0 := (lt_of_lt_of_le (abs_pos.2 y0) hg2).ne'
      have x0' : |x'.val| ≠ 0 := (lt_of_lt_of_le (abs_pos.2 y0') hg').ne'
      rw [oct64C_eq p (ax hy) (ax hx) (sx _) (sx _) (by rw [val_abs, val_abs]; exact hg2) (by rw [val_abs]; exact x0) hc,
        oct64C_eq p (ax hy') (ax hx') (sx _) (sx _) (by rw [val_abs, val_abs]; exact hg') (by rw [val_abs]; exact x0') hc',
        div_ratio (ax hy) (ax hx) (ax hy') (ax hx') (sx _) (sx _) (sx _) (sx _) (by rw [val_abs]; exact x0)
          (by rw [val_abs]; exact x0') (by rw [val_abs, val_abs, val_abs, val_abs, v.1, v.2, mul_div_mul_left _ _ c0.ne'])]
  · have hc' := t4.symm.trans hc
    unfold oct64C
    simp only [hc, hc', if_true]

theorem fast_atan2fC_direction (p : Policy) : OfDirection (fast_atan2fC p) := by
  intro x y x' y' hx hy hx' hy' h
  have o : (lit 0 : F32).isFinite = true ∧ (lit 0 : F32).val = 0 := by decide +kernel
  obtain ⟨t1, t2, t3, t4⟩ := dir_tests hx hy hx' hy' o.1 o.2 h
  rw [fast_atan2fC_eq, fast_atan2fC_eq, ← t1, ← t2, ← t3]
  have ax : ∀ {a : F32}, a.isFinite = true → (FP.abs a).isFinite = true := fun ha => by simpa using ha
  obtain ⟨c, c0, e1, e2⟩ := h
  have sx : ∀ a : F32, (FP.abs a).sign = false := fun a => by simp
  have v : |x'.val| = c * |x.val| ∧ |y'.val| = c * |y.val| := by rw [e1, e2, abs_mul, abs_mul, abs_of_pos c0]; exact ⟨rfl, rfl⟩
  -- the octant function sees the quotient, and which arguments are zeros
  have key : ∀ {m M m' M' : F32}, m.isFinite = true → M.isFinite = true → m'.isFinite = true → M'.isFinite = true → m.sign = false → M.sign = false →
      m'.sign = false → M'.sign = false → m'.val = c * m.val → M'.val = c * M.val → oct32C p y M m = oct32C p y' M' m' := by
    intro m M m' M' hm hM hm' hM' sm sM sm' sM' em eM
    by_cases hz : M.val = 0
    · have hz' : M'.val = 0 := by rw [eM, hz, mul_zero]
      have zM : ∀ {a : F32}, a.sign = false → a.val = 0 → a = zero false := by
        intro a sa va
        ext
        · exact sa
        · exact val_eq_zero.1 va
      rw [zM sM hz, zM sM' hz']
      have q : m / zero false = m' / (zero false : F32) := by
        by_cases mz : m.val = 0
        · have mz' : m'.val = 0 := by rw [em, mz, mul_zero]
          rw [zM sm mz, zM sm' mz']
        · have mz' : m'.val ≠ 0 := by rw [em]; exact mul_ne_zero c0.ne' mz
          have z : ∀ {a : F32}, a.val ≠ 0 → a.isZero = false := by
            intro a ha
            by_contra hc
            simp only [Bool.not_eq_false, isZero, decide_eq_true_eq] at hc
            exact ha (val_eq_zero.2 hc)
          have e : ∀ {a : F32}, a.isFinite = true → a.sign = false → a.val ≠ 0 → a / (zero false : F32) = inf false := by
            intro a ha sa va
            have zf : (zero false : F32).isNaN = false ∧ (zero false : F32).isInf = false ∧ (zero false : F32).isZero = true := by decide
            rw [div_def]
            unfold div
            simp [finite_not_nan ha, finite_not_inf ha, z va, sa, zf.1, zf.2.1, zf.2.2]
            rfl
          rw [e hm sm mz, e hm' sm' mz']
      unfold oct32C
      rw [q, t4]
    · have hz' : M'.val ≠ 0 := by rw [eM]; exact mul_ne_zero c0.ne' hz
      have q := div_ratio hm hM hm' hM' sm sM sm' sM' hz hz' (by rw [em, eM, mul_div_mul_left _ _ c0.ne'])
      have e0 : FP.eq M (lit 0) = FP.eq M' (lit 0) := by
        rw [eq_fin hM o.1, eq_fin hM' o.1, o.2, decide_eq_false hz, decide_eq_false hz']
      unfold oct32C
      rw [q, t4, e0]
  congr 1
  split
  · exact key (ax hx) (ax hy) (ax hx') (ax hy') (sx _) (sx _) (sx _) (sx _) (by rw [val_abs, val_abs]; exact v.1) (by rw [val_abs, val_abs]; exact v.2)
  · exact key (ax hy) (ax hx) (ax hy') (ax hx') (sx _) (sx _) (sx _) (sx _) (by rw [val_abs, val_abs]; exact v.2) (by rw [val_abs, val_abs]; exact v.1)

/-- **C87.**  The result of `fast_atan2` and of `fast_atan2f` depends, bit for bit, on the direction of the vector only, and not on its
length; zero vectors, subnormal numbers and numbers near the overflow threshold are included, and so is every choice of fused operations. -/
theorem C87_direction : OfDirection fast_atan2 ∧ OfDirection fast_atan2f ∧ ∀ p, OfDirection (fast_atan2C p) ∧ OfDirection (fast_atan2fC p) := by
  refine ⟨?_, ?_, fun p => ⟨fast_atan2C_direction p, fast_atan2fC_direction p⟩⟩
  · intro x y x' y' hx hy hx' hy' h
    rw [← fast_atan2_plain, ← fast_atan2_plain]
    exact fast_atan2C_direction _ x y x' y' hx hy hx' hy' h
  · intro x y x' y' hx hy hx' hy' h
    rw [← fast_atan2f_plain, ← fast_atan2f_plain]
    exact fast_atan2fC_direction _ x y x' y' hx hy hx' hy' h

/-- The vectors (3, 1), (9, 3) and three times the smallest number by the smallest number. -/
example : SameDirection (lit 3 : F64).val (lit 1 : F64).val (lit 9 : F64).val (lit 3 : F64).val ∧
    SameDirection (lit 3 : F64).val (lit 1 : F64).val (ofBits 3#64 : F64).val (ofBits 1#64 : F64).val ∧
    fast_atan2 (lit 1) (lit 3) = fast_atan2 (ofBits 1#64) (ofBits 3#64) := by
  have e : (lit 3 : F64).val = 3 ∧ (lit 1 : F64).val = 1 ∧ (lit 9 : F64).val = 9 ∧ (ofBits 3#64 : F64).val = 3 * p2 (-1074) ∧
      (ofBits 1#64 : F64).val = p2 (-1074) ∧ fast_atan2 (lit 1) (lit 3) = fast_atan2 (ofBits 1#64) (ofBits 3#64) := by decide +kernel
  obtain ⟨e1, e2, e3, e4, e5, e6⟩ := e
  rw [e1, e2, e3, e4, e5]
  exact ⟨⟨3, by norm_num, by norm_num, by norm_num⟩, ⟨p2 (-1074), p2_pos _, by ring, by ring⟩, e6⟩

/-- Vectors in the right half plane, not steeper than the diagonals: the result is that of the arctangent at the rounded quotient. -/
theorem C87_arctangent (p : Policy) (x y : F64) (hx : x.isFinite = true) (hy : y.isFinite = true) (h0 : 0 < x.val) (hy0 : y.val ≠ 0) (h : |y.val| ≤ x.val) :
    fast_atan2C p y x = fast_atanC p (y / x) := by
  have o : (ofInt 0 : F64).isFinite = true ∧ (ofInt 0 : F64).val = 0 := by decide +kernel
  have sxx : x.sign = false := sign_of_pos h0
  have axx : FP.abs x = x := by
    ext
    · rw [abs_sign, sxx]
    · rfl
  have ay : (FP.abs y).isFinite = true := by simpa using hy
  have g1 : FP.gt (FP.abs y) x = false := by
    rw [gt_fin ay hx, val_abs]; exact decide_eq_false (not_lt.2 h)
  have g2 : FP.lt x (ofInt 0) = false := by rw [lt_fin hx o.1, o.2]; exact decide_eq_false (not_lt.2 h0.le)
  have g3 : FP.eq y (ofInt 0) = false := by rw [eq_fin hy o.1, o.2]; exact decide_eq_false hy0
  have g4 : FP.lt y (ofInt 0) = y.sign := by
    rw [lt_fin hy o.1, o.2]
    cases hs : y.sign
    · exact decide_eq_false (not_lt.2 (val_nonneg_of_sign hs))
    · have : (neg y).sign = false := by simp [hs]
      have := val_nonneg_of_sign this
      rw [val_neg] at this
      exact decide_eq_true (lt_of_le_of_ne (by linarith) hy0)
  obtain ⟨d1, d2, d3, -⟩ := quot_spec quot64 ay hx (by simp) sxx (by rw [val_abs]; exact h) h0.ne'
  have zx : x.isZero = false := by
    by_contra hc
    simp only [Bool.not_eq_false, isZero, decide_eq_true_eq] at hc
    exact h0.ne' (val_eq_zero.2 hc)
  -- the quotient has the sign of `y`, its magnitude is the quotient of the magnitudes
  have q : y / x = signedBy (FP.abs y / x) y.sign := by
    have e : ∀ {a : F64}, a.isFinite = true → a / x = ofRat b64 a.sign (a.val / x.val) := by
      intro a ha
      rw [div_def]
      unfold div
      simp [finite_not_nan ha, finite_not_nan hx, finite_not_inf ha, finite_not_inf hx, zx, sxx]
    cases hs : y.sign
    · have : FP.abs y = y := by
        ext
        · rw [abs_sign, hs]
        · rfl
      rw [this] at d2 ⊢
      exact (signedBy_false d2).symm
    · have n : y = neg (FP.abs y) := by
        ext
        · rw [neg_sign, abs_sign, hs]; rfl
        · rfl
      rw [signedBy_true d2]
      have k : neg (FP.abs y) / x = neg (FP.abs y / x) := by
        rw [e (a := neg (FP.abs y)) (by simpa using hy), e ay, val_neg, neg_sign, abs_sign, neg_div]
        exact ofRat_neg false
      rw [← n] at k
      exact k
  have qf : (y / x).isFinite = true := by rw [q]; exact d1
  have qa : FP.abs (y / x) = FP.abs y / x := by
    rw [q]
    ext
    · rw [abs_sign, d2]
    · rfl
  have qs : (y / x).sign = y.sign := by rw [q]; rfl
  rw [fast_atan2C_eq, axx, g1, g2, g4, if_neg (by decide), oct64C_eq p ay hx (by simp) sxx (by rw [val_abs]; exact h) h0.ne' g3,
    fast_atanC_signed p qf, qa, qs]
  have a := (atanPosC_acc p d1 d2).2.1
  unfold quad
  cases y.sign
  · exact (signedBy_false a).symm
  · exact (signedBy_true a).symm

theorem C87_arctangentf (p : Policy) (x y : F32) (hx : x.isFinite = true) (hy : y.isFinite = true) (h0 : 0 < x.val) (hy0 : y.val ≠ 0) (h : |y.val| ≤ x.val) :
    fast_atan2fC p y x = fast_atanfC p (y / x) := by
  have o : (lit 0 : F32).isFinite = true ∧ (lit 0 : F32).val = 0 := by decide +kernel
  have sxx : x.sign = false := sign_of_pos h0
  have axx : FP.abs x = x := by
    ext
    · rw [abs_sign, sxx]
    · rfl
  have ay : (FP.abs y).isFinite = true := by simpa using hy
  have g1 : FP.gt (FP.abs y) x = false := by
    rw [gt_fin ay hx, val_abs]; exact decide_eq_false (not_lt.2 h)
  have g2 : FP.lt x (lit 0) = false := by rw [lt_fin hx o.1, o.2]; exact decide_eq_false (not_lt.2 h0.le)
  have g3 : FP.eq y (lit 0) = false := by rw [eq_fin hy o.1, o.2]; exact decide_eq_false hy0
  have g4 : FP.lt y (lit 0) = y.sign := by
    rw [lt_fin hy o.1, o.2]
    cases hs : y.sign
    · exact decide_eq_false (not_lt.2 (val_nonneg_of_sign hs))
    · have : (neg y).sign = false := by simp [hs]
      have := val_nonneg_of_sign this
      rw [val_neg] at this
      exact decide_eq_true (lt_of_le_of_ne (by linarith) hy0)
  obtain ⟨d1, d2, d3, -⟩ := quot_spec quot32 ay hx (by simp) sxx (by rw [val_abs]; exact h) h0.ne'
  have zx : x.isZero = false := by
    by_contra hc
    simp only [Bool.not_eq_false, isZero, decide_eq_true_eq] at hc
    exact h0.ne' (val_eq_zero.2 hc)
  have q : y / x = signedBy (FP.abs y / x) y.sign := by
    have e : ∀ {a : F32}, a.isFinite = true → a / x = ofRat b32 a.sign (a.val / x.val) := by
      intro a ha
      rw [div_def]
      unfold div
      simp [finite_not_nan ha, finite_not_nan hx, finite_not_inf ha, finite_not_inf hx, zx, sxx]
    cases hs : y.sign
    · have : FP.abs y = y := by
        ext
        · rw [abs_sign, hs]
        · rfl
      rw [this] at d2 ⊢
      exact (signedBy_false d2).symm
    · have n : y = neg (FP.abs y) := by
        ext
        · rw [neg_sign, abs_sign, hs]; rfl
        · rfl
      rw [signedBy_true d2]
      have k : neg (FP.abs y) / x = neg (FP.abs y / x) := by
        rw [e (a := neg (FP.abs y)) (by simpa using hy), e ay, val_neg, neg_sign, abs_sign, neg_div]
        exact ofRat_neg false
      rw [← n] at k
      exact k
  have qf : (y / x).isFinite = true := by rw [q]; exact d1
  have qa : FP.abs (y / x) = FP.abs y / x := by
    rw [q]
    ext
    · rw [abs_sign, d2]
    · rfl
  have qs : (y / x).sign = y.sign := by rw [q]; rfl
  rw [fast_atan2fC_eq, axx, g1, g2, g4, if_neg (by decide), oct32C_eq p hx h0.ne' d1 d2 d3 g3, fast_atanfC_signed p qf, qa, qs]
  have a := (atanfPosC_acc p d1 d2).2.1
  unfold quad
  cases y.sign
  · exact (signedBy_false a).symm
  · exact (signedBy_true a).symm

/-- Without fused operations; a vector with a negative ordinate and a quotient that is not representable. -/
example : 0 < (lit 3 : F64).val ∧ |(-lit 1 : F64).val| ≤ (lit 3 : F64).val ∧ fast_atan2 (-lit 1) (lit 3) = fast_atan (-lit 1 / lit 3) ∧
    fast_atan2 (-lit 1) (lit 3) ≠ -fast_atan2 (lit 3) (lit 1) := by decide +kernel

end Vdt
