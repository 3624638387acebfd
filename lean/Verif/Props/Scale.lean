import Verif.Lemmas.Scale

/-!
# C88: the reciprocal square root of `4^k x` is the one of `x` divided by `2^k`, bit for bit
-/

namespace Vdt
open FP details
variable {f : Fmt}

/-- Adding to the exponent field multiplies by a power of two. -/
theorem magVal_shift {c : ℕ} (h : 2 ^ f.mb ≤ c) (j : ℕ) : magVal f (c + j * 2 ^ f.mb) = magVal f c * p2 j := by
  obtain ⟨M, hM⟩ : ∃ M, 2 ^ f.mb = M := ⟨_, rfl⟩
  have M0 : 0 < M := by rw [← hM]; exact Nat.two_pow_pos _
  have nv : ∀ {E m : ℕ}, 1 ≤ E → m ≤ M → magVal f (E * M + m) = ((M + m : ℕ) : ℚ) * p2 ((E : ℤ) - 1 + f.emin - f.mb) := by
    intro E m; rw [← hM]; exact norm_val f
  rw [hM] at h ⊢
  have hd : c = c / M * M + c % M := by rw [Nat.mul_comm]; exact (Nat.div_add_mod _ _).symm
  have hE : 1 ≤ c / M := (Nat.le_div_iff_mul_le M0).2 (by omega)
  have hm : c % M ≤ M := (Nat.mod_lt _ M0).le
  generalize c / M = E at *
  generalize c % M = m at *
  subst hd
  rw [show E * M + m + j * M = (E + j) * M + m by ring, nv (by omega) hm, nv hE hm, mul_assoc, ← p2_add]
  congr 2
  push_cast
  ring

theorem mag_shift {x x' : FP f} (hx : 2 ^ f.mb ≤ x.mag) (hs : x.sign = false) (hs' : x'.sign = false) (j : ℕ) (hv : x'.val = x.val * p2 j) :
    x'.mag = x.mag + j * 2 ^ f.mb := by
  have v : ∀ {a : FP f}, a.sign = false → a.val = magVal f a.mag := by intro a ha; unfold val; simp [ha]
  rw [v hs, v hs', ← magVal_shift hx] at hv
  exact magVal_inj.1 hv

/-- The starting value of `4^k x`. -/
theorem start_shift {A Km : ℕ} (st : StartOk f A Km) {x x' : FP f} (hx : 2 ^ f.mb ≤ x.mag) (hf' : x'.mag < f.infMag) (hs : x.sign = false)
    (hs' : x'.sign = false) (k : ℕ) (hv : x'.val = x.val * p2 (2 * k : ℕ)) : (isqrtStart st x').val = (isqrtStart st x).val * p2 (-k) := by
  have m := mag_shift hx hs hs' (2 * k) hv
  have v : ∀ {a : FP f}, a.sign = false → a.val = magVal f a.mag := by intro a ha; unfold val; simp [ha]
  have h2 : x'.mag / 2 = x.mag / 2 + k * 2 ^ f.mb := by rw [m, show 2 * k * 2 ^ f.mb = 2 * (k * 2 ^ f.mb) by ring]; omega
  have lo := st.lo
  have p1 : 1 ≤ 2 ^ f.eb := Nat.one_le_two_pow
  unfold Fmt.infMag at hf'
  have big : x'.mag / 2 + 2 ^ f.mb ≤ A * 2 ^ f.mb := by
    have e : (2 ^ f.eb - 1) * 2 ^ f.mb + 5 * 2 ^ f.mb ≤ 2 * (A * 2 ^ f.mb) := by
      rw [← Nat.add_mul, ← Nat.mul_assoc]; exact Nat.mul_le_mul_right _ (by omega)
    omega
  have e : (isqrtStart st x).mag = (isqrtStart st x').mag + k * 2 ^ f.mb := by
    show A * 2 ^ f.mb + Km - x.mag / 2 = A * 2 ^ f.mb + Km - x'.mag / 2 + k * 2 ^ f.mb
    rw [h2] at big ⊢
    generalize A * 2 ^ f.mb = a at *
    generalize k * 2 ^ f.mb = b at *
    generalize 2 ^ f.mb = c at *
    omega
  have n : 2 ^ f.mb ≤ (isqrtStart st x').mag := by
    show 2 ^ f.mb ≤ A * 2 ^ f.mb + Km - x'.mag / 2
    omega
  rw [v (a := isqrtStart st x') rfl, v (a := isqrtStart st x) rfl, e, magVal_shift n, mul_assoc, ← p2_add, add_neg_cancel]
  simp [p2]

theorem isqrt_scale [f.Ok] {A : ℝ} {B Km : ℕ} (ok : NewtOk f A) (hA : ((p2 f.emin : ℚ) : ℝ) = A) (p : Policy) (st : StartOk f B Km) {x x' : FP f}
    (hf : x.isFinite = true) (hf' : x'.isFinite = true) (lo : p2 (f.emin + 1) ≤ x.val) (k : ℕ) (hv : x'.val = x.val * p2 (2 * k : ℕ))
    (e : ℕ → ℝ) (n : ℕ) (h0 : 0.0354 ≤ e 0) (hes : ∀ i < n, 3 / 2 * e i ^ 2 + e i ^ 3 / 2 + 5 * f.u ≤ e (i + 1)) (heb : ∀ i < n, e i ≤ 1 / 20) :
    (isqrtLoopC p (x' * lit 0.5) n (isqrtStart st x')).val = (isqrtLoopC p (x * lit 0.5) n (isqrtStart st x)).val * p2 (-k) := by
  have one : 1 ≤ p2 (2 * k : ℕ) := by rw [p2_nat]; exact one_le_pow₀ (by norm_num)
  have x0 : 0 < x.val := (p2_pos _).trans_le lo
  have lo' : p2 (f.emin + 1) ≤ x'.val := by rw [hv]; nlinarith
  have dbl : p2 (f.emin + 1) = 2 * p2 f.emin := by rw [p2_succ]
  have half : ∀ {w : FP f}, w.isFinite = true → p2 (f.emin + 1) ≤ w.val → p2 f.emin ≤ |w.val * (lit 0.5 : FP f).val| ∧ |w.val * (lit 0.5 : FP f).val| ≤ f.big := by
    intro w hw h
    have w0 : 0 < w.val := (p2_pos _).trans_le h
    have b := finite_le_big hw
    rw [abs_of_pos w0] at b
    rw [ok.half.2, abs_of_pos (by linarith)]
    rw [dbl] at h
    constructor <;> linarith
  have pr : ∀ {w : FP f}, w.isFinite = true → p2 (f.emin + 1) ≤ w.val → w.Normal ∧ w.sign = false ∧ A ≤ w.real ∧ w.real ≤ 2 * f.big := by
    intro w hw h
    have w0 : 0 < w.val := (p2_pos _).trans_le h
    have b := finite_le_big hw
    rw [abs_of_pos w0] at b
    have l : p2 f.emin ≤ w.val := by have := p2_pos f.emin; rw [dbl] at h; linarith
    refine ⟨⟨hw, ?_⟩, sign_of_pos w0, ?_, ?_⟩
    · rw [abs_of_pos w0, ← p2_eq]; exact l
    · rw [← hA]; unfold FP.real; exact_mod_cast l
    · unfold FP.real; exact_mod_cast b
  obtain ⟨n1, s1, a1, b1⟩ := pr hf lo
  obtain ⟨n2, s2, a2, b2⟩ := pr hf' lo'
  obtain ⟨g1, g2⟩ := half_err ok hf s1 a1
  obtain ⟨g1', g2'⟩ := half_err ok hf' s2 a2
  have near : ∀ {w : FP f}, w.Normal → w.sign = false → A ≤ w.real → (isqrtStart st w).isFinite = true ∧ |Real.sqrt w.real * (isqrtStart st w).real - 1| ≤ e 0 := by
    intro w hw hs a
    have hm := mag_of_normal hw
    obtain ⟨s1, s2⟩ := start_prod st hm.1 hm.2
    refine ⟨decide_eq_true s1, (sqrt_near (ok.A0.trans_le a) ?_ ?_).trans h0⟩
    · rw [real_of_pos rfl]; exact_mod_cast magVal_nonneg _ _
    · rw [real_of_pos hs, real_of_pos rfl]
      push_cast at s2
      exact s2
  have m := mag_of_normal n1
  have m' := mag_of_normal n2
  refine loop_scale ok hA p (k : ℤ) a1 b1 g1 g2 a2 b2 g1' g2' ?_ e n hes heb _ _ (near n1 s1 a1).1 (near n2 s2 a2).1 (near n1 s1 a1).2 (near n2 s2 a2).2
    (start_shift st m.1 m'.2 s1 s2 k hv)
  have := mul_scale (x := x) (y := lit 0.5) (x' := x') (y' := lit 0.5) (2 * k : ℕ) hf ok.half.1 hf' ok.half.1 (by rw [hv]; ring) (half hf lo).1 (half hf' lo').1 (half hf lo).2
    (half hf' lo').2
  exact_mod_cast this

/-- `g` divides by `2^k` what is multiplied by `4^k`, for numbers from twice the smallest normal number. -/
def ScalesAsRoot (g : FP f → FP f) : Prop :=
  ∀ (x x' : FP f) (k : ℕ), x.isFinite = true → x'.isFinite = true → 2 * (2 : ℚ) ^ f.emin ≤ x.val → x'.val = 4 ^ k * x.val → (g x').val = (g x).val / 2 ^ k

theorem p2_four (k : ℕ) : p2 (2 * k : ℕ) = 4 ^ k := by rw [p2_nat, pow_mul]; norm_num
theorem p2_inv (k : ℕ) : p2 (-(k : ℤ)) = 1 / 2 ^ k := by
  have : p2 k * p2 (-(k : ℤ)) = 1 := by rw [← p2_add, add_neg_cancel]; simp [p2]
  rw [p2_nat] at this
  rw [eq_div_iff (by positivity)]; linarith

theorem isqrt64_scale (p : Policy) {n : ℕ} (hn : n ≤ 4) : ScalesAsRoot (fun x => fast_isqrt_generalC p x n) := by
  intro x x' k hx hx' lo hv
  rw [← p2_eq, ← p2_succ] at lo
  rw [mul_comm, ← p2_four] at hv
  have x0 : 0 < x.val := (p2_pos _).trans_le lo
  have x0' : 0 < x'.val := by rw [hv]; exact mul_pos x0 (p2_pos _)
  have := isqrt_scale newt64 rfl p start64 hx hx' lo k hv err64 n (by simp only [err64]; norm_num) (fun i hi => err64_step i (by omega))
    (fun i hi => err64_small i (by omega))
  show (fast_isqrt_generalC p x' n).val = (fast_isqrt_generalC p x n).val / 2 ^ k
  rw [fast_isqrt_generalC_eq p (sign_of_pos x0), fast_isqrt_generalC_eq p (sign_of_pos x0'), this, p2_inv]
  ring

theorem isqrt32_scale (p : Policy) {n : ℕ} (hn : n ≤ 2) : ScalesAsRoot (fun x => fast_isqrtf_generalC p x n) := by
  intro x x' k hx hx' lo hv
  rw [← p2_eq, ← p2_succ] at lo
  rw [mul_comm, ← p2_four] at hv
  have x0 : 0 < x.val := (p2_pos _).trans_le lo
  have x0' : 0 < x'.val := by rw [hv]; exact mul_pos x0 (p2_pos _)
  have := isqrt_scale newt32 rfl p start32 hx hx' lo k hv err32 n (by simp only [err32]; norm_num) (fun i hi => err32_step i (by omega))
    (fun i hi => err32_small i (by omega))
  show (fast_isqrtf_generalC p x' n).val = (fast_isqrtf_generalC p x n).val / 2 ^ k
  rw [fast_isqrtf_generalC_eq p (sign_of_pos x0), fast_isqrtf_generalC_eq p (sign_of_pos x0'), this, p2_inv]
  ring

/-- **C88**, reciprocal square roots, with the arithmetic of the source. -/
theorem C88_isqrt : ScalesAsRoot fast_isqrt ∧ ScalesAsRoot fast_approx_isqrt ∧ ScalesAsRoot fast_isqrtf ∧ ScalesAsRoot fast_approx_isqrtf := by
  have a := isqrt64_scale (fun _ => false) (n := 4) le_rfl
  have b := isqrt64_scale (fun _ => false) (n := 3) (by norm_num)
  have c := isqrt32_scale (fun _ => false) (n := 2) le_rfl
  have d := isqrt32_scale (fun _ => false) (n := 1) (by norm_num)
  simp only [fast_isqrt_plain, fast_isqrtf_plain] at a b c d
  exact ⟨a, b, c, d⟩

/-- The same with any choice of contracted operations. -/
theorem C88_isqrt_contracted (p : Policy) : ScalesAsRoot (fun x => fast_isqrt_generalC p x 4) ∧ ScalesAsRoot (fun x => fast_isqrt_generalC p x 3) ∧
    ScalesAsRoot (fun x => fast_isqrtf_generalC p x 2) ∧ ScalesAsRoot (fun x => fast_isqrtf_generalC p x 1) :=
  ⟨isqrt64_scale p le_rfl, isqrt64_scale p (by norm_num), isqrt32_scale p le_rfl, isqrt32_scale p (by norm_num)⟩

/-- From 3 to 48: the two results are not exact, one is a quarter of the other. -/
example : (lit 3 : F64).isFinite = true ∧ (lit 48 : F64).isFinite = true ∧ (lit 48 : F64).val = 4 ^ 2 * (lit 3 : F64).val ∧
    (fast_isqrt (lit 48)).val = (fast_isqrt (lit 3)).val / 2 ^ 2 ∧ (fast_isqrt (lit 3)).val ≠ 1 ∧ p2 (b64.emin + 1) ≤ (lit 3 : F64).val := by decide +kernel

/-! ## Reciprocals -/

theorem square_scale [f.Ok] {A : ℝ} (ok : NewtOk f A) (hA : ((p2 f.emin : ℚ) : ℝ) = A) {X X' e : ℝ} {s s' : FP f} (k : ℕ) (hs : s.isFinite = true)
    (hs' : s'.isFinite = true) (hX : A ≤ X) (hX2 : 2 * A ≤ 1 / X) (gX : A ≤ X') (gX2 : 2 * A ≤ 1 / X') (h : |Real.sqrt X * s.real - 1| ≤ e)
    (h' : |Real.sqrt X' * s'.real - 1| ≤ e) (he : e ≤ 0.01) (hv : s'.val = s.val / 2 ^ k) : (mul s' s').val = (mul s s).val / 4 ^ k := by
  have rng : ∀ {Y : ℝ} {t : FP f}, A ≤ Y → 2 * A ≤ 1 / Y → |Real.sqrt Y * t.real - 1| ≤ e → p2 f.emin ≤ |t.val * t.val| ∧ |t.val * t.val| ≤ f.big := by
    intro Y t hY hY2 h
    have Y0 : 0 < Y := ok.A0.trans_le hY
    have SS := Real.mul_self_sqrt Y0.le
    have S0 := Real.sqrt_pos.2 Y0
    generalize Real.sqrt Y = S at *
    obtain ⟨p1, p2'⟩ := sq_rel_err h he
    have iY : 0 < 1 / Y := by positivity
    have ev : t.real * t.real = (S * t.real) * (S * t.real) * (1 / Y) := by rw [← SS]; field_simp
    have t0 : 0 ≤ t.real * t.real := mul_self_nonneg _
    have p3 : 0.97 ≤ (S * t.real) * (S * t.real) := by have := (abs_le.1 p1).1; linarith
    have le : t.real * t.real ≤ 1.03 * (1 / Y) := by rw [ev]; exact mul_le_mul_of_nonneg_right p2' iY.le
    have ge : 0.97 * (1 / Y) ≤ t.real * t.real := by rw [ev]; exact mul_le_mul_of_nonneg_right p3 iY.le
    have iYA : 1 / Y ≤ f.big / 2 := by
      rw [div_le_div_iff₀ Y0 (by norm_num)]
      have := ok.big
      have : f.big * A ≤ f.big * Y := mul_le_mul_of_nonneg_left hY (by exact_mod_cast (p2_pos _).le)
      linarith
    have e1 : (|t.real * t.real| : ℝ) = ((|t.val * t.val| : ℚ) : ℝ) := rat_of_real
    rw [abs_of_nonneg t0] at e1
    have A0 := ok.A0
    constructor
    · have : ((p2 f.emin : ℚ) : ℝ) ≤ ((|t.val * t.val| : ℚ) : ℝ) := by rw [hA, ← e1]; linarith
      exact_mod_cast this
    · have : ((|t.val * t.val| : ℚ) : ℝ) ≤ f.big := by rw [← e1]; linarith
      exact_mod_cast this
  obtain ⟨l1, b1⟩ := rng hX hX2 h
  obtain ⟨l2, b2⟩ := rng gX gX2 h'
  have i4 : p2 (-(2 * k : ℕ)) = 1 / 4 ^ k := by rw [p2_inv, pow_mul]; norm_num
  have := mul_scale (-(2 * k : ℕ)) hs hs hs' hs' (by rw [hv, i4, show (4 : ℚ) ^ k = 2 ^ k * 2 ^ k by rw [← mul_pow]; norm_num]; field_simp) l1 l2 b1 b2
  rw [this, i4]; ring

/-- `g` divides by `4^k` what is multiplied by `4^k`, for numbers whose size is between twice the smallest normal number and half its reciprocal. -/
def ScalesAsInverse (g : FP f → FP f) : Prop :=
  ∀ (x x' : FP f) (k : ℕ), x.isFinite = true → x'.isFinite = true → 2 * (2 : ℚ) ^ f.emin ≤ |x.val| → 2 * (2 : ℚ) ^ f.emin ≤ |x'.val|⁻¹ →
    x'.val = 4 ^ k * x.val → (g x').val = (g x).val / 4 ^ k

theorem inv_ranges {A : ℝ} (hA : ((p2 f.emin : ℚ) : ℝ) = A) {x x' : FP f} (k : ℕ) (lo : 2 * p2 f.emin ≤ |x.val|)
    (hi : 2 * p2 f.emin ≤ |x'.val|⁻¹) (hv : |x'.val| = 4 ^ k * |x.val|) :
    2 * A ≤ |x.real| ∧ 2 * A ≤ 1 / |x.real| ∧ 2 * A ≤ |x'.real| ∧ 2 * A ≤ 1 / |x'.real| := by
  have x0 : 0 < |x.val| := (by have := p2_pos f.emin; positivity : 0 < 2 * p2 f.emin).trans_le lo
  have one : (1 : ℚ) ≤ 4 ^ k := one_le_pow₀ (by norm_num)
  have le : |x.val| ≤ |x'.val| := by rw [hv]; nlinarith
  have hi2 : 2 * p2 f.emin ≤ |x.val|⁻¹ := hi.trans (inv_anti₀ x0 le)
  unfold FP.real
  rw [← hA, one_div, one_div]
  exact ⟨by exact_mod_cast lo, by exact_mod_cast hi2, by exact_mod_cast lo.trans le, by exact_mod_cast hi⟩

theorem same_sign {x x' : FP f} {c : ℚ} (hc : 0 < c) (h0 : x.val ≠ 0) (hv : x'.val = c * x.val) : x'.sign = x.sign := by
  rcases lt_or_gt_of_ne h0 with h | h
  · have h' : x'.val < 0 := by rw [hv]; exact mul_neg_of_pos_of_neg hc h
    rw [(val_neg_iff.1 h).1, (val_neg_iff.1 h').1]
  · have h' : 0 < x'.val := by rw [hv]; exact mul_pos hc h
    rw [sign_of_pos h, sign_of_pos h']

theorem bif_div {r r' : FP f} {c : ℚ} (h : r'.val = r.val / c) (s : Bool) : (bif s then neg r' else r').val = (bif s then neg r else r).val / c := by
  cases s
  · exact h
  · show (neg r').val = (neg r).val / c
    rw [val_neg, val_neg, h, neg_div]

theorem inv64_scale (p : Policy) {n : ℕ} (hn : n ≤ 4) (he : err64 n ≤ 0.01) : ScalesAsInverse (fun x => fast_inv_generalC p x n) := by
  intro x x' k hx hx' lo hi hv
  rw [← p2_eq] at lo hi
  have c4 : (0 : ℚ) < 4 ^ k := by positivity
  have ha : |x'.val| = 4 ^ k * |x.val| := by rw [hv, abs_mul, abs_of_pos c4]
  have x0 : 0 < |x.val| := (mul_pos two_pos (p2_pos _)).trans_le lo
  obtain ⟨r1, r2, r3, r4⟩ := inv_ranges (A := ((p2 b64.emin : ℚ) : ℝ)) rfl k lo hi ha
  have A0 : (0 : ℝ) < ((p2 b64.emin : ℚ) : ℝ) := by exact_mod_cast p2_pos _
  have lo' : 2 * p2 b64.emin ≤ |x'.val| := by
    have one : (1 : ℚ) ≤ 4 ^ k := one_le_pow₀ (by norm_num)
    rw [ha]; nlinarith
  have nrm : ∀ {w : F64}, w.isFinite = true → 2 * p2 b64.emin ≤ |w.val| → (FP.abs w).Normal := by
    intro w hw h
    refine ⟨by simpa using hw, ?_⟩
    rw [val_abs, abs_abs, ← p2_eq]
    have := p2_pos b64.emin
    linarith
  have n1 := isqrt64_normal p (nrm hx lo) (by simp) hn
  have n2 := isqrt64_normal p (nrm hx' lo') (by simp) hn
  have ra : ∀ w : F64, (FP.abs w).real = |w.real| := by intro w; unfold FP.real; rw [val_abs]; push_cast; rfl
  rw [ra] at n1 n2
  have sc := isqrt64_scale p hn (FP.abs x) (FP.abs x') k (by simpa using hx) (by simpa using hx') (by rw [val_abs, ← p2_eq]; exact lo) (by rw [val_abs, val_abs]; exact ha)
  have sq := square_scale newt64 rfl k n1.1 n2.1 (by show ((p2 b64.emin : ℚ) : ℝ) ≤ _; linarith) r2 (by show ((p2 b64.emin : ℚ) : ℝ) ≤ _; linarith) r4 n1.2 n2.2 he sc
  show (fast_inv_generalC p x' n).val = (fast_inv_generalC p x n).val / 4 ^ k
  rw [fast_inv_general_eq p hx hn, fast_inv_general_eq p hx' hn, same_sign c4 (abs_pos.1 x0) hv]
  exact bif_div sq _

theorem inv32_scale (p : Policy) {n : ℕ} (hn : n ≤ 2) (he : err32 n ≤ 0.01) : ScalesAsInverse (fun x => fast_invf_generalC p x n) := by
  intro x x' k hx hx' lo hi hv
  rw [← p2_eq] at lo hi
  have c4 : (0 : ℚ) < 4 ^ k := by positivity
  have ha : |x'.val| = 4 ^ k * |x.val| := by rw [hv, abs_mul, abs_of_pos c4]
  have x0 : 0 < |x.val| := (mul_pos two_pos (p2_pos _)).trans_le lo
  obtain ⟨r1, r2, r3, r4⟩ := inv_ranges (A := ((p2 b32.emin : ℚ) : ℝ)) rfl k lo hi ha
  have A0 : (0 : ℝ) < ((p2 b32.emin : ℚ) : ℝ) := by exact_mod_cast p2_pos _
  have lo' : 2 * p2 b32.emin ≤ |x'.val| := by
    have one : (1 : ℚ) ≤ 4 ^ k := one_le_pow₀ (by norm_num)
    rw [ha]; nlinarith
  have nrm : ∀ {w : F32}, w.isFinite = true → 2 * p2 b32.emin ≤ |w.val| → (FP.abs w).Normal := by
    intro w hw h
    refine ⟨by simpa using hw, ?_⟩
    rw [val_abs, abs_abs, ← p2_eq]
    have := p2_pos b32.emin
    linarith
  have n1 := isqrt32_normal p (nrm hx lo) (by simp) hn
  have n2 := isqrt32_normal p (nrm hx' lo') (by simp) hn
  have ra : ∀ w : F32, (FP.abs w).real = |w.real| := by intro w; unfold FP.real; rw [val_abs]; push_cast; rfl
  rw [ra] at n1 n2
  have sc := isqrt32_scale p hn (FP.abs x) (FP.abs x') k (by simpa using hx) (by simpa using hx') (by rw [val_abs, ← p2_eq]; exact lo) (by rw [val_abs, val_abs]; exact ha)
  have sq := square_scale newt32 rfl k n1.1 n2.1 (by show ((p2 b32.emin : ℚ) : ℝ) ≤ _; linarith) r2 (by show ((p2 b32.emin : ℚ) : ℝ) ≤ _; linarith) r4 n1.2 n2.2 he sc
  show (fast_invf_generalC p x' n).val = (fast_invf_generalC p x n).val / 4 ^ k
  rw [fast_invf_general_eq p hx hn, fast_invf_general_eq p hx' hn, same_sign c4 (abs_pos.1 x0) hv]
  exact bif_div sq _

theorem C88_inv_contracted (p : Policy) : ScalesAsInverse (fun x => fast_inv_generalC p x 4) ∧ ScalesAsInverse (fun x => fast_inv_generalC p x 3) ∧
    ScalesAsInverse (fun x => fast_invf_generalC p x 2) ∧ ScalesAsInverse (fun x => fast_invf_generalC p x 1) :=
  ⟨inv64_scale p le_rfl (by simp only [err64, u64_val]; norm_num), inv64_scale p (by norm_num) (by simp only [err64]; norm_num),
    inv32_scale p le_rfl (by simp only [err32]; norm_num), inv32_scale p (by norm_num) (by simp only [err32]; norm_num)⟩

/-- **C88**, reciprocals, with the arithmetic of the source. -/
theorem C88_inv : ScalesAsInverse fast_inv ∧ ScalesAsInverse fast_approx_inv ∧ ScalesAsInverse fast_invf ∧ ScalesAsInverse fast_approx_invf := by
  obtain ⟨a, b, c, d⟩ := C88_inv_contracted (fun _ => false)
  simp only [fast_inv_plain] at a b
  simp only [fast_invf_plain] at c d
  exact ⟨a, b, c, d⟩

/-- From -3 to -48. -/
example : (lit (-48) : F32).val = 4 ^ 2 * (lit (-3) : F32).val ∧ 2 * p2 b32.emin ≤ |(lit (-3) : F32).val| ∧ 2 * p2 b32.emin ≤ |(lit (-48) : F32).val|⁻¹ ∧
    (fast_approx_invf (lit (-48))).val = (fast_approx_invf (lit (-3))).val / 4 ^ 2 := by decide +kernel

/-! ## Powers of four -/

theorem inv_big {k : ℕ} (h : 2 * (2 : ℚ) ^ b64.emin ≤ 1 / 4 ^ k) : 2 * (2 : ℚ) ^ b64.emin ≤ |(4 : ℚ) ^ k|⁻¹ := by
  rw [abs_of_pos (by positivity), ← one_div]; exact h

/-- `fast_isqrt` is exact at the powers of four: the iteration reaches 1 exactly at 1, and the results at the other powers follow. -/
theorem C88_powers_isqrt (x : F64) (hf : x.isFinite = true) (k : ℕ) :
    (x.val = 4 ^ k → (fast_isqrt x).val = 1 / 2 ^ k) ∧ (x.val = 1 / 4 ^ k → 2 * (2 : ℚ) ^ b64.emin ≤ x.val → (fast_isqrt x).val = 2 ^ k) := by
  have one : (lit 1 : F64).isFinite = true ∧ (lit 1 : F64).val = 1 ∧ (fast_isqrt (lit 1)).val = 1 ∧ 2 * (2 : ℚ) ^ b64.emin ≤ 1 := by decide +kernel
  obtain ⟨f1, v1, r1, l1⟩ := one
  have sc := C88_isqrt.1
  constructor
  · intro h
    rw [sc (lit 1) x k f1 hf (by rw [v1]; exact l1) (by rw [v1, mul_one]; exact h), r1]
  · intro h lo
    have := sc x (lit 1) k hf f1 lo (by rw [v1, h]; field_simp)
    rw [r1, eq_div_iff (by positivity), one_mul] at this
    exact this.symm

/-- `fast_inv` is exact at the powers of four and at their negatives. -/
theorem C88_powers_inv (x : F64) (hf : x.isFinite = true) (k : ℕ) (s : Bool) (lim : 2 * (2 : ℚ) ^ b64.emin ≤ 1 / 4 ^ k) :
    (x.val = (if s then -1 else 1) * 4 ^ k → (fast_inv x).val = 1 / x.val) ∧
    (x.val = (if s then -1 else 1) / 4 ^ k → (fast_inv x).val = 1 / x.val) := by
  have one : (lit (if s then -1 else 1) : F64).isFinite = true ∧ (lit (if s then -1 else 1) : F64).val = (if s then -1 else 1) ∧
      (fast_inv (lit (if s then -1 else 1))).val = (if s then -1 else 1) ∧ 2 * (2 : ℚ) ^ b64.emin ≤ |(lit (if s then -1 else 1) : F64).val| ∧
      2 * (2 : ℚ) ^ b64.emin ≤ |(lit (if s then -1 else 1) : F64).val|⁻¹ := by cases s <;> decide +kernel
  obtain ⟨f1, v1, r1, l1, l2⟩ := one
  have sc := C88_inv.1
  have c2 : (if s then -1 else 1 : ℚ) = 1 ∨ (if s then -1 else 1 : ℚ) = -1 := by cases s <;> simp
  generalize (lit (if s then -1 else 1) : F64) = u at *
  generalize (if s then -1 else 1 : ℚ) = c at *
  constructor
  · intro h
    have ab : |x.val| = |(4 : ℚ) ^ k| := by rw [h, abs_mul]; rcases c2 with e | e <;> rw [e] <;> simp
    rw [sc u x k f1 hf l1 (by rw [ab]; exact inv_big lim) (by rw [v1, h]; ring), r1, h]
    rcases c2 with e | e <;> rw [e] <;> field_simp
  · intro h
    have ab : |x.val| = 1 / 4 ^ k := by rw [h, abs_div, abs_of_pos (show (0 : ℚ) < 4 ^ k by positivity)]; rcases c2 with e | e <;> rw [e] <;> simp
    have := sc x u k hf f1 (by rw [ab]; exact lim) l2 (by rw [v1, h]; field_simp)
    rw [r1, eq_div_iff (by positivity)] at this
    rw [← this, h]
    rcases c2 with e | e <;> rw [e] <;> field_simp

/-- The powers 4^5, 4^(-500) and -4^(-3); the reciprocal of 2 is not exact. -/
example : (lit 1024 : F64).val = 4 ^ 5 ∧ (ofBits 0x0170000000000000#64 : F64).val = 1 / 4 ^ 500 ∧ 2 * (2 : ℚ) ^ b64.emin ≤ 1 / 4 ^ 500 ∧
    (fast_isqrt (ofBits 0x0170000000000000#64)).val = 2 ^ 500 ∧ (lit (-1 / 64) : F64).val = -1 / 4 ^ 3 ∧ (fast_inv (lit (-1 / 64))).val = -64 ∧
    (fast_inv (lit 2)).val ≠ 1 / 2 := by decide +kernel

/-- In single precision, and with one step less in double precision, not even the result at 1 is exact. -/
theorem C88_powers_limits : (fast_approx_isqrt (lit 1)).val ≠ 1 ∧ (fast_isqrtf (lit 1)).val ≠ 1 ∧ (fast_invf (lit 1)).val ≠ 1 ∧ (fast_approx_isqrtf (lit 1)).val ≠ 1 ∧
    (fast_approx_inv (lit 1)).val ≠ 1 ∧ (fast_approx_invf (lit 1)).val ≠ 1 := by decide +kernel

end Vdt
