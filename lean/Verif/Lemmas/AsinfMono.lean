import Verif.Lemmas.AsinfPos
import Verif.Lemmas.Nearest
import Verif.Lemmas.LogFp
import Verif.Lemmas.CoreOrder

/-! # `fast_asinf` preserves the order: every operation does -/

namespace Vdt
open FP details
variable {f : Fmt}

/-- Nearest numbers of two reals are in their order. -/
theorem nearest_mono {s t : FP f} {r q : ℝ} (hs : s.Nearest r) (ht : t.Nearest q) (h : r < q) : s.val ≤ t.val := by
  by_contra hc
  push Not at hc
  have hr : t.real < s.real := by unfold FP.real; exact_mod_cast hc
  have a := hs.2.1 t ht.1
  have b := ht.2.1 s hs.1
  have h1 : s.real + t.real ≤ 2 * r := by
    rcases le_total r t.real with c | c
    · rw [abs_of_nonneg (by linarith), abs_of_nonneg (by linarith)] at a; linarith
    · rw [abs_of_nonpos (by linarith : t.real - r ≤ 0)] at a
      have := le_abs_self (s.real - r)
      linarith
  have h2 : 2 * q ≤ s.real + t.real := by
    rcases le_total s.real q with c | c
    · rw [abs_of_nonpos (by linarith), abs_of_nonpos (by linarith)] at b; linarith
    · rw [abs_of_nonneg (by linarith : 0 ≤ s.real - q)] at b
      have := neg_le_abs (t.real - q)
      linarith
  linarith

theorem sqrt_mono [f.Ok] (hE : f.emin ≤ -(f.mb : ℤ) - 2) {x y : FP f} (hx : x.isFinite = true) (hy : y.isFinite = true)
    (sx : x.sign = false) (sy : y.sign = false) (h : x.val ≤ y.val) : (FP.sqrt x).val ≤ (FP.sqrt y).val := by
  have x0 := val_nonneg_of_sign sx
  rcases h.eq_or_lt with he | hl
  · have : x = y := by
      have hm : x.mag = y.mag := by
        unfold FP.val at he
        simp only [sx, sy, Bool.false_eq_true, if_false] at he
        exact magVal_inj.1 he
      cases x; cases y; simp_all
    rw [this]
  · have ey := sqrt_nonneg_err hE hy sy
    rcases x0.eq_or_lt with h0 | h0
    · have hz := zero_of_val h0.symm
      have e : FP.sqrt x = x := by
        unfold FP.sqrt; rw [finite_not_nan hx, hz]; rfl
      rw [e, ← h0]
      exact val_nonneg_of_sign ey.2.1
    · refine nearest_mono (sqrt_nearest hE hx h0) (sqrt_nearest hE hy (h0.trans hl)) ?_
      have lr : x.real < y.real := by unfold FP.real; exact_mod_cast hl
      exact Real.sqrt_lt_sqrt (by unfold FP.real; exact_mod_cast x0) lr

/-- Two nonnegative numbers in order below a bound. -/
structure Up (B : ℚ) (a b : FP f) : Prop where
  fa : a.isFinite = true
  fb : b.isFinite = true
  a0 : 0 ≤ a.val
  ab : a.val ≤ b.val
  bB : b.val ≤ B

theorem Up.mul [f.Ok] {B C D : ℚ} {a b c d : FP f} (h : Up B a b) (k : Up C c d) (hD : B * C ≤ D) (hr : rnd f D = D) (hb : D ≤ f.big) :
    Up D (a * c) (b * d) := by
  have b0 := h.a0.trans h.ab
  have d0 := k.a0.trans k.ab
  have p2 : b.val * d.val ≤ D := (mul_le_mul h.bB k.bB d0 (b0.trans h.bB)).trans hD
  have p1 : a.val * c.val ≤ b.val * d.val := mul_le_mul h.ab k.ab k.a0 b0
  have p0 : 0 ≤ a.val * c.val := mul_nonneg h.a0 k.a0
  have s1 := mulS h.fa k.fa (by rw [abs_of_nonneg p0]; linarith)
  have s2 := mulS h.fb k.fb (by rw [abs_of_nonneg (p0.trans p1)]; linarith)
  refine ⟨s1.1, s2.1, ?_, ?_, ?_⟩
  · rw [s1.2]; exact rnd_nonneg f p0
  · rw [s1.2, s2.2]; exact rnd_mono f p1
  · rw [s2.2, ← hr]; exact rnd_mono f p2

theorem Up.add [f.Ok] {B C D : ℚ} {a b c d : FP f} (h : Up B a b) (k : Up C c d) (hD : B + C ≤ D) (hr : rnd f D = D) (hb : D ≤ f.big) :
    Up D (a + c) (b + d) := by
  have p2 : b.val + d.val ≤ D := (add_le_add h.bB k.bB).trans hD
  have p1 : a.val + c.val ≤ b.val + d.val := add_le_add h.ab k.ab
  have p0 : 0 ≤ a.val + c.val := add_nonneg h.a0 k.a0
  have s1 := addS h.fa k.fa (by rw [abs_of_nonneg p0]; linarith)
  have s2 := addS h.fb k.fb (by rw [abs_of_nonneg (p0.trans p1)]; linarith)
  refine ⟨s1.1, s2.1, ?_, ?_, ?_⟩
  · rw [s1.2]; exact rnd_nonneg f p0
  · rw [s1.2, s2.2]; exact rnd_mono f p1
  · rw [s2.2, ← hr]; exact rnd_mono f p2

/-- include/asin.h:178-182, without the last sum -/
def asinfT (z x : F32) : F32 :=
  ((((lit 4.2163199048E-2 * z
    + lit 2.4181311049E-2) * z
    + lit 4.5470025998E-2) * z
    + lit 7.4953002686E-2) * z
    + lit 1.6666752422E-1) * z * x

theorem asinfPoly_eq (z x : F32) : asinfPoly z x = asinfT z x + x := rfl

theorem rnds32 : (8 : ℚ) ≤ b32.big ∧ rnd b32 1 = 1 ∧ rnd b32 2 = 2 ∧ rnd b32 (1 / 2) = 1 / 2 ∧ rnd b32 (1 / 4) = 1 / 4 ∧ rnd b32 (1 / 8) = 1 / 8 := by
  decide +kernel

/-- All coefficients are positive. -/
theorem asinfT_up {z z' x x' : F32} (hz : Up (1 / 4) z z') (hx : Up (1 / 2) x x') : Up (1 / 8) (asinfT z x) (asinfT z' x') := by
  obtain ⟨big, r1, -, r2, -, r8⟩ := rnds32
  have con : ∀ c : F32, (c.isFinite = true ∧ 0 ≤ c.val ∧ c.val ≤ 1 / 4) → Up (1 / 4) c c := fun c h => ⟨h.1, h.1, h.2.1, le_rfl, h.2.2⟩
  have step : ∀ {a b : F32} (c : F32), Up (1 / 2) a b → (c.isFinite = true ∧ 0 ≤ c.val ∧ c.val ≤ 1 / 4) → Up (1 / 2) (a * z + c) (b * z' + c) := by
    intro a b c h k
    exact (h.mul hz (D := 1 / 8) (by norm_num) r8 (by linarith)).add (con c k) (by norm_num) r2 (by linarith)
  have c5 : Up (1 / 2) (lit 4.2163199048E-2 : F32) (lit 4.2163199048E-2) := by
    obtain ⟨a, b, c, d, e⟩ := con (lit 4.2163199048E-2) (by decide +kernel)
    exact ⟨a, b, c, d, e.trans (by norm_num)⟩
  have h1 := step (lit 2.4181311049E-2) c5 (by decide +kernel)
  have h2 := step (lit 4.5470025998E-2) h1 (by decide +kernel)
  have h3 := step (lit 7.4953002686E-2) h2 (by decide +kernel)
  have h4 := step (lit 1.6666752422E-1) h3 (by decide +kernel)
  have h5 := h4.mul hz (D := 1 / 8) (by norm_num) r8 (by linarith)
  exact h5.mul hx (D := 1 / 8) (by norm_num) r8 (by linarith)

theorem asinfPoly_up {z z' x x' : F32} (hz : Up (1 / 4) z z') (hx : Up (1 / 2) x x') :
    Up 1 (asinfPoly z x) (asinfPoly z' x') ∧ x.val ≤ (asinfPoly z x).val := by
  obtain ⟨big, r1, -⟩ := rnds32
  have t := asinfT_up hz hx
  refine ⟨t.add hx (by norm_num) r1 (by linarith), ?_⟩
  have x1 : |x.val| ≤ b32.big := by rw [abs_of_nonneg hx.a0]; linarith [hx.ab, hx.bB]
  have s := addS t.fa hx.fa (by rw [abs_of_nonneg (add_nonneg t.a0 hx.a0)]; linarith [hx.ab, hx.bB, t.ab, t.bB])
  rw [asinfPoly_eq, s.2]
  have := rnd_mono b32 (show x.val ≤ (asinfT z x).val + x.val by linarith [t.a0])
  rwa [rnd_val x1] at this

/-- include/asin.h:193-194 -/
def asinfLarge (a : F32) : F32 :=
  PIO2F - (asinfPoly (lit 0.5 * (lit 1 - a)) (FP.sqrt (lit 0.5 * (lit 1 - a))) + asinfPoly (lit 0.5 * (lit 1 - a)) (FP.sqrt (lit 0.5 * (lit 1 - a))))

theorem sq_up {x y : F32} (h : Up (1 / 2) x y) : Up (1 / 4) (x * x) (y * y) := by
  obtain ⟨big, -, -, -, r4, -⟩ := rnds32
  exact h.mul h (by norm_num) r4 (by linarith)

/-- The three ranges of `asinfPos`. -/
theorem asinfPos_cases {x : F32} (hx : x.isFinite = true) (hs : x.sign = false) (h : x.val ≤ 1) :
    (x.val < (lit 1e-4 : F32).val → asinfPos x = x) ∧
    ((lit 1e-4 : F32).val ≤ x.val → x.val ≤ 1 / 2 → asinfPos x = asinfPoly (x * x) x) ∧
    (1 / 2 < x.val → asinfPos x = asinfLarge x) := by
  have L : (lit 0.5 : F32).isFinite = true ∧ (lit 0.5 : F32).val = 1 / 2 ∧ (lit 1e-4 : F32).isFinite = true ∧ 0 < (lit 1e-4 : F32).val ∧
      (lit 1e-4 : F32).val ≤ 1 / 2 ∧ PIO2F.isFinite = true ∧ PIO2F.val ≤ 2 ∧ 0 ≤ PIO2F.val := by decide +kernel
  obtain ⟨l1, l2, l3, l4, l5, l6, l7, l8⟩ := L
  obtain ⟨big, r1, r2, -⟩ := rnds32
  have pe : ∀ z y : F32, asinfPolyC (fun _ => false) z y = asinfPoly z y := fun z y => by plain [asinfPolyC, asinfPoly]
  refine ⟨fun c => ?_, fun c d => ?_, fun d => ?_⟩
  · unfold asinfPos; simp only; rw [lt_fin hx l3]; simp [c]
  · have ht : FP.lt x (lit 1e-4) = false := by rw [lt_fin hx l3]; simpa using c
    have hb : FP.gt x (lit 0.5) = false := by rw [gt_fin hx l1, l2]; simpa using d
    have ux : Up (1 / 2) x x := ⟨hx, hx, val_nonneg_of_sign hs, le_rfl, d⟩
    obtain ⟨u, pv⟩ := asinfPoly_up (sq_up ux) ux
    rw [← asinfPos_plain, ← pe]
    rw [← pe] at u pv
    refine asinfPosC_small _ hb ht u.fa (by linarith) ?_
    have u2 := u.add u (D := 2) (by norm_num) r2 (by linarith)
    exact (subS l6 u2.fa (by rw [abs_le]; constructor <;> linarith [u2.a0, u2.bB])).1
  · have ht : FP.lt x (lit 1e-4) = false := by rw [lt_fin hx l3]; simpa using l5.trans d.le
    have hb : FP.gt x (lit 0.5) = true := by rw [gt_fin hx l1, l2]; simpa using d
    obtain ⟨a1, a2, a3, a4, a5, a6⟩ := asinf_large_acc (fun _ => false) hx (by norm_num; linarith) h
    have p : 0 < (asinfLargeC (fun _ => false) x).real := pos_of_acc a3 (by linarith) (by norm_num)
    have pv : 0 < (asinfLargeC (fun _ => false) x).val := by unfold FP.real at p; exact_mod_cast p
    rw [← asinfPos_plain, asinfPosC_large _ hb ht a1 pv.ne' a5]
    unfold asinfLargeC asinfLarge
    simp only [pe]

/-- The argument of the square root, in reverse order. -/
theorem asinfHalf_up {x y : F32} (hx : x.isFinite = true) (hy : y.isFinite = true) (h1 : 1 / 2 ≤ x.val) (h : x.val ≤ y.val) (h2 : y.val ≤ 1) :
    Up (1 / 4) (lit 0.5 * (lit 1 - y)) (lit 0.5 * (lit 1 - x)) ∧
    Up (1 / 2) (FP.sqrt (lit 0.5 * (lit 1 - y))) (FP.sqrt (lit 0.5 * (lit 1 - x))) := by
  obtain ⟨l1, l2, l3, m1, m2, m3, b1⟩ := lits32
  obtain ⟨big, r1, r2, r3, r4, -⟩ := rnds32
  have key : ∀ {a : F32}, a.isFinite = true → 1 / 2 ≤ a.val → a.val ≤ 1 →
      (lit 0.5 * (lit 1 - a)).isFinite = true ∧ (lit 0.5 * (lit 1 - a)).val = 1 / 2 * (1 - a.val) ∧ (lit 0.5 * (lit 1 - a)).sign = false := by
    intro a ha h1 h2
    obtain ⟨e1, e2, -⟩ := asinf_root ha h1 h2
    refine ⟨e1, ?_, ?_⟩
    · apply Rat.cast_injective (α := ℝ)
      unfold FP.real at e2
      rw [e2]; push_cast; ring
    · have ds : (lit 1 - a).sign = false := sub_sign_nonneg l1 ha l3 (by rw [l2]; exact h2)
      have d := sub_exact (x := lit 1) (y := a) l1 ha (by rw [l2]; exact rep_one_sub emin32 h1 h2)
        (by rw [l2, abs_of_nonneg (by linarith)]; linarith)
      rw [mul_def, mul_fin_sign m1 d.1, m3, ds]; rfl
  obtain ⟨x1, x2, x3⟩ := key hx h1 (h.trans h2)
  obtain ⟨y1, y2, y3⟩ := key hy (h1.trans h) h2
  have u : Up (1 / 4) (lit 0.5 * (lit 1 - y)) (lit 0.5 * (lit 1 - x)) := ⟨y1, x1, by rw [y2]; linarith, by rw [x2, y2]; linarith, by rw [x2]; linarith⟩
  refine ⟨u, ?_⟩
  have q : (FP.sqrt (ofBits 0x3e800000#32 : F32)).val = 1 / 2 ∧ (ofBits 0x3e800000#32 : F32).isFinite = true ∧ (ofBits 0x3e800000#32 : F32).sign = false ∧
    (ofBits 0x3e800000#32 : F32).val = 1 / 4 := by decide +kernel
  have ex := sqrt_nonneg_err emin32 x1 x3
  have ey := sqrt_nonneg_err emin32 y1 y3
  refine ⟨ey.1, ex.1, val_nonneg_of_sign ey.2.1, sqrt_mono emin32 y1 x1 y3 x3 u.ab, ?_⟩
  rw [← q.1]
  exact sqrt_mono emin32 x1 q.2.1 x3 q.2.2.1 (by rw [q.2.2.2]; exact u.bB)

theorem asinfLarge_order {x y : F32} (hx : x.isFinite = true) (hy : y.isFinite = true) (h1 : 1 / 2 ≤ x.val) (h : x.val ≤ y.val) (h2 : y.val ≤ 1) :
    (asinfLarge x).val ≤ (asinfLarge y).val := by
  obtain ⟨u, v⟩ := asinfHalf_up hx hy h1 h h2
  obtain ⟨big, -, r2, -⟩ := rnds32
  obtain ⟨w, -⟩ := asinfPoly_up u v
  have w2 := w.add w (D := 2) (by norm_num) r2 (by linarith)
  have L : PIO2F.isFinite = true ∧ PIO2F.val ≤ 2 ∧ 0 ≤ PIO2F.val := by decide +kernel
  have s1 := subS L.1 w2.fb (by rw [abs_le]; constructor <;> linarith [w2.a0, w2.ab, w2.bB, L.2.1, L.2.2])
  have s2 := subS L.1 w2.fa (by rw [abs_le]; constructor <;> linarith [w2.a0, w2.ab, w2.bB, L.2.1, L.2.2])
  unfold asinfLarge
  rw [s1.2, s2.2]
  exact rnd_mono b32 (by linarith [w2.ab])

/-- The order on nonnegative arguments. -/
theorem asinfPos_order {x y : F32} (hx : x.isFinite = true) (hy : y.isFinite = true) (sx : x.sign = false) (sy : y.sign = false)
    (h : x.val ≤ y.val) (h2 : y.val ≤ 1) : (asinfPos x).val ≤ (asinfPos y).val := by
  obtain ⟨a1, a2, a3⟩ := asinfPos_cases hx sx (h.trans h2)
  obtain ⟨b1, b2, b3⟩ := asinfPos_cases hy sy h2
  have x0 := val_nonneg_of_sign sx
  have y0 := val_nonneg_of_sign sy
  -- the seam at one half
  have seam : (asinfPoly (lit 0.5 * lit 0.5) (lit 0.5)).val ≤ (asinfLarge (ofBits 0x3f000001#32)).val ∧ (lit 0.5 : F32).isFinite = true ∧
    (lit 0.5 : F32).val = 1 / 2 ∧ (ofBits 0x3f000001#32 : F32).isFinite = true ∧ (ofBits 0x3f000001#32 : F32).val = 1 / 2 + 1 / 2 ^ 24 ∧
    (ofBits 0x3f000001#32 : F32).mag = (lit 0.5 : F32).mag + 1 := by decide +kernel
  obtain ⟨s1, s2, s3, s4, s5, s6⟩ := seam
  have big := rnds32.1
  have small : ∀ {b : F32}, b.isFinite = true → x.val ≤ b.val → b.val ≤ 1 / 2 → (lit 1e-4 : F32).val ≤ b.val → (asinfPos x).val ≤ (asinfPoly (b * b) b).val := by
    intro b hb hxb hb2 hb3
    rcases lt_or_ge x.val (lit 1e-4 : F32).val with c | c
    · rw [a1 c]
      have ub : Up (1 / 2) b b := ⟨hb, hb, x0.trans hxb, le_rfl, hb2⟩
      exact hxb.trans (asinfPoly_up (sq_up ub) ub).2
    · rw [a2 c (hxb.trans hb2)]
      have ub : Up (1 / 2) x b := ⟨hx, hb, x0, hxb, hb2⟩
      exact (asinfPoly_up (sq_up ub) ub).1.ab
  rcases lt_or_ge y.val (lit 1e-4 : F32).val with c | c
  · rw [a1 (h.trans_lt c), b1 c]; exact h
  rcases le_or_gt y.val (1 / 2) with d | d
  · rw [b2 c d]
    exact small hy h d c
  · rw [b3 d]
    rcases le_or_gt x.val (1 / 2) with e | e
    · have l : (lit 1e-4 : F32).val ≤ (lit 0.5 : F32).val := by decide +kernel
      refine (small s2 (by rw [s3]; exact e) s3.le l).trans (s1.trans ?_)
      refine asinfLarge_order s4 hy (by rw [s5]; norm_num) ?_ h2
      have ey : y.val = magVal b32 y.mag := by unfold FP.val; rw [sy]; simp
      have eh : (1 / 2 : ℚ) = magVal b32 (lit 0.5 : F32).mag := by decide +kernel
      have em : (ofBits 0x3f000001#32 : F32).val = magVal b32 (ofBits 0x3f000001#32 : F32).mag := by decide +kernel
      rw [ey, eh] at d
      rw [ey, em, s6]
      exact magVal_le.2 (magVal_lt.1 d)
    · rw [a3 e]
      exact asinfLarge_order hx hy e.le h h2

end Vdt
