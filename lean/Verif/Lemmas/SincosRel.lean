import Verif.Lemmas.SincosfAcc
import Verif.Lemmas.TanFinish
import Verif.Lemmas.SincosRange

/-! # Relative accuracy of sine and cosine -/

namespace Vdt
open FP details

/-- The final selection and sign changes keep every relation between number and real value that survives a
change of both signs. -/
theorem tail_rel {f : Fmt} {sc : FP f × FP f} {x t : ℝ} {m : ℕ} {neg : Bool} (hm : (m : ℚ) ≤ 1073741823)
    (ht : t = |x| - m * (Real.pi / 2)) (P : FP f → ℝ → Prop) (hP : ∀ s r, P s r → P (FP.neg s) (-r))
    (h1 : P sc.1 (Real.sin t)) (h2 : P sc.2 (Real.cos t)) (hneg : neg = true ↔ x < 0) :
    P (sincosTail sc (2 * m) neg).1 (Real.sin x) ∧ P (sincosTail sc (2 * m) neg).2 (Real.cos x) := by
  have ft := quadrant_trig t m
  have e : t + m * (Real.pi / 2) = |x| := by rw [ht]; ring
  rw [e] at ft
  have hcosx : Real.cos x = Real.cos |x| := (Real.cos_abs x).symm
  rw [sincosTail_eq sc hm, hcosx]
  have main : ∀ S : FP f, P S (Real.sin |x|) → P (if neg = true then FP.neg S else S) (Real.sin x) := by
    intro S hS
    by_cases hn : neg = true
    · rw [if_pos hn]
      have hx := hneg.1 hn
      have := hP _ _ hS
      rwa [abs_of_neg hx, Real.sin_neg, _root_.neg_neg] at this
    · rw [if_neg hn]
      have hx : ¬ x < 0 := fun h => hn (hneg.2 h)
      rwa [abs_of_nonneg (not_lt.1 hx)] at hS
  have : m % 4 = 0 ∨ m % 4 = 1 ∨ m % 4 = 2 ∨ m % 4 = 3 := by omega
  rcases this with h | h | h | h
  · simp only [h, if_true] at ft ⊢
    rw [← ft.1] at h1; rw [← ft.2] at h2
    exact ⟨main _ h1, h2⟩
  · simp only [h, Nat.one_ne_zero, if_false, if_true] at ft ⊢
    have h1 := hP _ _ h1
    rw [← ft.2] at h1; rw [← ft.1] at h2
    exact ⟨main _ h2, h1⟩
  · simp only [h, show (2 : ℕ) ≠ 0 by decide, show (2 : ℕ) ≠ 1 by decide, if_false, if_true] at ft ⊢
    have h1 := hP _ _ h1
    have h2 := hP _ _ h2
    rw [← ft.1] at h1; rw [← ft.2] at h2
    exact ⟨main _ h1, h2⟩
  · simp only [h, show (3 : ℕ) ≠ 0 by decide, show (3 : ℕ) ≠ 1 by decide, show (3 : ℕ) ≠ 2 by decide, if_false] at ft ⊢
    have h2 := hP _ _ h2
    rw [← ft.2] at h1; rw [← ft.1] at h2
    exact ⟨main _ h2, h1⟩

/-- The sine of a reduced argument is nearly the argument. -/
theorem sin_ge_of_reduced {t : ℝ} (h : |t| ≤ 0.7863) : 0.89 * |t| ≤ |Real.sin t| := by
  have main : ∀ t : ℝ, 0 ≤ t → t ≤ 0.7863 → 0.89 * t ≤ Real.sin t := by
    intro t h0 h1
    rcases h0.eq_or_lt with h | h
    · rw [← h]; simp
    · have := Real.sin_gt_sub_cube h
      have h2 : t ^ 2 ≤ 0.6183 := by nlinarith
      have h3 : t ^ 3 = t ^ 2 * t := by ring
      nlinarith [mul_le_mul_of_nonneg_right h2 h0]
  rcases le_total 0 t with h0 | h0
  · rw [abs_of_nonneg h0] at h ⊢
    exact (main t h0 h).trans (le_abs_self _)
  · rw [abs_of_nonpos h0] at h ⊢
    have := main (-t) (by linarith) h
    rw [Real.sin_neg] at this
    exact this.trans (neg_le_abs _)

/-- The cosine of a reduced argument is not small. -/
theorem cos_ge_of_reduced {t : ℝ} (h : |t| ≤ 0.7863) : 0.69 ≤ |Real.cos t| := by
  refine le_trans ?_ (le_abs_self _)
  have := Real.one_sub_sq_div_two_le_cos (x := t)
  have h2 : t ^ 2 ≤ 0.6183 := by rw [← sq_abs]; nlinarith [abs_nonneg t]
  linarith

/-- From the errors of the two polynomials and of the reduction to relative errors: `A`, `B` are the bounds
of the polynomials, `d` is what the reduction adds to its relative error `U`. -/
theorem reduced_rel {s c z t A B U d ε : ℝ} (ht : |t| ≤ 0.7863) (hz : |z - t| ≤ U * |t| + d) (hd : 0 ≤ d)
    (h1 : |s - Real.sin z| ≤ A * |z| + ε * |t|) (h2 : |c - Real.cos z| ≤ B) (hε : 0 ≤ ε) (hA : 0 ≤ A) (hA1 : A ≤ 0.001) (hU : 0 ≤ U) (hU1 : U ≤ 0.001) :
    |s - Real.sin t| ≤ (1.13 * (1.001 * A + U + ε)) * |Real.sin t| + 1.001 * d ∧
    |c - Real.cos t| ≤ (1.45 * (B + U)) * |Real.cos t| + d := by
  have hs := sin_ge_of_reduced ht
  have hc := cos_ge_of_reduced ht
  have hza : |z| ≤ |t| + |z - t| := by
    have := abs_add_le t (z - t); rwa [add_sub_cancel] at this
  have hB : 0 ≤ B := (abs_nonneg _).trans h2
  have ht0 := abs_nonneg t
  constructor
  · have e1 := (abs_sub_le s (Real.sin z) (Real.sin t)).trans (add_le_add h1 (sin_lip z t))
    have e2 : A * |z| ≤ 1.001 * A * |t| + 0.001 * d := by
      have : |z| ≤ 1.001 * |t| + d := by nlinarith
      have h3 := mul_le_mul_of_nonneg_left this hA
      nlinarith
    have e3 : |s - Real.sin t| ≤ (1.001 * A + U + ε) * |t| + 1.001 * d := by linarith
    refine e3.trans (add_le_add ?_ le_rfl)
    have hq : 0 ≤ 1.001 * A + U + ε := by linarith
    have h4 : |t| ≤ 1.13 * |Real.sin t| := by linarith
    have := mul_le_mul_of_nonneg_left h4 hq
    linarith
  · have e1 := (abs_sub_le c (Real.cos z) (Real.cos t)).trans (add_le_add h2 (cos_lip z t))
    have e3 : |c - Real.cos t| ≤ (B + U) + d := by nlinarith
    refine e3.trans (add_le_add ?_ le_rfl)
    nlinarith

/-! ## Double precision -/

theorem rnd_tiny {f : Fmt} {q c : ℚ} (hc : rnd f c = 0) (h : |q| ≤ c) : rnd f q = 0 := by
  have main : ∀ q : ℚ, 0 ≤ q → q ≤ c → rnd f q = 0 := fun q h0 h1 =>
    le_antisymm (le_of_le_of_eq (rnd_mono f h1) hc) (rnd_nonneg f h0)
  rcases le_total 0 q with h0 | h0
  · exact main q h0 (by rwa [abs_of_nonneg h0] at h)
  · have := main (-q) (by linarith) (by rwa [abs_of_nonpos h0] at h)
    rw [rnd_neg] at this; linarith

/-- include/sincos.h:72-85 as an expression. -/
def sinPxE : E b64 :=
  (((((((((((E.const C1sin).mul (.var 0)).add (.const C2sin)).mul (.var 0)).add (.const C3sin)).mul (.var 0)).add
    (.const C4sin)).mul (.var 0)).add (.const C5sin)).mul (.var 0)).add (.const C6sin))

theorem sinPxE_con (p : Policy) (x : F64) : sinPxE.Con (fun _ => x) (get_sin_pxC p x) := by
  unfold sinPxE get_sin_pxC
  con

/-- The sine polynomial returns a tiny argument unchanged. -/
theorem sin_m45_tiny (p : Policy) {z : F64} (hz : z.isFinite = true) (h : |z.val| ≤ p2 (-1000)) : (sincosCoreC p z).1.val = z.val := by
  have hb : ∀ q : ℚ, |q| ≤ 1 → |q| ≤ b64.big := fun q hq => hq.trans (by decide +kernel)
  have c0 : rnd b64 (p2 (-1100)) = 0 := by decide +kernel
  have c1 : p2 (-1000) ≤ 1 := by decide +kernel
  have c2 : p2 (-1000) * p2 (-1000) ≤ p2 (-1100) := by decide +kernel
  have c3 : p2 (-1100) ≤ 1 := by decide +kernel
  have c4 : (0 : ℚ) ≤ p2 (-1000) := (p2_pos _).le
  generalize p2 (-1000) = a at *
  generalize p2 (-1100) = b at *
  have h1 : |z.val| ≤ 1 := h.trans c1
  have hzz : |z.val * z.val| ≤ b := by
    rw [abs_mul]
    exact (mul_le_mul h h (abs_nonneg _) c4).trans c2
  have q1 := mul_spec hz hz (hb _ (hzz.trans c3))
  rw [rnd_tiny c0 hzz] at q1
  have hz0 : |(0 : ℚ)| ≤ b64.big := by rw [abs_zero]; decide +kernel
  have q2 := mul_spec hz q1.1 (by rw [q1.2, mul_zero]; exact hz0)
  rw [q1.2, mul_zero, rnd_zero] at q2
  have pf := (okAbs_con (e := sinPxE) (a := 0) (b := 1) (C := 1) (by decide +kernel) q1.1
    (by unfold FP.real; rw [q1.2]) (by unfold FP.real; rw [q1.2]; norm_num) (sinPxE_con p _)).1
  change (madR (p 13) (FP.mul z (FP.mul z z)) (get_sin_pxC p (FP.mul z z)) z).val = _
  generalize get_sin_pxC p (FP.mul z z) = g at *
  obtain ⟨w, hw, hs⟩ := madR_split (p 13) q2.1 pf hz (by rw [q2.2, zero_mul]; exact hz0)
  have hw0 : w = 0 := by
    rw [q2.2, zero_mul, rnd_zero, or_self] at hw; exact hw
  subst hw0
  rw [add_zero] at hs
  rw [(hs (hb _ h1)).2, rnd_val (hb _ h1)]

theorem tiny_sin {z : ℝ} (h0 : 0 ≤ z) (h : z ≤ 2 ^ (-30 : ℤ)) : |z - Real.sin z| ≤ 2 ^ (-60 : ℤ) * z := by
  have h1 := Real.sin_le h0
  rw [abs_of_nonneg (by linarith)]
  rcases h0.eq_or_lt with hz | hz
  · rw [← hz]; simp
  · have := Real.sin_gt_sub_cube hz
    have h2 : z ^ 2 ≤ 2 ^ (-60 : ℤ) := by
      have := mul_le_mul h h h0 (by positivity)
      rw [← pow_two] at this
      refine this.trans (le_of_eq ?_)
      norm_num
    have h3 : z ^ 3 = z ^ 2 * z := by ring
    have h4 := mul_le_mul_of_nonneg_right h2 h0
    have h5 : 0 ≤ z ^ 2 * z := by positivity
    linarith

/-- Double precision: the error of sine and cosine relative to their values, with the contribution `m κ` of the
argument reduction, where `m` is the number of quarter turns. -/
theorem sincosC_rel (p : Policy) {x : F64} (hx : x.isFinite = true) (h : |x.val| ≤ 2 ^ 27) :
    ∃ (s c : F64) (m : ℕ), fast_sincosC p x = some (s, c) ∧ s.isFinite = true ∧ c.isFinite = true ∧
      (m = 0 ∨ 1 / 2 ≤ |x.val|) ∧ |(|x.real| - m * (Real.pi / 2))| ≤ 0.7863 ∧
      (1 ≤ m → 0.87 * |(|x.real| - m * (Real.pi / 2))| ≤ |Real.sin x.real| ∧ 0.87 * |(|x.real| - m * (Real.pi / 2))| ≤ |Real.cos x.real|) ∧
      |s.real - Real.sin x.real| ≤ 5.2 * 2 ^ (-53 : ℤ) * |Real.sin x.real| + 1.001 * (m * (1 / 2 ^ 106)) ∧
      |c.real - Real.cos x.real| ≤ 5.2 * 2 ^ (-53 : ℤ) * |Real.cos x.real| + 1.001 * (m * (1 / 2 ^ 106)) := by
  obtain ⟨m, ⟨q1, hq1, hq2⟩, hmN, r1, r2, r0, r7, r4, r5⟩ := reduce64C p hx h
  have hm : (m : ℚ) ≤ 1073741823 := by linarith
  have e : fast_sincosC p x = some (sincosTail (sincosCoreC p (reduceC p (FP.abs x) (ofInt (2 * m)) DP1 DP2 DP3)) (2 * m) (FP.lt x (lit 0))) := by
    unfold fast_sincosC
    rw [fast_sincosCM_eq, hq1]
    simp only [Option.bind_eq_bind, Option.bind_some, Option.pure_def, hq2]
  generalize reduceC p (FP.abs x) (ofInt (2 * m)) DP1 DP2 DP3 = z at *
  obtain ⟨t, ht⟩ : ∃ t, t = |x.real| - m * (Real.pi / 2) := ⟨_, rfl⟩
  rw [← ht] at r4 r5
  obtain ⟨c1, c2, c3, c4⟩ := sincosC_core p r1 r2
  have hsin : |(sincosCoreC p z).1.real - Real.sin z.real| ≤ 1.43 * 2 ^ (-53 : ℤ) * |z.real| + 1.4 * 2 ^ (-53 : ℤ) * |t| := by
    have main : ∀ a : ℚ, 2.2 * b64.eta ≤ 1.4 * p2 (-53) * a → (a : ℝ) ≤ |t| →
        |(sincosCoreC p z).1.real - Real.sin z.real| ≤ 1.43 * 2 ^ (-53 : ℤ) * |z.real| + 1.4 * 2 ^ (-53 : ℤ) * |t| := fun a h1 h2 => by
      refine c3.trans (add_le_add le_rfl ?_)
      have h3 : ((2.2 * b64.eta : ℚ) : ℝ) ≤ ((1.4 * p2 (-53) * a : ℚ) : ℝ) := Rat.cast_le.2 h1
      rw [p2_eq] at h3
      push_cast at h3
      exact h3.trans (mul_le_mul_of_nonneg_left h2 (by positivity))
    rcases Nat.eq_zero_or_pos m with hm0 | hm0
    · have hv := r0 hm0
      have htx : t = |x.real| := by rw [ht, hm0]; simp
      have hzr : z.real = |x.real| := by rw [real_abs]; unfold FP.real; rw [hv]
      rcases le_or_gt (p2 (-1000)) |x.val| with h1 | h1
      · refine main (p2 (-1000)) (by decide +kernel) ?_
        rw [htx, abs_abs, real_abs]
        exact Rat.cast_le.2 h1
      · have g := sin_m45_tiny p r1 (by rw [hv, abs_abs]; exact h1.le)
        have g' : (sincosCoreC p z).1.real = z.real := by unfold FP.real; rw [g]
        have hs : z.real ≤ 2 ^ (-30 : ℤ) := by
          have h2 : |x.val| ≤ p2 (-30) := h1.le.trans (by decide +kernel)
          have h3 : ((|x.val| : ℚ) : ℝ) ≤ ((p2 (-30) : ℚ) : ℝ) := Rat.cast_le.2 h2
          rw [p2_eq] at h3
          rw [hzr, real_abs]; push_cast at h3 ⊢; exact h3
        have hz0 : 0 ≤ z.real := by rw [hzr]; exact abs_nonneg _
        rw [g', htx, abs_abs, ← hzr]
        refine (tiny_sin hz0 hs).trans ?_
        rw [abs_of_nonneg hz0]
        have : 0 ≤ 1.43 * (2 : ℝ) ^ (-53 : ℤ) * z.real := by positivity
        refine le_trans (mul_le_mul_of_nonneg_right ?_ hz0) (le_add_of_nonneg_left this)
        norm_num
    · have := dist64 (by decide +kernel) distCover64b (X := 2 ^ 27) (by decide +kernel) (r7 hm0) h hm0 (by rw [← ht]; exact r4)
      rw [← ht] at this
      refine main (1 / 2 ^ 83) (by decide +kernel) (le_trans ?_ this)
      have h2 : (1 : ℝ) ≤ m := by exact_mod_cast hm0
      push_cast
      norm_num
      linarith
  generalize sincosCoreC p z = sc at *
  have hR := reduced_rel (d := m * (1 / 2 ^ 106)) r4 r5 (by positivity) hsin c4 (by positivity) (by positivity) (by norm_num) (by positivity) (by norm_num)
  have T := tail_rel (neg := FP.lt x (lit 0)) hm ht
    (fun s r => s.isFinite = true ∧ |s.real - r| ≤ 5.2 * 2 ^ (-53 : ℤ) * |r| + 1.001 * (m * (1 / 2 ^ 106)) ∧ 0.87 * |t| ≤ |r|)
    (fun s r hs => ⟨by simpa using hs.1, by
      rw [neg_real, abs_neg r, ← abs_neg]; refine le_trans (le_of_eq ?_) hs.2.1; congr 1; ring, by rw [abs_neg]; exact hs.2.2⟩)
    (sc := sc) ⟨c1, hR.1.trans (add_le_add (mul_le_mul_of_nonneg_right (by norm_num) (abs_nonneg _)) le_rfl), le_trans (mul_le_mul_of_nonneg_right (by norm_num) (abs_nonneg _)) (sin_ge_of_reduced r4)⟩
    ⟨c2, hR.2.trans (add_le_add (mul_le_mul_of_nonneg_right (by norm_num) (abs_nonneg _)) (by
      have : (0 : ℝ) ≤ m * (1 / 2 ^ 106) := by positivity
      linarith)), by
        have := cos_ge_of_reduced r4
        linarith⟩
    (lt_zero_real hx (by decide +kernel) (by decide +kernel))
  refine ⟨_, _, m, e, T.1.1, T.2.1, ?_, by rw [← ht]; exact r4, fun _ => ?_, T.1.2.1, T.2.2.1⟩
  · rcases Nat.eq_zero_or_pos m with hm0 | hm0
    · exact .inl hm0
    · exact .inr (r7 hm0)
  · rw [← ht]; exact ⟨T.1.2.2, T.2.2.2⟩

theorem sincos_rel {x : F64} (hx : x.isFinite = true) (h : |x.val| ≤ 2 ^ 27) :
    ∃ (s c : F64) (m : ℕ), fast_sincos x = some (s, c) ∧ s.isFinite = true ∧ c.isFinite = true ∧
      (m = 0 ∨ 1 / 2 ≤ |x.val|) ∧ |(|x.real| - m * (Real.pi / 2))| ≤ 0.7863 ∧
      (1 ≤ m → 0.87 * |(|x.real| - m * (Real.pi / 2))| ≤ |Real.sin x.real| ∧ 0.87 * |(|x.real| - m * (Real.pi / 2))| ≤ |Real.cos x.real|) ∧
      |s.real - Real.sin x.real| ≤ 5.2 * 2 ^ (-53 : ℤ) * |Real.sin x.real| + 1.001 * (m * (1 / 2 ^ 106)) ∧
      |c.real - Real.cos x.real| ≤ 5.2 * 2 ^ (-53 : ℤ) * |Real.cos x.real| + 1.001 * (m * (1 / 2 ^ 106)) := by
  have r := sincosC_rel (fun _ => false) hx h
  rwa [fast_sincos_plain] at r

/-! ## Single precision -/

/-- include/sincos.h:187-200: the factor of `x` in the sine polynomial, without the last `z`. -/
def sinfPxE : E b32 :=
  ((((E.const (-lit 1.9515295891E-4)).mul (.var 0)).add (.const (lit 8.3321608736E-3))).mul (.var 0)).sub (.const (lit 1.6666654611E-1))

/-- The same with the choices `p`. -/
def sinfPxC (p : Policy) (z : F32) : F32 :=
  msub (p 4) (mad (p 3) (-lit 1.9515295891E-4) z (lit 8.3321608736E-3)) z (lit 1.6666654611E-1)

theorem sinfPxE_con (p : Policy) (x : F32) : sinfPxE.Con (fun _ => x) (sinfPxC p x) := by
  unfold sinfPxE sinfPxC
  con

theorem sinf_split (p : Policy) (z : F32) : (sincosfCoreC p z).1 =
    mad (p 5) (FP.mul (sinfPxC p (FP.mul z z)) (FP.mul z z)) z z := by
  simp only [sincosfCoreC, sinfPxC, mul_def]

/-- The sine polynomial returns a tiny argument unchanged. -/
theorem sinf_m45_tiny (p : Policy) {z : F32} (hz : z.isFinite = true) (h : |z.val| ≤ p2 (-100)) : (sincosfCoreC p z).1.val = z.val := by
  have hb : ∀ q : ℚ, |q| ≤ 1 → |q| ≤ b32.big := fun q hq => hq.trans (by decide +kernel)
  have c0 : rnd b32 (p2 (-160)) = 0 := by decide +kernel
  have c1 : p2 (-100) ≤ 1 := by decide +kernel
  have c2 : p2 (-100) * p2 (-100) ≤ p2 (-160) := by decide +kernel
  have c3 : p2 (-160) ≤ 1 := by decide +kernel
  have c4 : (0 : ℚ) ≤ p2 (-100) := (p2_pos _).le
  generalize p2 (-100) = a at *
  generalize p2 (-160) = b at *
  have h1 : |z.val| ≤ 1 := h.trans c1
  have hzz : |z.val * z.val| ≤ b := by
    rw [abs_mul]
    exact (mul_le_mul h h (abs_nonneg _) c4).trans c2
  have q1 := mul_spec hz hz (hb _ (hzz.trans c3))
  rw [rnd_tiny c0 hzz] at q1
  have hz0 : |(0 : ℚ)| ≤ b32.big := by rw [abs_zero]; decide +kernel
  have pf := (okAbs_con (e := sinfPxE) (a := 0) (b := 1) (C := 1) (by decide +kernel) q1.1
    (by unfold FP.real; rw [q1.2]) (by unfold FP.real; rw [q1.2]; norm_num) (sinfPxE_con p _)).1
  rw [sinf_split]
  generalize sinfPxC p (FP.mul z z) = g at *
  have q2 := mul_spec pf q1.1 (by rw [q1.2, mul_zero]; exact hz0)
  rw [q1.2, mul_zero, rnd_zero] at q2
  obtain ⟨w, hw, hs⟩ := mad_split (p 5) q2.1 hz hz (by rw [q2.2, zero_mul]; exact hz0)
  have hw0 : w = 0 := by
    rw [q2.2, zero_mul, rnd_zero, or_self] at hw; exact hw
  subst hw0
  rw [zero_add] at hs
  rw [(hs (hb _ h1)).2, rnd_val (hb _ h1)]

/-- Single precision: the error of sine and cosine relative to their values, with the contribution `m κ` of the
argument reduction, where `m` is the number of quarter turns. -/
theorem sincosfC_rel (p : Policy) {x : F32} (hx : x.isFinite = true) (h : |x.val| ≤ 8192) :
    ∃ (s c : F32) (m : ℕ), fast_sincosfC p x = some (s, c) ∧ s.isFinite = true ∧ c.isFinite = true ∧
      (m = 0 ∨ 1 / 2 ≤ |x.val|) ∧ |(|x.real| - m * (Real.pi / 2))| ≤ 0.7863 ∧
      (1 ≤ m → 0.87 * |(|x.real| - m * (Real.pi / 2))| ≤ |Real.sin x.real| ∧ 0.87 * |(|x.real| - m * (Real.pi / 2))| ≤ |Real.cos x.real|) ∧
      |s.real - Real.sin x.real| ≤ 5.2 * 2 ^ (-24 : ℤ) * |Real.sin x.real| + 1.001 * (m * (0.9 / 2 ^ 47)) ∧
      |c.real - Real.cos x.real| ≤ 5.2 * 2 ^ (-24 : ℤ) * |Real.cos x.real| + 1.001 * (m * (0.9 / 2 ^ 47)) := by
  obtain ⟨m, ⟨q1, hq1, hq2⟩, hmN, r1, r2, r0, r7, r4, r5⟩ := reduce32C p hx h
  have hm : (m : ℚ) ≤ 1073741823 := by linarith
  have e : fast_sincosfC p x = some (sincosTail (sincosfCoreC p (reduceC p (FP.abs x) (ofInt (2 * m)) DP1F DP2F DP3F)) (2 * m) (FP.lt x (ofInt 0))) := by
    unfold fast_sincosfC
    rw [fast_sincosfCM_eq, hq1]
    simp only [Option.bind_eq_bind, Option.bind_some, Option.pure_def, hq2]
  generalize reduceC p (FP.abs x) (ofInt (2 * m)) DP1F DP2F DP3F = z at *
  obtain ⟨t, ht⟩ : ∃ t, t = |x.real| - m * (Real.pi / 2) := ⟨_, rfl⟩
  rw [← ht] at r4 r5
  obtain ⟨c1, c2, c3, c4⟩ := sincosfC_core p r1 r2
  have hsin : |(sincosfCoreC p z).1.real - Real.sin z.real| ≤ 1.76 * 2 ^ (-24 : ℤ) * |z.real| + 1.4 * 2 ^ (-24 : ℤ) * |t| := by
    have main : ∀ a : ℚ, 2.2 * b32.eta ≤ 1.4 * p2 (-24) * a → (a : ℝ) ≤ |t| →
        |(sincosfCoreC p z).1.real - Real.sin z.real| ≤ 1.76 * 2 ^ (-24 : ℤ) * |z.real| + 1.4 * 2 ^ (-24 : ℤ) * |t| := fun a h1 h2 => by
      refine c3.trans (add_le_add le_rfl ?_)
      have h3 : ((2.2 * b32.eta : ℚ) : ℝ) ≤ ((1.4 * p2 (-24) * a : ℚ) : ℝ) := Rat.cast_le.2 h1
      rw [p2_eq] at h3
      push_cast at h3
      exact h3.trans (mul_le_mul_of_nonneg_left h2 (by positivity))
    rcases Nat.eq_zero_or_pos m with hm0 | hm0
    · have hv := r0 hm0
      have htx : t = |x.real| := by rw [ht, hm0]; simp
      have hzr : z.real = |x.real| := by rw [real_abs]; unfold FP.real; rw [hv]
      rcases le_or_gt (p2 (-100)) |x.val| with h1 | h1
      · refine main (p2 (-100)) (by decide +kernel) ?_
        rw [htx, abs_abs, real_abs]
        exact Rat.cast_le.2 h1
      · have g := sinf_m45_tiny p r1 (by rw [hv, abs_abs]; exact h1.le)
        have g' : (sincosfCoreC p z).1.real = z.real := by unfold FP.real; rw [g]
        have hs : z.real ≤ 2 ^ (-30 : ℤ) := by
          have h2 : |x.val| ≤ p2 (-30) := h1.le.trans (by decide +kernel)
          have h3 : ((|x.val| : ℚ) : ℝ) ≤ ((p2 (-30) : ℚ) : ℝ) := Rat.cast_le.2 h2
          rw [p2_eq] at h3
          rw [hzr, real_abs]; push_cast at h3 ⊢; exact h3
        have hz0 : 0 ≤ z.real := by rw [hzr]; exact abs_nonneg _
        rw [g', htx, abs_abs, ← hzr]
        refine (tiny_sin hz0 hs).trans ?_
        rw [abs_of_nonneg hz0]
        have : 0 ≤ 1.76 * (2 : ℝ) ^ (-24 : ℤ) * z.real := by positivity
        refine le_trans (mul_le_mul_of_nonneg_right ?_ hz0) (le_add_of_nonneg_left this)
        norm_num
    · have := dist32 (by decide +kernel) distCover32 (X := 8192) (by decide +kernel) (r7 hm0) h hm0 (by rw [← ht]; exact r4)
      rw [← ht] at this
      refine main (1 / 2 ^ 39) (by decide +kernel) (le_trans ?_ this)
      have h2 : (1 : ℝ) ≤ m := by exact_mod_cast hm0
      push_cast
      norm_num
      linarith
  generalize sincosfCoreC p z = sc at *
  have hR := reduced_rel (d := m * (0.9 / 2 ^ 47)) r4 r5 (by positivity) hsin c4 (by positivity) (by positivity) (by norm_num) (by positivity) (by norm_num)
  have T := tail_rel (neg := FP.lt x (ofInt 0)) hm ht
    (fun s r => s.isFinite = true ∧ |s.real - r| ≤ 5.2 * 2 ^ (-24 : ℤ) * |r| + 1.001 * (m * (0.9 / 2 ^ 47)) ∧ 0.87 * |t| ≤ |r|)
    (fun s r hs => ⟨by simpa using hs.1, by
      rw [neg_real, abs_neg r, ← abs_neg]; refine le_trans (le_of_eq ?_) hs.2.1; congr 1; ring, by rw [abs_neg]; exact hs.2.2⟩)
    (sc := sc) ⟨c1, hR.1.trans (add_le_add (mul_le_mul_of_nonneg_right (by norm_num) (abs_nonneg _)) le_rfl), le_trans (mul_le_mul_of_nonneg_right (by norm_num) (abs_nonneg _)) (sin_ge_of_reduced r4)⟩
    ⟨c2, hR.2.trans (add_le_add (mul_le_mul_of_nonneg_right (by norm_num) (abs_nonneg _)) (by
      have : (0 : ℝ) ≤ m * (0.9 / 2 ^ 47) := by positivity
      linarith)), by
        have := cos_ge_of_reduced r4
        linarith⟩
    (lt_zero_real hx (by decide +kernel) (by decide +kernel))
  refine ⟨_, _, m, e, T.1.1, T.2.1, ?_, by rw [← ht]; exact r4, fun _ => ?_, T.1.2.1, T.2.2.1⟩
  · rcases Nat.eq_zero_or_pos m with hm0 | hm0
    · exact .inl hm0
    · exact .inr (r7 hm0)
  · rw [← ht]; exact ⟨T.1.2.2, T.2.2.2⟩

theorem sincosf_rel {x : F32} (hx : x.isFinite = true) (h : |x.val| ≤ 8192) :
    ∃ (s c : F32) (m : ℕ), fast_sincosf x = some (s, c) ∧ s.isFinite = true ∧ c.isFinite = true ∧
      (m = 0 ∨ 1 / 2 ≤ |x.val|) ∧ |(|x.real| - m * (Real.pi / 2))| ≤ 0.7863 ∧
      (1 ≤ m → 0.87 * |(|x.real| - m * (Real.pi / 2))| ≤ |Real.sin x.real| ∧ 0.87 * |(|x.real| - m * (Real.pi / 2))| ≤ |Real.cos x.real|) ∧
      |s.real - Real.sin x.real| ≤ 5.2 * 2 ^ (-24 : ℤ) * |Real.sin x.real| + 1.001 * (m * (0.9 / 2 ^ 47)) ∧
      |c.real - Real.cos x.real| ≤ 5.2 * 2 ^ (-24 : ℤ) * |Real.cos x.real| + 1.001 * (m * (0.9 / 2 ^ 47)) := by
  have r := sincosfC_rel (fun _ => false) hx h
  rwa [fast_sincosf_plain] at r

end Vdt
