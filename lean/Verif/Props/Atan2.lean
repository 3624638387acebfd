import Verif.Lemmas.Atan2
import Verif.Props.Atan

/-!
# The two argument arctangent: accuracy (C22, C24) and special cases (C23)
-/

namespace Vdt
open FP details
variable {f : Fmt}

/-! ## C22 -/

theorem real_neg_iff {x : FP f} : x.real < 0 ↔ x.val < 0 := by unfold FP.real; exact Rat.cast_lt_zero
theorem real_abs' (x : FP f) : (FP.abs x).real = |x.real| := by unfold FP.real; rw [val_abs]; push_cast; rfl

theorem lt_zero_fin {x z : FP f} [f.Ok] (hx : x.isFinite = true) (hz : z.isFinite = true) (hv : z.val = 0) : FP.lt x z = decide (x.real < 0) := by
  rw [lt_fin hx hz, hv, decide_eq_decide, real_neg_iff]

theorem gt_abs_fin {x y : FP f} (hx : x.isFinite = true) (hy : y.isFinite = true) : FP.gt (FP.abs y) (FP.abs x) = decide (|x.real| < |y.real|) := by
  rw [gt_fin (by simpa using hy) (by simpa using hx), decide_eq_decide, ← real_abs', ← real_abs']
  unfold FP.real; exact Rat.cast_lt.symm

theorem quadR_lower {a : ℝ} (h0 : 0 ≤ a) (h1 : a ≤ Real.pi / 4) (swap xneg yneg : Bool) :
    (swap = true → 0.78 ≤ |quadR a swap xneg yneg|) ∧ (xneg = true → 1.57 ≤ |quadR a swap xneg yneg|) ∧
    (swap = false → xneg = false → |quadR a swap xneg yneg| = a) := by
  have pb := pi_bounds
  have key : |quadR a swap xneg yneg| = |quadR a swap xneg false| := by
    cases yneg
    · rfl
    · show |-(quadR a swap xneg false)| = _
      rw [abs_neg]
  rw [key]
  norm_num at pb ⊢
  refine ⟨?_, ?_, ?_⟩
  · rintro rfl
    refine le_trans ?_ (le_abs_self _)
    cases xneg <;> simp [quadR] <;> linarith [pb.1, pb.2]
  · rintro rfl
    refine le_trans ?_ (le_abs_self _)
    cases swap <;> simp [quadR] <;> linarith [pb.1, pb.2]
  · rintro rfl rfl
    simp [quadR, abs_of_nonneg h0]

/-- From the octant to the whole plane: `E` bounds the absolute error in the octant, `C` the relative one. -/
theorem plane_acc [f.Ok] {P2 P : FP f} {h c : ℚ} (ok : QuadOk f P2 P h) (hc : |P2.real - Real.pi / 2| ≤ (c : ℝ)) (c0 : 0 ≤ c) (h0 : 0 ≤ h) {x y r : FP f} {b1 b2 b3 : Bool}
    (hxy : x.val ≠ 0 ∨ y.val ≠ 0) (e1 : b1 = decide (|x.real| < |y.real|)) (e2 : b2 = decide (x.real < 0)) (e3 : b3 = decide (y.real < 0))
    (hf : r.isFinite = true) (hs : r.sign = false) (hr : r.val ≤ 0.79) {E C D k : ℝ}
    (hE : |r.real - Real.arctan (if |x.real| < |y.real| then |x.real| / |y.real| else |y.real| / |x.real|)| ≤ E)
    (hC : |r.real - Real.arctan (if |x.real| < |y.real| then |x.real| / |y.real| else |y.real| / |x.real|)| ≤
      C * Real.arctan (if |x.real| < |y.real| then |x.real| / |y.real| else |y.real| / |x.real|) + k)
    (k0 : 0 ≤ k) (hD : E + 3 * (c + h) ≤ D) (hD2 : E + (c + h) ≤ 0.78 * D) (hCD : C ≤ D) :
    (quad P2 P r b1 b2 b3).isFinite = true ∧ (quad P2 P r b1 b2 b3).sign = b3 ∧ |(quad P2 P r b1 b2 b3).val| ≤ P.val ∧
    (b2 = false → |(quad P2 P r b1 b2 b3).val| ≤ P2.val) ∧ (b2 = true → P2.val ≤ |(quad P2 P r b1 b2 b3).val|) ∧
    |(quad P2 P r b1 b2 b3).real - Complex.arg ⟨x.real, y.real⟩| ≤ D ∧
    |(quad P2 P r b1 b2 b3).real - Complex.arg ⟨x.real, y.real⟩| ≤ D * |Complex.arg ⟨x.real, y.real⟩| + k := by
  have hxy' : x.real ≠ 0 ∨ y.real ≠ 0 := by
    unfold FP.real; exact hxy.imp (fun h => by exact_mod_cast h) (fun h => by exact_mod_cast h)
  rw [arg_quad hxy', ← e1, ← e2, ← e3]
  obtain ⟨q, hq⟩ : ∃ q : ℝ, (if |x.real| < |y.real| then |x.real| / |y.real| else |y.real| / |x.real|) = q := ⟨_, rfl⟩
  rw [hq] at hE hC ⊢
  have q01 : 0 ≤ q ∧ q ≤ 1 := by
    rw [← hq]
    split
    · rename_i hl
      exact ⟨by positivity, div_le_one_of_le₀ hl.le (abs_nonneg _)⟩
    · rename_i hl
      exact ⟨by positivity, div_le_one_of_le₀ (not_lt.1 hl) (abs_nonneg _)⟩
  have a0 := Real.arctan_nonneg.2 q01.1
  have a1 := arctan_le_quarter q01.2
  generalize Real.arctan q = a at *
  have E0 : 0 ≤ E := (abs_nonneg _).trans hE
  have c0' : (0 : ℝ) ≤ c := by exact_mod_cast c0
  have h0' : (0 : ℝ) ≤ h := by exact_mod_cast h0
  have s := quadrant_spec ok hc hf hs hr hE b1 b2 b3
  have s2 := quadrant_spec ok hc hf hs hr hC b1 b2 b3
  have l := quadR_lower a0 a1 b1 b2 b3
  refine ⟨s.1, s.2.1, s.2.2.1, s.2.2.2.1, s.2.2.2.2.1, ?_, ?_⟩
  · refine s.2.2.2.2.2.trans (le_trans ?_ hD)
    cases b1 <;> cases b2 <;> simp <;> linarith
  · have D0 : 0 ≤ D := by linarith
    cases hb2 : b2
    · cases hb1 : b1
      · have := s2.2.2.2.2.2
        rw [hb1, hb2] at this l
        rw [l.2.2 rfl rfl]
        simp only [Bool.false_eq_true, if_false, add_zero] at this
        refine this.trans (add_le_add (mul_le_mul_of_nonneg_right hCD a0) le_rfl)
      · have := s.2.2.2.2.2
        rw [hb1, hb2] at this l
        simp only [Bool.false_eq_true, if_false, if_true, add_zero] at this
        have m := mul_le_mul_of_nonneg_left (l.1 rfl) D0
        linarith
    · have := s.2.2.2.2.2
      rw [hb2] at this l
      have m := mul_le_mul_of_nonneg_left (l.2.1 rfl) D0
      refine this.trans ?_
      have : E + (if b1 = true then (c : ℝ) + h else 0) + (if true = true then 2 * (c : ℝ) + 2 * h else 0) ≤ D := by
        cases b1 <;> simp <;> linarith
      refine this.trans ?_
      linarith

theorem pi2_const64 : |PIO2.real - Real.pi / 2| ≤ ((0.56 * p2 (-53) : ℚ) : ℝ) := by
  have h := pi_near
  have c : |PIO2.val - piQ / 2| ≤ 0.559 * p2 (-53) := by decide +kernel
  unfold FP.real
  generalize PIO2.val = a at *
  generalize piQ = π' at *
  have c' := (Rat.cast_le (K := ℝ)).2 c
  rw [Rat.cast_mul, p2_eq] at *
  push_cast at c' ⊢
  rw [abs_le] at *
  norm_num at h c' ⊢
  constructor <;> linarith [h.1, h.2, c'.1, c'.2]

theorem pi2_const32 : |PIO2F.real - Real.pi / 2| ≤ ((0.74 * p2 (-24) : ℚ) : ℝ) := by
  refine pi2f_const.trans (le_of_eq ?_)
  rw [Rat.cast_mul, p2_eq]; push_cast; norm_num

/-- The same bounds for all ways of fusing. -/
theorem atan2C_acc (p : Policy) (y x : F64) (hy : y.isFinite = true) (hx : x.isFinite = true) (h : x.val ≠ 0 ∨ y.val ≠ 0) :
    (fast_atan2C p y x).isFinite = true ∧
    |(fast_atan2C p y x).real - Complex.arg ⟨x.real, y.real⟩| ≤ 2 ^ (-50 : ℤ) ∧
    |(fast_atan2C p y x).real - Complex.arg ⟨x.real, y.real⟩| ≤ 2 ^ (-50 : ℤ) * |Complex.arg ⟨x.real, y.real⟩| + 2 ^ (-1072 : ℤ) ∧
    |(fast_atan2C p y x).real| ≤ Real.pi ∧ (fast_atan2C p y x).sign = decide (y.val < 0) ∧
    (0 ≤ x.val → |(fast_atan2C p y x).val| ≤ 884279719003555 / 562949953421312) ∧
    (x.val < 0 → 884279719003555 / 562949953421312 ≤ |(fast_atan2C p y x).val|) := by
  have i0 : (ofInt 0 : F64).isFinite = true ∧ (ofInt 0 : F64).val = 0 := by decide +kernel
  have ax : (FP.abs x).isFinite = true := by simpa using hx
  have ay : (FP.abs y).isFinite = true := by simpa using hy
  have hg := gt_abs_fin hx hy
  have eta0 : (0 : ℝ) ≤ b64.eta := by exact_mod_cast b64.eta_pos.le
  obtain ⟨r, hr, o1, o2, o3, o4, o5⟩ : ∃ r : F64, (if FP.gt (FP.abs y) (FP.abs x) then oct64C p y (FP.abs y) (FP.abs x) else oct64C p y (FP.abs x) (FP.abs y)) = r ∧
      r.isFinite = true ∧ r.sign = false ∧ r.val ≤ 0.79 ∧
      |r.real - Real.arctan (if |x.real| < |y.real| then |x.real| / |y.real| else |y.real| / |x.real|)| ≤ 3.05 * 2 ^ (-53 : ℤ) ∧
      |r.real - Real.arctan (if |x.real| < |y.real| then |x.real| / |y.real| else |y.real| / |x.real|)| ≤ 5.3 * 2 ^ (-53 : ℤ) *
        Real.arctan (if |x.real| < |y.real| then |x.real| / |y.real| else |y.real| / |x.real|) + 4.36 * (b64.eta : ℝ) := by
    have hlt : |x.real| < |y.real| ↔ |x.val| < |y.val| := by
      rw [← real_abs', ← real_abs', ← val_abs, ← val_abs]; unfold FP.real; exact Rat.cast_lt
    rw [hg]
    by_cases hs : |x.real| < |y.real|
    · have hv := hlt.1 hs
      have k := oct64C_acc p (y := y) (m := FP.abs x) (M := FP.abs y) ax ay (by simp) (by simp) (by rw [val_abs, val_abs]; exact hv.le)
        (by rw [val_abs]; exact (lt_of_le_of_lt (abs_nonneg _) hv).ne')
        (fun he => by
          rw [eq_fin hy i0.1, i0.2, decide_eq_true_eq] at he
          rw [he, abs_zero] at hv
          exact absurd hv (not_lt.2 (abs_nonneg _)))
      rw [real_abs', real_abs'] at k
      refine ⟨oct64C p y (FP.abs y) (FP.abs x), by simp [hs], ?_⟩
      simp only [hs, if_true]
      exact k
    · have hv : |y.val| ≤ |x.val| := not_lt.1 (fun hc => hs (hlt.2 hc))
      have k := oct64C_acc p (y := y) (m := FP.abs y) (M := FP.abs x) ay ax (by simp) (by simp) (by rw [val_abs, val_abs]; exact hv)
        (by
          rw [val_abs]
          intro hc
          rw [hc] at hv
          rcases h with h | h
          · exact h (abs_eq_zero.1 hc)
          · exact h (abs_eq_zero.1 (le_antisymm hv (abs_nonneg _))))
        (fun he => by
          rw [eq_fin hy i0.1, i0.2, decide_eq_true_eq] at he
          rw [val_abs, he, abs_zero])
      rw [real_abs', real_abs'] at k
      refine ⟨oct64C p y (FP.abs x) (FP.abs y), by simp [hs], ?_⟩
      simp only [hs, if_false]
      exact k
  rw [fast_atan2C_eq p, hr]
  have u : ((p2 (-53) : ℚ) : ℝ) = 2 ^ (-53 : ℤ) := by rw [p2_eq]; push_cast; rfl
  have pl := plane_acc quad64 pi2_const64 (by decide +kernel) (by decide +kernel) h hg (lt_zero_fin hx i0.1 i0.2) (lt_zero_fin hy i0.1 i0.2) o1 o2 o3 o4 o5
    (D := 2 ^ (-50 : ℤ)) (mul_nonneg (by norm_num) eta0) (by rw [Rat.cast_mul, u]; norm_num) (by rw [Rat.cast_mul, u]; norm_num) (by norm_num)
  obtain ⟨a1, a2, a3, a4, a5, a6, a7⟩ := pl
  generalize quad PIO2 PI r (FP.gt (FP.abs y) (FP.abs x)) (FP.lt x (ofInt 0)) (FP.lt y (ofInt 0)) = res at *
  have e2 : PIO2.val = 884279719003555 / 562949953421312 := by decide +kernel
  rw [e2] at a4 a5
  rw [lt_fin hy i0.1, i0.2] at a2
  rw [lt_fin hx i0.1, i0.2] at a4 a5
  refine ⟨a1, a6, a7.trans (add_le_add le_rfl ?_), ?_, a2, fun h => a4 (by simpa using h), fun h => a5 (by simpa using h)⟩
  · have c : (4.36 : ℚ) * b64.eta ≤ p2 (-1072) := by decide +kernel
    have := cast_le_p2 c
    push_cast at this
    exact this
  · have e : |res.real| = ((|res.val| : ℚ) : ℝ) := by unfold FP.real; push_cast; rfl
    rw [e]
    refine (Rat.cast_le (K := ℝ).2 a3).trans ?_
    have pn := pi_near
    have c : PI.val ≤ piQ - 1 / 10 ^ 17 := by decide +kernel
    generalize PI.val = p at *
    generalize piQ = π' at *
    have c' := (Rat.cast_le (K := ℝ)).2 c
    push_cast at c'
    rw [abs_le] at pn
    norm_num at pn c' ⊢
    linarith [pn.1, pn.2]

/-- Every pair of finite doubles that is not `(0, 0)`: absolute error `2^-50`, relative error `2^-50` up to four steps of the subnormal grid,
inside `[-π, π]`, with the sign of `y` and on the side given by the sign of `x`.
(884279719003555 * 2^-49 is the double nearest to `π/2`.) -/
theorem C22_atan2_accurate (y x : F64) (hy : y.isFinite = true) (hx : x.isFinite = true) (h : x.val ≠ 0 ∨ y.val ≠ 0) :
    (fast_atan2 y x).isFinite = true ∧
    |(fast_atan2 y x).real - Complex.arg ⟨x.real, y.real⟩| ≤ 2 ^ (-50 : ℤ) ∧
    |(fast_atan2 y x).real - Complex.arg ⟨x.real, y.real⟩| ≤ 2 ^ (-50 : ℤ) * |Complex.arg ⟨x.real, y.real⟩| + 2 ^ (-1072 : ℤ) ∧
    |(fast_atan2 y x).real| ≤ Real.pi ∧ (fast_atan2 y x).sign = decide (y.val < 0) ∧
    (0 ≤ x.val → |(fast_atan2 y x).val| ≤ 884279719003555 / 562949953421312) ∧
    (x.val < 0 → 884279719003555 / 562949953421312 ≤ |(fast_atan2 y x).val|) := by
  rw [← fast_atan2_plain]
  exact atan2C_acc _ y x hy hx h

/-- Arguments in several octants, with very different sizes and on the axes, meet the hypotheses. -/
example : (lit 1 : F64).isFinite = true ∧ (-lit 3 : F64).isFinite = true ∧ ((-lit 3 : F64).val ≠ 0 ∨ (lit 1 : F64).val ≠ 0) ∧
    (⟨false, 1, by decide⟩ : F64).isFinite = true ∧ ((⟨true, 0x7FEFFFFFFFFFFFFF, by decide⟩ : F64).val ≠ 0 ∨ (⟨false, 1, by decide⟩ : F64).val ≠ 0) ∧
    fast_atan2 (lit 1) (lit 1) = lit 0.78539816339744830962 ∧ fast_atan2 (-lit 1) (-lit 1) = -lit 2.35619449019234492885 := by decide +kernel

/-! ## C24 -/

/-- The same bounds for all ways of fusing. -/
theorem atan2fC_acc (p : Policy) (y x : F32) (hy : y.isFinite = true) (hx : x.isFinite = true) (h : x.val ≠ 0 ∨ y.val ≠ 0) :
    (fast_atan2fC p y x).isFinite = true ∧
    |(fast_atan2fC p y x).real - Complex.arg ⟨x.real, y.real⟩| ≤ 2 ^ (-20 : ℤ) ∧
    |(fast_atan2fC p y x).real - Complex.arg ⟨x.real, y.real⟩| ≤ 2 ^ (-20 : ℤ) * |Complex.arg ⟨x.real, y.real⟩| + 2 ^ (-147 : ℤ) ∧
    |(fast_atan2fC p y x).val| ≤ 13176795 / 4194304 ∧ (fast_atan2fC p y x).sign = decide (y.val < 0) ∧
    (0 ≤ x.val → |(fast_atan2fC p y x).val| ≤ 13176795 / 8388608) ∧
    (x.val < 0 → 13176795 / 8388608 ≤ |(fast_atan2fC p y x).val|) := by
  have i0 : (lit 0 : F32).isFinite = true ∧ (lit 0 : F32).val = 0 := by decide +kernel
  have ax : (FP.abs x).isFinite = true := by simpa using hx
  have ay : (FP.abs y).isFinite = true := by simpa using hy
  have hg := gt_abs_fin hx hy
  have eta0 : (0 : ℝ) ≤ b32.eta := by exact_mod_cast b32.eta_pos.le
  obtain ⟨r, hr, o1, o2, o3, o4, o5⟩ : ∃ r : F32, (if FP.gt (FP.abs y) (FP.abs x) then oct32C p y (FP.abs y) (FP.abs x) else oct32C p y (FP.abs x) (FP.abs y)) = r ∧
      r.isFinite = true ∧ r.sign = false ∧ r.val ≤ 0.79 ∧
      |r.real - Real.arctan (if |x.real| < |y.real| then |x.real| / |y.real| else |y.real| / |x.real|)| ≤ 5.1 * 2 ^ (-24 : ℤ) ∧
      |r.real - Real.arctan (if |x.real| < |y.real| then |x.real| / |y.real| else |y.real| / |x.real|)| ≤ 7.8 * 2 ^ (-24 : ℤ) *
        Real.arctan (if |x.real| < |y.real| then |x.real| / |y.real| else |y.real| / |x.real|) + 4.01 * (b32.eta : ℝ) := by
    have hlt : |x.real| < |y.real| ↔ |x.val| < |y.val| := by
      rw [← real_abs', ← real_abs', ← val_abs, ← val_abs]; unfold FP.real; exact Rat.cast_lt
    rw [hg]
    by_cases hs : |x.real| < |y.real|
    · have hv := hlt.1 hs
      have k := oct32C_acc p (y := y) (m := FP.abs x) (M := FP.abs y) ax ay (by simp) (by simp) (by rw [val_abs, val_abs]; exact hv.le)
        (by rw [val_abs]; exact (lt_of_le_of_lt (abs_nonneg _) hv).ne')
        (fun he => by
          rw [eq_fin hy i0.1, i0.2, decide_eq_true_eq] at he
          rw [he, abs_zero] at hv
          exact absurd hv (not_lt.2 (abs_nonneg _)))
      rw [real_abs', real_abs'] at k
      refine ⟨oct32C p y (FP.abs y) (FP.abs x), by simp [hs], ?_⟩
      simp only [hs, if_true]
      exact k
    · have hv : |y.val| ≤ |x.val| := not_lt.1 (fun hc => hs (hlt.2 hc))
      have k := oct32C_acc p (y := y) (m := FP.abs y) (M := FP.abs x) ay ax (by simp) (by simp) (by rw [val_abs, val_abs]; exact hv)
        (by
          rw [val_abs]
          intro hc
          rw [hc] at hv
          rcases h with h | h
          · exact h (abs_eq_zero.1 hc)
          · exact h (abs_eq_zero.1 (le_antisymm hv (abs_nonneg _))))
        (fun he => by
          rw [eq_fin hy i0.1, i0.2, decide_eq_true_eq] at he
          rw [val_abs, he, abs_zero])
      rw [real_abs', real_abs'] at k
      refine ⟨oct32C p y (FP.abs x) (FP.abs y), by simp [hs], ?_⟩
      simp only [hs, if_false]
      exact k
  rw [fast_atan2fC_eq p, hr]
  have u : ((p2 (-24) : ℚ) : ℝ) = 2 ^ (-24 : ℤ) := by rw [p2_eq]; push_cast; rfl
  have pl := plane_acc quad32 pi2_const32 (by decide +kernel) (by decide +kernel) h hg (lt_zero_fin hx i0.1 i0.2) (lt_zero_fin hy i0.1 i0.2) o1 o2 o3 o4 o5
    (D := 2 ^ (-20 : ℤ)) (mul_nonneg (by norm_num) eta0) (by rw [Rat.cast_mul, u]; norm_num) (by rw [Rat.cast_mul, u]; norm_num) (by norm_num)
  obtain ⟨a1, a2, a3, a4, a5, a6, a7⟩ := pl
  generalize quad PIO2F PIF r (FP.gt (FP.abs y) (FP.abs x)) (FP.lt x (lit 0)) (FP.lt y (lit 0)) = res at *
  have e2 : PIO2F.val = 13176795 / 8388608 := by decide +kernel
  rw [e2] at a4 a5
  rw [lt_fin hy i0.1, i0.2] at a2
  rw [lt_fin hx i0.1, i0.2] at a4 a5
  refine ⟨a1, a6, a7.trans (add_le_add le_rfl ?_), ?_, a2, fun h => a4 (by simpa using h), fun h => a5 (by simpa using h)⟩
  · have c : (4.01 : ℚ) * b32.eta ≤ p2 (-147) := by decide +kernel
    have := cast_le_p2 c
    push_cast at this
    exact this
  · have e : PIF.val = 13176795 / 4194304 := by decide +kernel
    rwa [e] at a3

/-- Every pair of finite floats that is not `(0, 0)`: absolute error `2^-20`, relative error `2^-20` up to four steps of the subnormal grid,
inside `[-π, π]` rounded to float, with the sign of `y` and on the side given by the sign of `x`.
(13176795 * 2^-23 is the float nearest to `π/2`.) -/
theorem C24_atan2f_accurate (y x : F32) (hy : y.isFinite = true) (hx : x.isFinite = true) (h : x.val ≠ 0 ∨ y.val ≠ 0) :
    (fast_atan2f y x).isFinite = true ∧
    |(fast_atan2f y x).real - Complex.arg ⟨x.real, y.real⟩| ≤ 2 ^ (-20 : ℤ) ∧
    |(fast_atan2f y x).real - Complex.arg ⟨x.real, y.real⟩| ≤ 2 ^ (-20 : ℤ) * |Complex.arg ⟨x.real, y.real⟩| + 2 ^ (-147 : ℤ) ∧
    |(fast_atan2f y x).val| ≤ 13176795 / 4194304 ∧ (fast_atan2f y x).sign = decide (y.val < 0) ∧
    (0 ≤ x.val → |(fast_atan2f y x).val| ≤ 13176795 / 8388608) ∧
    (x.val < 0 → 13176795 / 8388608 ≤ |(fast_atan2f y x).val|) := by
  rw [← fast_atan2f_plain]
  exact atan2fC_acc _ y x hy hx h

example : (lit 1 : F32).isFinite = true ∧ (-lit 3 : F32).isFinite = true ∧ ((-lit 3 : F32).val ≠ 0 ∨ (lit 1 : F32).val ≠ 0) ∧
    (⟨false, 1, by decide⟩ : F32).isFinite = true ∧ ((⟨true, 0x7F7FFFFF, by decide⟩ : F32).val ≠ 0 ∨ (⟨false, 1, by decide⟩ : F32).val ≠ 0) ∧
    fast_atan2f (lit 1) (lit 1) = lit 0.78539816339744830962 ∧ fast_atan2f (-lit 1) (-lit 1) = -lit 2.35619449019234492885 := by decide +kernel

/-! ## C23 -/

theorem quad_not (P2 P r : FP f) (s a b : Bool) : quad P2 P r s a (!b) = neg (quad P2 P r s a b) := by
  unfold quad
  cases b
  · rfl
  · simp only [Bool.not_true, Bool.false_eq_true, if_false, if_true, neg_def]
    rw [neg_neg']

theorem quad_nan (P2 P : FP f) [f.Ok] (s a b : Bool) : (quad P2 P nan s a b).isNaN = true := by
  have n1 : ∀ q : FP f, q - nan = nan := fun q => sub_nan_right _ nan_isNaN
  unfold quad
  cases s <;> cases a <;> cases b <;> simp [n1, neg_def]

theorem oct64_zero {y M m : F64} (hy : FP.eq y (ofInt 0) = false) (hM : FP.eq M (lit 0) = false) (hd : m / (M + ofBool false) = zero false) :
    oct64 y M m = zero false := by
  unfold oct64
  rw [if_neg (by rw [hy]; exact Bool.false_ne_true), hM, hd]
  decide +kernel

theorem oct32_zero {y M m : F32} (hy : FP.eq y (lit 0) = false) (hM : FP.eq M (lit 0) = false) (hd : m / M = zero false) :
    oct32 y M m = zero false := by
  have g : FP.gt (zero false : F32) (lit 0.4142135623730950) = false := by decide +kernel
  unfold oct32
  simp only [hd, hy, hM, g]
  decide +kernel

/-- Is the number below zero, as `x < 0` in the code? -/
theorem lt_zero_sign [f.Ok] {x z : FP f} (hz : z = zero false) (hn : x.isNaN = false) (h0 : x.isZero = false) : FP.lt x z = x.sign := by
  subst hz
  rw [lt_zero_iff (by rfl) hn, h0]; simp

theorem eq_zero_nonzero [f.Ok] {x z : FP f} (hz : z = zero false) (h0 : x.isZero = false) : FP.eq x z = false := by
  subst hz
  have zf : (zero false : FP f).isFinite = true := zero_finite false
  rcases trichotomy x with hc | hc | hc
  · exact eq_nan_left hc _
  · unfold FP.eq
    simp [hc, finite_not_inf zf]
  · rw [eq_fin hc zf, val_zero]
    refine decide_eq_false fun h => ?_
    rw [zero_of_val h] at h0; cases h0

/-! ### Double precision -/

theorem quad_zero64 : ∀ a b : Bool, quad PIO2 PI (zero false) true a b = signedBy PIO2 b ∧ quad PIO2 PI (zero false) false false b = zero b ∧
    quad PIO2 PI (zero false) false true b = signedBy PI b := by decide +kernel

/-- `y` is a zero of either sign: the result is `+0` or `+π` whatever the sign of that zero. -/
theorem C23_atan2_y_zero_partial (y x : F64) (hy : y.isZero = true) : fast_atan2 y x = if FP.lt x (zero false) then PI else zero false := by
  have z : (ofInt 0 : F64) = zero false := by decide +kernel
  have l0 : (lit 0.0 : F64) = zero false := by decide +kernel
  have hg : FP.gt (FP.abs y) (FP.abs x) = false := by
    have e : FP.abs y = zero false := by
      have := eq_zero' hy
      rw [this]; rfl
    rw [e]
    rcases trichotomy x with hc | hc | hc
    · exact gt_nan_right _ (by simpa using hc)
    · have : FP.abs x = FP.inf false := eq_inf (x := FP.abs x) (by simpa using hc)
      rw [this]; decide +kernel
    · rw [gt_fin (zero_finite false) (by simpa using hc), val_zero, val_abs]
      exact decide_eq_false (not_lt.2 (abs_nonneg _))
  have ey : FP.eq y (ofInt 0) = true := by
    rw [z, eq_zero' hy]; cases y.sign <;> decide +kernel
  have ly : FP.lt y (ofInt 0) = false := by
    rw [z, eq_zero' hy]; cases y.sign <;> decide +kernel
  have ho : oct64 y (FP.abs x) (FP.abs y) = lit 0.0 := by
    unfold oct64; rw [if_pos ey]
  rw [fast_atan2_eq, hg, ly, z]
  simp only [Bool.false_eq_true, if_false]
  rw [ho, l0]
  cases FP.lt x (zero false)
  · exact (quad_zero64 false false).2.1
  · rw [(quad_zero64 false false).2.2, if_pos rfl, signedBy_false (by decide +kernel)]

/-- On the `y` axis the result is `±π/2` with the sign of `y`, infinite `y` included. -/
theorem C23_atan2_x_zero (y x : F64) (hx : x.isZero = true) (hn : y.isNaN = false) (h0 : y.isZero = false) : fast_atan2 y x = signedBy PIO2 y.sign := by
  have z : (ofInt 0 : F64) = zero false := by decide +kernel
  have l0 : (lit 0 : F64) = zero false := by decide +kernel
  have ax : FP.abs x = zero false := by rw [eq_zero' hx]; rfl
  have ay : (FP.abs y).isZero = false := by simpa using h0
  have hg : FP.gt (FP.abs y) (zero false) = true := by
    rcases trichotomy y with hc | hc | hc
    · rw [hc] at hn; cases hn
    · have : FP.abs y = FP.inf false := eq_inf (x := FP.abs y) (by simpa using hc)
      rw [this]; decide +kernel
    · rw [gt_fin (by simpa using hc) (zero_finite false), val_zero, val_abs]
      refine decide_eq_true (abs_pos.2 fun h => ?_)
      rw [zero_of_val h] at h0; cases h0
  have hd : (zero false : F64) / (FP.abs y + ofBool false) = zero false := by
    rcases trichotomy y with hc | hc | hc
    · rw [hc] at hn; cases hn
    · have : FP.abs y = FP.inf false := eq_inf (x := FP.abs y) (by simpa using hc)
      rw [this]; decide +kernel
    · have v : (FP.abs y).val ≠ 0 := fun h => by rw [zero_of_val h] at ay; cases ay
      have o0 : (ofBool false : F64) = zero false := by decide +kernel
      have ad : FP.abs y + ofBool false = FP.abs y := by
        rw [add_def, add_fin (by simpa using hc) (by rw [o0]; exact zero_finite false), o0, val_zero, add_zero]
        exact ofRat_val_fin (by simpa using hc) v
      rw [ad]
      rw [div_def, div_fin (zero_finite false) (by simpa using hc) v, val_zero, zero_div, ofRat_zero]
      rfl
  rw [fast_atan2_eq, ax, hg, if_pos rfl, oct64_zero (eq_zero_nonzero z h0) (eq_zero_nonzero l0 ay) hd, (quad_zero64 _ _).1,
    lt_zero_sign z hn h0]

/-- Infinite `y`, finite `x`: `±π/2`. -/
theorem C23_atan2_y_inf (y x : F64) (hy : y.isInf = true) (hx : x.isFinite = true) : fast_atan2 y x = signedBy PIO2 y.sign := by
  have z : (ofInt 0 : F64) = zero false := by decide +kernel
  have l0 : (lit 0 : F64) = zero false := by decide +kernel
  have ey := eq_inf hy
  have ay : FP.abs y = FP.inf false := by rw [ey]; rfl
  have hn : y.isNaN = false := by rw [ey]; cases y.sign <;> decide +kernel
  have h0 : y.isZero = false := by rw [ey]; cases y.sign <;> decide +kernel
  have hi : (FP.inf false : F64).isInf = true ∧ (FP.inf false : F64).isNaN = false ∧ (FP.inf false : F64).isZero = false := by decide +kernel
  have fx : (FP.abs x).isFinite = true := by simpa using hx
  have hg : FP.gt (FP.inf false) (FP.abs x) = true := by
    unfold FP.gt FP.lt
    rw [finite_not_nan fx, finite_not_inf fx, hi.1, hi.2.1]; rfl
  have hd : FP.abs x / (FP.inf false + ofBool false) = zero false := by
    have e : (FP.inf false + ofBool false : F64) = FP.inf false := by decide +kernel
    rw [e]
    rw [div_def]
    unfold div
    rw [finite_not_nan fx, finite_not_inf fx, hi.1, hi.2.1]; rfl
  rw [fast_atan2_eq, ay, hg, if_pos rfl, oct64_zero (eq_zero_nonzero z h0) (eq_zero_nonzero l0 hi.2.2) hd, (quad_zero64 _ _).1,
    lt_zero_sign z hn h0]

/-- Infinite `x`, finite nonzero `y`: `±0` to the right, `±π` to the left. -/
theorem C23_atan2_x_inf (y x : F64) (hx : x.isInf = true) (hy : y.isFinite = true) (h0 : y.isZero = false) :
    fast_atan2 y x = if x.sign then signedBy PI y.sign else zero y.sign := by
  have z : (ofInt 0 : F64) = zero false := by decide +kernel
  have l0 : (lit 0 : F64) = zero false := by decide +kernel
  have ex := eq_inf hx
  have ax : FP.abs x = FP.inf false := by rw [ex]; rfl
  have hn : x.isNaN = false := by rw [ex]; cases x.sign <;> decide +kernel
  have hx0 : x.isZero = false := by rw [ex]; cases x.sign <;> decide +kernel
  have hi : (FP.inf false : F64).isInf = true ∧ (FP.inf false : F64).isNaN = false ∧ (FP.inf false : F64).isZero = false ∧ (FP.inf false : F64).sign = false := by
    decide +kernel
  have fy : (FP.abs y).isFinite = true := by simpa using hy
  have hg : FP.gt (FP.abs y) (FP.inf false) = false := by
    unfold FP.gt FP.lt
    rw [finite_not_nan fy, finite_not_inf fy, hi.1, hi.2.1]; rfl
  have hd : FP.abs y / (FP.inf false + ofBool false) = zero false := by
    have e : (FP.inf false + ofBool false : F64) = FP.inf false := by decide +kernel
    rw [e]
    rw [div_def]
    unfold div
    rw [finite_not_nan fy, finite_not_inf fy, hi.1, hi.2.1]; rfl
  rw [fast_atan2_eq, ax, hg, if_neg Bool.false_ne_true, oct64_zero (eq_zero_nonzero z h0) (eq_zero_nonzero l0 hi.2.2.1) hd,
    lt_zero_sign z (finite_not_nan hy) h0, lt_zero_sign z hn hx0]
  cases x.sign
  · exact (quad_zero64 false _).2.1
  · exact (quad_zero64 false _).2.2

/-- A NaN argument gives NaN unless the other argument is `y = ±0`. -/
theorem C23_atan2_nan_partial (y x : F64) (h : y.isNaN = true ∨ (x.isNaN = true ∧ y.isZero = false)) : (fast_atan2 y x).isNaN = true := by
  have z : (ofInt 0 : F64) = zero false := by decide +kernel
  have h0 : y.isZero = false := by
    rcases h with h | h
    · cases hz : y.isZero
      · rfl
      · rw [eq_zero' hz] at h
        have : ∀ s : Bool, (zero s : F64).isNaN = false := by decide +kernel
        rw [this] at h; cases h
    · exact h.2
  have hg : FP.gt (FP.abs y) (FP.abs x) = false := by
    rcases h with h | h
    · exact gt_nan_left (by simpa using h) _
    · exact gt_nan_right _ (by simpa using h.1)
  have ho : oct64 y (FP.abs x) (FP.abs y) = nan := by
    unfold oct64
    rw [if_neg (by rw [eq_zero_nonzero z h0]; exact Bool.false_ne_true)]
    have hd : FP.abs y / (FP.abs x + ofBool (FP.eq (FP.abs x) (lit 0))) = nan := by
      rcases h with h | h
      · exact div_nan_left (by simpa using h) _
      · rw [add_def, add_nan_left (by simpa using h.1)]; exact div_nan_right _ nan_isNaN
    rw [hd]
    exact mul_nan_left (atanPos_nan nan_isNaN) _
  rw [fast_atan2_eq, hg, if_neg Bool.false_ne_true, ho]
  exact quad_nan _ _ _ _ _

/-- Flipping the sign of a nonzero `y` flips the sign bit of the result. -/
theorem C23_atan2_odd_partial (y x : F64) (hn : y.isNaN = false) (h0 : y.isZero = false) : fast_atan2 (FP.neg y) x = FP.neg (fast_atan2 y x) := by
  have z : (ofInt 0 : F64) = zero false := by decide +kernel
  have e1 : FP.abs (FP.neg y) = FP.abs y := rfl
  have e2 : FP.eq (FP.neg y) (ofInt 0) = FP.eq y (ofInt 0) := by
    rw [eq_zero_nonzero z h0, eq_zero_nonzero z (by simpa using h0)]
  have e3 : FP.lt (FP.neg y) (ofInt 0) = !FP.lt y (ofInt 0) := by
    rw [lt_zero_sign z hn h0, lt_zero_sign z (by simpa using hn) (by simpa using h0)]; rfl
  have e4 : ∀ M m, oct64 (FP.neg y) M m = oct64 y M m := by
    intro M m; unfold oct64; rw [e2]
  rw [fast_atan2_eq, fast_atan2_eq, e1, e3, e4, e4, quad_not]

/-- What the C standard asks and the code does not do: the sign of a zero `y` is lost, two infinities and a zero with a NaN come out wrong. -/
theorem C23_atan2_witnesses :
    fast_atan2 (zero true) (lit 1) = zero false ∧ fast_atan2 (zero true) (-lit 1) = PI ∧ (fast_atan2 (FP.inf false) (FP.inf false)).isNaN = true ∧
    fast_atan2 (zero false) nan = zero false := by decide +kernel

theorem C23_atan2_violated :
    ¬ (∀ x : F64, x.isFinite = true → 0 < x.val → fast_atan2 (zero true) x = zero true) ∧
    ¬ (∀ x : F64, x.isFinite = true → x.val < 0 → (fast_atan2 (zero true) x).sign = true) ∧
    ¬ (∀ x y : F64, x.isInf = true → y.isInf = true → (fast_atan2 y x).isNaN = false) ∧
    ¬ (∀ x y : F64, x.isNaN = true → (fast_atan2 y x).isNaN = true) ∧
    ¬ (∀ x y : F64, y.isNaN = false → x.isNaN = false → fast_atan2 (FP.neg y) x = FP.neg (fast_atan2 y x)) := by
  obtain ⟨w1, w2, w3, w4⟩ := C23_atan2_witnesses
  refine ⟨fun h => ?_, fun h => ?_, fun h => ?_, fun h => ?_, fun h => ?_⟩
  · have := h (lit 1) (by decide +kernel) (by decide +kernel)
    rw [w1] at this; revert this; decide +kernel
  · have := h (-lit 1) (by decide +kernel) (by decide +kernel)
    rw [w2] at this; revert this; decide +kernel
  · have := h (FP.inf false) (FP.inf false) (by decide +kernel) (by decide +kernel)
    rw [w3] at this; cases this
  · have := h nan (zero false) (by decide +kernel)
    rw [w4] at this; revert this; decide +kernel
  · have := h (lit 1) (zero false) (by decide +kernel) (by decide +kernel)
    have e : FP.neg (zero false : F64) = zero true := rfl
    rw [e, w1] at this
    have e2 : fast_atan2 (zero false) (lit 1) = zero false := by decide +kernel
    rw [e2] at this; revert this; decide +kernel

/-- The hypotheses are met by zeros of either sign, numbers, infinities and NaNs. -/
example : (zero true : F64).isZero = true ∧ (FP.inf true : F64).isNaN = false ∧ (FP.inf true : F64).isZero = false ∧ (FP.inf true : F64).isInf = true ∧
    (-lit 3 : F64).isFinite = true ∧ (-lit 3 : F64).isZero = false ∧ (nan : F64).isNaN = true ∧
    fast_atan2 (-lit 3) (zero true) = signedBy PIO2 true ∧ fast_atan2 (-lit 3) (FP.inf true) = signedBy PI true ∧
    fast_atan2 (FP.neg (lit 1)) (lit 3) = FP.neg (fast_atan2 (lit 1) (lit 3)) ∧ fast_atan2 (zero false) (zero false) = zero false := by decide +kernel

/-! ### Single precision -/

theorem quad_zero32 : ∀ a b : Bool, quad PIO2F PIF (zero false) true a b = signedBy PIO2F b ∧ quad PIO2F PIF (zero false) false false b = zero b ∧
    quad PIO2F PIF (zero false) false true b = signedBy PIF b := by decide +kernel

/-- `y` is a zero of either sign: the result is `+0` or `+π` whatever the sign of that zero. -/
theorem C23_atan2f_y_zero_partial (y x : F32) (hy : y.isZero = true) : fast_atan2f y x = if FP.lt x (zero false) then PIF else zero false := by
  have z : (lit 0 : F32) = zero false := by decide +kernel
  have l0 : (lit 0 : F32) = zero false := by decide +kernel
  have hg : FP.gt (FP.abs y) (FP.abs x) = false := by
    have e : FP.abs y = zero false := by
      have := eq_zero' hy
      rw [this]; rfl
    rw [e]
    rcases trichotomy x with hc | hc | hc
    · exact gt_nan_right _ (by simpa using hc)
    · have : FP.abs x = FP.inf false := eq_inf (x := FP.abs x) (by simpa using hc)
      rw [this]; decide +kernel
    · rw [gt_fin (zero_finite false) (by simpa using hc), val_zero, val_abs]
      exact decide_eq_false (not_lt.2 (abs_nonneg _))
  have ey : FP.eq y (lit 0) = true := by
    rw [z, eq_zero' hy]; cases y.sign <;> decide +kernel
  have ly : FP.lt y (lit 0) = false := by
    rw [z, eq_zero' hy]; cases y.sign <;> decide +kernel
  have ho : oct32 y (FP.abs x) (FP.abs y) = lit 0 := by
    have c1 : FP.gt (FP.abs y / FP.abs x) (lit 0.4142135623730950) = false := by
      have e : FP.abs y = zero false := by rw [eq_zero' hy]; rfl
      rw [e]
      rcases trichotomy (FP.abs x) with hc | hc | hc
      · rw [div_def, div_nan_right _ hc]; decide +kernel
      · rw [eq_inf hc]
        have : (FP.abs x).sign = false := rfl
        rw [this]; decide +kernel
      · rcases eq_or_ne (FP.abs x).val 0 with hv | hv
        · rw [eq_zero' (zero_of_val hv)]
          have : (FP.abs x).sign = false := rfl
          rw [this]; decide +kernel
        · rw [div_def, div_fin (zero_finite false) hc hv, val_zero, zero_div, ofRat_zero]
          have : (FP.abs x).sign = false := rfl
          rw [this]; decide +kernel
    unfold oct32
    simp only [ey, c1, Bool.false_eq_true, if_false, if_true]
  rw [fast_atan2f_eq, hg, ly, z]
  simp only [Bool.false_eq_true, if_false]
  rw [ho, l0]
  cases FP.lt x (zero false)
  · exact (quad_zero32 false false).2.1
  · rw [(quad_zero32 false false).2.2, if_pos rfl, signedBy_false (by decide +kernel)]

/-- On the `y` axis the result is `±π/2` with the sign of `y`, infinite `y` included. -/
theorem C23_atan2f_x_zero (y x : F32) (hx : x.isZero = true) (hn : y.isNaN = false) (h0 : y.isZero = false) : fast_atan2f y x = signedBy PIO2F y.sign := by
  have z : (lit 0 : F32) = zero false := by decide +kernel
  have l0 : (lit 0 : F32) = zero false := by decide +kernel
  have ax : FP.abs x = zero false := by rw [eq_zero' hx]; rfl
  have ay : (FP.abs y).isZero = false := by simpa using h0
  have hg : FP.gt (FP.abs y) (zero false) = true := by
    rcases trichotomy y with hc | hc | hc
    · rw [hc] at hn; cases hn
    · have : FP.abs y = FP.inf false := eq_inf (x := FP.abs y) (by simpa using hc)
      rw [this]; decide +kernel
    · rw [gt_fin (by simpa using hc) (zero_finite false), val_zero, val_abs]
      refine decide_eq_true (abs_pos.2 fun h => ?_)
      rw [zero_of_val h] at h0; cases h0
  have hd : (zero false : F32) / (FP.abs y) = zero false := by
    rcases trichotomy y with hc | hc | hc
    · rw [hc] at hn; cases hn
    · have : FP.abs y = FP.inf false := eq_inf (x := FP.abs y) (by simpa using hc)
      rw [this]; decide +kernel
    · have v : (FP.abs y).val ≠ 0 := fun h => by rw [zero_of_val h] at ay; cases ay

      rw [div_def, div_fin (zero_finite false) (by simpa using hc) v, val_zero, zero_div, ofRat_zero]
      rfl
  rw [fast_atan2f_eq, ax, hg, if_pos rfl, oct32_zero (eq_zero_nonzero z h0) (eq_zero_nonzero l0 ay) hd, (quad_zero32 _ _).1,
    lt_zero_sign z hn h0]

/-- Infinite `y`, finite `x`: `±π/2`. -/
theorem C23_atan2f_y_inf (y x : F32) (hy : y.isInf = true) (hx : x.isFinite = true) : fast_atan2f y x = signedBy PIO2F y.sign := by
  have z : (lit 0 : F32) = zero false := by decide +kernel
  have l0 : (lit 0 : F32) = zero false := by decide +kernel
  have ey := eq_inf hy
  have ay : FP.abs y = FP.inf false := by rw [ey]; rfl
  have hn : y.isNaN = false := by rw [ey]; cases y.sign <;> decide +kernel
  have h0 : y.isZero = false := by rw [ey]; cases y.sign <;> decide +kernel
  have hi : (FP.inf false : F32).isInf = true ∧ (FP.inf false : F32).isNaN = false ∧ (FP.inf false : F32).isZero = false := by decide +kernel
  have fx : (FP.abs x).isFinite = true := by simpa using hx
  have hg : FP.gt (FP.inf false) (FP.abs x) = true := by
    unfold FP.gt FP.lt
    rw [finite_not_nan fx, finite_not_inf fx, hi.1, hi.2.1]; rfl
  have hd : FP.abs x / (FP.inf false) = zero false := by

    rw [div_def]
    unfold div
    rw [finite_not_nan fx, finite_not_inf fx, hi.1, hi.2.1]; rfl
  rw [fast_atan2f_eq, ay, hg, if_pos rfl, oct32_zero (eq_zero_nonzero z h0) (eq_zero_nonzero l0 hi.2.2) hd, (quad_zero32 _ _).1,
    lt_zero_sign z hn h0]

/-- Infinite `x`, finite nonzero `y`: `±0` to the right, `±π` to the left. -/
theorem C23_atan2f_x_inf (y x : F32) (hx : x.isInf = true) (hy : y.isFinite = true) (h0 : y.isZero = false) :
    fast_atan2f y x = if x.sign then signedBy PIF y.sign else zero y.sign := by
  have z : (lit 0 : F32) = zero false := by decide +kernel
  have l0 : (lit 0 : F32) = zero false := by decide +kernel
  have ex := eq_inf hx
  have ax : FP.abs x = FP.inf false := by rw [ex]; rfl
  have hn : x.isNaN = false := by rw [ex]; cases x.sign <;> decide +kernel
  have hx0 : x.isZero = false := by rw [ex]; cases x.sign <;> decide +kernel
  have hi : (FP.inf false : F32).isInf = true ∧ (FP.inf false : F32).isNaN = false ∧ (FP.inf false : F32).isZero = false ∧ (FP.inf false : F32).sign = false := by
    decide +kernel
  have fy : (FP.abs y).isFinite = true := by simpa using hy
  have hg : FP.gt (FP.abs y) (FP.inf false) = false := by
    unfold FP.gt FP.lt
    rw [finite_not_nan fy, finite_not_inf fy, hi.1, hi.2.1]; rfl
  have hd : FP.abs y / (FP.inf false) = zero false := by

    rw [div_def]
    unfold div
    rw [finite_not_nan fy, finite_not_inf fy, hi.1, hi.2.1]; rfl
  rw [fast_atan2f_eq, ax, hg, if_neg Bool.false_ne_true, oct32_zero (eq_zero_nonzero z h0) (eq_zero_nonzero l0 hi.2.2.1) hd,
    lt_zero_sign z (finite_not_nan hy) h0, lt_zero_sign z hn hx0]
  cases x.sign
  · exact (quad_zero32 false _).2.1
  · exact (quad_zero32 false _).2.2

/-- A NaN argument gives NaN unless the other argument is `y = ±0`. -/
theorem C23_atan2f_nan_partial (y x : F32) (h : y.isNaN = true ∨ (x.isNaN = true ∧ y.isZero = false)) : (fast_atan2f y x).isNaN = true := by
  have z : (lit 0 : F32) = zero false := by decide +kernel
  have h0 : y.isZero = false := by
    rcases h with h | h
    · cases hz : y.isZero
      · rfl
      · rw [eq_zero' hz] at h
        have : ∀ s : Bool, (zero s : F32).isNaN = false := by decide +kernel
        rw [this] at h; cases h
    · exact h.2
  have hg : FP.gt (FP.abs y) (FP.abs x) = false := by
    rcases h with h | h
    · exact gt_nan_left (by simpa using h) _
    · exact gt_nan_right _ (by simpa using h.1)
  have ho : oct32 y (FP.abs x) (FP.abs y) = nan := by
    have hd : FP.abs y / FP.abs x = nan := by
      rcases h with h | h
      · exact div_nan_left (by simpa using h) _
      · exact div_nan_right _ (by simpa using h.1)
    have g : FP.gt (nan : F32) (lit 0.4142135623730950) = false := by decide +kernel
    have c : atanfCore (nan : F32) = nan := by decide +kernel
    unfold oct32
    simp only [hd, eq_zero_nonzero z h0, g, Bool.false_eq_true, if_false, c]
    exact mul_nan_left nan_isNaN _
  rw [fast_atan2f_eq, hg, if_neg Bool.false_ne_true, ho]
  exact quad_nan _ _ _ _ _

/-- Flipping the sign of a nonzero `y` flips the sign bit of the result. -/
theorem C23_atan2f_odd_partial (y x : F32) (hn : y.isNaN = false) (h0 : y.isZero = false) : fast_atan2f (FP.neg y) x = FP.neg (fast_atan2f y x) := by
  have z : (lit 0 : F32) = zero false := by decide +kernel
  have e1 : FP.abs (FP.neg y) = FP.abs y := rfl
  have e2 : FP.eq (FP.neg y) (lit 0) = FP.eq y (lit 0) := by
    rw [eq_zero_nonzero z h0, eq_zero_nonzero z (by simpa using h0)]
  have e3 : FP.lt (FP.neg y) (lit 0) = !FP.lt y (lit 0) := by
    rw [lt_zero_sign z hn h0, lt_zero_sign z (by simpa using hn) (by simpa using h0)]; rfl
  have e4 : ∀ M m, oct32 (FP.neg y) M m = oct32 y M m := by
    intro M m; unfold oct32; rw [e2]
  rw [fast_atan2f_eq, fast_atan2f_eq, e1, e3, e4, e4, quad_not]

/-- What the C standard asks and the code does not do: the sign of a zero `y` is lost, two infinities and a zero with a NaN come out wrong. -/
theorem C23_atan2f_witnesses :
    fast_atan2f (zero true) (lit 1) = zero false ∧ fast_atan2f (zero true) (-lit 1) = PIF ∧ (fast_atan2f (FP.inf false) (FP.inf false)).isNaN = true ∧
    fast_atan2f (zero false) nan = zero false := by decide +kernel

theorem C23_atan2f_violated :
    ¬ (∀ x : F32, x.isFinite = true → 0 < x.val → fast_atan2f (zero true) x = zero true) ∧
    ¬ (∀ x : F32, x.isFinite = true → x.val < 0 → (fast_atan2f (zero true) x).sign = true) ∧
    ¬ (∀ x y : F32, x.isInf = true → y.isInf = true → (fast_atan2f y x).isNaN = false) ∧
    ¬ (∀ x y : F32, x.isNaN = true → (fast_atan2f y x).isNaN = true) ∧
    ¬ (∀ x y : F32, y.isNaN = false → x.isNaN = false → fast_atan2f (FP.neg y) x = FP.neg (fast_atan2f y x)) := by
  obtain ⟨w1, w2, w3, w4⟩ := C23_atan2f_witnesses
  refine ⟨fun h => ?_, fun h => ?_, fun h => ?_, fun h => ?_, fun h => ?_⟩
  · have := h (lit 1) (by decide +kernel) (by decide +kernel)
    rw [w1] at this; revert this; decide +kernel
  · have := h (-lit 1) (by decide +kernel) (by decide +kernel)
    rw [w2] at this; revert this; decide +kernel
  · have := h (FP.inf false) (FP.inf false) (by decide +kernel) (by decide +kernel)
    rw [w3] at this; cases this
  · have := h nan (zero false) (by decide +kernel)
    rw [w4] at this; revert this; decide +kernel
  · have := h (lit 1) (zero false) (by decide +kernel) (by decide +kernel)
    have e : FP.neg (zero false : F32) = zero true := rfl
    rw [e, w1] at this
    have e2 : fast_atan2f (zero false) (lit 1) = zero false := by decide +kernel
    rw [e2] at this; revert this; decide +kernel

/-- The hypotheses are met by zeros of either sign, numbers, infinities and NaNs. -/
example : (zero true : F32).isZero = true ∧ (FP.inf true : F32).isNaN = false ∧ (FP.inf true : F32).isZero = false ∧ (FP.inf true : F32).isInf = true ∧
    (-lit 3 : F32).isFinite = true ∧ (-lit 3 : F32).isZero = false ∧ (nan : F32).isNaN = true ∧
    fast_atan2f (-lit 3) (zero true) = signedBy PIO2F true ∧ fast_atan2f (-lit 3) (FP.inf true) = signedBy PIF true ∧
    fast_atan2f (FP.neg (lit 1)) (lit 3) = FP.neg (fast_atan2f (lit 1) (lit 3)) ∧ fast_atan2f (zero false) (zero false) = zero false := by decide +kernel

end Vdt
