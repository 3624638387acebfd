import Verif.Props.Asin
import Mathlib.Analysis.Real.Pi.Bounds

/-!
# The arc cosine next to one (C105)

`fast_acos` is the difference of `π/2` and the arc sine (`include/asin.h:207-211`), so that it keeps an absolute accuracy (C27, C28) but not a relative one: next to 1,
where the arc cosine is about `√(2(1-x))`, half of the digits are wrong.
-/

namespace Vdt
open FP details
variable {f : Fmt}

/-- The arc cosine is at least the length of the chord. -/
theorem arccos_chord {x : ℝ} (h1 : -1 ≤ x) (h2 : x ≤ 1) : Real.sqrt (2 * (1 - x)) ≤ Real.arccos x := by
  refine Real.sqrt_le_iff.2 ⟨Real.arccos_nonneg x, ?_⟩
  have := Real.one_sub_sq_div_two_le_cos (x := Real.arccos x)
  rw [Real.cos_arccos h1 h2] at this
  linarith

theorem arccos_gt_one {x : ℝ} (h2 : x ≤ 1 / 2) : 1 ≤ Real.arccos x := by
  have h : Real.arccos (1 / 2) ≤ Real.arccos x := Real.arccos_le_arccos h2
  have e : Real.arccos (1 / 2) = Real.pi / 3 := by
    rw [← Real.cos_pi_div_three, Real.arccos_cos (by positivity) (by linarith [Real.pi_pos])]
  rw [e] at h
  linarith [Real.pi_gt_three]

/-- From absolute to relative accuracy. -/
theorem acos_rel {y : FP f} {x ε : ℝ} (h1 : -1 ≤ x) (h2 : x < 1) (e0 : 0 ≤ ε) (h : y.CloseAbs (Real.arccos x) ε) :
    y.CloseRel (Real.arccos x) (ε / Real.sqrt (2 * (1 - x))) := by
  have s0 : 0 < Real.sqrt (2 * (1 - x)) := Real.sqrt_pos.2 (by linarith)
  have c := arccos_chord h1 h2.le
  refine ⟨h.1, h.2.trans ?_⟩
  rw [abs_of_nonneg (s0.le.trans c), div_mul_eq_mul_div, le_div_iff₀ s0]
  exact mul_le_mul_of_nonneg_left c e0

theorem pos_of_closeRel {y : FP f} {r ε : ℝ} (hr : 0 < r) (he : ε < 1) (h : y.CloseRel r ε) : 0 < y.val := by
  have k := (abs_le.1 h.2).1
  rw [abs_of_pos hr] at k
  have : 0 < y.real := by nlinarith
  unfold FP.real at this
  exact_mod_cast this

/-- A result that is too small: `cos` of the enlarged result is still above `x`. -/
theorem far_acos {y : FP f} {x ε : ℚ} (x0 : -1 ≤ x) (x1 : x ≤ 1) (y0 : 0 ≤ y.val) (he : ε < 1) (h : y.val * y.val < (1 - ε) * (1 - ε) * (2 * (1 - x))) :
    ¬ y.CloseRel (Real.arccos x) ε := by
  rintro ⟨-, k⟩
  have c := arccos_chord (x := (x : ℝ)) (by exact_mod_cast x0) (by exact_mod_cast x1)
  have s0 := Real.sqrt_nonneg (2 * (1 - (x : ℝ)))
  have x1' : (x : ℝ) ≤ 1 := by exact_mod_cast x1
  have ss := Real.mul_self_sqrt (show 0 ≤ 2 * (1 - (x : ℝ)) by linarith)
  have he' : (ε : ℝ) < 1 := by exact_mod_cast he
  have y0' : 0 ≤ y.real := by unfold FP.real; exact_mod_cast y0
  have h' : y.real * y.real < (1 - ε) * (1 - ε) * (2 * (1 - x)) := by unfold FP.real; exact_mod_cast h
  rw [abs_of_nonneg (s0.trans c)] at k
  have k1 := (abs_le.1 k).1
  rw [← ss] at h'
  generalize Real.sqrt (2 * (1 - (x : ℝ))) = s at *
  generalize Real.arccos (x : ℝ) = t at *
  generalize y.real = Y at *
  have k2 : (1 - ε) * s ≤ Y := by nlinarith
  have k3 : ((1 - ε) * s) * ((1 - ε) * s) ≤ Y * Y := mul_le_mul k2 k2 (mul_nonneg (by linarith) s0) y0'
  linarith [show ((1 - (ε : ℝ)) * s) * ((1 - ε) * s) = (1 - ε) * (1 - ε) * (s * s) by ring]

/-! ## Numbers below one -/

theorem below_one64 {x : F64} (h1 : x.val < 1) : x.val ≤ 1 - 1 / 2 ^ 53 := by
  by_contra hc
  push Not at hc
  have hp : 0 < x.val := lt_trans (by norm_num) hc
  have e1 := abs_val x
  rw [abs_of_pos hp] at e1
  have e2 : magVal b64 (1023 * 2 ^ 52) = 1 := by decide +kernel
  have e3 : magVal b64 (1023 * 2 ^ 52 - 1) = 1 - 1 / 2 ^ 53 := by decide +kernel
  rw [e1, ← e2] at h1
  rw [e1, ← e3] at hc
  have a := (magVal_lt (f := b64)).1 h1
  have b := (magVal_lt (f := b64)).1 hc
  omega

theorem below_one32 {x : F32} (h1 : x.val < 1) : x.val ≤ 1 - 1 / 2 ^ 24 := by
  by_contra hc
  push Not at hc
  have hp : 0 < x.val := lt_trans (by norm_num) hc
  have e1 := abs_val x
  rw [abs_of_pos hp] at e1
  have e2 : magVal b32 (127 * 2 ^ 23) = 1 := by decide +kernel
  have e3 : magVal b32 (127 * 2 ^ 23 - 1) = 1 - 1 / 2 ^ 24 := by decide +kernel
  rw [e1, ← e2] at h1
  rw [e1, ← e3] at hc
  have a := (magVal_lt (f := b32)).1 h1
  have b := (magVal_lt (f := b32)).1 hc
  omega

/-- The square root of the smallest distance from one. -/
theorem chord_low {x d : ℝ} (d0 : 0 ≤ d) (h : x ≤ 1 - d * d / 2) : d ≤ Real.sqrt (2 * (1 - x)) :=
  Real.le_sqrt_of_sq_le (by rw [sq]; linarith)

/-! ## C105 -/

/-- **C105** as stated: the arc cosine has the relative accuracy of the arc sine. -/
def AcosRelative : Prop :=
  (∀ x : F64, -1 ≤ x.val → x.val < 1 → x.isFinite = true → (fast_acos x).CloseRel (Real.arccos x.real) (2 ^ (-50 : ℤ))) ∧
  (∀ x : F32, -1 ≤ x.val → x.val < 1 → x.isFinite = true → (fast_acosf x).CloseRel (Real.arccos x.real) (2 ^ (-20 : ℤ)))

/-- The relative error is at most `2^-50 / √(2(1-x))` whatever operations the compiler fuses; it never exceeds `2^-24`, and up to `1/2` it is at most `2^-50`. -/
theorem C105_acos_partial (p : Policy) (x : F64) (hx : x.isFinite = true) (h0 : -1 ≤ x.val) (h1 : x.val < 1) :
    (fast_acosC p x).CloseRel (Real.arccos x.real) (2 ^ (-50 : ℤ) / Real.sqrt (2 * (1 - x.real))) ∧
    (fast_acosC p x).CloseRel (Real.arccos x.real) (2 ^ (-24 : ℤ)) ∧
    (x.val ≤ 1 / 2 → (fast_acosC p x).CloseRel (Real.arccos x.real) (2 ^ (-50 : ℤ))) := by
  have a := (fast_acosC_acc p x hx (abs_le.2 ⟨h0, h1.le⟩)).1
  have x0 : -1 ≤ x.real := by unfold FP.real; exact_mod_cast h0
  have x1 : x.real < 1 := by unfold FP.real; exact_mod_cast h1
  have r := acos_rel x0 x1 (by positivity) a
  refine ⟨r, ⟨r.1, r.2.trans (mul_le_mul_of_nonneg_right ?_ (abs_nonneg _))⟩, fun h => ⟨a.1, a.2.trans ?_⟩⟩
  · have b : x.real ≤ 1 - 1 / 2 ^ 53 := by
      have := (Rat.cast_le (K := ℝ)).2 (below_one64 h1)
      push_cast at this; exact this
    have c := chord_low (x := x.real) (d := 2 ^ (-26 : ℤ)) (by positivity) (by norm_num at b ⊢; linarith)
    refine (div_le_div_of_nonneg_left (by positivity) (by positivity) c).trans ?_
    norm_num
  · have g := arccos_gt_one (x := x.real) (by unfold FP.real; have := (Rat.cast_le (K := ℝ)).2 h; push_cast at this; exact this)
    rw [abs_of_nonneg (by linarith)]
    exact le_mul_of_one_le_right (by positivity) g

/-- The number before one meets the hypotheses. -/
example : (⟨false, 1023 * 2 ^ 52 - 1, by decide⟩ : F64).isFinite = true ∧ -1 ≤ (⟨false, 1023 * 2 ^ 52 - 1, by decide⟩ : F64).val ∧
    (⟨false, 1023 * 2 ^ 52 - 1, by decide⟩ : F64).val < 1 := by decide +kernel

theorem C105_acosf_partial (p : Policy) (x : F32) (hx : x.isFinite = true) (h0 : -1 ≤ x.val) (h1 : x.val < 1) :
    (fast_acosfC p x).CloseRel (Real.arccos x.real) (2 ^ (-20 : ℤ) / Real.sqrt (2 * (1 - x.real))) ∧
    (fast_acosfC p x).CloseRel (Real.arccos x.real) (2 ^ (-8 : ℤ)) ∧
    (x.val ≤ 1 / 2 → (fast_acosfC p x).CloseRel (Real.arccos x.real) (2 ^ (-20 : ℤ))) := by
  have a := (fast_acosfC_acc p x hx (abs_le.2 ⟨h0, h1.le⟩)).1
  have x0 : -1 ≤ x.real := by unfold FP.real; exact_mod_cast h0
  have x1 : x.real < 1 := by unfold FP.real; exact_mod_cast h1
  have r := acos_rel x0 x1 (by positivity) a
  refine ⟨r, ⟨r.1, r.2.trans (mul_le_mul_of_nonneg_right ?_ (abs_nonneg _))⟩, fun h => ⟨a.1, a.2.trans ?_⟩⟩
  · have b : x.real ≤ 1 - 1 / 2 ^ 24 := by
      have := (Rat.cast_le (K := ℝ)).2 (below_one32 h1)
      push_cast at this; exact this
    have c := chord_low (x := x.real) (d := 2 ^ (-12 : ℤ)) (by positivity) (by norm_num at b ⊢; linarith)
    refine (div_le_div_of_nonneg_left (by positivity) (by positivity) c).trans ?_
    norm_num
  · have g := arccos_gt_one (x := x.real) (by unfold FP.real; have := (Rat.cast_le (K := ℝ)).2 h; push_cast at this; exact this)
    rw [abs_of_nonneg (by linarith)]
    exact le_mul_of_one_le_right (by positivity) g

/-- The number before one meets the hypotheses. -/
example : (⟨false, 127 * 2 ^ 23 - 1, by decide⟩ : F32).isFinite = true ∧ -1 ≤ (⟨false, 127 * 2 ^ 23 - 1, by decide⟩ : F32).val ∧
    (⟨false, 127 * 2 ^ 23 - 1, by decide⟩ : F32).val < 1 := by decide +kernel

/-- The arc cosine vanishes at one only. -/
theorem C105_zero (x : F64) (y : F32) (hx : x.isFinite = true) (hy : y.isFinite = true) (h : |x.val| ≤ 1) (k : |y.val| ≤ 1) :
    ((fast_acos x).val = 0 ↔ x.val = 1) ∧ ((fast_acosf y).val = 0 ↔ y.val = 1) := by
  have h' := abs_le.1 h; have k' := abs_le.1 k
  refine ⟨⟨fun e => ?_, fun e => ?_⟩, ⟨fun e => ?_, fun e => ?_⟩⟩
  · by_contra hc
    have l := lt_of_le_of_ne h'.2 hc
    have r := (C105_acos_partial (fun _ => false) x hx h'.1 l).2.1
    rw [fast_acos_plain] at r
    have := pos_of_closeRel (Real.arccos_pos.2 (by unfold FP.real; exact_mod_cast l)) (by norm_num) r
    exact this.ne' e
  · have : x = lit 1 := eq_of_val_ne (by rw [e]; exact one_ne_zero) (by rw [e]; decide +kernel)
    rw [this]; decide +kernel
  · by_contra hc
    have l := lt_of_le_of_ne k'.2 hc
    have r := (C105_acosf_partial (fun _ => false) y hy k'.1 l).2.1
    rw [fast_acosf_plain] at r
    have := pos_of_closeRel (Real.arccos_pos.2 (by unfold FP.real; exact_mod_cast l)) (by norm_num) r
    exact this.ne' e
  · have : y = lit 1 := eq_of_val_ne (by rw [e]; exact one_ne_zero) (by rw [e]; decide +kernel)
    rw [this]; decide +kernel

example : (lit 1 : F64).isFinite = true ∧ (lit (-0.5) : F32).isFinite = true ∧ |(lit 1 : F64).val| ≤ 1 ∧ |(lit (-0.5) : F32).val| ≤ 1 := by decide +kernel

/-- At `1 - 2^-52` the relative error of `fast_acos` is above `2^-28`, and at `1 - 2^-24` that of `fast_acosf` is above `2^-14`. -/
theorem C105_violated : ¬ AcosRelative ∧
    (∃ x : F64, -1 ≤ x.val ∧ x.val < 1 ∧ ¬ (fast_acos x).CloseRel (Real.arccos x.real) (2 ^ (-28 : ℤ))) ∧
    (∃ x : F32, -1 ≤ x.val ∧ x.val < 1 ∧ ¬ (fast_acosf x).CloseRel (Real.arccos x.real) (2 ^ (-14 : ℤ))) := by
  have d : ¬ (fast_acos ⟨false, 1023 * 2 ^ 52 - 2, by decide⟩).CloseRel (Real.arccos (⟨false, 1023 * 2 ^ 52 - 2, by decide⟩ : F64).real) (2 ^ (-28 : ℤ)) := by
    have k := far_acos (f := b64) (y := fast_acos ⟨false, 1023 * 2 ^ 52 - 2, by decide⟩) (x := (⟨false, 1023 * 2 ^ 52 - 2, by decide⟩ : F64).val) (ε := 1 / 2 ^ 28)
      (by decide +kernel) (by decide +kernel) (by decide +kernel) (by norm_num) (by decide +kernel)
    rw [show (((1 / 2 ^ 28 : ℚ)) : ℝ) = 2 ^ (-28 : ℤ) by norm_num] at k
    exact k
  have s : ¬ (fast_acosf ⟨false, 127 * 2 ^ 23 - 1, by decide⟩).CloseRel (Real.arccos (⟨false, 127 * 2 ^ 23 - 1, by decide⟩ : F32).real) (2 ^ (-14 : ℤ)) := by
    have k := far_acos (f := b32) (y := fast_acosf ⟨false, 127 * 2 ^ 23 - 1, by decide⟩) (x := (⟨false, 127 * 2 ^ 23 - 1, by decide⟩ : F32).val) (ε := 1 / 2 ^ 14)
      (by decide +kernel) (by decide +kernel) (by decide +kernel) (by norm_num) (by decide +kernel)
    rw [show (((1 / 2 ^ 14 : ℚ)) : ℝ) = 2 ^ (-14 : ℤ) by norm_num] at k
    exact k
  refine ⟨fun h => d ?_, ⟨_, by decide +kernel, by decide +kernel, d⟩, ⟨_, by decide +kernel, by decide +kernel, s⟩⟩
  have r := h.1 ⟨false, 1023 * 2 ^ 52 - 2, by decide⟩ (by decide +kernel) (by decide +kernel) (by decide +kernel)
  exact ⟨r.1, r.2.trans (mul_le_mul_of_nonneg_right (by norm_num) (abs_nonneg _))⟩

end Vdt
