import Verif.Lemmas.SincosRel
import Mathlib.Analysis.SpecialFunctions.Complex.Arg
import Mathlib.Analysis.SpecialFunctions.Trigonometric.Inverse

/-!
# How small trigonometric functions of floating-point numbers can be
-/

namespace Vdt
open FP details

theorem low_of_reduced {x t : ℝ} {m : ℕ} {g δ : ℝ} (ht : t = |x| - m * (Real.pi / 2)) (h1 : |t| ≤ 0.7863) (h0 : g ≤ |x|) (hg : δ ≤ 0.89 * g) (hg1 : δ ≤ 0.69)
    (h2 : 1 ≤ m → 0.87 * |t| ≤ |Real.sin x| ∧ 0.87 * |t| ≤ |Real.cos x|) (h3 : 1 ≤ m → δ ≤ 0.87 * |t|) :
    δ ≤ |Real.sin x| ∧ δ ≤ |Real.cos x| := by
  rcases Nat.eq_zero_or_pos m with h | h
  · rw [h, Nat.cast_zero, zero_mul, sub_zero] at ht
    have ha : |x| ≤ 0.7863 := by rw [← abs_abs, ← ht]; exact h1
    exact ⟨by have := sin_ge_of_reduced ha; linarith, hg1.trans (cos_ge_of_reduced ha)⟩
  · exact ⟨(h3 h).trans (h2 h).1, (h3 h).trans (h2 h).2⟩

theorem trig_low64 {x : F64} (hx : x.isFinite = true) (h : |x.val| ≤ 8192) (hg : (2 : ℝ)⁻¹ ^ 64 ≤ |x.real|) :
    (2 : ℝ)⁻¹ ^ 70 ≤ |Real.sin x.real| ∧ (2 : ℝ)⁻¹ ^ 70 ≤ |Real.cos x.real| := by
  obtain ⟨-, -, m, -, -, -, g0, g1, g2, -, -⟩ := sincos_rel hx (h.trans (by norm_num))
  refine low_of_reduced rfl g1 hg (by norm_num) (by norm_num) g2 fun hm => ?_
  have hd := dist64 (by norm_num) distCover64_13 (by decide +kernel) (g0.resolve_left (by omega)) h hm g1
  have hm' : (1 : ℝ) ≤ m := by exact_mod_cast hm
  push_cast at hd
  have : (2 : ℝ)⁻¹ ^ 70 ≤ 0.87 * (2 ^ 39 * (1 * (1 / 2 ^ 106))) := by norm_num
  refine this.trans (mul_le_mul_of_nonneg_left (le_trans ?_ hd) (by norm_num))
  exact mul_le_mul_of_nonneg_left (mul_le_mul_of_nonneg_right hm' (by positivity)) (by positivity)

theorem trig_low32 {x : F32} (hx : x.isFinite = true) (h : |x.val| ≤ 8192) (hg : (2 : ℝ)⁻¹ ^ 64 ≤ |x.real|) :
    (2 : ℝ)⁻¹ ^ 70 ≤ |Real.sin x.real| ∧ (2 : ℝ)⁻¹ ^ 70 ≤ |Real.cos x.real| := by
  obtain ⟨-, -, m, -, -, -, g0, g1, g2, -, -⟩ := sincosf_rel hx h
  refine low_of_reduced rfl g1 hg (by norm_num) (by norm_num) g2 fun hm => ?_
  have hd := dist32 (by norm_num) distCover32_13 (by decide +kernel) (g0.resolve_left (by omega)) h hm g1
  have hm' : (1 : ℝ) ≤ m := by exact_mod_cast hm
  push_cast at hd
  have : (2 : ℝ)⁻¹ ^ 70 ≤ 0.87 * (1.4 * 2 ^ 10 * (1 * (0.9 / 2 ^ 47))) := by norm_num
  refine this.trans (mul_le_mul_of_nonneg_left (le_trans ?_ hd) (by norm_num))
  exact mul_le_mul_of_nonneg_left (mul_le_mul_of_nonneg_right hm' (by positivity)) (by positivity)

/-- The tangent is neither too small nor too large. -/
theorem tan_bounds {x : ℝ} (h1 : (2 : ℝ)⁻¹ ^ 70 ≤ |Real.sin x|) (h2 : (2 : ℝ)⁻¹ ^ 70 ≤ |Real.cos x|) :
    (2 : ℝ)⁻¹ ^ 70 ≤ |Real.tan x| ∧ |Real.tan x| ≤ 2 ^ 70 := by
  have c0 : 0 < |Real.cos x| := lt_of_lt_of_le (by positivity) h2
  rw [Real.tan_eq_sin_div_cos, abs_div, le_div_iff₀ c0, div_le_iff₀ c0]
  have c1 := Real.abs_cos_le_one x
  have s1 := Real.abs_sin_le_one x
  constructor
  · refine le_trans ?_ h1
    exact mul_le_of_le_one_right (by positivity) c1
  · refine s1.trans ?_
    have := mul_le_mul_of_nonneg_left h2 (by positivity : (0 : ℝ) ≤ 2 ^ 70)
    refine le_trans (le_of_eq ?_) this
    rw [← mul_pow]; norm_num

theorem arccos_low {x d : ℝ} (h1 : -1 ≤ x) (h2 : x ≤ 1) (hd : 0 ≤ d) (h : d ^ 2 ≤ 2 * (1 - x)) : d ≤ Real.arccos x := by
  have hc := Real.one_sub_sq_div_two_le_cos (x := Real.arccos x)
  rw [Real.cos_arccos h1 h2] at hc
  refine le_of_sq_le_sq (by linarith) (Real.arccos_nonneg x)

theorem arg_low {x y : ℝ} (hx : |x| ≤ 1) (hy : |y| ≤ 1) : |y| / 2 ≤ |Complex.arg ⟨x, y⟩| := by
  rcases eq_or_ne y 0 with rfl | h0
  · simp
  have hn : ‖(⟨x, y⟩ : ℂ)‖ ≤ 2 := (Complex.norm_le_abs_re_add_abs_im _).trans (by simpa using by linarith)
  have hp : 0 < ‖(⟨x, y⟩ : ℂ)‖ := by
    rw [norm_pos_iff]; intro hc; exact h0 (congrArg Complex.im hc)
  have hs := Complex.sin_arg ⟨x, y⟩
  have hl := Real.abs_sin_le_abs (x := Complex.arg ⟨x, y⟩)
  rw [hs, abs_div, abs_of_pos hp] at hl
  refine le_trans ?_ hl
  exact div_le_div_of_nonneg_left (abs_nonneg _) hp hn

end Vdt
