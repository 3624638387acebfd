import Verif.Lemmas.TrigWide
import Verif.Props.Precisions

/-!
# C97: sine, cosine and tangent, double precision, beyond `2^27`
-/

namespace Vdt
open FP details

theorem quad64_some {x : F64} (hx : x.isFinite = true) {X : ℚ} (hX : X < 7074237748734241 / 4194304) (h : |x.val| ≤ X) :
    ∃ q0, quadStep strict ONEOPIO4 (FP.abs x) = some q0 :=
  Option.isSome_iff_exists.1 ((quad64_defined_iff x).2 ⟨hx, lt_of_le_of_lt h hX⟩)

/-- Whatever is fused, sine and cosine stay within `2^-51` up to 530000000, where the number of the octant times the first part of `π/4` still
fits into a double. -/
theorem C97_sincos (p : Policy) (x : F64) (hx : x.isFinite = true) (h : |x.val| ≤ 530000000) :
    ∃ s c, fast_sincosC p x = some (s, c) ∧ CloseAbs s (Real.sin x.real) (2 ^ (-51 : ℤ)) ∧ CloseAbs c (Real.cos x.real) (2 ^ (-51 : ℤ)) ∧
      |s.real ^ 2 + c.real ^ 2 - 1| ≤ 2 ^ (-50 : ℤ) := by
  obtain ⟨q0, hq⟩ := quad64_some hx (X := 530000000) (by norm_num) h
  obtain ⟨s, c, e, f1, f2, S, C, U⟩ := sincosC_of_reduce p hq (reduced64_mid p hx h hq)
  have b : (2.06 : ℝ) * 2 ^ (-53 : ℤ) + (0.7863 * 2 ^ (-53 : ℤ) + 2 ^ (-77 : ℤ)) ≤ 2 ^ (-51 : ℤ) := by norm_num
  exact ⟨s, c, e, ⟨f1, S.trans b⟩, ⟨f2, C.trans b⟩, U⟩

/-- Beyond, the error jumps, because that product is rounded: it is at most about `2^-24` up to `2^30` … -/
theorem C97_sincos_30 (p : Policy) (x : F64) (hx : x.isFinite = true) (h : |x.val| ≤ 2 ^ 30) :
    ∃ s c, fast_sincosC p x = some (s, c) ∧ CloseAbs s (Real.sin x.real) (1.0001 * 2 ^ (-24 : ℤ)) ∧
      CloseAbs c (Real.cos x.real) (1.0001 * 2 ^ (-24 : ℤ)) := by
  obtain ⟨q0, hq⟩ := quad64_some hx (X := 2 ^ 30) (by norm_num) h
  obtain ⟨s, c, e, f1, f2, S, C, -⟩ := sincosC_of_reduce p hq (reduced64_30 p h hq)
  have b : (2.06 : ℝ) * 2 ^ (-53 : ℤ) + (0.7863 * 2 ^ (-53 : ℤ) + 1.00001 * 2 ^ (-24 : ℤ)) ≤ 1.0001 * 2 ^ (-24 : ℤ) := by norm_num
  exact ⟨s, c, e, ⟨f1, S.trans b⟩, ⟨f2, C.trans b⟩⟩

/-- … and about `2^-23` for every argument for which the call is defined. The two results lie on the unit circle all the same. -/
theorem C97_sincos_wide (p : Policy) (x s c : F64) (h : fast_sincosC p x = some (s, c)) :
    CloseAbs s (Real.sin x.real) (1.0001 * 2 ^ (-23 : ℤ)) ∧ CloseAbs c (Real.cos x.real) (1.0001 * 2 ^ (-23 : ℤ)) ∧
      |s.real ^ 2 + c.real ^ 2 - 1| ≤ 2 ^ (-50 : ℤ) := by
  cases hq : quadStep strict ONEOPIO4 (FP.abs x) with
  | none => unfold fast_sincosC at h; rw [fast_sincosCM_eq, hq] at h; cases h
  | some q0 =>
    obtain ⟨s', c', e, f1, f2, S, C, U⟩ := sincosC_of_reduce p hq (reduced64_wide p hq)
    rw [h, Option.some.injEq, Prod.mk.injEq] at e
    obtain ⟨rfl, rfl⟩ := e
    have b : (2.06 : ℝ) * 2 ^ (-53 : ℤ) + (0.7863 * 2 ^ (-53 : ℤ) + 1.00001 * 2 ^ (-23 : ℤ)) ≤ 1.0001 * 2 ^ (-23 : ℤ) := by norm_num
    exact ⟨⟨f1, S.trans b⟩, ⟨f2, C.trans b⟩, U⟩

/-- Whatever is fused, the tangent stays within `2^-50` of its value up to 530000000, except next to its zeros and poles. -/
theorem C97_tan (p : Policy) (x : F64) (hx : x.isFinite = true) (h1 : 1 ≤ |x.val|) (h : |x.val| ≤ 530000000)
    (ht0 : 2 ^ (-20 : ℤ) ≤ |Real.tan x.real|) (ht1 : |Real.tan x.real| ≤ 2 ^ 20) :
    ∃ y, fast_tanC p x = some y ∧ CloseRel y (Real.tan x.real) (2 ^ (-50 : ℤ)) := by
  obtain ⟨q0, hq⟩ := quad64_some hx (X := 530000000) (by norm_num) h
  obtain ⟨y, e, f, T⟩ := tanC_of_reduce p (τ := 2 ^ (-20 : ℤ)) (by positivity) le_rfl (by norm_num) h1 hq (reduced64_mid p hx h hq) ht0
    (ht1.trans (by norm_num))
  refine ⟨y, e, f, T.trans ?_⟩
  rw [← sq_abs (Real.tan x.real)]
  generalize |Real.tan x.real| = t at *
  have k : 1 + t ^ 2 ≤ (2 ^ 20 + 2 ^ 20) * t := by
    norm_num at ht0 ht1 ⊢
    nlinarith
  norm_num at ht0 k ⊢
  linarith

/-- For every argument for which the call is defined, the error of the tangent is that of the reduction. -/
theorem C97_tan_wide (p : Policy) (x y : F64) (h1 : 1 ≤ |x.val|) (h : fast_tanC p x = some y)
    (ht0 : 2 ^ (-12 : ℤ) ≤ |Real.tan x.real|) (ht1 : |Real.tan x.real| ≤ 2 ^ 12) :
    CloseAbs y (Real.tan x.real) (2 ^ (-50 : ℤ) * |Real.tan x.real| + 2.91 * 2 ^ (-23 : ℤ) * (1 + Real.tan x.real ^ 2)) := by
  cases hq : quadStep strict ONEOPIO4 (FP.abs x) with
  | none => unfold fast_tanC at h; rw [fast_tanCM_eq, hq] at h; cases h
  | some q0 =>
    obtain ⟨y', e, f, T⟩ := tanC_of_reduce p (τ := 2 ^ (-12 : ℤ)) (by positivity) (by norm_num) (by norm_num) h1 hq (reduced64_wide p hq) ht0
      (ht1.trans (by norm_num))
    rw [h, Option.some.injEq] at e
    subst e
    refine ⟨f, T.trans (add_le_add (mul_le_mul_of_nonneg_right (by norm_num) (abs_nonneg _)) (mul_le_mul_of_nonneg_right (by norm_num) (by positivity)))⟩

/-- The bound is attained, and next to a multiple of `π` not a single digit is right: at 3350032117039781/2097152 ≈ 1597419794.58 the sine is below
`2^-33`, the result is above `2^-24`, and the error is more than 0.999 times `2^-23`. -/
theorem C97_sharp : ∃ s c, fast_sincos (lit (3350032117039781 / 2097152)) = some (s, c) ∧ |Real.sin (3350032117039781 / 2097152)| < 2 ^ (-33 : ℤ) ∧
    2 ^ (-24 : ℤ) < |s.real| ∧ 0.999 * 2 ^ (-23 : ℤ) < |s.real - Real.sin (3350032117039781 / 2097152)| := by
  have hs : |Real.sin (3350032117039781 / 2097152)| ≤ 6 / 10 ^ 11 := by
    have q := (quadrant_trig (3350032117039781 / 2097152 - 1016949026 * (Real.pi / 2)) 1016949026).1
    rw [show (3350032117039781 / 2097152 - 1016949026 * (Real.pi / 2)) + ((1016949026 : ℕ) : ℝ) * (Real.pi / 2) = 3350032117039781 / 2097152 by
      push_cast; ring] at q
    norm_num at q
    rw [q, abs_neg]
    refine Real.abs_sin_le_abs.trans ?_
    have e : (3350032117039781 / 2097152 - 1016949026 * (Real.pi / 2)) = (3350032117039781 / 2097152 - 1016949026 * ((piQ : ℚ) / 2 : ℝ)) -
      508474513 * (Real.pi - (piQ : ℚ)) := by ring
    rw [e]
    refine (abs_sub _ _).trans ?_
    have h1 : |(508474513 : ℝ) * (Real.pi - (piQ : ℚ))| ≤ 508474513 * (1 / 10 ^ 38) := by
      rw [abs_mul, abs_of_pos (by norm_num)]
      exact mul_le_mul_of_nonneg_left pi_near (by norm_num)
    have h2 : |(3350032117039781 / 2097152 - 1016949026 * ((piQ : ℚ) / 2) : ℝ)| ≤ 5.9 / 10 ^ 11 := by
      have : |(3350032117039781 / 2097152 - 1016949026 * (piQ / 2) : ℚ)| ≤ 5.9 / 10 ^ 11 := by decide +kernel
      have := (Rat.cast_le (K := ℝ)).2 this
      push_cast at this; exact this
    refine (add_le_add h2 h1).trans ?_
    norm_num
  cases e : fast_sincos (lit (3350032117039781 / 2097152)) with
  | none => exact absurd e (by decide +kernel)
  | some a =>
    have d : (fast_sincos (lit (3350032117039781 / 2097152))).map (fun a => decide (1.1926 / 10 ^ 7 < |a.1.val|)) = some true := by decide +kernel
    rw [e, Option.map_some, Option.some.injEq, decide_eq_true_eq] at d
    have d' : (1.1926 : ℝ) / 10 ^ 7 < |a.1.real| := by
      have := (Rat.cast_lt (K := ℝ)).2 d
      push_cast at this; unfold FP.real; exact this
    have t := abs_sub_abs_le_abs_sub a.1.real (Real.sin (3350032117039781 / 2097152))
    refine ⟨a.1, a.2, rfl, lt_of_le_of_lt hs (by norm_num), lt_trans (by norm_num) d', lt_of_lt_of_le ?_ t⟩
    norm_num at hs d' ⊢
    linarith

/-- Arguments of the theorems: beyond `2^27`, beyond 530000000, and the last one for which the calls are defined. -/
example : (lit 500000000.5 : F64).isFinite = true ∧ 1 ≤ |(lit 500000000.5 : F64).val| ∧ |(lit 500000000.5 : F64).val| ≤ 530000000 ∧
    2 ^ 27 < |(lit 500000000.5 : F64).val| ∧ |(lit 1000000000 : F64).val| ≤ 2 ^ 30 ∧
    (fast_sincosC (fun _ => true) (lit 1000000000)).isSome = true ∧ (fast_sincosC (fun _ => true) (lit (7074237748734240 / 4194304))).isSome = true ∧
    (fast_tanC (fun _ => true) (lit (7074237748734240 / 4194304))).isSome = true ∧ fast_sincos (lit (7074237748734241 / 4194304)) = none := by
  decide +kernel

/-- The tangent of 1000000000 is neither small nor large. -/
example : 2 ^ (-12 : ℤ) ≤ |Real.tan (lit 1000000000 : F64).real| ∧ |Real.tan (lit 1000000000 : F64).real| ≤ 2 ^ 12 ∧
    1 ≤ |(lit 1000000000 : F64).val| ∧ (fast_tanC (fun _ => false) (lit 1000000000)).isSome = true := by
  rw [← and_assoc]
  refine ⟨?_, by decide +kernel⟩
  obtain ⟨s, c, e, ⟨-, S⟩, ⟨-, C⟩⟩ := C97_sincos_30 (fun _ => false) (lit 1000000000) (by decide +kernel) (by decide +kernel)
  rw [fast_sincos_plain] at e
  have d : (fast_sincos (lit 1000000000)).map (fun a => decide (0.5 ≤ a.1.val ∧ a.1.val ≤ 0.6 ∧ 0.8 ≤ a.2.val ∧ a.2.val ≤ 0.9)) = some true := by
    decide +kernel
  rw [e, Option.map_some, Option.some.injEq, decide_eq_true_eq] at d
  generalize (lit 1000000000 : F64) = x at *
  obtain ⟨d1, d2, d3, d4⟩ := d
  have cast : ∀ a b : ℚ, a ≤ b → (a : ℝ) ≤ b := fun a b h => (Rat.cast_le (K := ℝ)).2 h
  have d1 := cast _ _ d1
  have d2 := cast _ _ d2
  have d3 := cast _ _ d3
  have d4 := cast _ _ d4
  unfold FP.real at *
  push_cast at d1 d2 d3 d4
  rw [abs_le] at S C
  norm_num at S C d1 d2 d3 d4
  have hc : 0 < Real.cos (x.val : ℝ) := by linarith
  have hs : 0 < Real.sin (x.val : ℝ) := by linarith
  rw [Real.tan_eq_sin_div_cos, abs_of_pos (div_pos hs hc), le_div_iff₀ hc, div_le_iff₀ hc]
  norm_num
  exact ⟨by linarith, by linarith⟩

end Vdt
