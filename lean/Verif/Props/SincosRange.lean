import Verif.Lemmas.SincosRange
import Verif.Spec

/-!
# Sine and cosine: range (C58) and accuracy up to the last argument for which they are defined (C59)
-/

namespace Vdt
open FP details

/-! ## C58 -/

/-- Full statement of C58: whenever a call is defined, both results are numbers between -1 and 1. -/
def C58_statement : Prop :=
  (∀ x s c : F64, fast_sincos x = some (s, c) →
    s.isFinite = true ∧ c.isFinite = true ∧ |s.val| ≤ 1 ∧ |c.val| ≤ 1) ∧
  (∀ x s c : F32, fast_sincosf x = some (s, c) →
    s.isFinite = true ∧ c.isFinite = true ∧ |s.val| ≤ 1 ∧ |c.val| ≤ 1)

/-- Double precision: no restriction on the argument. -/
theorem C58_sincos_range (x s c : F64) (h : fast_sincos x = some (s, c)) :
    s.isFinite = true ∧ c.isFinite = true ∧ |s.val| ≤ 1 ∧ |c.val| ≤ 1 := by
  obtain ⟨h1, h2, h3, h4, _⟩ := sincos_wide h
  exact ⟨h1, h2, h3, h4⟩

/-- The largest argument (16.866e8) and one whose cosine is exactly 1. -/
example : (fast_sincos (ofBits 4744861045742496032#64)).isSome = true ∧
    ((fast_sincos (lit 1E-9)).map fun p => p.2.val) = some 1 := by decide +kernel

/-- Single precision, arguments up to `2^22`.  Missing: larger arguments, for which it is false
(`C58_violated`). -/
theorem C58_sincosf_range_partial (x s c : F32) (hx : |x.val| ≤ 2 ^ 22) (h : fast_sincosf x = some (s, c)) :
    s.isFinite = true ∧ c.isFinite = true ∧ |s.val| ≤ 1 ∧ |c.val| ≤ 1 :=
  sincosf_wide (hx.trans (by norm_num)) h

example : |(lit 4194303.5 : F32).val| ≤ 2 ^ 22 ∧ (fast_sincosf (lit 4194303.5)).isSome = true := by decide +kernel

/-- The float sine of 1071342400 is larger than `10^12`. -/
theorem C58_float_witness : ∃ s c, fast_sincosf (lit 1071342400) = some (s, c) ∧ 10 ^ 12 < max |s.val| |c.val| := by
  cases h : fast_sincosf (lit 1071342400) with
  | none =>
    have : (fast_sincosf (lit 1071342400)).isSome = true := by decide +kernel
    rw [h] at this; cases this
  | some p =>
    refine ⟨p.1, p.2, rfl, ?_⟩
    have : ((fast_sincosf (lit 1071342400)).map fun p => decide ((10 : ℚ) ^ 12 < max |p.1.val| |p.2.val|)) = some true := by
      decide +kernel
    rw [h] at this
    simpa using this

theorem C58_violated : ¬ C58_statement := by
  intro h
  obtain ⟨s, c, e, hw⟩ := C58_float_witness
  obtain ⟨-, -, h1, h2⟩ := h.2 _ s c e
  have := max_le h1 h2
  have : (10 : ℚ) ^ 12 < 1 := hw.trans_le this
  norm_num at this

/-! ## C59 -/

/-- Whenever the double precision call is defined, both results are within `2^-22` of the real sine and
cosine. -/
theorem C59_sincos_wide_accuracy (x s c : F64) (h : fast_sincos x = some (s, c)) :
    CloseAbs s (Real.sin x.real) (2 ^ (-22 : ℤ)) ∧ CloseAbs c (Real.cos x.real) (2 ^ (-22 : ℤ)) := by
  obtain ⟨h1, h2, -, -, h3, h4⟩ := sincos_wide h
  exact ⟨⟨h1, h3⟩, ⟨h2, h4⟩⟩

/-- `fast_sin` and `fast_cos` separately, with the set of arguments spelled out. -/
theorem C59_sin_cos_wide_accuracy (x : F64) (hx : x.isFinite = true) (h : |x.val| < 7074237748734241 / 4194304) :
    ∃ s c, fast_sin x = some s ∧ fast_cos x = some c ∧
      CloseAbs s (Real.sin x.real) (2 ^ (-22 : ℤ)) ∧ CloseAbs c (Real.cos x.real) (2 ^ (-22 : ℤ)) := by
  have hd : (fast_sincos x).isSome = true := by
    have := (quad64_defined_iff x).2 ⟨hx, h⟩
    unfold fast_sincos
    rw [fast_sincosM_eq]
    cases hq : quadStep strict ONEOPIO4 (FP.abs x) with
    | none => rw [hq] at this; cases this
    | some q => rfl
  cases e : fast_sincos x with
  | none => rw [e] at hd; cases hd
  | some p =>
    obtain ⟨s, c⟩ := p
    have e' : fast_sin x = some s ∧ fast_cos x = some c := by
      unfold fast_sincos at e
      constructor
      · unfold fast_sin fast_sinM; rw [e]; rfl
      · unfold fast_cos fast_cosM; rw [e]; rfl
    exact ⟨s, c, e'.1, e'.2, C59_sincos_wide_accuracy x s c e⟩

/-- The last double before the quadrant number overflows. -/
example : (ofBits 4744861045742496032#64 : F64).isFinite = true ∧
    |(ofBits 4744861045742496032#64 : F64).val| < 7074237748734241 / 4194304 ∧
    (fast_sin (ofBits 4744861045742496032#64)).isSome = true := by decide +kernel

end Vdt
