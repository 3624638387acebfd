import Verif.Lemmas.SincosfAcc
import Verif.Spec

/-!
# Sine and cosine: accuracy (C08, C10) and the unit circle (C12)
-/

namespace Vdt
open FP details

theorem fast_sin_of_sincos {x s c : F64} (h : fast_sincos x = some (s, c)) : fast_sin x = some s ∧ fast_cos x = some c := by
  unfold fast_sincos at h
  constructor
  · unfold fast_sin fast_sinM; rw [h]; rfl
  · unfold fast_cos fast_cosM; rw [h]; rfl

theorem fast_sinf_of_sincosf {x s c : F32} (h : fast_sincosf x = some (s, c)) : fast_sinf x = some s ∧ fast_cosf x = some c := by
  unfold fast_sincosf at h
  constructor
  · unfold fast_sinf fast_sinfM; rw [h]; rfl
  · unfold fast_cosf fast_cosfM; rw [h]; rfl

/-! ## C08 -/

/-- For every double with `|x| ≤ 2^27` both calls are defined and their results are finite numbers
within `2^-51` of the real sine and cosine. -/
theorem C08_sin_cos_accurate (x : F64) (hx : x.isFinite = true) (h : |x.val| ≤ 2 ^ 27) :
    ∃ s c, fast_sin x = some s ∧ fast_cos x = some c ∧
      CloseAbs s (Real.sin x.real) (2 ^ (-51 : ℤ)) ∧ CloseAbs c (Real.cos x.real) (2 ^ (-51 : ℤ)) := by
  obtain ⟨s, c, e, f1, f2, h1, h2, _⟩ := sincos_acc hx h
  have := fast_sin_of_sincos e
  exact ⟨s, c, this.1, this.2, ⟨f1, h1⟩, ⟨f2, h2⟩⟩

/-- 134217728 = 2^27 is in the domain; its sine and cosine, and those of -2.5. -/
example : (lit 134217728 : F64).isFinite = true ∧ |(lit 134217728 : F64).val| ≤ 2 ^ 27 ∧
    (fast_sin (lit 134217728)).map (·.toBits) = some 13828423381393584292#64 ∧
    (fast_cos (lit (-2.5))).map (·.toBits) = some 13828763316576947069#64 := by decide +kernel

/-! ## C10 -/

/-- For every float with `|x| ≤ 8192` both calls are defined and their results are finite numbers
within `2^-22` of the real sine and cosine. -/
theorem C10_sinf_cosf_accurate (x : F32) (hx : x.isFinite = true) (h : |x.val| ≤ 8192) :
    ∃ s c, fast_sinf x = some s ∧ fast_cosf x = some c ∧
      CloseAbs s (Real.sin x.real) (2 ^ (-22 : ℤ)) ∧ CloseAbs c (Real.cos x.real) (2 ^ (-22 : ℤ)) := by
  obtain ⟨s, c, e, f1, f2, h1, h2, _⟩ := sincosf_acc hx h
  have := fast_sinf_of_sincosf e
  exact ⟨s, c, this.1, this.2, ⟨f1, h1⟩, ⟨f2, h2⟩⟩

example : (lit 8192 : F32).isFinite = true ∧ |(lit 8192 : F32).val| ≤ 8192 ∧
    (fast_sinf (lit 8192)).map (·.toBits) = some 3212101572#32 ∧
    (fast_cosf (lit (-2.5))).map (·.toBits) = some 3209500607#32 := by decide +kernel

/-! ## C12 -/

/-- The two results of `fast_sincos` are those of `fast_sin` and `fast_cos` and lie within `2^-50` of
the unit circle, for every double with `|x| ≤ 2^27`. -/
theorem C12_unit_circle (x : F64) (hx : x.isFinite = true) (h : |x.val| ≤ 2 ^ 27) :
    ∃ s c, fast_sincos x = some (s, c) ∧ fast_sin x = some s ∧ fast_cos x = some c ∧
      |s.real ^ 2 + c.real ^ 2 - 1| ≤ 2 ^ (-50 : ℤ) := by
  obtain ⟨s, c, e, f1, f2, h1, h2, h3⟩ := sincos_acc hx h
  have := fast_sin_of_sincos e
  exact ⟨s, c, e, this.1, this.2, h3⟩

/-- Single precision: within `2^-21`, for every float with `|x| ≤ 8192`. -/
theorem C12_unit_circlef (x : F32) (hx : x.isFinite = true) (h : |x.val| ≤ 8192) :
    ∃ s c, fast_sincosf x = some (s, c) ∧ fast_sinf x = some s ∧ fast_cosf x = some c ∧
      |s.real ^ 2 + c.real ^ 2 - 1| ≤ 2 ^ (-21 : ℤ) := by
  obtain ⟨s, c, e, f1, f2, h1, h2, h3⟩ := sincosf_acc hx h
  have := fast_sinf_of_sincosf e
  exact ⟨s, c, e, this.1, this.2, h3⟩

/-- On every machine, defined or not, `fast_sin` and `fast_cos` return the components of `fast_sincos`. -/
theorem C12_components (M : Machine Id) (x : F64) (y : F32) :
    (fast_sinM M x, fast_cosM M x) = fast_sincosM M x ∧ (fast_sinfM M y, fast_cosfM M y) = fast_sincosfM M y := ⟨rfl, rfl⟩

/-- The circle is missed: `s² + c²` is not 1 here, and the two components are the values of the
separate functions. -/
example : (lit 1 : F64).isFinite = true ∧ |(lit 1 : F64).val| ≤ 2 ^ 27 ∧
    (fast_sincos (lit 1)).map (fun p => decide (p.1.val ^ 2 + p.2.val ^ 2 = 1)) = some false ∧
    (lit 1 : F32).isFinite = true ∧ |(lit 1 : F32).val| ≤ 8192 := by decide +kernel

end Vdt
