import Verif.Lemmas.FpeAtan

/-!
# C109: floating-point exceptions

`Fpe.fast_…` is the function of the header together with the exceptions its operations raise; the first half of each theorem
says that its value is that of the model of the function, the second that nothing is raised.
-/

namespace Vdt
open FP
open Fpe (Exc)

/-- A computation gives the value `y` and raises no exception. -/
def Fpe.Ev.Quiet {f : Fmt} (m : Fpe.Ev f) (y : FP f) : Prop := m.res = y ∧ m.exc = {}

/-- The same for one that may be undefined. -/
def Quiet? {f : Fmt} (m : Option (Fpe.Ev f)) (y : Option (FP f)) : Prop := ∃ r : Fpe.Ev f, m = some r ∧ y = some r.res ∧ r.exc = {}

theorem C109_exp_partial (x : F64) (hx : x.isFinite = true) (h : |x.val| ≤ 708) : Quiet? (Fpe.fast_exp x) (fast_exp x) := by
  obtain ⟨r, h1, h2⟩ := Fpe.exc_exp hx h
  refine ⟨r, h1, ?_, h2⟩
  rw [← Fpe.res_exp, h1]; rfl

theorem C109_expf_partial (x : F32) (hx : x.isFinite = true) (h1 : -87.25 ≤ x.val) (h2 : x.val ≤ 88.35) : Quiet? (Fpe.fast_expf x) (fast_expf x) := by
  obtain ⟨r, h1, h2⟩ := Fpe.exc_expf hx h1 h2
  refine ⟨r, h1, ?_, h2⟩
  rw [← Fpe.res_expf, h1]; rfl

/-- Arguments of both signs meet the hypotheses. -/
example : (lit (-707) : F64).isFinite = true ∧ |(lit (-707) : F64).val| ≤ 708 ∧ (lit 88 : F32).isFinite = true ∧ -87.25 ≤ (lit 88 : F32).val ∧
    (lit 88 : F32).val ≤ 88.35 := by decide +kernel

theorem C109_log_partial (x : F64) (hn : x.Normal) (h0 : 0 < x.val) (h1 : x.val ≤ 10 ^ 307) : (Fpe.fast_log x).Quiet (fast_log x) :=
  ⟨Fpe.res_log x, Fpe.exc_log hn h0 h1⟩

theorem C109_logf_partial (x : F32) (hn : x.Normal) (h0 : 0 < x.val) : (Fpe.fast_logf x).Quiet (fast_logf x) :=
  ⟨Fpe.res_logf x, Fpe.exc_logf hn h0⟩

/-- A small argument and one. -/
example : (lit 1e-300 : F64).Normal ∧ 0 < (lit 1e-300 : F64).val ∧ (lit 1e-300 : F64).val ≤ 10 ^ 307 ∧ (lit 1 : F32).Normal ∧ 0 < (lit 1 : F32).val := by
  unfold FP.Normal; decide +kernel

theorem C109_sincos_partial (x : F64) (hx : x.isFinite = true) (h : |x.val| ≤ 2 ^ 27) :
    ∃ s c, Fpe.fast_sincos x = some (s, c, {}) ∧ fast_sincos x = some (s, c) := by
  obtain ⟨s, c, h1⟩ := Fpe.exc_sincos hx h
  refine ⟨s, c, h1, ?_⟩
  rw [← Fpe.res_sincos, h1]; rfl

theorem C109_sincosf_partial (x : F32) (hx : x.isFinite = true) (h : |x.val| ≤ 8192) :
    ∃ s c, Fpe.fast_sincosf x = some (s, c, {}) ∧ fast_sincosf x = some (s, c) := by
  obtain ⟨s, c, h1⟩ := Fpe.exc_sincosf hx h
  refine ⟨s, c, h1, ?_⟩
  rw [← Fpe.res_sincosf, h1]; rfl

theorem quiet_of_map {f : Fmt} {m : Option (Fpe.Ev f)} {y : Option (FP f)} (hr : m.map Fpe.Ev.res = y) (he : m.map Fpe.Ev.exc = some {}) : Quiet? m y := by
  rcases m with _ | r
  · cases he
  · exact ⟨r, rfl, hr.symm, Option.some.inj he⟩

theorem C109_tan_partial (x : F64) (hx : x.isFinite = true) (h0 : 2 ^ (-1024 : ℤ) < |x.val| ∨ x.val = 0) (h : |x.val| ≤ 2 ^ 27) :
    Quiet? (Fpe.fast_tan x) (fast_tan x) := by
  refine quiet_of_map (Fpe.res_tan x) ?_
  rcases h0 with h0 | h0
  · exact Fpe.exc_tan hx h0 h
  · have z : x = zero x.sign := by ext; exacts [rfl, val_eq_zero.1 h0]
    rw [z]
    generalize x.sign = s
    cases s <;> decide +kernel

theorem C109_tanf_partial (x : F32) (hx : x.isFinite = true) (h0 : 2 ^ (-128 : ℤ) < |x.val| ∨ x.val = 0) (h : |x.val| ≤ 8192) :
    Quiet? (Fpe.fast_tanf x) (fast_tanf x) := by
  refine quiet_of_map (Fpe.res_tanf x) ?_
  rcases h0 with h0 | h0
  · exact Fpe.exc_tanf hx h0 h
  · have z : x = zero x.sign := by ext; exacts [rfl, val_eq_zero.1 h0]
    rw [z]
    generalize x.sign = s
    cases s <;> decide +kernel

/-- Arguments in several quadrants, and zero. -/
example : (lit (-100000) : F64).isFinite = true ∧ |(lit (-100000) : F64).val| ≤ 2 ^ 27 ∧ (lit 8000 : F32).isFinite = true ∧ |(lit 8000 : F32).val| ≤ 8192 ∧
    (lit 2 : F64).isFinite = true ∧ (2 ^ (-1024 : ℤ) < |(lit 2 : F64).val|) ∧ (zero true : F32).isFinite = true ∧ (zero true : F32).val = 0 := by decide +kernel

theorem C109_tanh_partial (x : F64) (hx : x.isNaN = false) : (Fpe.fast_tanh x).Quiet (fast_tanh x) := ⟨Fpe.res_tanh x, Fpe.exc_tanh hx⟩
theorem C109_tanhf_partial (x : F32) (hx : x.isNaN = false) : (Fpe.fast_tanhf x).Quiet (fast_tanhf x) := ⟨Fpe.res_tanhf x, Fpe.exc_tanhf hx⟩

/-- Infinities are allowed. -/
example : (inf true : F64).isNaN = false ∧ (lit 0.3 : F64).isNaN = false ∧ (inf false : F32).isNaN = false := by decide +kernel

theorem C109_asin_partial (x : F64) (hx : x.isFinite = true) (h : |x.val| ≤ 1) :
    (Fpe.fast_asin x).Quiet (fast_asin x) ∧ (Fpe.fast_acos x).Quiet (fast_acos x) :=
  ⟨⟨Fpe.res_asin x, Fpe.exc_asin hx h⟩, Fpe.res_acos x, Fpe.exc_acos hx h⟩
theorem C109_asinf_partial (x : F32) (hx : x.isFinite = true) (h : |x.val| ≤ 1) :
    (Fpe.fast_asinf x).Quiet (fast_asinf x) ∧ (Fpe.fast_acosf x).Quiet (fast_acosf x) :=
  ⟨⟨Fpe.res_asinf x, Fpe.exc_asinf hx h⟩, Fpe.res_acosf x, Fpe.exc_acosf hx h⟩

/-- The ends of the domain and small arguments. -/
example : (lit (-1) : F64).isFinite = true ∧ |(lit (-1) : F64).val| ≤ 1 ∧ (lit 1e-5 : F32).isFinite = true ∧ |(lit 1e-5 : F32).val| ≤ 1 := by decide +kernel

theorem C109_atan_partial (x : F64) (hx : x.isFinite = true) : (Fpe.fast_atan x).Quiet (fast_atan x) := ⟨Fpe.res_atan x, Fpe.exc_atan hx⟩
theorem C109_atanf_partial (x : F32) (hx : x.isFinite = true) : (Fpe.fast_atanf x).Quiet (fast_atanf x) := ⟨Fpe.res_atanf x, Fpe.exc_atanf hx⟩

/-- The double function takes `(0, 0)`, too; the float function does not (`C109_violated`). -/
theorem C109_atan2_partial (y x : F64) (hy : y.isFinite = true) (hx : x.isFinite = true) : (Fpe.fast_atan2 y x).Quiet (fast_atan2 y x) :=
  ⟨Fpe.res_atan2 y x, Fpe.exc_atan2 hy hx⟩
theorem C109_atan2f_partial (y x : F32) (hy : y.isFinite = true) (hx : x.isFinite = true) (h : x.val ≠ 0 ∨ y.val ≠ 0) :
    (Fpe.fast_atan2f y x).Quiet (fast_atan2f y x) := ⟨Fpe.res_atan2f y x, Fpe.exc_atan2f hy hx h⟩

/-- The largest number and the axes. -/
example : (⟨false, 0x7FEFFFFFFFFFFFFF, by decide⟩ : F64).isFinite = true ∧ (zero false : F64).isFinite = true ∧ (zero true : F32).isFinite = true ∧
    (lit 3 : F32).isFinite = true ∧ ((zero true : F32).val ≠ 0 ∨ (lit 3 : F32).val ≠ 0) := by decide +kernel

/-- The reciprocal square roots: every finite number without sign bit, including zero and the subnormals. -/
theorem C109_isqrt_partial (x : F64) (hx : x.isFinite = true) (hs : x.sign = false) :
    (Fpe.fast_isqrt_general x 4).Quiet (fast_isqrt x) ∧ (Fpe.fast_isqrt_general x 3).Quiet (fast_approx_isqrt x) := by
  have k := C32_isqrt_positive hx hs (y := lit 1) (by decide +kernel) (by decide +kernel)
  exact ⟨⟨Fpe.res_isqrt _ _, Fpe.exc_isqrt k.1.1⟩, Fpe.res_isqrt _ _, Fpe.exc_isqrt k.2.1.1⟩
theorem C109_isqrtf_partial (x : F32) (hx : x.isFinite = true) (hs : x.sign = false) :
    (Fpe.fast_isqrtf_general x 2).Quiet (fast_isqrtf x) ∧ (Fpe.fast_isqrtf_general x 1).Quiet (fast_approx_isqrtf x) := by
  have k := C32_isqrt_positive (x := lit 1) (by decide +kernel) (by decide +kernel) hx hs
  exact ⟨⟨Fpe.res_isqrtf _ _, Fpe.exc_isqrtf k.2.2.1.1⟩, Fpe.res_isqrtf _ _, Fpe.exc_isqrtf k.2.2.2.1⟩

theorem C109_inv_partial (x : F64) (hx : x.Normal) :
    (Fpe.fast_inv_general x 4).Quiet (fast_inv x) ∧ (Fpe.fast_inv_general x 3).Quiet (fast_approx_inv x) := by
  have k := C31_inv_all (fun _ => false) hx
  simp only [fast_inv_plain] at k
  exact ⟨⟨Fpe.res_inv _ _, Fpe.exc_inv k.1.1⟩, Fpe.res_inv _ _, Fpe.exc_inv k.2.2.1.1⟩
theorem C109_invf_partial (x : F32) (hx : x.Normal) :
    (Fpe.fast_invf_general x 2).Quiet (fast_invf x) ∧ (Fpe.fast_invf_general x 1).Quiet (fast_approx_invf x) := by
  have k := C31_invf_all (fun _ => false) hx
  simp only [fast_invf_plain] at k
  exact ⟨⟨Fpe.res_invf _ _, Fpe.exc_invf k.1.1⟩, Fpe.res_invf _ _, Fpe.exc_invf k.2.2.1.1⟩

/-- A subnormal number, and a negative one for the reciprocals. -/
example : (⟨false, 1, by decide⟩ : F64).isFinite = true ∧ (⟨false, 1, by decide⟩ : F64).sign = false ∧ (lit 2 : F32).isFinite = true ∧ (lit 2 : F32).sign = false ∧
    (lit (-3) : F64).Normal ∧ (lit (-3) : F32).Normal := by unfold FP.Normal; decide +kernel

/-- What is missing: no exception for any argument at which the standard wants none — zeros and infinities of the arc tangents,
small arguments of the tangent. -/
def NoExceptions : Prop :=
  (∀ x : F64, x.isNaN = false → (Fpe.fast_atan x).exc = {}) ∧ (∀ x : F32, x.isNaN = false → (Fpe.fast_atanf x).exc = {}) ∧
  (∀ y x : F64, y.isNaN = false → x.isNaN = false → (Fpe.fast_atan2 y x).exc = {}) ∧
  (∀ y x : F32, y.isNaN = false → x.isNaN = false → (Fpe.fast_atan2f y x).exc = {}) ∧
  (∀ x : F64, x.isFinite = true → |x.val| ≤ 2 ^ 27 → Quiet? (Fpe.fast_tan x) (fast_tan x)) ∧
  (∀ x : F32, x.isFinite = true → |x.val| ≤ 8192 → Quiet? (Fpe.fast_tanf x) (fast_tanf x))

/-- `fast_atan2f(0, 0)` divides zero by zero although ReleaseNotes.txt (V0.3.4) says that this was removed: the addition that
avoids it is commented out (include/atan2.h:109; the double function has it).  The arc tangents of the infinities compute
`inf / inf`; the tangents of the smallest numbers overflow and then compute `0 * inf`. -/
theorem C109_violated : ¬ NoExceptions ∧
    (Fpe.fast_atan2f (zero false) (zero false)).exc = { invalid := true } ∧
    (Fpe.fast_atan2 (zero false) (zero false)).exc = {} ∧
    (∀ s, (Fpe.fast_atan (inf s)).exc = { invalid := true } ∧ (Fpe.fast_atanf (inf s)).exc = { invalid := true }) ∧
    (Fpe.fast_atan2 (inf false) (inf false)).exc = { invalid := true } ∧
    (Fpe.fast_tan ⟨false, 1, by decide⟩).map Fpe.Ev.exc = some { invalid := true, overflow := true } ∧
    (Fpe.fast_tanf ⟨false, 1, by decide⟩).map Fpe.Ev.exc = some { invalid := true, overflow := true } := by
  have w : (Fpe.fast_atan2f (zero false) (zero false)).exc = { invalid := true } := by decide +kernel
  refine ⟨fun h => ?_, w, by decide +kernel, by decide +kernel, by decide +kernel, by decide +kernel, by decide +kernel⟩
  have := h.2.2.2.1 (zero false) (zero false) (by decide +kernel) (by decide +kernel)
  rw [this] at w
  revert w; decide

end Vdt
