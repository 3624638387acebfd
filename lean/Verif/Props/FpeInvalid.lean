import Verif.Lemmas.FpeInvalid
import Verif.Props.Fpe

/-!
# C110: results that are no numbers are announced
-/

namespace Vdt
open FP

/-- NaN from an argument that is not NaN comes with the invalid exception, an infinity with overflow or division by zero. -/
def Fpe.Ev.Announced {f : Fmt} (m : Fpe.Ev f) : Prop :=
  (m.res.isNaN = true → m.exc.invalid = true) ∧ (m.res.isInf = true → m.exc.overflow = true ∨ m.exc.divByZero = true)

theorem announced_fin {f : Fmt} {m : Fpe.Ev f} (h : m.res.isFinite = true) : m.Announced :=
  ⟨fun k => absurd (finite_not_nan h) (by rw [k]; exact Bool.noConfusion), fun k => absurd (finite_not_inf h) (by rw [k]; exact Bool.noConfusion)⟩

theorem nan_not_inf {f : Fmt} {x : FP f} (h : x.isNaN = true) : x.isInf = false := by
  unfold isNaN at h; unfold isInf
  rw [decide_eq_true_eq] at h
  exact decide_eq_false (by omega)

theorem announced_told {f : Fmt} {m : Fpe.Ev f} (h : Fpe.Told m) (hn : m.res.isFinite = true ∨ m.res.isNaN = true) : m.Announced := by
  rcases hn with hn | hn
  · exact announced_fin hn
  · exact ⟨h.ok, fun k => absurd (k.symm.trans (nan_not_inf hn)) Bool.noConfusion⟩

/-- Arc sine and arc cosine: every argument that is not NaN; outside of `[-1, 1]` the invalid exception is raised. -/
theorem C110_asin_partial (x : F64) (hx : x.isNaN = false) : (Fpe.fast_asin x).Announced ∧ (Fpe.fast_acos x).Announced ∧
    (x.isInf = true ∨ 1 < |x.val| → (Fpe.fast_asin x).exc.invalid = true ∧ (Fpe.fast_acos x).exc.invalid = true) := by
  have ta := Fpe.told_asin hx
  have tc := Fpe.told_acos hx
  have k : (x.isFinite = true ∧ |x.val| ≤ 1) ∨ (x.isNaN = true ∨ x.isInf = true ∨ (x.isFinite = true ∧ 1 < |x.val|)) := by
    rcases trichotomy x with h | h | h
    · exact Or.inr (Or.inl h)
    · exact Or.inr (Or.inr (Or.inl h))
    · rcases le_or_gt |x.val| 1 with l | l
      · exact Or.inl ⟨h, l⟩
      · exact Or.inr (Or.inr (Or.inr ⟨h, l⟩))
  have n1 := (C25_asin_nan_iff x).2
  have n2 := (C25_acos_nan_iff x).2
  rw [← Fpe.res_asin] at n1
  rw [← Fpe.res_acos] at n2
  refine ⟨?_, ?_, fun h => ?_⟩
  · rcases k with ⟨a, b⟩ | k
    · exact announced_fin (by rw [Fpe.res_asin]; exact (C26_asin_accurate x a b).1.1)
    · exact announced_told ta (Or.inr (n1 k))
  · rcases k with ⟨a, b⟩ | k
    · exact announced_fin (by rw [Fpe.res_acos]; exact (C27_acos_accurate x a b).1.1)
    · exact announced_told tc (Or.inr (n2 k))
  · have o : x.isNaN = true ∨ x.isInf = true ∨ (x.isFinite = true ∧ 1 < |x.val|) := by
      rcases trichotomy x with g | g | g
      · exact Or.inl g
      · exact Or.inr (Or.inl g)
      · refine Or.inr (Or.inr ⟨g, ?_⟩)
        rcases h with h | h
        · rw [finite_not_inf g] at h; cases h
        · exact h
    exact ⟨ta.ok (n1 o), tc.ok (n2 o)⟩

theorem C110_asinf_partial (x : F32) (hx : x.isNaN = false) : (Fpe.fast_asinf x).Announced ∧ (Fpe.fast_acosf x).Announced ∧
    (x.isInf = true ∨ 1 < |x.val| → (Fpe.fast_asinf x).exc.invalid = true ∧ (Fpe.fast_acosf x).exc.invalid = true) := by
  have ta := Fpe.told_asinf hx
  have tc := Fpe.told_acosf hx
  have k : (x.isFinite = true ∧ |x.val| ≤ 1) ∨ (x.isNaN = true ∨ x.isInf = true ∨ (x.isFinite = true ∧ 1 < |x.val|)) := by
    rcases trichotomy x with h | h | h
    · exact Or.inr (Or.inl h)
    · exact Or.inr (Or.inr (Or.inl h))
    · rcases le_or_gt |x.val| 1 with l | l
      · exact Or.inl ⟨h, l⟩
      · exact Or.inr (Or.inr (Or.inr ⟨h, l⟩))
  have n1 := (C25_asinf_nan_iff x).2
  have n2 := (C25_acosf_nan_iff x).2
  rw [← Fpe.res_asinf] at n1
  rw [← Fpe.res_acosf] at n2
  refine ⟨?_, ?_, fun h => ?_⟩
  · rcases k with ⟨a, b⟩ | k
    · exact announced_fin (by rw [Fpe.res_asinf]; exact (C28_asinf_accurate x a b).1.1)
    · exact announced_told ta (Or.inr (n1 k))
  · rcases k with ⟨a, b⟩ | k
    · exact announced_fin (by rw [Fpe.res_acosf]; exact (C28_acosf_accurate x a b).1.1)
    · exact announced_told tc (Or.inr (n2 k))
  · have o : x.isNaN = true ∨ x.isInf = true ∨ (x.isFinite = true ∧ 1 < |x.val|) := by
      rcases trichotomy x with g | g | g
      · exact Or.inl g
      · exact Or.inr (Or.inl g)
      · refine Or.inr (Or.inr ⟨g, ?_⟩)
        rcases h with h | h
        · rw [finite_not_inf g] at h; cases h
        · exact h
    exact ⟨ta.ok (n1 o), tc.ok (n2 o)⟩

/-- An argument just above one, and an infinity. -/
example : (lit (-1.0000001) : F32).isNaN = false ∧ 1 < |(lit (-1.0000001) : F32).val| ∧ (inf true : F64).isNaN = false ∧ (inf true : F64).isInf = true := by decide +kernel

/-- Arc tangents: NaN is announced for every argument that is not NaN, although none should appear (C23). -/
theorem C110_atan_partial (y x : F64) (hy : y.isNaN = false) (hx : x.isNaN = false) :
    ((Fpe.fast_atan x).res.isNaN = true → (Fpe.fast_atan x).exc.invalid = true) ∧
    ((Fpe.fast_atan2 y x).res.isNaN = true → (Fpe.fast_atan2 y x).exc.invalid = true) ∧
    (x.isFinite = true → (Fpe.fast_atan x).Announced) := by
  refine ⟨(Fpe.told_atan hx).ok, (Fpe.told_atan2 hy hx).ok, fun h => announced_fin ?_⟩
  rw [Fpe.res_atan]; exact (C19_atan_accurate x h).1

theorem C110_atanf_partial (y x : F32) (hy : y.isNaN = false) (hx : x.isNaN = false) :
    ((Fpe.fast_atanf x).res.isNaN = true → (Fpe.fast_atanf x).exc.invalid = true) ∧
    ((Fpe.fast_atan2f y x).res.isNaN = true → (Fpe.fast_atan2f y x).exc.invalid = true) ∧
    (x.isFinite = true → (Fpe.fast_atanf x).Announced) := by
  refine ⟨(Fpe.told_atanf hx).ok, (Fpe.told_atan2f hy hx).ok, fun h => announced_fin ?_⟩
  rw [Fpe.res_atanf]; exact (C21_atanf_accurate x h).1

/-- `fast_atan2` of two infinities is NaN. -/
example : (Fpe.fast_atan2 (inf false) (inf false)).res.isNaN = true ∧ (inf false : F64).isNaN = false := by decide +kernel

/-- Tangents: every argument for which the code is defined. -/
theorem C110_tan_partial (x : F64) (hx : x.isFinite = true) (r : Fpe.Ev b64) (h : Fpe.fast_tan x = some r) :
    (r.res.isNaN = true → r.exc.invalid = true) := (Fpe.told_tan (finite_not_nan hx) h).ok
theorem C110_tanf_partial (x : F32) (hx : x.isFinite = true) (r : Fpe.Ev b32) (h : Fpe.fast_tanf x = some r) :
    (r.res.isNaN = true → r.exc.invalid = true) := (Fpe.told_tanf (finite_not_nan hx) h).ok

/-- The smallest number, whose tangent is NaN. -/
example : (⟨false, 1, by decide⟩ : F64).isFinite = true ∧ (Fpe.fast_tan ⟨false, 1, by decide⟩).map (fun r => r.res.isNaN) = some true := by decide +kernel

/-- Reciprocals: every finite argument.  (At zero the standard wants the division by zero, the code raises overflow.) -/
theorem C110_inv_partial (x : F64) (hx : x.isFinite = true) :
    (Fpe.fast_inv_general x 4).Announced ∧ (Fpe.fast_inv_general x 3).Announced := by
  have k := C32_isqrt_positive (x := FP.abs x) hx rfl (y := lit 1) (by decide +kernel) (by decide +kernel)
  have a := Fpe.inv_exc (x := x) (n := 3) k.1.1
  have b := Fpe.inv_exc (x := x) (n := 2) k.2.1.1
  exact ⟨⟨fun h => absurd (h.symm.trans a.1) Bool.noConfusion, fun h => Or.inl (a.2 h)⟩, fun h => absurd (h.symm.trans b.1) Bool.noConfusion, fun h => Or.inl (b.2 h)⟩
theorem C110_invf_partial (x : F32) (hx : x.isFinite = true) :
    (Fpe.fast_invf_general x 2).Announced ∧ (Fpe.fast_invf_general x 1).Announced := by
  have k := C32_isqrt_positive (x := lit 1) (by decide +kernel) (by decide +kernel) (y := FP.abs x) hx rfl
  have a := Fpe.invf_exc (x := x) (n := 1) k.2.2.1.1
  have b := Fpe.invf_exc (x := x) (n := 0) k.2.2.2.1
  exact ⟨⟨fun h => absurd (h.symm.trans a.1) Bool.noConfusion, fun h => Or.inl (a.2 h)⟩, fun h => absurd (h.symm.trans b.1) Bool.noConfusion, fun h => Or.inl (b.2 h)⟩

/-- Arguments whose reciprocal overflows. -/
example : (zero true : F64).isFinite = true ∧ (Fpe.fast_inv_general (zero true : F64) 4).res.isInf = true ∧
    (⟨false, 1, by decide⟩ : F32).isFinite = true ∧ (Fpe.fast_invf_general ⟨false, 1, by decide⟩ 2).res.isInf = true := by decide +kernel

/-- What is missing. -/
def AllAnnounced : Prop :=
  (∀ x : F64, x.isFinite = true → (Fpe.fast_log x).Announced) ∧ (∀ x : F32, x.isFinite = true → (Fpe.fast_logf x).Announced) ∧
  (∀ x : F64, x.isFinite = true → ∀ r, Fpe.fast_exp x = some r → r.Announced) ∧
  (∀ x : F32, x.isFinite = true → ∀ r, Fpe.fast_expf x = some r → r.Announced) ∧
  (∀ x : F64, x.isFinite = true → (Fpe.fast_isqrt_general x 4).Announced) ∧ (∀ x : F32, x.isFinite = true → (Fpe.fast_isqrtf_general x 2).Announced)

/-- The logarithms of minus one and of `1.1 * 10^307`, the exponential beyond its limit and the reciprocal square root of some negative
numbers are NaN or infinite, and nothing is raised: the values are written by a test or by the bit pattern of the first guess. -/
theorem C110_violated : ¬ AllAnnounced ∧
    ((Fpe.fast_log (lit (-1))).res.isNaN = true ∧ (Fpe.fast_log (lit (-1))).exc = {}) ∧
    ((Fpe.fast_log (lit 1.1e307)).res = inf false ∧ (Fpe.fast_log (lit 1.1e307)).exc = {}) ∧
    ((Fpe.fast_logf (lit (-1))).res.isNaN = true ∧ (Fpe.fast_logf (lit (-1))).exc = {}) ∧
    ((Fpe.fast_exp (lit 710)).map fun r => (r.res, r.exc)) = some (inf false, {}) ∧
    ((Fpe.fast_expf (lit 88.5)).map fun r => (r.res, r.exc)) = some (inf false, {}) ∧
    ((Fpe.fast_isqrt_general (details.uint642dp 0xBFCDD6A18F5433F4#64) 4).res.isNaN = true ∧ (Fpe.fast_isqrt_general (details.uint642dp 0xBFCDD6A18F5433F4#64) 4).exc = {}) := by
  have m1 : (lit (-1) : F64).isFinite = true := by decide +kernel
  have w : (Fpe.fast_log (lit (-1))).res.isNaN = true ∧ (Fpe.fast_log (lit (-1))).exc = {} := by decide +kernel
  refine ⟨fun h => ?_, w, by decide +kernel, by decide +kernel, by decide +kernel, by decide +kernel, by decide +kernel⟩
  have k := (h.1 _ m1).1 w.1
  rw [w.2] at k
  exact Bool.noConfusion k

end Vdt
