import Verif.Model.NpUfunc
import Verif.Props.Ufunc

/-!
# C86: the numpy module with the exponential alone
-/

namespace Vdt.Py
open Vdt.Txt (Text)
open Vdt.Arr (BMem)

local notation "‹" s "›" => String.toList s

/-- `vdt_expv` of the small module chooses and calls the loops as `vdt_exp` of the large one does, for every argument. -/
theorem C86_npufunc : ∃ u ∈ ufuncs, u.name = ‹"vdt_exp"› ∧ ∃ v, Np.dict = [(‹"vdt_expv"›, v)] ∧
    (∀ kinds, v.pick kinds = u.pick kinds) ∧
    ∀ kinds t, v.pick kinds = some t → ∀ (s : Bool) (ops : List (Int × Int)) (n : Nat) (m : BMem (FP (fmt s))),
      v.run t s ops n m = u.run t s ops n m := by
  have h : ∃ u ∈ ufuncs, u.name = ‹"vdt_exp"› ∧ u.types = Np.types ∧ u.ntypes = 2 ∧ u.nin = 1 ∧ u.nout = 1 ∧ u.funcs = Np.funcs ∧
      u.data[0]? = Np.data[0]? ∧ u.data[1]? = Np.data[1]? := by decide +kernel
  obtain ⟨u, hu, hn, h1, h2, h3, h4, h5, h6, h7⟩ := h
  refine ⟨u, hu, hn, _, rfl, ?_, ?_⟩
  · intro kinds
    unfold Ufunc.pick Ufunc.row
    rw [h1, h2, h3, h4]
  · intro kinds t ht s ops n m
    have ht2 : t < 2 := by
      unfold Ufunc.pick at ht
      exact List.mem_range.1 (List.mem_of_find?_eq_some ht)
    unfold Ufunc.run
    rw [h5]
    rcases (by omega : t = 0 ∨ t = 1) with rfl | rfl
    · rw [h6]
    · rw [h7]

/-- Inputs of both types have a row. -/
example : Np.dict.map (fun p => (p.2.pick [true], p.2.pick [false])) = [(some 0, some 1)] := by decide +kernel

end Vdt.Py
