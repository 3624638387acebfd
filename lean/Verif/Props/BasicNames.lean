import Verif.Model.Bench

/-!
# C64: the basic function names
-/

namespace Vdt.Bench
open FP Txt

local notation "‹" s "›" => String.toList s

/-- The full property: the basic names carry no prefix, and the fast function of each is in the table
under the name with the prefix `Fast_`. -/
def C64_statement : Prop :=
  ∀ (R : RefMath b64) (vc : Option (VcFns b64)) (P : Pools b64), ∀ n ∈ getFunctionBasicNames R vc P,
    '_' ∉ n ∧ ‹"Fast_"› ++ n ∈ (tuples64 R vc P).map (·.name)

/-- **C64** (partial: only without Vc, and `Inverse` has no fast function of that name).  The list has
eleven names, without prefix and without repetition; to all but the last belongs a fast function. -/
theorem C64_basic_names_partial (R : RefMath b64) (P : Pools b64) :
    getFunctionBasicNames R none P =
      [‹"Exp"›, ‹"Log"›, ‹"Sin"›, ‹"Cos"›, ‹"Tan"›, ‹"Tanh"›, ‹"Asin"›, ‹"Acos"›, ‹"Atan"›, ‹"Isqrt"›, ‹"Inverse"›] ∧
    (∀ n ∈ getFunctionBasicNames R none P, '_' ∉ n) ∧ (getFunctionBasicNames R none P).Nodup ∧
    ∀ n ∈ getFunctionBasicNames R none P, n ≠ ‹"Inverse"› → ‹"Fast_"› ++ n ∈ (tuples64 R none P).map (·.name) := by
  have e : getFunctionBasicNames R none P =
      [‹"Exp"›, ‹"Log"›, ‹"Sin"›, ‹"Cos"›, ‹"Tan"›, ‹"Tanh"›, ‹"Asin"›, ‹"Acos"›, ‹"Atan"›, ‹"Isqrt"›, ‹"Inverse"›] := by
    simp only [getFunctionBasicNames, tuples64, List.map_append, List.map_cons, List.map_nil, List.append_nil, String.reduceToList]
    decide +kernel
  refine ⟨e, ?_, ?_, ?_⟩
  · rw [e]; simp only [String.reduceToList]; decide +kernel
  · rw [e]; simp only [String.reduceToList]; decide +kernel
  · rw [e]
    simp only [tuples64, List.map_append, List.map_cons, List.map_nil, List.append_nil, String.reduceToList]
    decide +kernel

/-- With Vc the names of the Vc functions are listed as well. -/
theorem C64_vc (R : RefMath b64) (V : VcFns b64) (P : Pools b64) :
    getFunctionBasicNames R (some V) P = getFunctionBasicNames R none P ++
      [‹"VC_Log"›, ‹"VC_Sin"›, ‹"VC_Cos"›, ‹"VC_Asin"›, ‹"VC_Atan"›, ‹"VC_Isqrt"›, ‹"VC_Inverse"›] := by
  simp only [getFunctionBasicNames, tuples64, List.map_append, List.map_cons, List.map_nil, List.append_nil, String.reduceToList]
  decide +kernel

/-- Nothing in the table is called `Fast_Inverse`. -/
theorem C64_violated : ¬ C64_statement := by
  intro h
  let R : RefMath b64 := ⟨id, id, id, id, id, id, id, id, id, fun x _ => x⟩
  have h1 := (h R none ⟨[], [], [], []⟩ ‹"Inverse"› (by
    rw [(C64_basic_names_partial R _).1]
    simp only [String.reduceToList]; decide +kernel)).2
  revert h1
  simp only [tuples64, List.map_append, List.map_cons, List.map_nil, List.append_nil, String.reduceToList]
  decide +kernel

example (R : RefMath b64) (P : Pools b64) : ‹"Tanh"› ∈ getFunctionBasicNames R none P := by
  rw [(C64_basic_names_partial R P).1]; simp

end Vdt.Bench
