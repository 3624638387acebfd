import Verif.Props.GenerateNumpy

/-!
# The order of the generated functions (C81)
-/

namespace Vdt.Gen
open Txt

/-- Python's order of strings: lexicographic in the code points. -/
def Before (a b : Text) : Prop := a.map Char.toNat < b.map Char.toNat

instance (a b : Text) : Decidable (Before a b) := inferInstanceAs (Decidable (a.map Char.toNat < b.map Char.toNat))

theorem leText_iff : ∀ a b : Text, leText a b = true ↔ ¬ Before b a
  | [], b => by simp [leText, Before]
  | a :: s, [] => by simp [leText, Before]
  | a :: s, b :: t => by
    have ih := leText_iff s t
    unfold Before at *
    unfold leText
    simp only [List.map_cons, List.cons_lt_cons_iff]
    rcases lt_trichotomy a.toNat b.toNat with h | h | h
    · simp [h, h.le, h.ne', not_lt.2 h.le]
    · simp only [h, lt_irrefl, if_false, false_or, true_and]; exact ih
    · simp [h, not_lt.2 h.le]

theorem before_trans {a b c : Text} (h1 : ¬ Before b a) (h2 : ¬ Before c b) : ¬ Before c a := by
  unfold Before at *
  rw [List.not_lt] at *
  exact List.le_trans h1 h2

theorem insert_perm (x : Text) : ∀ l, (insert x l).Perm (x :: l)
  | [] => List.Perm.refl _
  | y :: l => by
    unfold insert
    split
    · exact List.Perm.refl _
    · exact ((insert_perm x l).cons y).trans (List.Perm.swap _ _ _)

theorem insert_ordered (x : Text) : ∀ l : List Text, l.Pairwise (fun a b => ¬ Before b a) → (insert x l).Pairwise (fun a b => ¬ Before b a)
  | [], _ => by simp [insert]
  | y :: l, h => by
    obtain ⟨h1, h2⟩ := List.pairwise_cons.1 h
    unfold insert
    split
    · rename_i hxy
      have hxy' := (leText_iff x y).1 hxy
      refine List.pairwise_cons.2 ⟨fun z hz => ?_, h⟩
      rcases List.mem_cons.1 hz with rfl | hz
      · exact hxy'
      · exact before_trans hxy' (h1 z hz)
    · rename_i hxy
      have hyx : ¬ Before x y := by
        intro hb
        apply hxy
        rw [leText_iff]
        unfold Before at *
        rw [List.not_lt]; exact List.le_of_lt hb
      refine List.pairwise_cons.2 ⟨fun z hz => ?_, insert_ordered x l h2⟩
      rcases List.mem_cons.1 ((insert_perm x l).mem_iff.1 hz) with rfl | hz
      · exact hyx
      · exact h1 z hz

/-- **C81.** Whatever the list of names, sorting keeps each name as often as it occurs and puts them in
alphabetical order. -/
theorem C81_sorted (l : List Text) : (sorted l).Perm l ∧ (sorted l).Pairwise (fun a b => ¬ Before b a) := by
  induction l with
  | nil => exact ⟨List.Perm.refl _, List.Pairwise.nil⟩
  | cons x l ih => exact ⟨(insert_perm x _).trans (ih.1.cons x), insert_ordered x _ ih.2⟩

/-- The array functions are defined in the library source first for double, then for float, each time in
strictly alphabetical order of the name of the scalar function (without the `f` of the float version). -/
theorem C81_array_functions (preload : Bool) :
    ∃ body, create_impl preload = preamble ++ body ∧ ∃ doubles floats : List (Text × Declared),
      voidDefs body = (doubles ++ floats).map (fun p => p.2.definition) ∧
      (∀ p ∈ doubles, p.2.prec = .double ∧ p.2.scalar = p.1) ∧ (∀ p ∈ floats, p.2.prec = .float ∧ p.2.scalar = p.1 ++ ['f']) ∧
      doubles.Pairwise (fun p q => Before p.1 q.1) ∧ floats.Pairwise (fun p q => Before p.1 q.1) := by
  obtain ⟨tail, h1, h2⟩ : ∃ tail, create_impl preload = preamble ++ (allPieces ++ '}' :: tail) ∧ voidDefs tail = [] := by
    cases preload
    · exact ⟨_, impl_eq_false, no_preload_no_void⟩
    · exact ⟨_, impl_eq_true, preload_no_void⟩
  refine ⟨_, h1, (sorted FUNCTIONS_LIST).map fun n => (n, declOf (true, n)), (sorted FUNCTIONS_LIST).map fun n => (n, declOf (false, n)),
    ?_, by decide +kernel, by decide +kernel, by decide +kernel, by decide +kernel⟩
  rw [allPieces, (voidDefs_pieces _ (fun p => (declOf p).definition) pairs pieces_ok tail).1, h2, List.append_nil]
  unfold pairs
  simp [List.map_map, Function.comp_def]

/-- Names that are prefixes of one another come first: `identity`, then `identity2D`. -/
example : Before "identity".toList "identity2D".toList ∧
    sorted ["identity2D".toList, "identity".toList, "exp".toList] = ["exp".toList, "identity".toList, "identity2D".toList] := by decide +kernel

end Vdt.Gen
