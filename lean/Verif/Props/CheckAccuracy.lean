import Verif.Model.Compare
import Verif.Props.Cmd

/-!
# C65: the command line of `checkAccuracy.py`
-/

namespace Vdt.Compare
open FP Txt Cmd

local notation "‹" s "›" => String.toList s

theorem shell_plain (q : Bool) (t : Text) (cur : Option Text) (r : Text) (hq : '"' ∉ t) (hs : q = true ∨ ' ' ∉ t) (hc : cur.isSome = true ∨ t ≠ []) :
    shellWords q cur (t ++ r) = shellWords q (some (cur.getD [] ++ t)) r := by
  induction t generalizing cur with
  | nil =>
    cases cur with
    | none => simp at hc
    | some c => simp
  | cons a t ih =>
    have h1 : a ≠ '"' := fun e => hq (by simp [e])
    have h2 : ¬ (a = ' ' ∧ q = false) := by
      rintro ⟨rfl, rfl⟩
      rcases hs with hs | hs
      · cases hs
      · simp at hs
    rw [List.cons_append, shellWords, if_neg h1, if_neg h2, ih]
    · simp
    · intro h; exact hq (by simp [h])
    · exact hs.imp id fun h h' => h (by simp [h'])
    · left; rfl

theorem join_dropLast (l : List Text) : (l.flatMap (· ++ [','])).dropLast = joinWith ',' l := by
  induction l with
  | nil => rfl
  | cons a l ih =>
    cases l with
    | nil => simp [joinWith]
    | cons b l =>
      rw [List.flatMap_cons, List.append_assoc, List.dropLast_append_of_ne_nil (by simp), List.cons_append, List.nil_append,
        List.dropLast_cons_of_ne_nil (by simp), ih]
      rfl

theorem foldl_flatMap (g : Text → Text) (l : List Text) (s : Text) : l.foldl (fun s x => s ++ g x) s = s ++ l.flatMap g := by
  induction l generalizing s with
  | nil => simp
  | cons a l ih => simp [ih]

theorem getRefs_eq (nick fast : Text) :
    getRefs nick fast = joinWith ',' (functions.map (responseFilename nick (if fast ≠ [] then fast ++ ‹"_"› else fast))) := by
  unfold getRefs
  dsimp only
  rw [foldl_flatMap (fun function => responseFilename nick _ function ++ ‹","›), List.nil_append, ← join_dropLast, List.flatMap_map]
  rfl

theorem mem_joinWith {c : Char} {l : List Text} (h : c ∈ joinWith ',' l) : c = ',' ∨ ∃ e ∈ l, c ∈ e := by
  induction l with
  | nil => simp [joinWith] at h
  | cons a l ih =>
    cases l with
    | nil => right; exact ⟨a, by simp, h⟩
    | cons b l =>
      have e : joinWith ',' (a :: b :: l) = a ++ ',' :: joinWith ',' (b :: l) := rfl
      rw [e, List.mem_append, List.mem_cons] at h
      rcases h with h | h | h
      · right; exact ⟨a, by simp, h⟩
      · left; exact h
      · rcases ih h with h | ⟨e, h1, h2⟩
        · left; exact h
        · right; exact ⟨e, by simp [h1], h2⟩

/-- Characters that occur in the file names besides those of the nickname. -/
theorem functions_plain : ∀ F ∈ functions, ∀ c ∈ F, c.isAlphanum = true := by
  simp only [functions, String.reduceToList]
  decide +kernel

/-- A character of a file name that is neither a letter, a digit, an underscore nor a dot comes from the
nickname. -/
theorem mem_filename {c : Char} {nick fast F : Text} (hf : ∀ c ∈ fast, c.isAlphanum = true ∨ c = '_') (hF : F ∈ functions)
    (h : c ∈ responseFilename nick fast F) : c ∈ nick ∨ c.isAlphanum = true ∨ c = '_' ∨ c = '.' := by
  unfold responseFilename at h
  simp only [String.reduceToList, List.mem_append, List.mem_cons, List.not_mem_nil, or_false] at h
  rcases h with (((h | h) | h) | h) | h
  · exact Or.inl h
  · rcases h with rfl | rfl <;> simp
  · rcases hf c h with h | h <;> simp [h]
  · simp [functions_plain F hF c h]
  · right
    rcases h with rfl | rfl | rfl | rfl | rfl | rfl | rfl | rfl | rfl | rfl | rfl | rfl | rfl | rfl <;> decide

theorem mem_refs {c : Char} {nick fast : Text} (hf : ∀ c ∈ fast, c.isAlphanum = true) (h : c ∈ getRefs nick fast) :
    c ∈ nick ∨ c.isAlphanum = true ∨ c = '_' ∨ c = '.' ∨ c = ',' := by
  rw [getRefs_eq] at h
  rcases mem_joinWith h with h | ⟨e, he, h⟩
  · simp [h]
  · obtain ⟨F, hF, rfl⟩ := List.mem_map.1 he
    have := mem_filename (c := c) (nick := nick) (F := F) (fast := if fast ≠ [] then fast ++ ‹"_"› else fast) (by
      intro c hc
      split at hc
      · simp only [String.reduceToList, List.mem_append, List.mem_cons, List.not_mem_nil, or_false] at hc
        exact hc.imp (hf c) id
      · left; exact hf c hc) hF h
    tauto

/-- The words that arrive at the comparison program. -/
def words (nick : Text) : List Text := [‹"-n="› ++ nick, ‹"-T="› ++ getTests nick, ‹"-R="› ++ getRefs nick]

theorem shell_command (nick : Text) (h : ∀ c ∈ nick, c ≠ ' ' ∧ c ≠ '"') :
    shellWords false none (command nick) = ‹"vdtArithmComparison"› :: words nick := by
  have hT : '"' ∉ getTests nick := by
    intro hm
    rcases mem_refs (by simp only [String.reduceToList]; decide) hm with hm | hm
    · exact (h _ hm).2 rfl
    · revert hm; decide
  have hR : '"' ∉ getRefs nick := by
    intro hm
    rcases mem_refs (by simp) hm with hm | hm
    · exact (h _ hm).2 rfl
    · revert hm; decide
  have hn : '"' ∉ nick ∧ ' ' ∉ nick := ⟨fun hm => (h _ hm).2 rfl, fun hm => (h _ hm).1 rfl⟩
  unfold command words
  generalize getTests nick = T at *
  generalize getRefs nick = R at *
  rw [show ‹"vdtArithmComparison -n="› ++ nick ++ ‹" -T=\""› ++ T ++ ‹"\" -R=\""› ++ R ++ ‹"\""› =
    ‹"vdtArithmComparison"› ++ (' ' :: (‹"-n="› ++ (nick ++ (' ' :: (‹"-T="› ++ ('"' :: (T ++ ('"' :: ' ' :: (‹"-R="› ++ ('"' :: (R ++ ['"']))))))))))) by
      simp only [String.reduceToList, List.append_assoc, List.cons_append, List.nil_append]]
  rw [shell_plain _ _ _ _ (by simp only [String.reduceToList]; decide) (by simp only [String.reduceToList]; decide) (by simp only [String.reduceToList]; decide)]
  rw [shellWords, if_neg (by decide), if_pos (by decide)]
  rw [shell_plain _ ‹"-n="› _ _ (by simp only [String.reduceToList]; decide) (by simp only [String.reduceToList]; decide) (by simp only [String.reduceToList]; decide)]
  rw [shell_plain _ nick _ _ hn.1 (Or.inr hn.2) (Or.inl rfl)]
  rw [shellWords, if_neg (by decide), if_pos (by decide)]
  rw [shell_plain _ ‹"-T="› _ _ (by simp only [String.reduceToList]; decide) (by simp only [String.reduceToList]; decide) (by simp only [String.reduceToList]; decide)]
  rw [shellWords, if_pos rfl]
  rw [shell_plain (!false) T _ _ hT (Or.inl rfl) (Or.inl rfl)]
  rw [shellWords, if_pos rfl]
  rw [shellWords, if_neg (by decide), if_pos (by decide)]
  rw [shell_plain _ ‹"-R="› _ _ (by simp only [String.reduceToList]; decide) (by simp only [String.reduceToList]; decide) (by simp only [String.reduceToList]; decide)]
  rw [shellWords, if_pos rfl]
  rw [shell_plain (!false) R _ _ hR (Or.inl rfl) (Or.inl rfl)]
  rw [shellWords, if_pos rfl, shellWords]
  simp

/-- The options of the comparison program. -/
def options : CmdOptions := ((Cmd.new.addOption ‹"-n"› ‹"--nick"›).addOption ‹"-R"› ‹"--reference"›).addOption ‹"-T"› ‹"--test"›

theorem parse_words (n T R : Text) :
    options.parseCmd [‹"-n="› ++ n, ‹"-T="› ++ T, ‹"-R="› ++ R] = (true, { options with received := [(‹"-R"›, R), (‹"-T"›, T), (‹"-n"›, n)] }) := by
  simp only [options, Cmd.new, CmdOptions.addOption, CmdOptions.parseCmd, String.reduceToList, List.cons_append, List.nil_append, parseLoop,
    cutArg, find]
  simp [matchOpt, lookup]

theorem args_words (n T R : Text) (a : List Opt) :
    (⟨[(‹"-R"›, R), (‹"-T"›, T), (‹"-n"›, n)], a⟩ : CmdOptions).isSet ‹"-h"› = false ∧
    (⟨[(‹"-R"›, R), (‹"-T"›, T), (‹"-n"›, n)], a⟩ : CmdOptions).getArgument ‹"-n"› = n ∧
    (⟨[(‹"-R"›, R), (‹"-T"›, T), (‹"-n"›, n)], a⟩ : CmdOptions).getArgument ‹"-R"› = R ∧
    (⟨[(‹"-R"›, R), (‹"-T"›, T), (‹"-n"›, n)], a⟩ : CmdOptions).getArgument ‹"-T"› = T := by
  simp only [CmdOptions.isSet, CmdOptions.getArgument, String.reduceToList, lookup]
  simp

theorem split_refs (nick fast : Text) (hf : ∀ c ∈ fast, c.isAlphanum = true) (h : ',' ∉ nick) :
    list2vector (getRefs nick fast) = functions.map (responseFilename nick (if fast ≠ [] then fast ++ ‹"_"› else fast)) := by
  rw [getRefs_eq]
  refine C50_list_roundtrip _ ?_ ?_
  · intro e he hc
    obtain ⟨F, hF, rfl⟩ := List.mem_map.1 he
    have := mem_filename (c := ',') (nick := nick) (F := F) (fast := if fast ≠ [] then fast ++ ‹"_"› else fast) (by
      intro c hc
      split at hc
      · simp only [String.reduceToList, List.mem_append, List.mem_cons, List.not_mem_nil, or_false] at hc
        exact hc.imp (hf c) id
      · left; exact hf c hc) hF hc
    rcases this with h' | h'
    · exact h h'
    · revert h'; decide
  · intro e he
    obtain ⟨F, hF, rfl⟩ := List.mem_map.1 (List.mem_of_getLast? he)
    unfold responseFilename
    simp

/-- What the comparison program makes of the line a shell reads: nickname, reference files, test
files. -/
def received (line : Text) : Option (Text × List Text × List Text) :=
  let r := options.parseCmd (shellWords false none line).tail
  if r.1 = false ∨ r.2.isSet ‹"-h"› then none
  else some (r.2.getArgument ‹"-n"›, list2vector (r.2.getArgument ‹"-R"›), list2vector (r.2.getArgument ‹"-T"›))

/-- The full property: for every nickname (without characters special to the shell) the program
receives the nickname, the 44 reference files and, in the same order, the files of the fast functions. -/
def C65_statement : Prop := ∀ nick : Text, (∀ c ∈ nick, c ≠ ' ' ∧ c ≠ '"') →
  received (command nick) = some (nick,
    functions.map fun F => nick ++ ‹"__"› ++ F ++ ‹"__response.txt"›,
    functions.map fun F => nick ++ ‹"__Fast_"› ++ F ++ ‹"__response.txt"›)

/-- **C65** (partial: the nickname must not contain a comma). -/
theorem C65_command_partial (nick : Text) (h : ∀ c ∈ nick, c ≠ ' ' ∧ c ≠ '"') (hc : ',' ∉ nick) :
    received (command nick) = some (nick,
      functions.map fun F => nick ++ ‹"__"› ++ F ++ ‹"__response.txt"›,
      functions.map fun F => nick ++ ‹"__Fast_"› ++ F ++ ‹"__response.txt"›) := by
  unfold received
  dsimp only
  rw [shell_command nick h, List.tail_cons]
  unfold words
  rw [parse_words]
  dsimp only
  obtain ⟨a1, a2, a3, a4⟩ := args_words nick (getTests nick) (getRefs nick) options.allowed
  rw [a1, a2, a3, a4, if_neg (by simp), split_refs nick [] (by simp) hc]
  unfold getTests
  rw [split_refs nick ‹"Fast"› (by simp only [String.reduceToList]; decide) hc]
  have e : ∀ fast, responseFilename nick fast = fun F => nick ++ ‹"__"› ++ fast ++ F ++ ‹"__response.txt"› := fun _ => rfl
  simp only [e, String.reduceToList, List.append_assoc, List.cons_append, List.nil_append, ne_eq, reduceCtorEq, not_false_eq_true, if_true,
    not_true_eq_false, if_false]

/-- The script lists 44 functions, none of them twice. -/
theorem C65_functions : functions.length = 44 ∧ functions.Nodup := by
  simp only [functions, String.reduceToList]
  decide +kernel

/-- With the nickname `a,b` the first reference file is `a`. -/
theorem C65_violated : ¬ C65_statement := by
  intro h
  have h1 := h ['a', ',', 'b'] (by decide)
  unfold received at h1
  dsimp only at h1
  rw [shell_command _ (by decide), List.tail_cons] at h1
  unfold words at h1
  rw [parse_words] at h1
  dsimp only at h1
  obtain ⟨a1, a2, a3, a4⟩ := args_words ['a', ',', 'b'] (getTests ['a', ',', 'b']) (getRefs ['a', ',', 'b']) options.allowed
  rw [a1, a2, a3, a4, if_neg (by simp)] at h1
  have h2 := congrArg (fun o : Option (Text × List Text × List Text) => o.map fun p => p.2.1) h1
  simp only [Option.map_some, Option.some.injEq] at h2
  have h3 := (C50_list_fields (getRefs ['a', ',', 'b'])).2.1 (['a', ',', 'b'] ++ ‹"__"› ++ ‹"Acos"› ++ ‹"__response.txt"›) (by
    rw [h2]
    exact List.mem_map.2 ⟨‹"Acos"›, by unfold functions; exact List.mem_cons_self .., rfl⟩)
  exact h3 (by simp)

example : (∀ c ∈ ‹"run_2026-11"›, c ≠ ' ' ∧ c ≠ '"') ∧ ',' ∉ ‹"run_2026-11"› := by decide

end Vdt.Compare
