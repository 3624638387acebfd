import Verif.Model.Cmd
import Mathlib.Data.List.Basic
import Mathlib.Data.List.Nodup
import Mathlib.Data.List.Perm.Basic

/-!
# Command line options and comma lists (C49, C50)
-/

namespace Vdt.Cmd
open Vdt.Txt (Text)

theorem find_none {c : Char} {t : Text} : find c t = none ↔ c ∉ t := by
  induction t with
  | nil => simp [find]
  | cons a t ih =>
    unfold find
    split
    · rename_i h; simp [h]
    · rename_i h
      rw [Option.map_eq_none_iff, ih, List.mem_cons, not_or]
      exact ⟨fun h' => ⟨fun e => h e.symm, h'⟩, fun h' => h'.2⟩

theorem find_append {c : Char} (a b : Text) (h : c ∉ a) : find c (a ++ c :: b) = some a.length := by
  induction a with
  | nil => simp [find]
  | cons x a ih =>
    rw [List.mem_cons, not_or] at h
    rw [List.cons_append, find, if_neg (fun e => h.1 e.symm), ih h.2]
    rfl

theorem find_some {c : Char} {t : Text} {n : Nat} (h : find c t = some n) :
    n < t.length ∧ c ∉ t.take n ∧ t = t.take n ++ c :: t.drop (n + 1) := by
  induction t generalizing n with
  | nil => simp [find] at h
  | cons a t ih =>
    unfold find at h
    split at h
    · rename_i e
      obtain rfl : n = 0 := by simpa using h.symm
      simp [e]
    · rename_i e
      obtain ⟨m, hm, rfl⟩ := Option.map_eq_some_iff.1 h
      obtain ⟨h1, h2, h3⟩ := ih hm
      refine ⟨by simp; omega, ?_, ?_⟩
      · simp only [List.take_succ_cons, List.mem_cons, not_or]
        exact ⟨fun e' => e e'.symm, h2⟩
      · simp only [List.take_succ_cons, List.drop_succ_cons, List.cons_append]
        rw [← h3]

/-! ## C49 -/

/-- A word of the command line as the user means it: a flag and possibly an argument. -/
structure Word where
  flag : Text
  arg : Option Text

/-- How it is typed: `flag` or `flag=argument`. -/
def Word.text (w : Word) : Text :=
  match w.arg with
  | none => w.flag
  | some v => w.flag ++ '=' :: v

/-- A flag is not empty and has no `=`. -/
def Word.Ok (w : Word) : Prop := w.flag ≠ [] ∧ '=' ∉ w.flag

/-- `w` names the option `o`. -/
def Names (w : Word) (o : Opt) : Prop := w.flag = o.short ∨ w.flag = o.long

instance (w : Word) (o : Opt) : Decidable (Names w o) := by unfold Names; infer_instance

/-- No flag belongs to two options. -/
def Unambiguous (allowed : List Opt) : Prop :=
  ∀ o ∈ allowed, ∀ o' ∈ allowed, (o.short = o'.short ∨ o.short = o'.long ∨ o.long = o'.short ∨ o.long = o'.long) → o = o'

theorem cutArg_text (w : Word) (h : w.Ok) : cutArg w.text = (w.flag, w.arg.getD []) := by
  obtain ⟨h1, h2⟩ := h
  cases w with
  | mk flag arg =>
    cases arg with
    | none =>
      show cutArg flag = _
      unfold cutArg
      rw [find_none.2 h2]
      rfl
    | some v =>
      show cutArg (flag ++ '=' :: v) = _
      unfold cutArg
      rw [find_append flag v h2]
      cases flag with
      | nil => exact absurd rfl h1
      | cons a t =>
        simp

theorem matchOpt_none (flag value : Text) (recv : List (Text × Text)) (allowed : List Opt)
    (h : ∀ o ∈ allowed, ¬ (flag = o.short ∨ flag = o.long)) : matchOpt flag value recv allowed = none := by
  induction allowed with
  | nil => rfl
  | cons o os ih =>
    have h1 := h o (List.mem_cons_self ..)
    rw [matchOpt, if_neg (fun h' => h1 (h'.imp Eq.symm Eq.symm))]
    exact ih (fun o' ho' => h o' (List.mem_cons_of_mem _ ho'))

theorem matchOpt_some (flag value : Text) (recv : List (Text × Text)) (allowed : List Opt) (hu : Unambiguous allowed) (o : Opt)
    (ho : o ∈ allowed) (hn : flag = o.short ∨ flag = o.long) : matchOpt flag value recv allowed =
      if (lookup o.short recv).isSome then some (false, recv) else some (true, (o.short, value) :: recv) := by
  induction allowed with
  | nil => simp at ho
  | cons a os ih =>
    by_cases h : a.short = flag ∨ a.long = flag
    · have : a = o := by
        refine hu a (List.mem_cons_self ..) o ho ?_
        rcases h with h | h <;> rcases hn with hn | hn <;> simp [h, hn]
      rw [matchOpt, if_pos h, this]
    · rw [matchOpt, if_neg h]
      refine ih (fun x hx y hy => hu x (List.mem_cons_of_mem _ hx) y (List.mem_cons_of_mem _ hy)) ?_
      rcases List.mem_cons.1 ho with rfl | ho
      · exact absurd (hn.imp Eq.symm Eq.symm) h
      · exact ho

theorem lookup_append_single (k v key : Text) (recv : List (Text × Text)) :
    lookup key ((k, v) :: recv) = if k = key then some v else lookup key recv := rfl

/-- What the loop does with words that name options and do not repeat. -/
theorem parseLoop_ok (allowed : List Opt) (hu : Unambiguous allowed) (ws : List Word) (hw : ∀ w ∈ ws, w.Ok)
    (opt : Word → Opt) (ho : ∀ w ∈ ws, opt w ∈ allowed ∧ Names w (opt w)) (recv : List (Text × Text))
    (hnew : ∀ w ∈ ws, lookup (opt w).short recv = none) (hnd : (ws.map fun w => (opt w).short).Nodup) :
    ∃ recv', parseLoop allowed (ws.map Word.text) recv = (true, recv') ∧
      (∀ w ∈ ws, lookup (opt w).short recv' = some (w.arg.getD [])) ∧
      ∀ key, (∀ w ∈ ws, (opt w).short ≠ key) → lookup key recv' = lookup key recv := by
  induction ws generalizing recv with
  | nil => exact ⟨recv, rfl, by simp, by simp⟩
  | cons w ws ih =>
    rw [List.map_cons, List.nodup_cons] at hnd
    have hw0 := hw w (List.mem_cons_self ..)
    have ho0 := ho w (List.mem_cons_self ..)
    obtain ⟨recv', h1, h2, h3⟩ := ih (fun x hx => hw x (List.mem_cons_of_mem _ hx)) (fun x hx => ho x (List.mem_cons_of_mem _ hx))
      (((opt w).short, w.arg.getD []) :: recv) (by
        intro x hx
        rw [lookup_append_single, if_neg]
        · exact hnew x (List.mem_cons_of_mem _ hx)
        · intro e
          exact hnd.1 (e ▸ List.mem_map.2 ⟨x, hx, rfl⟩)) hnd.2
    refine ⟨recv', ?_, ?_, ?_⟩
    · rw [List.map_cons, parseLoop, cutArg_text w hw0]
      dsimp only
      rw [matchOpt_some _ _ _ _ hu (opt w) ho0.1 ho0.2, if_neg (by simp [hnew w (List.mem_cons_self ..)])]
      exact h1
    · intro x hx
      rcases List.mem_cons.1 hx with rfl | hx
      · rw [h3 _ (fun y hy e => hnd.1 (List.mem_map.2 ⟨y, hy, e⟩)), lookup_append_single, if_pos rfl]
      · exact h2 x hx
    · intro key hk
      rw [h3 key (fun x hx => hk x (List.mem_cons_of_mem _ hx)), lookup_append_single, if_neg (hk w (List.mem_cons_self ..))]

/-- If the loop accepts, every word names an allowed option, and none repeats. -/
theorem parseLoop_accepts (allowed : List Opt) (hu : Unambiguous allowed) (ws : List Word) (hw : ∀ w ∈ ws, w.Ok)
    (recv recv' : List (Text × Text)) (h : parseLoop allowed (ws.map Word.text) recv = (true, recv')) :
    ∃ opt : Word → Opt, (∀ w ∈ ws, opt w ∈ allowed ∧ Names w (opt w)) ∧ (∀ w ∈ ws, lookup (opt w).short recv = none) ∧
      (ws.map fun w => (opt w).short).Nodup := by
  classical
  have hopt : ∀ w : Word, ∃ o : Opt, (∃ o ∈ allowed, Names w o) → o ∈ allowed ∧ Names w o := by
    intro w
    by_cases h : ∃ o ∈ allowed, Names w o
    · obtain ⟨o, h1, h2⟩ := h; exact ⟨o, fun _ => ⟨h1, h2⟩⟩
    · exact ⟨⟨[], []⟩, fun h' => absurd h' h⟩
  choose opt hopt using hopt
  refine ⟨opt, ?_⟩
  induction ws generalizing recv with
  | nil => simp
  | cons w ws ih =>
    have hw0 := hw w (List.mem_cons_self ..)
    rw [List.map_cons, parseLoop, cutArg_text w hw0] at h
    dsimp only at h
    by_cases hex : ∃ o ∈ allowed, Names w o
    · have ho := hopt w hex
      rw [matchOpt_some _ _ _ _ hu (opt w) ho.1 ho.2] at h
      by_cases hl : (lookup (opt w).short recv).isSome = true
      · rw [if_pos hl] at h; simp at h
      · rw [if_neg hl] at h
        dsimp only at h
        obtain ⟨h1, h2, h3⟩ := ih (fun x hx => hw x (List.mem_cons_of_mem _ hx)) _ h
        have key : ∀ x ∈ ws, (opt w).short ≠ (opt x).short ∧ lookup (opt x).short recv = none := by
          intro x hx
          have := h2 x hx
          rw [lookup_append_single] at this
          split at this
          · simp at this
          · rename_i hne; exact ⟨hne, this⟩
        refine ⟨?_, ?_, ?_⟩
        · intro x hx
          rcases List.mem_cons.1 hx with rfl | hx
          · exact ho
          · exact h1 x hx
        · intro x hx
          rcases List.mem_cons.1 hx with rfl | hx
          · simpa using hl
          · exact (key x hx).2
        · rw [List.map_cons, List.nodup_cons]
          refine ⟨?_, h3⟩
          intro hm
          obtain ⟨x, hx, hx'⟩ := List.mem_map.1 hm
          exact (key x hx).1 hx'.symm
    · rw [matchOpt_none _ _ _ _ (fun o ho hn => hex ⟨o, ho, hn⟩)] at h
      simp at h

/-- A new object with the options `extra` added to the built-in `-h`, `--help`. -/
def withOptions (extra : List Opt) : CmdOptions := extra.foldl (fun o e => o.addOption e.short e.long) new

theorem withOptions_eq (extra : List Opt) : withOptions extra = ⟨[], ⟨"-h".toList, "--help".toList⟩ :: extra⟩ := by
  have : ∀ (o : CmdOptions), extra.foldl (fun o e => o.addOption e.short e.long) o = ⟨o.received, o.allowed ++ extra⟩ := by
    induction extra with
    | nil => intro o; simp
    | cons e es ih => intro o; rw [List.foldl_cons, ih]; simp [CmdOptions.addOption]
  unfold withOptions
  rw [this]; rfl

/-- `parseCmd` of a new object succeeds exactly if every word names a registered option and no option
is named twice. -/
theorem C49_parse_accepts_iff (extra : List Opt) (hu : Unambiguous (⟨"-h".toList, "--help".toList⟩ :: extra))
    (ws : List Word) (hw : ∀ w ∈ ws, w.Ok) :
    ((withOptions extra).parseCmd (ws.map Word.text)).1 = true ↔
    ∃ opt : Word → Opt, (∀ w ∈ ws, opt w ∈ (⟨"-h".toList, "--help".toList⟩ :: extra : List Opt) ∧ Names w (opt w)) ∧ (ws.map opt).Nodup := by
  rw [withOptions_eq]
  unfold CmdOptions.parseCmd
  dsimp only
  constructor
  · intro h
    obtain ⟨opt, h1, -, h3⟩ := parseLoop_accepts _ hu ws hw [] _ (Prod.ext h rfl)
    refine ⟨opt, h1, ?_⟩
    rw [show (fun w => (opt w).short) = Opt.short ∘ opt from rfl, ← List.map_map] at h3
    exact List.Nodup.of_map _ h3
  · rintro ⟨opt, h1, h2⟩
    obtain ⟨recv', h, -⟩ := parseLoop_ok _ hu ws hw opt h1 [] (by simp [lookup]) (by
      rw [show (fun w => (opt w).short) = Opt.short ∘ opt from rfl, ← List.map_map]
      refine List.Nodup.map_on ?_ h2
      intro x hx y hy hxy
      obtain ⟨w, hw1, rfl⟩ := List.mem_map.1 hx
      obtain ⟨w', hw1', rfl⟩ := List.mem_map.1 hy
      exact hu _ (h1 w hw1).1 _ (h1 w' hw1').1 (Or.inl hxy))
    rw [h]

/-- After success, `isSet` tells exactly which options were named, and `getArgument` returns the
argument given (empty if none was given, or if the option was not named). -/
theorem C49_parse_values (extra : List Opt) (hu : Unambiguous (⟨"-h".toList, "--help".toList⟩ :: extra))
    (ws : List Word) (hw : ∀ w ∈ ws, w.Ok) (h : ((withOptions extra).parseCmd (ws.map Word.text)).1 = true)
    (o : Opt) (ho : o ∈ (⟨"-h".toList, "--help".toList⟩ :: extra : List Opt)) :
    (((withOptions extra).parseCmd (ws.map Word.text)).2.isSet o.short = true ↔ ∃ w ∈ ws, Names w o) ∧
    (∀ w ∈ ws, Names w o → ((withOptions extra).parseCmd (ws.map Word.text)).2.getArgument o.short = w.arg.getD []) ∧
    ((¬ ∃ w ∈ ws, Names w o) → ((withOptions extra).parseCmd (ws.map Word.text)).2.getArgument o.short = []) := by
  rw [withOptions_eq] at h ⊢
  unfold CmdOptions.parseCmd at h ⊢
  dsimp only at h ⊢
  obtain ⟨opt, h1, h2, h3⟩ := parseLoop_accepts _ hu ws hw [] _ (Prod.ext h rfl)
  obtain ⟨recv', h4, h5, h6⟩ := parseLoop_ok _ hu ws hw opt h1 [] h2 h3
  rw [h4]
  have key : ∀ w ∈ ws, Names w o → opt w = o := by
    intro w hw' hn
    refine hu _ (h1 w hw').1 o ho ?_
    rcases (h1 w hw').2 with e | e <;> rcases hn with e' | e' <;> rw [← e, ← e'] <;> simp
  have key2 : ∀ w ∈ ws, (opt w).short = o.short → Names w o := by
    intro w hw' e
    have : opt w = o := hu _ (h1 w hw').1 o ho (Or.inl e)
    exact this ▸ (h1 w hw').2
  have hset : ∀ w ∈ ws, Names w o → lookup o.short recv' = some (w.arg.getD []) := by
    intro w hw' hn
    have := h5 w hw'
    rwa [key w hw' hn] at this
  have hunset : (¬ ∃ w ∈ ws, Names w o) → lookup o.short recv' = none := by
    intro hno
    rw [h6 o.short (fun w hw' e => hno ⟨w, hw', key2 w hw' e⟩)]
    rfl
  refine ⟨⟨fun hs => ?_, fun ⟨w, hw', hn⟩ => ?_⟩, ?_, ?_⟩
  · by_contra hno
    unfold CmdOptions.isSet at hs
    rw [hunset hno] at hs
    simp at hs
  · unfold CmdOptions.isSet
    rw [hset w hw' hn]; rfl
  · intro w hw' hn
    unfold CmdOptions.getArgument CmdOptions.isSet
    dsimp only
    rw [hset w hw' hn]; rfl
  · intro hno
    unfold CmdOptions.getArgument CmdOptions.isSet
    dsimp only
    rw [hunset hno]; rfl

/-- The order of the words does not matter: neither for success nor for what can be asked afterwards. -/
theorem C49_order_irrelevant (extra : List Opt) (hu : Unambiguous (⟨"-h".toList, "--help".toList⟩ :: extra))
    (ws ws' : List Word) (hw : ∀ w ∈ ws, w.Ok) (hp : ws.Perm ws') :
    ((withOptions extra).parseCmd (ws.map Word.text)).1 = ((withOptions extra).parseCmd (ws'.map Word.text)).1 ∧
    (((withOptions extra).parseCmd (ws.map Word.text)).1 = true → ∀ o ∈ (⟨"-h".toList, "--help".toList⟩ :: extra : List Opt),
      ((withOptions extra).parseCmd (ws.map Word.text)).2.getArgument o.short =
        ((withOptions extra).parseCmd (ws'.map Word.text)).2.getArgument o.short ∧
      ((withOptions extra).parseCmd (ws.map Word.text)).2.isSet o.short =
        ((withOptions extra).parseCmd (ws'.map Word.text)).2.isSet o.short) := by
  have hw' : ∀ w ∈ ws', w.Ok := fun w h => hw w (hp.mem_iff.2 h)
  have hb : ((withOptions extra).parseCmd (ws.map Word.text)).1 = ((withOptions extra).parseCmd (ws'.map Word.text)).1 := by
    rw [Bool.eq_iff_iff, C49_parse_accepts_iff extra hu ws hw, C49_parse_accepts_iff extra hu ws' hw']
    constructor <;> rintro ⟨opt, h1, h2⟩
    · exact ⟨opt, fun w h => h1 w (hp.mem_iff.2 h), (hp.map opt).nodup_iff.1 h2⟩
    · exact ⟨opt, fun w h => h1 w (hp.mem_iff.1 h), (hp.map opt).nodup_iff.2 h2⟩
  refine ⟨hb, fun h o ho => ?_⟩
  obtain ⟨a1, a2, a3⟩ := C49_parse_values extra hu ws hw h o ho
  obtain ⟨b1, b2, b3⟩ := C49_parse_values extra hu ws' hw' (hb ▸ h) o ho
  have hex : (∃ w ∈ ws, Names w o) ↔ ∃ w ∈ ws', Names w o := by
    constructor <;> rintro ⟨w, h1, h2⟩
    · exact ⟨w, hp.mem_iff.1 h1, h2⟩
    · exact ⟨w, hp.mem_iff.2 h1, h2⟩
  refine ⟨?_, ?_⟩
  · by_cases hx : ∃ w ∈ ws, Names w o
    · obtain ⟨w, h1, h2⟩ := hx
      rw [a2 w h1 h2, b2 w (hp.mem_iff.1 h1) h2]
    · rw [a3 hx, b3 (fun h => hx (hex.2 h))]
  · rw [Bool.eq_iff_iff, a1, b1, hex]

/-- The options of `vdtArithmComparison` and a typical command line. -/
example : Unambiguous (⟨"-h".toList, "--help".toList⟩ ::
      [⟨"-n".toList, "--nick".toList⟩, ⟨"-R".toList, "--reference".toList⟩, ⟨"-T".toList, "--test".toList⟩]) ∧
    (∀ w ∈ [(⟨"-n".toList, some "x".toList⟩ : Word), ⟨"--test".toList, some "a=b,c".toList⟩, ⟨"-R".toList, none⟩], w.Ok) ∧
    ((withOptions [⟨"-n".toList, "--nick".toList⟩, ⟨"-R".toList, "--reference".toList⟩, ⟨"-T".toList, "--test".toList⟩]).parseCmd
      ["-n=x".toList, "--test=a=b,c".toList, "-R".toList]).1 = true := by
  refine ⟨?_, ?_, by decide⟩
  · unfold Unambiguous; decide
  · unfold Word.Ok; decide

/-! ## C50 -/

/-- The elements with the separator between them. -/
def joinWith (sep : Char) : List Text → Text
  | [] => []
  | [a] => a
  | a :: b :: l => a ++ sep :: joinWith sep (b :: l)

theorem list2vectorGo_spec (sep : Char) (fuel : Nat) (t : Text) (hf : t.length < fuel) :
    (t = joinWith sep (list2vectorGo sep fuel t) ∨ (t ≠ [] ∧ t.getLast? = some sep ∧ t = joinWith sep (list2vectorGo sep fuel t) ++ [sep])) ∧
    (∀ e ∈ list2vectorGo sep fuel t, sep ∉ e) ∧ (list2vectorGo sep fuel t = [] ↔ t = []) := by
  induction fuel generalizing t with
  | zero => omega
  | succ fuel ih =>
    unfold list2vectorGo
    cases h : find sep t with
    | none =>
      dsimp only
      split
      · rename_i hl
        refine ⟨Or.inl rfl, ?_, ?_⟩
        · intro e he
          obtain rfl : e = t := by simpa using he
          exact find_none.1 h
        · simp only [List.cons_ne_nil, false_iff]
          intro e
          rw [e] at hl; simp at hl
      · rename_i hl
        have ht : t = [] := List.length_eq_zero_iff.1 (by omega)
        subst ht
        exact ⟨Or.inl rfl, by simp, by simp⟩
    | some n =>
      dsimp only
      obtain ⟨h1, h2, h3⟩ := find_some h
      have hne : t ≠ [] := by intro e; rw [e] at h1; simp at h1
      obtain ⟨i1, i2, i3⟩ := ih (t.drop (n + 1)) (by rw [List.length_drop]; omega)
      refine ⟨?_, ?_, by simp [hne]⟩
      · cases hg : list2vectorGo sep fuel (t.drop (n + 1)) with
        | nil =>
          have hd := i3.1 hg
          right
          refine ⟨hne, ?_, ?_⟩
          · rw [h3, hd]; simp
          · conv_lhs => rw [h3, hd]
            rfl
        | cons b l =>
          rw [hg] at i1
          rcases i1 with i1 | ⟨i1, i2', i3'⟩
          · left
            conv_lhs => rw [h3, i1]
            rfl
          · right
            refine ⟨hne, ?_, ?_⟩
            · rw [h3, List.getLast?_append, List.getLast?_cons, i2']; simp
            · conv_lhs => rw [h3, i3']
              show _ = (t.take n ++ sep :: joinWith sep (b :: l)) ++ [sep]
              simp
      · intro e he
        rcases List.mem_cons.1 he with rfl | he
        · exact h2
        · exact i2 e he

/-- The elements joined with commas are the string, except that one comma at the very end is
dropped; no element contains a comma; only the empty string gives no element. -/
theorem C50_list_fields (t : Text) :
    (t = joinWith ',' (list2vector t) ∨ (t.getLast? = some ',' ∧ t = joinWith ',' (list2vector t) ++ [','])) ∧
    (∀ e ∈ list2vector t, ',' ∉ e) ∧ (list2vector t = [] ↔ t = []) := by
  obtain ⟨h1, h2, h3⟩ := list2vectorGo_spec ',' (t.length + 1) t (by omega)
  exact ⟨h1.imp id (fun h => h.2), h2, h3⟩

/-- Conversely, any list of comma-free elements is found again, provided its last one is not empty. -/
theorem C50_list_roundtrip (l : List Text) (hl : ∀ e ∈ l, ',' ∉ e) (hlast : ∀ e, l.getLast? = some e → e ≠ []) :
    list2vector (joinWith ',' l) = l := by
  have gen : ∀ fuel, (joinWith ',' l).length < fuel → list2vectorGo ',' fuel (joinWith ',' l) = l := by
    induction l with
    | nil =>
      intro fuel hf
      cases fuel with
      | zero => omega
      | succ n => simp [joinWith, list2vectorGo, find]
    | cons a l ih =>
      intro fuel hf
      cases fuel with
      | zero => omega
      | succ n =>
        have ha := hl a (List.mem_cons_self ..)
        cases l with
        | nil =>
          have hne : a ≠ [] := hlast a rfl
          show list2vectorGo ',' (n + 1) a = [a]
          unfold list2vectorGo
          rw [find_none.2 ha]
          dsimp only
          rw [if_pos (List.length_pos_iff.2 hne)]
        | cons b l =>
          have e : joinWith ',' (a :: b :: l) = a ++ ',' :: joinWith ',' (b :: l) := rfl
          rw [e] at hf ⊢
          unfold list2vectorGo
          rw [find_append a _ ha]
          dsimp only
          rw [List.take_left, ← List.drop_drop, List.drop_left, List.drop_one, List.tail_cons,
            ih (fun e he => hl e (List.mem_cons_of_mem _ he)) (fun e he => hlast e (by rw [List.getLast?_cons_cons]; exact he)) n
              (by simp at hf; omega)]
  exact gen _ (by omega)

example : list2vector "a.txt,b.txt".toList = ["a.txt".toList, "b.txt".toList] ∧ list2vector "a,,".toList = [['a'], []] := by decide
example : ∀ e ∈ ["a.txt".toList, [], "b.txt".toList], ',' ∉ e := by decide

end Vdt.Cmd
