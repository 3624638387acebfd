import Verif.Props.Perf

/-!
# C71-C73: the tables made from the timings
-/

namespace Vdt.Perf
open FP Txt Rand Diag Bench

local notation "‹" s "›" => String.toList s

/-! ### Words of a line -/

/-- The text `t` consists of the words `ws`, separated by blanks. -/
structure Toks (t : Text) (ws : List Text) : Prop where
  before : ∀ r, words [] (t ++ ' ' :: r) = ws ++ words [] r
  last : words [] t = ws
  line : '\n' ∉ t

theorem Toks.nil : Toks [] [] := ⟨fun r => words_blank r, rfl, by simp⟩

theorem Toks.word {w : Text} (h : Word w) : Toks w [w] := ⟨fun r => words_word h r, words_last h, word_newline h⟩

theorem Toks.blank {a b : Text} {ws vs : List Text} (ha : Toks a ws) (hb : Toks b vs) : Toks (a ++ ' ' :: b) (ws ++ vs) where
  before r := by rw [List.append_assoc, List.cons_append, ha.before, hb.before, List.append_assoc]
  last := by rw [ha.before, hb.last]
  line := by
    rw [List.mem_append, List.mem_cons]
    rintro (h | h | h)
    · exact ha.line h
    · revert h; decide
    · exact hb.line h

theorem Toks.pad {a : Text} {ws : List Text} (ha : Toks a ws) (n : ℕ) : Toks (padLeft n a) ws where
  before r := by unfold padLeft; rw [List.append_assoc, words_blanks, ha.before]
  last := by unfold padLeft; rw [words_blanks, ha.last]
  line := by
    unfold padLeft
    rw [List.mem_append, List.mem_replicate]
    rintro (h | h)
    · exact absurd h.2 (by decide)
    · exact ha.line h

theorem Toks.items {α : Type} (g : α → Text) (ws : α → List Text) (l : List α) (h : ∀ a ∈ l, Toks (g a) (ws a)) :
    Toks ((l.map g).intersperse [' ']).flatten (l.flatMap ws) := by
  induction l with
  | nil => exact Toks.nil
  | cons a l ih =>
    cases l with
    | nil => simpa using h a (by simp)
    | cons b l =>
      have := Toks.blank (h a (by simp)) (ih fun c hc => h c (by simp [hc]))
      simpa using this

theorem printFixed_word' (p : ℕ) (x : F64) : Word (printFixed p x) := by
  cases hx : x.isFinite
  · unfold printFixed
    cases x.sign <;> cases hn : x.isNaN <;> cases hi : x.isInf <;>
      first
      | (constructor <;> simp [isSpace]; done)
      | (exfalso; revert hx hn hi; unfold isFinite isNaN isInf; simp; omega)
  · have hn := finite_not_nan hx
    have hi := finite_not_inf hx
    obtain ⟨n, hn'⟩ : ∃ n, n = fixedScaled p (FP.abs x).val := ⟨_, rfl⟩
    have h : printFixed p x = (if x.sign then ['-'] else []) ++ (printNat 10 (n / 10 ^ p) ++ '.' :: padZero p (printNat 10 (n % 10 ^ p))) := by
      unfold printFixed
      rw [hn, hi]
      simp only [Bool.false_eq_true, if_false]
      rw [← hn']
    rw [h]
    refine ⟨by simp, fun c hc => ?_⟩
    rw [List.mem_append] at hc
    rcases hc with hc | hc
    · cases hs : x.sign
      · rw [hs] at hc; simp at hc
      · rw [hs] at hc
        obtain rfl : c = '-' := by simpa using hc
        decide
    · rw [List.mem_append, List.mem_cons] at hc
      rcases hc with hc | rfl | hc
      · exact digit_not_space c (printNat_all (by norm_num) (by norm_num) _ c hc)
      · decide
      · exact digit_not_space c (padZero_digits _ _ (printNat_all (by norm_num) (by norm_num) _) c hc)

theorem pyFixed_word (p : ℕ) (x : F64) : Word (pyFixed p x) := by
  unfold pyFixed
  split
  · exact ⟨by decide, by decide⟩
  · exact printFixed_word' p x

theorem pm_toks (t e : F64) : Toks (pm t e) [pyFixed 2 t, ‹"+-"›, pyFixed 2 e] := by
  have h : pm t e = pyFixed 2 t ++ ' ' :: (‹"+-"› ++ ' ' :: pyFixed 2 e) := by
    unfold pm
    have : ‹" +- "› = ' ' :: (‹"+-"› ++ [' ']) := by decide
    rw [this]; simp
  rw [h]
  exact (Toks.word (pyFixed_word 2 t)).blank ((Toks.word ⟨by decide, by decide⟩).blank (Toks.word (pyFixed_word 2 e)))

/-! ### Rows -/

/-- The row of the function `n`, with its time and error. -/
def row (t e : Text → F64) (n : Text) : Row := ⟨n, t n, e n⟩

theorem timingsDict_row (t e : Text → F64) (l : List Text) (n : Text) (h : n ∈ l) : timingsDict (l.map (row t e)) n = some (t n, e n) := by
  have : ∃ r, (l.map (row t e)).reverse.find? (fun r => r.name = n) = some r := by
    rw [← Option.isSome_iff_exists, List.find?_isSome]
    exact ⟨row t e n, by rw [List.mem_reverse]; exact List.mem_map_of_mem h, by simp [row]⟩
  obtain ⟨r, hr⟩ := this
  have h1 := List.find?_some hr
  have h2 := List.mem_of_find?_eq_some hr
  rw [List.mem_reverse] at h2
  obtain ⟨m, -, rfl⟩ := List.mem_map.1 h2
  obtain rfl : m = n := of_decide_eq_true h1
  unfold timingsDict
  rw [hr]; rfl

theorem timingsDict_none (t e : Text → F64) (l : List Text) (n : Text) (h : n ∉ l) : timingsDict (l.map (row t e)) n = none := by
  unfold timingsDict
  rw [List.find?_eq_none.2]
  · rfl
  · intro r hr
    rw [List.mem_reverse] at hr
    obtain ⟨m, hm, rfl⟩ := List.mem_map.1 hr
    intro h'
    have : m = n := of_decide_eq_true h'
    exact h (this ▸ hm)

/-! ### Normalisation -/

/-- The row of `n` reduced by the identity function `i`. -/
def less (t e : Text → F64) (i n : Text) : Row := ⟨n, t n - t i, FP.sqrt (e n * e n + e i * e i)⟩

theorem normalise_group (t e : Text → F64) (i : Text) (g : List Text) (rest : List Row) (o : F64) (oe : Option F64)
    (hi : contains ‹"Identity"› i = true) (hg : ∀ n ∈ g, contains ‹"Identity"› n = false) :
    normaliseFrom o oe ((i :: g).map (row t e) ++ rest) =
      (normaliseFrom (t i) (some (e i)) rest).map (g.map (less t e i) ++ ·) := by
  rw [List.map_cons, List.cons_append, normaliseFrom, if_pos (by exact hi)]
  show normaliseFrom (t i) (some (e i)) _ = _
  induction g with
  | nil => simp
  | cons n g ih =>
    rw [List.map_cons, List.cons_append, normaliseFrom, if_neg (by rw [show (row t e n).name = n from rfl, hg n (by simp)]; decide),
      ih fun m hm => hg m (by simp [hm])]
    cases normaliseFrom (t i) (some (e i)) rest <;> rfl

/-- The kinds of functions: double precision, arrays, single precision, arrays of single precision. -/
def kinds : List Text := [‹""›, ‹"v"›, ‹"f"›, ‹"fv"›]

/-- The functions with one argument that are measured, without the identity. -/
def fns : List Text :=
  [‹"Exp"›, ‹"Log"›, ‹"Sin"›, ‹"Cos"›, ‹"Tan"›, ‹"Tanh"›, ‹"Asin"›, ‹"Acos"›, ‹"Atan"›, ‹"Isqrt"›, ‹"Inverse"›,
   ‹"Fast_Exp"›, ‹"Fast_Log"›, ‹"Fast_Sin"›, ‹"Fast_Cos"›, ‹"Fast_Tan"›, ‹"Fast_Tanh"›, ‹"Fast_Asin"›, ‹"Fast_Acos"›,
   ‹"Fast_Atan"›, ‹"Fast_Isqrt"›, ‹"Fast_Inv"›, ‹"Fast_Apr_Isqrt"›, ‹"Fast_Apr_Inv"›]

/-- The functions with two arguments, without the identity. -/
def fns2 : List Text := [‹"Atan2"›, ‹"Fast_Atan2"›]

theorem fns_plain : ∀ k ∈ kinds, contains ‹"Identity"› (‹"Identity"› ++ k) = true ∧ (∀ n ∈ fns, contains ‹"Identity"› (n ++ k) = false) ∧
    contains ‹"Identity"› (‹"Identity2D"› ++ k) = true ∧ (∀ n ∈ fns2, contains ‹"Identity"› (n ++ k) = false) := by
  simp only [kinds, fns, fns2, String.reduceToList]
  decide

theorem normalise_groups (t e : Text → F64) (i : Text) (g : List Text) (rest : List Row) (ks : List Text) (o : F64) (oe : Option F64)
    (hk : ∀ k ∈ ks, contains ‹"Identity"› (i ++ k) = true ∧ ∀ n ∈ g, contains ‹"Identity"› (n ++ k) = false)
    (R : List Row) (hR : ∀ o oe, normaliseFrom o oe rest = some R) :
    normaliseFrom o oe ((ks.flatMap fun k => ((i :: g).map (· ++ k))).map (row t e) ++ rest) =
      some ((ks.flatMap fun k => (g.map (· ++ k)).map (less t e (i ++ k))) ++ R) := by
  induction ks generalizing o oe with
  | nil => exact hR o oe
  | cons k ks ih =>
    rw [List.flatMap_cons, List.map_append, List.append_assoc, List.map_cons,
      normalise_group t e (i ++ k) _ _ _ _ (hk k (by simp)).1 (by
        intro n hn
        obtain ⟨m, hm, rfl⟩ := List.mem_map.1 hn
        exact (hk k (by simp)).2 m hm),
      ih _ _ (fun k hk' => hk k (by simp [hk']))]
    simp

/-- **C71.**  Normalising the timings of a full run subtracts from each function the time of the identity function of its own
kind (number or array, double or single precision, one or two arguments), adds the errors in quadrature and drops the
identities. -/
theorem C71_normalisation (t e : Text → F64) :
    normaliseTimings (perfNames.map (row t e)) = some
      ((kinds.flatMap fun k => fns.map fun n => less t e (‹"Identity"› ++ k) (n ++ k)) ++
       (kinds.flatMap fun k => fns2.map fun n => less t e (‹"Identity2D"› ++ k) (n ++ k))) := by
  have h := normalise_groups t e ‹"Identity2D"› fns2 [] kinds
  have h2 := fun o oe => h o oe (fun k hk => (fns_plain k hk).2.2) [] (fun _ _ => rfl)
  have h3 := normalise_groups t e ‹"Identity"› fns _ kinds (lit (-1)) none (fun k hk => ⟨(fns_plain k hk).1, (fns_plain k hk).2.1⟩) _ h2
  rw [List.append_nil, List.append_nil, ← List.map_append] at h3
  have hn : perfNames = (kinds.flatMap fun k => ((‹"Identity"› :: fns).map (· ++ k))) ++
      (kinds.flatMap fun k => ((‹"Identity2D"› :: fns2).map (· ++ k))) := by
    unfold perfNames kinds fns fns2 baseNames pairNames; rfl
  unfold normaliseTimings
  rw [hn, h3]
  simp only [List.map_map, Function.comp_def]

/-- If the pattern of the run left out the identity functions, or only the first of them, normalisation raises an exception. -/
theorem C71_needs_identity (r : Row) (rs : List Row) (h : contains ‹"Identity"› r.name = false) : normaliseTimings (r :: rs) = none := by
  unfold normaliseTimings
  rw [normaliseFrom, if_neg (by rw [h]; decide)]; rfl

/-- If it left out later identity functions only, functions of one kind are reduced by the identity of another kind. -/
theorem C71_own_kind_violated : ∃ pattern : Text → Bool, ∀ t e : Text → F64,
    normaliseTimings ((perfNames.filter pattern).map (row t e)) = some [less t e ‹"Identity"› ‹"Fast_Sinfv"›] := by
  refine ⟨fun n => n == ‹"Identity"› || n == ‹"Fast_Sinfv"›, fun t e => ?_⟩
  have : perfNames.filter (fun n => n == ‹"Identity"› || n == ‹"Fast_Sinfv"›) = ‹"Identity"› :: [‹"Fast_Sinfv"›] := by
    simp only [perfNames, baseNames, pairNames, String.reduceToList]
    decide +kernel
  rw [this]
  have h := normalise_group t e ‹"Identity"› [‹"Fast_Sinfv"›] [] (lit (-1)) none (by decide) (by decide)
  rw [List.append_nil] at h
  unfold normaliseTimings
  rw [h]; rfl

example : (normaliseTimings [⟨‹"Identity"›, ofInt 2, ofInt 3⟩, ⟨‹"Exp"›, ofInt 7, ofInt 4⟩] : Option (List Row)) =
    some [⟨‹"Exp"›, ofInt 5, ofInt 5⟩] := by decide +kernel

/-! ### The table of libm and vdt -/

/-- The functions that are left after normalisation. -/
def normNames : List Text := (kinds.flatMap fun k => fns.map (· ++ k)) ++ (kinds.flatMap fun k => fns2.map (· ++ k))

/-- The functions of the mathematical library with the functions of vdt that replace them. -/
def libmPairs : List (Text × Text) :=
  [(‹"Exp"›, ‹"Fast_Exp"›), (‹"Log"›, ‹"Fast_Log"›), (‹"Sin"›, ‹"Fast_Sin"›), (‹"Cos"›, ‹"Fast_Cos"›), (‹"Tan"›, ‹"Fast_Tan"›),
   (‹"Tanh"›, ‹"Fast_Tanh"›), (‹"Asin"›, ‹"Fast_Asin"›), (‹"Acos"›, ‹"Fast_Acos"›), (‹"Atan"›, ‹"Fast_Atan"›),
   (‹"Isqrt"›, ‹"Fast_Isqrt"›), (‹"Inverse"›, ‹"Fast_Inv"›),
   (‹"Expf"›, ‹"Fast_Expf"›), (‹"Logf"›, ‹"Fast_Logf"›), (‹"Sinf"›, ‹"Fast_Sinf"›), (‹"Cosf"›, ‹"Fast_Cosf"›), (‹"Tanf"›, ‹"Fast_Tanf"›),
   (‹"Tanhf"›, ‹"Fast_Tanhf"›), (‹"Asinf"›, ‹"Fast_Asinf"›), (‹"Acosf"›, ‹"Fast_Acosf"›), (‹"Atanf"›, ‹"Fast_Atanf"›),
   (‹"Isqrtf"›, ‹"Fast_Isqrtf"›), (‹"Inversef"›, ‹"Fast_Invf"›),
   (‹"Atan2"›, ‹"Fast_Atan2"›), (‹"Atan2f"›, ‹"Fast_Atan2f"›)]

/-- tabulateVDTResults.py:147 -/
def skipped (n : Text) : Bool := ‹"Fast_"›.isPrefixOf n || ['v'].isSuffixOf n

theorem libm_pairs : (normNames.filter (fun n => !skipped n)).map (fun n => (n, replaceInverse (‹"Fast_"› ++ n))) = libmPairs := by
  simp only [normNames, kinds, fns, fns2, libmPairs, skipped, String.reduceToList]
  decide +kernel

theorem libm_mem : ∀ p ∈ libmPairs, p.2 ∈ normNames ∧ (p.1 ≠ [] ∧ ∀ c ∈ p.1, isSpace c = false) := by
  simp only [normNames, kinds, fns, fns2, libmPairs, String.reduceToList]
  decide +kernel

/-- One line of the table. -/
def libmText (t e : Text → F64) (n v : Text) : Text :=
  pyPrint [padLeft 16 n, padLeft 20 (pm (t n) (e n)), padLeft 20 (pm (t v) (e v) ++ ‹" "› ++ pyFixed 1 (t n / t v) ++ ‹"X"›)]

theorem word_X (x : F64) (w : Text) (hw : ∀ c ∈ w, isSpace c = false) (p : ℕ) : Word (pyFixed p x ++ w) := by
  have h := pyFixed_word p x
  refine ⟨by simp [h.1], fun c hc => ?_⟩
  rcases List.mem_append.1 hc with hc | hc
  · exact h.2 c hc
  · exact hw c hc

theorem libmText_toks (t e : Text → F64) (n v : Text) (hn : Word n) : ∃ l, libmText t e n v = l ++ ['\n'] ∧
    Toks l [n, pyFixed 2 (t n), ‹"+-"›, pyFixed 2 (e n), pyFixed 2 (t v), ‹"+-"›, pyFixed 2 (e v), pyFixed 1 (t n / t v) ++ ‹"X"›] := by
  refine ⟨_, rfl, ?_⟩
  have h1 := (Toks.word hn).pad 16
  have h2 := (pm_toks (t n) (e n)).pad 20
  have h3 := ((pm_toks (t v) (e v)).blank (Toks.word (word_X (t n / t v) ‹"X"› (by decide) 1))).pad 20
  have h := h1.blank (h2.blank h3)
  simpa using h

theorem libmLine_eq (t e : Text → F64) (l : List Text) (n : Text) (hv : skipped n = false → replaceInverse (‹"Fast_"› ++ n) ∈ l) :
    libmLine (l.map (row t e)) (row t e n) =
      if skipped n then some [] else
        if FP.eq (t (replaceInverse (‹"Fast_"› ++ n))) (lit 0) then none else some (libmText t e n (replaceInverse (‹"Fast_"› ++ n))) := by
  unfold libmLine
  show (if skipped n = true then _ else _) = _
  cases h : skipped n
  · simp only [Bool.false_eq_true, if_false]
    rw [show (row t e n).name = n from rfl, timingsDict_row t e l _ (hv h)]
    simp only [Option.bind_eq_bind, Option.bind_some]
    split <;> rfl
  · rfl

theorem mapM_skip {α β : Type} (g : α → Option (List β)) (sk : α → Bool) (tx : α → List β) (l : List α)
    (h : ∀ a ∈ l, g a = if sk a then some [] else some (tx a)) :
    (l.mapM g).map List.flatten = some ((l.filter fun a => !sk a).flatMap tx) := by
  induction l with
  | nil => rfl
  | cons a l ih =>
    have ih := ih fun b hb => h b (by simp [hb])
    rw [List.mapM_cons, h a (by simp)]
    cases hl : l.mapM g with
    | none => rw [hl] at ih; simp at ih
    | some ls =>
      rw [hl] at ih
      simp only [Option.map_some, Option.some.injEq] at ih
      cases hs : sk a <;> simp [hs, ih]

theorem mapM_none {α β : Type} (g : α → Option β) (l : List α) (a : α) (ha : a ∈ l) (h : g a = none) : l.mapM g = none := by
  induction l with
  | nil => simp at ha
  | cons b l ih =>
    rw [List.mapM_cons]
    rcases List.mem_cons.1 ha with rfl | ha
    · rw [h]; rfl
    · rw [ih ha]
      cases g b <;> rfl

theorem lines_all {α : Type} (g : α → Text) (ws : α → List Text) (l : List α) (h : ∀ a ∈ l, ∃ x, g a = x ++ ['\n'] ∧ Toks x (ws a)) :
    (lines [] (l.flatMap g)).map (words []) = l.map ws := by
  induction l with
  | nil => rfl
  | cons a l ih =>
    obtain ⟨x, h1, h2⟩ := h a (by simp)
    rw [List.flatMap_cons, h1, List.append_assoc, List.singleton_append, lines_go [] x h2.line, List.map_cons, List.nil_append, h2.last,
      ih fun b hb => h b (by simp [hb])]
    rfl

theorem table_bind {α β : Type} (m : Option (List (List α))) (k : List α → β) : (m >>= fun ls => some (k ls.flatten)) = (m.map List.flatten).map k := by
  cases m <;> rfl

theorem libm_head (title : Text) (hti : '\n' ∉ title) (rest : Text) :
    (lines [] (‹"--------- "› ++ title ++ ‹" Scalar Calls ----------"› ++ ['\n'] ++
      pyPrint [padLeft 16 ‹"Function Name"›, padLeft 16 ‹"Libm"›, padLeft 16 ‹"VDT"›] ++ rest)) =
    (‹"--------- "› ++ title ++ ‹" Scalar Calls ----------"›) :: ‹"   Function Name             Libm              VDT"› :: lines [] rest := by
  have h1 : '\n' ∉ ‹"--------- "› ++ title ++ ‹" Scalar Calls ----------"› := by
    simp only [List.mem_append, not_or]
    exact ⟨⟨by decide, hti⟩, by decide⟩
  have h2 : pyPrint [padLeft 16 ‹"Function Name"›, padLeft 16 ‹"Libm"›, padLeft 16 ‹"VDT"›] =
      ‹"   Function Name             Libm              VDT"› ++ ['\n'] := by decide
  rw [h2]
  generalize ‹"--------- "› ++ title ++ ‹" Scalar Calls ----------"› = a at h1
  rw [show a ++ ['\n'] ++ (‹"   Function Name             Libm              VDT"› ++ ['\n']) ++ rest =
    a ++ '\n' :: (‹"   Function Name             Libm              VDT"› ++ '\n' :: rest) by simp,
    lines_go [] _ h1, lines_go [] _ (by decide)]
  rfl

/-- **C72.**  From the normalised timings of a full run the script makes a table with one line per function of the mathematical
library: its name, its time and error, time and error of the function of vdt that replaces it, and the ratio of the two times.
It does so if no normalised time of a function of vdt is zero; otherwise it stops with an exception. -/
theorem C72_libm_table (t e : Text → F64) (title : Text) (hti : '\n' ∉ title) :
    ((∀ p ∈ libmPairs, FP.eq (t p.2) (lit 0) = false) → ∃ text, createLibmVdtTable title (normNames.map (row t e)) = some text ∧
      ∃ h1 h2 ls, lines [] text = h1 :: h2 :: ls ∧
        ls.map (words []) = libmPairs.map fun p => [p.1, pyFixed 2 (t p.1), ‹"+-"›, pyFixed 2 (e p.1), pyFixed 2 (t p.2), ‹"+-"›,
          pyFixed 2 (e p.2), pyFixed 1 (t p.1 / t p.2) ++ ‹"X"›]) ∧
    ((∃ p ∈ libmPairs, FP.eq (t p.2) (lit 0) = true) → createLibmVdtTable title (normNames.map (row t e)) = none) := by
  have hv : ∀ n ∈ normNames, skipped n = false → (n, replaceInverse (‹"Fast_"› ++ n)) ∈ libmPairs := by
    intro n hn hs
    rw [← libm_pairs]
    exact List.mem_map.2 ⟨n, List.mem_filter.2 ⟨hn, by rw [hs]; rfl⟩, rfl⟩
  constructor
  · intro h
    have hm := mapM_skip (fun n => libmLine (normNames.map (row t e)) (row t e n)) skipped
      (fun n => libmText t e n (replaceInverse (‹"Fast_"› ++ n))) normNames (by
        intro n hn
        show libmLine _ _ = _
        rw [libmLine_eq t e _ n fun hs => (libm_mem _ (hv n hn hs)).1]
        cases hs : skipped n
        · rw [h _ (hv n hn hs)]; rfl
        · rfl)
    have hl : (normNames.filter fun n => !skipped n).flatMap (fun n => libmText t e n (replaceInverse (‹"Fast_"› ++ n))) =
        libmPairs.flatMap fun p => libmText t e p.1 p.2 := by
      rw [← libm_pairs, List.flatMap_map]
    refine ⟨_, ?_, _, _, _, libm_head title hti (libmPairs.flatMap fun p => libmText t e p.1 p.2),
      lines_all _ _ _ fun p hp => libmText_toks t e p.1 p.2 (libm_mem p hp).2⟩
    unfold createLibmVdtTable
    rw [List.mapM_map]
    simp only [Option.bind_eq_bind, Option.pure_def]
    rw [hl] at hm
    cases hc : normNames.mapM fun n => libmLine (normNames.map (row t e)) (row t e n) with
    | none => rw [hc] at hm; simp at hm
    | some ls =>
      rw [hc] at hm
      have : (List.mapM ((libmLine (normNames.map (row t e))) ∘ row t e) normNames) = some ls := hc
      rw [this]
      simp only [Option.map_some, Option.some.injEq] at hm
      simp only [Option.bind_some, hm]
  · rintro ⟨p, hp, h0⟩
    rw [← libm_pairs] at hp
    obtain ⟨n, hn, rfl⟩ := List.mem_map.1 hp
    obtain ⟨hn, hs⟩ := List.mem_filter.1 hn
    have hs : skipped n = false := by simpa using hs
    have : libmLine (normNames.map (row t e)) (row t e n) = none := by
      rw [libmLine_eq t e _ n fun hs => (libm_mem _ (hv n hn hs)).1, hs]
      simp only [Bool.false_eq_true, if_false]
      rw [if_pos h0]
    unfold createLibmVdtTable
    rw [mapM_none _ _ _ (List.mem_map_of_mem hn) this]
    rfl

example : (∀ p ∈ libmPairs, FP.eq ((fun _ => ofInt 3 : Text → F64) p.2) (lit 0) = false) ∧ '\n' ∉ ‹"gcc"› ∧ (‹"Inverse"›, ‹"Fast_Inv"›) ∈ libmPairs :=
  ⟨fun _ _ => (by decide +kernel : FP.eq (ofInt 3 : F64) (lit 0) = false), by decide, by simp only [libmPairs, String.reduceToList]; decide⟩

/-- Without normalisation the table is never made for a full run: the script looks for a function `Fast_Identity`. -/
theorem C72_unnormalised_violated (t e : Text → F64) (title : Text) : createLibmVdtTable title (perfNames.map (row t e)) = none := by
  have h1 : ‹"Identity"› ∈ perfNames := by
    simp only [perfNames, baseNames, pairNames, String.reduceToList]; decide
  have h2 : replaceInverse (‹"Fast_"› ++ ‹"Identity"›) ∉ perfNames := by
    simp only [perfNames, baseNames, pairNames, String.reduceToList]; decide +kernel
  have : libmLine (perfNames.map (row t e)) (row t e ‹"Identity"›) = none := by
    unfold libmLine
    rw [show (row t e ‹"Identity"›).name = ‹"Identity"› from rfl, if_neg (by decide)]
    dsimp only
    rw [timingsDict_none t e _ _ h2]
    rfl
  unfold createLibmVdtTable
  rw [mapM_none _ _ _ (List.mem_map_of_mem h1) this]
  rfl

/-! ### The table of array functions -/

/-- The functions on single numbers that get a line. -/
def vectShown : List Text :=
  [‹"Exp"›, ‹"Log"›, ‹"Sin"›, ‹"Cos"›, ‹"Tan"›, ‹"Tanh"›, ‹"Asin"›, ‹"Acos"›, ‹"Atan"›, ‹"Isqrt"›, ‹"Inverse"›,
   ‹"Fast_Exp"›, ‹"Fast_Log"›, ‹"Fast_Sin"›, ‹"Fast_Cos"›, ‹"Fast_Tan"›, ‹"Fast_Tanh"›, ‹"Fast_Asin"›, ‹"Fast_Acos"›,
   ‹"Fast_Atan"›, ‹"Fast_Isqrt"›, ‹"Fast_Apr_Isqrt"›,
   ‹"Expf"›, ‹"Logf"›, ‹"Sinf"›, ‹"Cosf"›, ‹"Tanf"›, ‹"Tanhf"›, ‹"Asinf"›, ‹"Acosf"›, ‹"Atanf"›, ‹"Isqrtf"›, ‹"Inversef"›,
   ‹"Fast_Expf"›, ‹"Fast_Logf"›, ‹"Fast_Sinf"›, ‹"Fast_Cosf"›, ‹"Fast_Tanf"›, ‹"Fast_Tanhf"›, ‹"Fast_Asinf"›, ‹"Fast_Acosf"›,
   ‹"Fast_Atanf"›, ‹"Fast_Isqrtf"›, ‹"Fast_Invf"›, ‹"Fast_Apr_Isqrtf"›, ‹"Fast_Apr_Invf"›,
   ‹"Atan2"›, ‹"Fast_Atan2"›, ‹"Atan2f"›, ‹"Fast_Atan2f"›]

theorem vect_shown : normNames.filter (fun n => ! (['v'].isSuffixOf n)) = vectShown := by
  simp only [normNames, kinds, fns, fns2, vectShown, String.reduceToList]
  decide +kernel

theorem vect_mem : ∀ n ∈ vectShown, n ∈ normNames ∧ n ++ ['v'] ∈ normNames ∧ (n ≠ [] ∧ ∀ c ∈ n, isSpace c = false) := by
  simp only [normNames, kinds, fns, fns2, vectShown, String.reduceToList]
  decide +kernel

/-- A file of timings: its title and what was measured. -/
structure Run where
  title : Text
  t : Text → F64
  e : Text → F64

/-- What the script has of it after normalisation. -/
def Run.table (r : Run) : Text × List Row := (r.title, normNames.map (row r.t r.e))

/-- The words of the entry of `n` for one file: time of the array function, error, and the time of the first file divided by
that time (or by one if it is zero). -/
def vectEntry (t0 : Text → F64) (n : Text) (r : Run) : List Text :=
  [pyFixed 2 (r.t (n ++ ['v'])), ‹"+-"›, pyFixed 2 (r.e n), pyFixed 1 (t0 n / if FP.eq (r.t (n ++ ['v'])) (lit 0) then lit 1 else r.t (n ++ ['v'])), ‹"X"›]

/-- One line of the table. -/
def vectText (r0 : Run) (files : List Run) (n : Text) : Text :=
  pyPrint (padLeft 16 n :: padLeft 20 (pm (r0.t n) (r0.e n)) :: files.map fun r =>
    padLeft 20 (pm (r.t (n ++ ['v'])) (r.e n) ++ ‹" "› ++ pyFixed 1 (factor (r0.t n) (r.t (n ++ ['v']))) ++ ‹" X"›))

theorem vectText_toks (r0 : Run) (files : List Run) (n : Text) (hn : Word n) : ∃ l, vectText r0 files n = l ++ ['\n'] ∧
    Toks l ([n, pyFixed 2 (r0.t n), ‹"+-"›, pyFixed 2 (r0.e n)] ++ files.flatMap (vectEntry r0.t n)) := by
  refine ⟨_, rfl, ?_⟩
  have h1 := (Toks.word hn).pad 16
  have h2 := (pm_toks (r0.t n) (r0.e n)).pad 20
  have h3 : ∀ r : Run, Toks (padLeft 20 (pm (r.t (n ++ ['v'])) (r.e n) ++ ‹" "› ++ pyFixed 1 (factor (r0.t n) (r.t (n ++ ['v']))) ++ ‹" X"›))
      (vectEntry r0.t n r) := by
    intro r
    have := ((pm_toks (r.t (n ++ ['v'])) (r.e n)).blank
      ((Toks.word (pyFixed_word 1 (factor (r0.t n) (r.t (n ++ ['v']))))).blank (Toks.word (w := ['X']) ⟨by decide, by decide⟩))).pad 20
    simpa [vectEntry, factor] using this
  cases files with
  | nil => simpa using h1.blank h2
  | cons f fs =>
    have h4 := Toks.items _ _ (f :: fs) fun r _ => h3 r
    have := h1.blank (h2.blank h4)
    simpa using this

theorem mapM_some {α β : Type} (g : α → Option β) (k : α → β) (l : List α) (h : ∀ a ∈ l, g a = some (k a)) : l.mapM g = some (l.map k) := by
  induction l with
  | nil => rfl
  | cons a l ih => rw [List.mapM_cons, h a (by simp), ih fun b hb => h b (by simp [hb])]; rfl

theorem vectLine_eq (r0 : Run) (files : List Run) (n : Text) (h : ['v'].isSuffixOf n = false → n ∈ normNames ∧ n ++ ['v'] ∈ normNames) :
    vectLine (files.map Run.table) (row r0.t r0.e n) = if ['v'].isSuffixOf n then some [] else some (vectText r0 files n) := by
  unfold vectLine
  rw [show (row r0.t r0.e n).name = n from rfl]
  cases hs : ['v'].isSuffixOf n
  · obtain ⟨h1, h2⟩ := h hs
    simp only [Bool.false_eq_true, if_false]
    rw [List.mapM_map, mapM_some _ (fun r : Run =>
      padLeft 20 (pm (r.t (n ++ ['v'])) (r.e n) ++ ‹" "› ++ pyFixed 1 (factor (r0.t n) (r.t (n ++ ['v']))) ++ ‹" X"›))]
    · rfl
    · intro r _
      show vectCell _ _ (normNames.map (row r.t r.e)) = _
      unfold vectCell
      rw [timingsDict_row _ _ _ _ h1, timingsDict_row _ _ _ _ h2]
      rfl
  · rfl

theorem vect_head (r0 : Run) (files : List Run) (h : ∀ r ∈ r0 :: files, '\n' ∉ r.title) (rest : Text) : ∃ hd,
    lines [] (pyPrint (‹"   Function Name"› :: padLeft 20 r0.title :: files.map fun r => padLeft 20 (r.title ++ ‹" vect."›)) ++ rest) =
      hd :: lines [] rest := by
  have key : ∀ l : List Text, (∀ x ∈ l, '\n' ∉ x) → '\n' ∉ (l.intersperse [' ']).flatten := by
    intro l
    induction l with
    | nil => simp
    | cons a l ih =>
      intro hl
      cases l with
      | nil => simpa using hl
      | cons b l =>
        have := ih fun x hx => hl x (by simp [hx])
        have ha := hl a (by simp)
        simp only [List.intersperse_cons_cons, List.flatten_cons, List.mem_append, not_or]
        exact ⟨ha, by decide, this⟩
  have hp : ∀ (n : ℕ) (x : Text), '\n' ∉ x → '\n' ∉ padLeft n x := by
    intro n x hx
    unfold padLeft
    rw [List.mem_append, List.mem_replicate]
    rintro (h | h)
    · exact absurd h.2 (by decide)
    · exact hx h
  unfold pyPrint
  rw [List.append_assoc, List.singleton_append]
  refine ⟨_, lines_go [] _ (key _ ?_) _⟩
  intro x hx
  simp only [List.mem_cons, List.mem_map] at hx
  rcases hx with rfl | rfl | ⟨r, hr, rfl⟩
  · decide
  · exact hp _ _ (h r0 (by simp))
  · refine hp _ _ ?_
    rw [List.mem_append, not_or]
    exact ⟨h r (by simp [hr]), by decide⟩

/-- **C73** (what is shown).  From the normalised timings of full runs the script makes a table with one line per function in
`vectShown`: name, time and error of the first file, then for every file the time of the array function, an error, and the
ratio.  The error is that of the function on single numbers. -/
theorem C73_vector_table_partial (r0 : Run) (rs : List Run) (hti : ∀ r ∈ r0 :: rs, '\n' ∉ r.title) :
    ∃ text, createVectTable ((r0 :: rs).map Run.table) = some text ∧ ∃ hd ls, lines [] text = hd :: ls ∧
      ls.map (words []) = vectShown.map fun n => [n, pyFixed 2 (r0.t n), ‹"+-"›, pyFixed 2 (r0.e n)] ++ (r0 :: rs).flatMap (vectEntry r0.t n) := by
  have hm := mapM_skip (fun n => vectLine ((r0 :: rs).map Run.table) (row r0.t r0.e n)) (fun n => ['v'].isSuffixOf n) (vectText r0 (r0 :: rs)) normNames
    (fun n hn => vectLine_eq r0 (r0 :: rs) n fun hs => by
      have : n ∈ vectShown := by
        rw [← vect_shown]
        exact List.mem_filter.2 ⟨hn, by rw [hs]; rfl⟩
      exact ⟨hn, (vect_mem n this).2.1⟩)
  rw [vect_shown] at hm
  obtain ⟨hd, hh⟩ := vect_head r0 (r0 :: rs) (by simpa using hti) (vectShown.flatMap (vectText r0 (r0 :: rs)))
  refine ⟨_, ?_, hd, _, hh, lines_all _ _ _ fun n hn => vectText_toks r0 (r0 :: rs) n (vect_mem n hn).2.2⟩
  unfold createVectTable
  rw [List.map_cons, List.head?_cons]
  simp only [Option.bind_eq_bind, Option.pure_def, Option.bind_some]
  rw [← List.map_cons, show (Run.table r0).2 = normNames.map (row r0.t r0.e) from rfl, List.mapM_map]
  cases hc : normNames.mapM fun n => vectLine ((r0 :: rs).map Run.table) (row r0.t r0.e n) with
  | none => rw [hc] at hm; simp at hm
  | some ls =>
    rw [hc] at hm
    have : (List.mapM ((vectLine ((r0 :: rs).map Run.table)) ∘ row r0.t r0.e) normNames) = some ls := hc
    rw [this]
    simp only [Option.map_some, Option.some.injEq] at hm
    simp only [Option.bind_some, hm]
    simp [Run.table, Function.comp_def]

example : ∀ r ∈ [(⟨‹"sse"›, fun _ => ofInt 3, fun _ => ofInt 1⟩ : Run), ⟨‹"avx"›, fun _ => ofInt 2, fun _ => ofInt 1⟩], '\n' ∉ r.title := by
  simp only [List.forall_mem_cons]
  exact ⟨by decide, by decide, by simp⟩

/-- **C73** fails: no line shows `Fast_Inv` or `Fast_Apr_Inv`, since these names end with the letter that marks array
functions, ... -/
theorem C73_missing_rows_violated (r0 : Run) (rs : List Run) (hti : ∀ r ∈ r0 :: rs, '\n' ∉ r.title) (text hd : Text) (ls : List Text)
    (h : createVectTable ((r0 :: rs).map Run.table) = some text) (hl : lines [] text = hd :: ls) :
    ∀ l ∈ ls, (words [] l).head? ≠ some ‹"Fast_Inv"› ∧ (words [] l).head? ≠ some ‹"Fast_Apr_Inv"› := by
  obtain ⟨text', h', hd', ls', hl', hw⟩ := C73_vector_table_partial r0 rs hti
  rw [h] at h'
  obtain rfl := Option.some.inj h'
  rw [hl] at hl'
  obtain ⟨-, rfl⟩ := List.cons.inj hl'
  intro l hl
  have hm : words [] l ∈ ls.map (words []) := List.mem_map_of_mem hl
  rw [hw] at hm
  obtain ⟨n, hn, he⟩ := List.mem_map.1 hm
  have hns : ‹"Fast_Inv"› ∉ vectShown ∧ ‹"Fast_Apr_Inv"› ∉ vectShown := by
    simp only [vectShown, String.reduceToList]; decide +kernel
  rw [← he]
  constructor <;> intro hc <;> simp only [List.cons_append, List.head?_cons, Option.some.injEq] at hc <;> subst hc
  · exact hns.1 hn
  · exact hns.2 hn

/-- ... and the table does not depend on the errors of the array functions. -/
theorem C73_array_errors_violated (r0 : Run) (rs : List Run) (hti : ∀ r ∈ r0 :: rs, '\n' ∉ r.title) (e' : Run → Text → F64)
    (he : ∀ r, ∀ n ∈ vectShown, e' r n = r.e n) :
    ∃ text text', createVectTable ((r0 :: rs).map Run.table) = some text ∧
      createVectTable ((r0 :: rs).map fun r => Run.table ⟨r.title, r.t, e' r⟩) = some text' ∧
      (lines [] text).tail.map (words []) = (lines [] text').tail.map (words []) := by
  obtain ⟨x, h, hd, ls, hl, hw⟩ := C73_vector_table_partial r0 rs hti
  obtain ⟨x', h', hd', ls', hl', hw'⟩ := C73_vector_table_partial ⟨r0.title, r0.t, e' r0⟩ (rs.map fun r => ⟨r.title, r.t, e' r⟩) (by
    intro r hr
    rcases List.mem_cons.1 hr with rfl | hr
    · exact hti r0 (by simp)
    · obtain ⟨s, hs, rfl⟩ := List.mem_map.1 hr
      exact hti s (by simp [hs]))
  refine ⟨x, x', h, ?_, ?_⟩
  · rw [← h']; simp [Function.comp_def]
  · rw [hl, hl', List.tail_cons, List.tail_cons, hw, hw']
    refine List.map_congr_left fun n hn => ?_
    simp only [List.flatMap_cons, List.flatMap_map, vectEntry]
    rw [he r0 n hn]
    simp only [he _ n hn]
    rfl

/-! ### The summary table -/

/-- The entry of one file in a line of the summary. -/
def summaryEntry (r0 : Row) (r : Row) : List Text :=
  [pyFixed 2 r.time, ‹"+-"›, pyFixed 2 r.err, pyFixed 1 (r0.time / if FP.eq r.time (lit 0) then lit 1 else r.time) ++ ‹"X"›]

theorem summaryLine_toks (files : List (Text × List Row)) (n : Text) (hn : Word n) (i : ℕ) (r0 : Row) (rest : List Row)
    (h : files.mapM (fun p => p.2[i]?) = some (r0 :: rest)) :
    ∃ l, summaryLine files n i = some (l ++ ['\n']) ∧
      Toks l ([n, pyFixed 2 r0.time, ‹"+-"›, pyFixed 2 r0.err] ++ rest.flatMap (summaryEntry r0)) := by
  unfold summaryLine
  rw [h]
  refine ⟨_, rfl, ?_⟩
  have h1 := (Toks.word hn).pad 16
  have h2 := ((pm_toks r0.time r0.err).blank Toks.nil).pad 20
  have h3 : ∀ r : Row, Toks (padLeft 20 (pm r.time r.err ++ ‹" "› ++ pyFixed 1 (factor r0.time r.time) ++ ‹"X"›)) (summaryEntry r0 r) := by
    intro r
    have := ((pm_toks r.time r.err).blank (Toks.word (word_X (factor r0.time r.time) ‹"X"› (by decide) 1))).pad 20
    simpa [summaryEntry, factor] using this
  cases rest with
  | nil => simpa using h1.blank h2
  | cons f fs =>
    have h4 := Toks.items _ _ (f :: fs) fun r _ => h3 r
    have := h1.blank (h2.blank h4)
    simpa using this

theorem summary_head (titles : List Text) (h : ∀ r ∈ titles, '\n' ∉ r) (rest : Text) : ∃ hd,
    lines [] (pyPrint (‹"   Function Name"› :: titles.map fun r => padLeft 20 r) ++ rest) = hd :: lines [] rest := by
  have key : ∀ l : List Text, (∀ x ∈ l, '\n' ∉ x) → '\n' ∉ (l.intersperse [' ']).flatten := by
    intro l
    induction l with
    | nil => simp
    | cons a l ih =>
      intro hl
      cases l with
      | nil => simpa using hl
      | cons b l =>
        have := ih fun x hx => hl x (by simp [hx])
        have ha := hl a (by simp)
        simp only [List.intersperse_cons_cons, List.flatten_cons, List.mem_append, not_or]
        exact ⟨ha, by decide, this⟩
  unfold pyPrint
  rw [List.append_assoc, List.singleton_append]
  refine ⟨_, lines_go [] _ (key _ ?_) _⟩
  intro x hx
  simp only [List.mem_cons, List.mem_map] at hx
  rcases hx with rfl | ⟨r, hr, rfl⟩
  · decide
  · unfold padLeft
    rw [List.mem_append, List.mem_replicate]
    rintro (h' | h')
    · exact absurd h'.2 (by decide)
    · exact h r hr h'

/-- The summary pairs the files by position: if file `k` has `(rows k)[i]` at position `i`, line `i` shows these rows next to each
other under the name of the first. -/
theorem summary_general (title0 : Text) (l0 : List Row) (rs : List (Text × List Row)) (hti : ∀ r ∈ (title0, l0) :: rs, '\n' ∉ r.1)
    (hw : ∀ r ∈ l0, Word r.name) (others : ℕ → List Row) (ho : ∀ i < l0.length, rs.mapM (fun p => p.2[i]?) = some (others i)) :
    ∃ text, createSummaryTable ((title0, l0) :: rs) = some text ∧ ∃ hd ls, lines [] text = hd :: ls ∧
      ls.map (words []) = l0.zipIdx.map fun p => [p.1.name, pyFixed 2 p.1.time, ‹"+-"›, pyFixed 2 p.1.err] ++
        (others p.2).flatMap (summaryEntry p.1) := by
  have hline : ∀ p ∈ l0.zipIdx, ∃ l, summaryLine ((title0, l0) :: rs) p.1.name p.2 = some (l ++ ['\n']) ∧
      Toks l ([p.1.name, pyFixed 2 p.1.time, ‹"+-"›, pyFixed 2 p.1.err] ++ (others p.2).flatMap (summaryEntry p.1)) := by
    intro p hp
    have hp' := List.mem_zipIdx' hp
    refine summaryLine_toks _ _ (hw _ (List.fst_mem_of_mem_zipIdx hp)) _ _ _ ?_
    rw [List.mapM_cons, ho _ hp'.1]
    simp only [List.getElem?_eq_getElem hp'.1]
    rw [← hp'.2]; rfl
  choose! tx htx1 htx2 using hline
  obtain ⟨hd, hh⟩ := summary_head (((title0, l0) :: rs).map Prod.fst) (by
    intro r hr
    obtain ⟨p, hp, rfl⟩ := List.mem_map.1 hr
    exact hti p hp) (l0.zipIdx.flatMap fun p => tx p ++ ['\n'])
  refine ⟨_, ?_, hd, _, hh, lines_all _ _ _ fun p hp => ⟨tx p, rfl, htx2 p hp⟩⟩
  unfold createSummaryTable
  rw [List.head?_cons]
  simp only [Option.bind_eq_bind, Option.pure_def, Option.bind_some]
  have hm : ((List.range l0.length).mapM fun i => (l0[i]?).bind fun a => summaryLine ((title0, l0) :: rs) a.name i) =
      some (l0.zipIdx.map fun p => tx p ++ ['\n']) := by
    have := mapM_some (fun i => (l0[i]?).bind fun a => summaryLine ((title0, l0) :: rs) a.name i)
      (fun i => ((l0[i]?).map fun a => tx (a, i) ++ ['\n']).getD []) (List.range l0.length) (by
        intro i hi
        have hi := List.mem_range.1 hi
        simp only [List.getElem?_eq_getElem hi, Option.bind_some, Option.map_some, Option.getD_some]
        exact htx1 (l0[i], i) (List.mk_mem_zipIdx_iff_getElem?.2 (List.getElem?_eq_getElem hi)))
    rw [this]
    congr 1
    refine List.ext_getElem (by simp) fun i h1 h2 => ?_
    simp only [List.length_map, List.length_range] at h1
    simp [List.getElem?_eq_getElem h1]
  rw [hm]
  simp [List.flatMap_def, Function.comp_def]

/-- **C74.**  If all files list the same functions in the same order, the summary table has one line per function: its name,
time and error in the first file, then for every other file time, error and the ratio. -/
theorem C74_summary_table (names : List Text) (hw : ∀ n ∈ names, n ≠ [] ∧ ∀ c ∈ n, isSpace c = false) (r0 : Run) (rs : List Run)
    (hti : ∀ r ∈ r0 :: rs, '\n' ∉ r.title) :
    ∃ text, createSummaryTable ((r0 :: rs).map fun r => (r.title, names.map (row r.t r.e))) = some text ∧
      ∃ hd ls, lines [] text = hd :: ls ∧
        ls.map (words []) = names.map fun n => [n, pyFixed 2 (r0.t n), ‹"+-"›, pyFixed 2 (r0.e n)] ++
          rs.flatMap fun r => [pyFixed 2 (r.t n), ‹"+-"›, pyFixed 2 (r.e n),
            pyFixed 1 (r0.t n / if FP.eq (r.t n) (lit 0) then lit 1 else r.t n) ++ ‹"X"›] := by
  have h := summary_general r0.title (names.map (row r0.t r0.e)) (rs.map fun r => (r.title, names.map (row r.t r.e)))
    (by
      intro r hr
      rcases List.mem_cons.1 hr with rfl | hr
      · exact hti r0 (by simp)
      · obtain ⟨s, hs, rfl⟩ := List.mem_map.1 hr
        exact hti s (by simp [hs]))
    (by
      intro r hr
      obtain ⟨n, hn, rfl⟩ := List.mem_map.1 hr
      exact hw n hn)
    (fun i => rs.map fun r => row r.t r.e (names[i]?.getD []))
    (by
      intro i hi
      rw [List.length_map] at hi
      rw [List.mapM_map]
      refine mapM_some _ _ _ fun r _ => ?_
      simp [List.getElem?_eq_getElem hi])
  obtain ⟨text, h1, hd, ls, h2, h3⟩ := h
  refine ⟨text, by simpa using h1, hd, ls, h2, ?_⟩
  rw [h3]
  refine List.ext_getElem (by simp) fun i h1 h2 => ?_
  have hi : i < names.length := by simpa using h2
  simp only [List.getElem_map, List.getElem_zipIdx, List.flatMap_map, Nat.zero_add, List.getElem?_eq_getElem hi, Option.getD_some]
  rfl

example : ∀ n ∈ [‹"Exp"›, ‹"Fast_Exp"›], n ≠ [] ∧ ∀ c ∈ n, isSpace c = false := by decide

/-- If the files list different functions (runs with different patterns), timings of different functions stand in one line:
here `Exp` and `Log`. -/
theorem C74_different_functions_violated (r0 r1 : Run) (h0 : '\n' ∉ r0.title) (h1 : '\n' ∉ r1.title) :
    ∃ text, createSummaryTable [(r0.title, [row r0.t r0.e ‹"Exp"›]), (r1.title, [row r1.t r1.e ‹"Log"›])] = some text ∧
      ∃ hd l, lines [] text = [hd, l] ∧ words [] l = [‹"Exp"›, pyFixed 2 (r0.t ‹"Exp"›), ‹"+-"›, pyFixed 2 (r0.e ‹"Exp"›),
        pyFixed 2 (r1.t ‹"Log"›), ‹"+-"›, pyFixed 2 (r1.e ‹"Log"›),
        pyFixed 1 (r0.t ‹"Exp"› / if FP.eq (r1.t ‹"Log"›) (lit 0) then lit 1 else r1.t ‹"Log"›) ++ ‹"X"›] := by
  obtain ⟨text, a, hd, ls, b, c⟩ := summary_general r0.title [row r0.t r0.e ‹"Exp"›] [(r1.title, [row r1.t r1.e ‹"Log"›])]
    (by simp [h0, h1]) (by
      intro r hr
      obtain rfl := List.mem_singleton.1 hr
      show Word ‹"Exp"›
      exact ⟨by decide, by decide⟩)
    (fun _ => [row r1.t r1.e ‹"Log"›]) (by
      intro i hi
      obtain rfl : i = 0 := by simpa using hi
      rfl)
  match ls, b, c with
  | [], _, c => simp at c
  | [l], b, c =>
    refine ⟨text, a, hd, l, b, ?_⟩
    simpa [summaryEntry, row] using c
  | _ :: _ :: _, _, c => simp at c

end Vdt.Perf
