import Verif.Model.Perf
import Verif.Lemmas.Persist
import Verif.Props.BenchAccuracy
import Verif.Props.SincosBasic

/-!
# C70: a performance run and the script that reads its file
-/

namespace Vdt.Perf
open FP Txt Rand Diag Bench

local notation "‹" s "›" => String.toList s

/-! ### Words and lines -/

/-- A word: not empty, without white space. -/
def Word (t : Text) : Prop := t ≠ [] ∧ ∀ c ∈ t, isSpace c = false

theorem words_go (cur w : Text) (hw : ∀ c ∈ w, isSpace c = false) (t : Text) : words cur (w ++ t) = words (cur ++ w) t := by
  induction w generalizing cur with
  | nil => simp
  | cons c w ih =>
    rw [List.cons_append, words, if_neg (by simp [hw c (by simp)]), ih _ (fun d hd => hw d (by simp [hd]))]
    simp

theorem words_word {w : Text} (hw : Word w) (t : Text) : words [] (w ++ ' ' :: t) = w :: words [] t := by
  rw [words_go [] w hw.2, List.nil_append, words, if_pos (by decide), if_neg hw.1]

theorem words_last {w : Text} (hw : Word w) : words [] w = [w] := by
  have := words_go [] w hw.2 []
  rw [List.append_nil, List.nil_append] at this
  rw [this, words, if_neg hw.1]

theorem words_blank (t : Text) : words [] (' ' :: t) = words [] t := by
  rw [words, if_pos (by decide), if_pos rfl]

theorem words_blanks (n : ℕ) (t : Text) : words [] (List.replicate n ' ' ++ t) = words [] t := by
  induction n with
  | zero => rfl
  | succ n ih => rw [List.replicate_succ, List.cons_append, words_blank, ih]

theorem lines_go (cur l : Text) (hl : '\n' ∉ l) (t : Text) : lines cur (l ++ '\n' :: t) = (cur ++ l) :: lines [] t := by
  induction l generalizing cur with
  | nil => rw [List.nil_append, lines, if_pos rfl, List.append_nil]
  | cons c l ih =>
    rw [List.mem_cons, not_or] at hl
    rw [List.cons_append, lines, if_neg (Ne.symm hl.1), ih _ hl.2]
    simp

theorem lines_flatMap {α : Type} (g : α → Text) (hg : ∀ a, '\n' ∉ g a) (l : List α) :
    lines [] (l.flatMap fun a => g a ++ ['\n']) = l.map g := by
  induction l with
  | nil => rfl
  | cons a l ih =>
    rw [List.flatMap_cons, List.append_assoc, List.singleton_append, lines_go [] _ (hg a), ih]
    simp

/-! ### Numbers -/

theorem digit_not_space (c : Char) (h : isDigit 10 c = true) : isSpace c = false := by
  cases hc : isSpace c
  · rfl
  · exfalso
    unfold isSpace at hc
    simp only [Bool.or_eq_true, beq_iff_eq] at hc
    rcases hc with ((((h' | h') | h') | h') | h') | h' <;> subst h' <;> revert h <;> decide

/-- What the script reads when the program prints `x`. -/
def read2 (x : F64) : F64 := if x.isNaN then FP.nan else if x.isInf then x else fixedRead b64 2 x

theorem printFixed_finite {x : F64} (hx : x.isFinite = true) : ∃ i d : Text, (∀ c ∈ i, isDigit 10 c = true) ∧ i ≠ [] ∧
    (∀ c ∈ d, isDigit 10 c = true) ∧ d.length = 2 ∧ digitsVal 10 (i ++ d) = fixedScaled 2 (FP.abs x).val ∧
    printFixed 2 x = (if x.sign then ['-'] else []) ++ (i ++ '.' :: d) ∧ ∃ k < 10, ∃ t, i ++ '.' :: d = digitChar k :: t := by
  have hn := finite_not_nan hx
  have hi := finite_not_inf hx
  obtain ⟨n, hn'⟩ : ∃ n, n = fixedScaled 2 (FP.abs x).val := ⟨_, rfl⟩
  refine ⟨printNat 10 (n / 10 ^ 2), padZero 2 (printNat 10 (n % 10 ^ 2)), printNat_all (by norm_num) (by norm_num) _,
    printNat_ne_nil _ _, padZero_digits _ _ (printNat_all (by norm_num) (by norm_num) _),
    padZero_length _ _ (by norm_num) (Nat.mod_lt _ (by positivity)), ?_, ?_, ?_⟩
  · rw [digitsVal_append', padZero_length _ _ (by norm_num) (Nat.mod_lt _ (by positivity)), digitsVal_padZero,
      digitsVal_printNat (by norm_num) (by norm_num), digitsVal_printNat (by norm_num) (by norm_num), ← hn']
    exact Nat.div_add_mod' n (10 ^ 2)
  · unfold printFixed
    rw [hn, hi]
    simp only [Bool.false_eq_true, if_false]
    rw [← hn']
  · obtain ⟨k, hk, t, ht⟩ := printNat_head (base := 10) (by norm_num) (by norm_num) (n / 10 ^ 2) ('.' :: padZero 2 (printNat 10 (n % 10 ^ 2)))
    exact ⟨k, hk, t, ht⟩

theorem printFixed_word (x : F64) : Word (printFixed 2 x) := by
  cases hx : x.isFinite
  · unfold printFixed
    cases x.sign <;> cases hn : x.isNaN <;> cases hi : x.isInf <;>
      first
      | (constructor <;> simp [isSpace]; done)
      | (exfalso; revert hx hn hi; unfold isFinite isNaN isInf; simp; omega)
  · obtain ⟨i, d, hi, hi0, hd, -, -, h, -⟩ := printFixed_finite hx
    rw [h]
    refine ⟨by simp, fun c hc => ?_⟩
    rw [List.mem_append] at hc
    rcases hc with hc | hc
    · cases hs : x.sign
      · rw [hs] at hc; simp at hc
      · rw [hs] at hc
        obtain rfl : c = '-' := by simpa using hc
        decide
    · rw [List.mem_append, List.mem_cons] at hc
      rcases hc with hc | rfl | hc
      · exact digit_not_space c (hi c hc)
      · decide
      · exact digit_not_space c (hd c hc)

theorem pyFloat_printFixed (x : F64) : pyFloat (printFixed 2 x) = some (read2 x) := by
  cases hx : x.isFinite
  · unfold printFixed read2
    cases hn : x.isNaN
    · cases hi : x.isInf
      · exfalso; revert hx hn hi; unfold isFinite isNaN isInf; simp; omega
      · have hxi : x = FP.inf x.sign := by
          unfold isInf at hi
          simp at hi
          cases x; simp_all [FP.inf]
        rw [hxi]
        cases x.sign <;> rfl
    · cases x.sign <;> rfl
  · obtain ⟨i, d, hi, hi0, hd, hl, hv, h, k, hk, t, ht⟩ := printFixed_finite hx
    have hn := finite_not_nan hx
    have hinf := finite_not_inf hx
    have hsg : readSign (printFixed 2 x) = (x.sign, i ++ '.' :: d) := by
      rw [h]
      cases x.sign
      · simp only [Bool.false_eq_true, if_false, List.nil_append]
        rw [ht, readSign_digit k (by omega)]
      · rfl
    have hspl := splitDecimal_fixed i d [] hi hd (stops_nil 10)
    rw [List.append_nil] at hspl
    have hne : i ++ '.' :: d ≠ ‹"nan"› ∧ i ++ '.' :: d ≠ ‹"inf"› := by
      rw [ht]
      have : ∀ k < 10, digitChar k ≠ 'n' ∧ digitChar k ≠ 'i' := by decide
      have := this k hk
      constructor <;> intro h' <;> simp only [String.reduceToList, List.cons.injEq] at h'
      · exact this.1 h'.1
      · exact this.2 h'.1
    unfold pyFloat read2
    simp only [hsg, hspl, hn, hinf, if_neg hne.1, if_neg hne.2]
    rw [if_neg (by simp [hi0]), hv, hl]
    rfl

theorem word_newline {t : Text} (h : Word t) : '\n' ∉ t := fun hc => by
  have := h.2 _ hc
  revert this; decide

theorem extractLine_print (name : Text) (hw : Word name) (t : Timing) :
    ∃ l, printLine name t = l ++ ['\n'] ∧ '\n' ∉ l ∧ extractLine l = some ⟨name, read2 t.avg, read2 t.err⟩ := by
  have ha := printFixed_word t.avg
  have he := printFixed_word t.err
  refine ⟨_, rfl, ?_, ?_⟩
  · unfold padRight
    simp only [List.mem_append, List.mem_replicate, not_or]
    refine ⟨⟨⟨⟨⟨⟨by decide, word_newline hw, by simp⟩, by decide⟩, word_newline ha⟩, by decide⟩, word_newline he⟩, by decide⟩
  · have h : words [] (‹"Function "› ++ padRight 15 name ++ ‹" : "› ++ printFixed 2 t.avg ++ ‹" +- "› ++ printFixed 2 t.err ++ ‹" ns"›) =
        [‹"Function"›, name, [':'], printFixed 2 t.avg, ‹"+-"›, printFixed 2 t.err, ‹"ns"›] := by
      have h1 : ‹"Function "› = ‹"Function"› ++ [' '] := by decide
      have h2 : ‹" : "› = ' ' :: ([':'] ++ [' ']) := by decide
      have h3 : ‹" +- "› = ' ' :: (‹"+-"› ++ [' ']) := by decide
      have h4 : ‹" ns"› = ' ' :: ‹"ns"› := by decide
      have key : ∀ n r, words [] (name ++ (List.replicate n ' ' ++ ' ' :: r)) = name :: words [] r := by
        intro n r
        rcases n with _ | n
        · exact words_word hw r
        · rw [List.replicate_succ, List.cons_append, words_word hw, words_blanks, words_blank]
      have w1 : Word ‹"Function"› := ⟨by decide, by decide⟩
      have w2 : Word [':'] := ⟨by decide, by decide⟩
      have w3 : Word ‹"+-"› := ⟨by decide, by decide⟩
      have w4 : Word ‹"ns"› := ⟨by decide, by decide⟩
      rw [h1, h2, h3, h4]
      unfold padRight
      simp only [List.append_assoc, List.cons_append, List.singleton_append, List.nil_append]
      rw [words_word w1, key]
      have := words_word w2
      simp only [List.singleton_append] at this
      rw [this, words_word ha, words_word w3, words_word he, words_last w4]
    unfold extractLine
    rw [h]
    simp [pyFloat_printFixed]

/-! ### Definedness -/

theorem sin64_def {x : F64} (h : In (-10 ^ 9) (10 ^ 9) x) : (Vdt.fast_sin x).isSome = true ∧ (Vdt.fast_cos x).isSome = true ∧ (Vdt.fast_tan x).isSome = true := by
  have hb : |x.val| < 7074237748734241 / 4194304 := lt_of_le_of_lt (abs_le.2 ⟨h.2.1, h.2.2⟩) (by norm_num)
  have h1 := (C11_sincos_defined_iff x).2 ⟨h.1, hb⟩
  have h2 := (quad64_defined_iff x).2 ⟨h.1, hb⟩
  obtain ⟨e1, e2⟩ := C11_sin_cos_components x
  refine ⟨by rw [e1, Option.isSome_map]; exact h1, by rw [e2, Option.isSome_map]; exact h1, ?_⟩
  unfold Vdt.fast_tan
  rw [fast_tanM_eq]
  revert h2
  cases quadStep strict details.ONEOPIO4 (FP.abs x) <;> simp

theorem sin32_def {x : F32} (h : In (-10 ^ 9) (10 ^ 9) x) : (Vdt.fast_sinf x).isSome = true ∧ (Vdt.fast_cosf x).isSome = true ∧ (Vdt.fast_tanf x).isSome = true := by
  have hb : |x.val| < 1686629760 := lt_of_le_of_lt (abs_le.2 ⟨h.2.1, h.2.2⟩) (by norm_num)
  have h1 := (C11_sincosf_defined_iff x).2 ⟨h.1, hb⟩
  have h2 := (quad32_defined_iff x).2 ⟨h.1, hb⟩
  obtain ⟨e1, e2⟩ := C11_sinf_cosf_components x
  refine ⟨by rw [e1, Option.isSome_map]; exact h1, by rw [e2, Option.isSome_map]; exact h1, ?_⟩
  unfold Vdt.fast_tanf
  rw [fast_tanfM_eq]
  revert h2
  cases quadStep strict details.ONEOPIO4F (FP.abs x) <;> simp

theorem exp64_def {x : F64} (h : In (-705) 705 x) : (Vdt.fast_exp x).isSome = true := by
  obtain ⟨y, hy, -⟩ := C01_exp_accurate x h.1 (abs_le.2 ⟨by linarith [h.2.1], by linarith [h.2.2]⟩)
  rw [hy]; rfl

theorem exp32_def {x : F32} (h : In (-80) 80 x) : (Vdt.fast_expf x).isSome = true := by
  obtain ⟨y, hy, -⟩ := C03_expf_accurate x h.1 (by linarith [h.2.1]) (by linarith [h.2.2])
  rw [hy]; rfl

theorem defs64 (R : RefMath b64) (P : Pools b64) (h1 : ∀ x ∈ P.sym, In (-10 ^ 9) (10 ^ 9) x) (h2 : ∀ x ∈ P.exp, In (-705) 705 x) :
    ∀ e ∈ tuples64 R none P, ∀ x ∈ e.input, (e.fcn x).isSome = true := by
  simp only [tuples64, List.append_nil, List.forall_mem_cons]
  exact ⟨fun _ _ => rfl, fun _ _ => rfl, fun _ _ => rfl, fun _ _ => rfl, fun _ _ => rfl, fun _ _ => rfl, fun _ _ => rfl, fun _ _ => rfl, fun _ _ => rfl, fun _ _ => rfl, fun _ _ => rfl, fun _ _ => rfl, fun x hx => exp64_def (h2 x hx), fun _ _ => rfl, fun x hx => (sin64_def (h1 x hx)).1, fun x hx => (sin64_def (h1 x hx)).2.1, fun x hx => (sin64_def (h1 x hx)).2.2, fun _ _ => rfl, fun _ _ => rfl, fun _ _ => rfl, fun _ _ => rfl, fun _ _ => rfl, fun _ _ => rfl, fun _ _ => rfl, fun _ _ => rfl, fun _ h => absurd h List.not_mem_nil⟩

theorem defs32 (R : RefMath b32) (P : Pools b32) (h1 : ∀ x ∈ P.sym, In (-10 ^ 9) (10 ^ 9) x) (h2 : ∀ x ∈ P.exp, In (-80) 80 x) :
    ∀ e ∈ tuples32 R none P, ∀ x ∈ e.input, (e.fcn x).isSome = true := by
  simp only [tuples32, List.append_nil, List.forall_mem_cons]
  exact ⟨fun _ _ => rfl, fun _ _ => rfl, fun _ _ => rfl, fun _ _ => rfl, fun _ _ => rfl, fun _ _ => rfl, fun _ _ => rfl, fun _ _ => rfl, fun _ _ => rfl, fun _ _ => rfl, fun _ _ => rfl, fun _ _ => rfl, fun x hx => exp32_def (h2 x hx), fun _ _ => rfl, fun x hx => (sin32_def (h1 x hx)).1, fun x hx => (sin32_def (h1 x hx)).2.1, fun x hx => (sin32_def (h1 x hx)).2.2, fun _ _ => rfl, fun _ _ => rfl, fun _ _ => rfl, fun _ _ => rfl, fun _ _ => rfl, fun _ _ => rfl, fun _ _ => rfl, fun _ _ => rfl, fun _ h => absurd h List.not_mem_nil⟩

/-- All inputs of a table have `n` numbers. -/
def Sized {f : Fmt} (P : Pools f) (n : ℕ) : Prop := P.sym.length = n ∧ P.pos.length = n ∧ P.one.length = n ∧ P.exp.length = n

theorem sized64 (R : RefMath b64) (P : Pools b64) {n : ℕ} (h : Sized P n) : ∀ e ∈ tuples64 R none P, e.input.length = n := by
  obtain ⟨h1, h2, h3, h4⟩ := h
  intro e he
  simp only [tuples64, List.append_nil, List.mem_cons, List.not_mem_nil, or_false] at he
  rcases he with he | he | he | he | he | he | he | he | he | he | he | he | he | he | he | he | he | he | he | he | he | he | he | he | he <;>
    rw [he] <;> assumption

theorem sized32 (R : RefMath b32) (P : Pools b32) {n : ℕ} (h : Sized P n) : ∀ e ∈ tuples32 R none P, e.input.length = n := by
  obtain ⟨h1, h2, h3, h4⟩ := h
  intro e he
  simp only [tuples32, List.append_nil, List.mem_cons, List.not_mem_nil, or_false] at he
  rcases he with he | he | he | he | he | he | he | he | he | he | he | he | he | he | he | he | he | he | he | he | he | he | he | he | he <;>
    rw [he] <;> assumption

theorem pool_length {f : Fmt} (eng : Engine) (k : ℕ) (a b : FP f) (SIZE : BitVec 32) : (fillVector eng k a b (SIZE.setWidth 64)).length = SIZE.toNat := by
  have hz : (SIZE.setWidth 64).toNat = SIZE.toNat := by
    rw [BitVec.toNat_setWidth]; exact Nat.mod_eq_of_lt (by have := SIZE.isLt; omega)
  unfold fillVector; simp [hz]

/-! ### The file -/

theorem rounds_some (reps : BitVec 32) {size : ℕ} (hs : size ≠ 0) {o : Option Unit} (ho : o = some ()) : rounds reps size o = some () := by
  unfold rounds
  rw [if_neg hs, ho, ite_self]

theorem section_some {α : Type} (name : α → Text) (perf : α → Option Timing) (T : Text → Timing) (pattern : Text → Bool) (l : List α)
    (h : ∀ e ∈ l, perf e = some (T (name e))) :
    section_ name perf pattern l = some (((l.map name).filter pattern).flatMap fun n => printLine n (T n)) := by
  have key : ∀ (l : List α) (out : Text), (∀ e ∈ l, perf e = some (T (name e))) →
      l.foldlM (fun out e => do return out ++ printLine (name e) (← perf e)) out = some (out ++ (l.map name).flatMap fun n => printLine n (T n)) := by
    intro l
    induction l with
    | nil => intro out _; simp
    | cons e l ih =>
      intro out h
      rw [List.foldlM_cons, h e (by simp)]
      simp only [Option.pure_def, Option.bind_eq_bind, Option.bind_some, List.map_cons, List.flatMap_cons]
      rw [← List.append_assoc]
      exact ih _ (fun e he => h e (by simp [he]))
  unfold section_
  rw [key _ _ (fun e he => h e (List.mem_of_mem_filter he)), List.nil_append, List.filter_map]
  rfl

/-- The two-argument functions of the performance benchmark. -/
def pairNames : List Text := [‹"Identity2D"›, ‹"Atan2"›, ‹"Fast_Atan2"›]

/-- The functions of the performance benchmark in the order of the run: double and single precision,
numbers and arrays, then the functions with two arguments. -/
def perfNames : List Text :=
  [‹""›, ‹"v"›, ‹"f"›, ‹"fv"›].flatMap (fun s => baseNames.map (· ++ s)) ++
  [‹""›, ‹"v"›, ‹"f"›, ‹"fv"›].flatMap (fun s => pairNames.map (· ++ s))

theorem perf_scalar {f : Fmt} (reps SIZE : BitVec 32) (h0 : SIZE ≠ 0) (dt : Text → ℕ → BitVec 64) (l : List (Entry f (Fcn f)))
    (h1 : ∀ e ∈ l, ∀ x ∈ e.input, (e.fcn x).isSome = true) (h2 : ∀ e ∈ l, e.input.length = SIZE.toNat) :
    ∀ e ∈ l, perfScalar reps dt e = some (measure SIZE reps (dt e.name)) := by
  intro e he
  have hs : SIZE.toNat ≠ 0 := fun h => h0 (BitVec.eq_of_toNat_eq h)
  unfold perfScalar
  rw [rounds_some reps (by rw [h2 e he]; exact hs) (by rw [respScalar_eq _ _ _ (h1 e he)]; rfl), h2 e he]
  simp

theorem perf_array {f : Fmt} (garbage : ℕ → FP f) (reps SIZE : BitVec 32) (h0 : SIZE ≠ 0) (dt : Text → ℕ → BitVec 64) (l : List (Entry f (Fcn f)))
    (h1 : ∀ e ∈ l, ∀ x ∈ e.input, (e.fcn x).isSome = true) (h2 : ∀ e ∈ l, e.input.length = SIZE.toNat) :
    ∀ e ∈ l.map (fun e : Entry f (Fcn f) => (⟨e.name ++ ['v'], Arr.arrayFn e.fcn, e.input⟩ : Entry f (ArrayFcn f))),
      perfArray garbage reps dt e = some (measure SIZE reps (dt e.name)) := by
  intro e' he'
  obtain ⟨e, he, rfl⟩ := List.mem_map.1 he'
  clear he'
  have hs : SIZE.toNat ≠ 0 := fun h => h0 (BitVec.eq_of_toNat_eq h)
  have hl := SIZE.isLt
  unfold perfArray
  rw [rounds_some reps (by rw [h2 e he]; exact hs) (by
    rw [respArray_eq _ _ _ _ (h1 e he) (by rw [h2 e he]; omega) (by rw [h2 e he]; exact hl)]; rfl), h2 e he]
  simp

theorem perf_scalar2 {f : Fmt} (reps SIZE : BitVec 32) (h0 : SIZE ≠ 0) (dt : Text → ℕ → BitVec 64) (P : List (FP f) × List (FP f))
    (hP : P.1.length = SIZE.toNat ∧ P.2.length = SIZE.toNat) (n : Text) (g : FP f → FP f → FP f) :
    perfScalar2 reps dt P (n, (some <| g · ·)) = some (measure SIZE reps (dt n)) := by
  have hs : SIZE.toNat ≠ 0 := fun h => h0 (BitVec.eq_of_toNat_eq h)
  unfold perfScalar2
  rw [rounds_some reps (by rw [hP.1]; exact hs) (by rw [respScalar2_eq _ _ _ _ (hP.1.trans hP.2.symm) (by simp)]; rfl), hP.1]
  simp

theorem perf_array2 {f : Fmt} (garbage : ℕ → FP f) (reps SIZE : BitVec 32) (h0 : SIZE ≠ 0) (dt : Text → ℕ → BitVec 64) (P : List (FP f) × List (FP f))
    (hP : P.1.length = SIZE.toNat ∧ P.2.length = SIZE.toNat) (n : Text) (g : FP f → FP f → FP f) :
    perfArray2 garbage reps dt P (n, Arr.arrayFn2 (some <| g · ·)) = some (measure SIZE reps (dt n)) := by
  have hs : SIZE.toNat ≠ 0 := fun h => h0 (BitVec.eq_of_toNat_eq h)
  have hl := SIZE.isLt
  unfold perfArray2
  rw [rounds_some reps (by rw [hP.1]; exact hs) (by
    rw [respArray2_eq _ _ _ _ _ (hP.1.trans hP.2.symm) (by simp) (by rw [hP.1]; omega) (by rw [hP.1]; exact hl)]; rfl), hP.1]
  simp

/-- `y` is what remains of `x` when it is written with two decimals and read again. -/
def TwoDecimals (x y : F64) : Prop :=
  (x.isNaN = true → y.isNaN = true) ∧ (x.isInf = true → y = x) ∧
  (x.isFinite = true → ∃ k : ℤ, |(k : ℚ) / 100 - x.val| ≤ 1 / 200 ∧ y.isFinite = true ∧ y.val = rnd b64 ((k : ℚ) / 100))

theorem fixedRead_finite {f : Fmt} [hm : MaxNat f] (hpos : 0 < f.infMag) (p : ℕ) (x : FP f) (hx : x.isFinite = true) :
    (fixedRead f p x).isFinite = true := by
  have hnn : (fixedRead f p x).isNaN = false := ofRat_not_nan _ _
  have hii : (fixedRead f p x).isInf = false := by
    have hle : |((fixedScaled p (FP.abs x).val : ℕ) : ℚ) / ((10 ^ p : ℕ) : ℚ)| ≤ (hm.n : ℚ) := by
      have hle := fixedScaled_le (f := f) p x hx
      rw [abs_of_nonneg (by positivity), div_le_iff₀ (by positivity)]
      exact_mod_cast hle
    refine isInf_ofRat_false hpos _ _ ?_
    split
    · rw [abs_neg]; exact hle
    · exact hle
  revert hnn hii; unfold isNaN isInf isFinite; simp; omega

theorem fixedRead_val {f : Fmt} (p : ℕ) (x : FP f) : ∃ k : ℤ,
    |(k : ℚ) / 10 ^ p - x.val| ≤ 1 / 2 / 10 ^ p ∧ (fixedRead f p x).val = rnd f ((k : ℚ) / 10 ^ p) := by
  have hb := rne_bounds (q := (FP.abs x).val * (10 ^ p : ℕ)) (by rw [val_abs]; positivity)
  obtain ⟨n, hn⟩ : ∃ n, n = fixedScaled p (FP.abs x).val := ⟨_, rfl⟩
  have hx : x.val = if x.sign then -(FP.abs x).val else (FP.abs x).val := by
    unfold FP.val FP.abs; cases x.sign <;> simp
  have hv : (fixedRead f p x).val = rnd f (if x.sign then -((n : ℚ) / ((10 ^ p : ℕ) : ℚ)) else (n : ℚ) / ((10 ^ p : ℕ) : ℚ)) := by
    rw [hn]; exact val_ofRat _ _
  unfold fixedScaled at hn
  rw [← hn] at hb
  have hp : (0 : ℚ) < 10 ^ p := by positivity
  push_cast at hb hv
  have key : |(n : ℚ) / 10 ^ p - (FP.abs x).val| ≤ 1 / 2 / 10 ^ p := by
    rw [show (n : ℚ) / 10 ^ p - (FP.abs x).val = ((n : ℚ) - (FP.abs x).val * 10 ^ p) / 10 ^ p by field_simp, abs_div, abs_of_pos hp]
    exact div_le_div_of_nonneg_right hb hp.le
  refine ⟨if x.sign then -(n : ℤ) else n, ?_, ?_⟩
  · rw [hx]
    cases x.sign
    · simpa using key
    · simp only [if_true]; push_cast
      rw [neg_div, show -((n : ℚ) / 10 ^ p) - -(FP.abs x).val = -((n : ℚ) / 10 ^ p - (FP.abs x).val) by ring, abs_neg]
      exact key
  · rw [hv]
    cases x.sign <;> simp [neg_div]

theorem twoDecimals (x : F64) : TwoDecimals x (read2 x) := by
  refine ⟨fun h => ?_, fun h => ?_, fun h => ?_⟩
  · unfold read2; rw [if_pos h]; decide
  · have hn : x.isNaN = false := by
      revert h; unfold isInf isNaN; simp; omega
    unfold read2; simp [hn, h]
  · have hn := finite_not_nan h
    have hi := finite_not_inf h
    have hr : read2 x = fixedRead b64 2 x := by unfold read2; simp [hn, hi]
    rw [hr]
    obtain ⟨k, h1, h2⟩ := fixedRead_val 2 x
    have e : ((k : ℚ) / 10 ^ 2) = (k : ℚ) / 100 := by norm_num
    rw [e] at h1 h2
    exact ⟨k, h1.trans (by norm_num), fixedRead_finite (by decide) 2 x h, h2⟩

theorem convert_in {x : F64} (hx : x.isFinite = true) (h1 : -10 ^ 9 ≤ x.val) (h2 : x.val ≤ 10 ^ 9) :
    (convert b32 x).isFinite = true ∧ (convert b32 x).val = rnd b32 x.val ∧ -10 ^ 9 ≤ (convert b32 x).val ∧ (convert b32 x).val ≤ 10 ^ 9 := by
  have e : convert b32 x = ofRat b32 x.sign x.val := by
    unfold convert; simp [finite_not_nan hx, finite_not_inf hx]
  have hbig : (10 : ℚ) ^ 9 ≤ b32.big := by decide +kernel
  have r1 : rnd b32 (10 ^ 9) = 10 ^ 9 := by decide +kernel
  have r2 : rnd b32 (-10 ^ 9) = -10 ^ 9 := by decide +kernel
  rw [e, val_ofRat]
  refine ⟨finite_ofRat _ ((abs_le.2 ⟨h1, h2⟩).trans hbig), rfl, ?_, ?_⟩
  · rw [← r2]; exact rnd_mono b32 h1
  · rw [← r1]; exact rnd_mono b32 h2

theorem names_word : ∀ n ∈ perfNames, n ≠ [] ∧ ∀ c ∈ n, isSpace c = false := by
  simp only [perfNames, baseNames, pairNames, String.reduceToList]
  decide

/-- **C70.**  A run of the performance benchmark with pool limits up to `10^9` is defined and changes one file only; the script
`tabulateVDTResults.py` reads from it, in the order of the run, the name of every function that matches the pattern together
with its mean time and error, rounded to two decimals. -/
theorem C70_performance_file (R : RefMath b64) (Rf : RefMath b32) (garbage : ℕ → F64) (garbagef : ℕ → F32) (eng : Engine)
    (dt : Text → ℕ → BitVec 64) (nick : Text) (SIZE REPETITIONS : BitVec 32) (h0 : SIZE ≠ 0) (POOL_MIN POOL_MAX : F64)
    (f1 : POOL_MIN.isFinite = true) (f2 : POOL_MAX.isFinite = true) (b1 : -10 ^ 9 ≤ POOL_MIN.val) (b2 : POOL_MAX.val ≤ 10 ^ 9)
    (b3 : POOL_MIN.val ≤ POOL_MAX.val) (_b4 : (lit 0.00001 : F64).val ≤ POOL_MAX.val) (pattern : Text → Bool) (fs : Fs) :
    ∃ fs', main R Rf garbage garbagef eng dt nick SIZE REPETITIONS POOL_MIN POOL_MAX pattern fs = some fs' ∧
      (∀ n, n ≠ perfName nick → fs' n = fs n) ∧
      ∃ rows, extractTimings fs' (perfName nick) = some rows ∧ rows.map Row.name = perfNames.filter pattern ∧
        ∀ r ∈ rows, TwoDecimals (measure SIZE REPETITIONS (dt r.name)).avg r.time ∧
          TwoDecimals (measure SIZE REPETITIONS (dt r.name)).err r.err := by
  obtain ⟨c1, c2, c3, -⟩ := convert_in f1 b1 (b3.trans b2)
  obtain ⟨d1, d2, -, d3⟩ := convert_in f2 (b1.trans b3) b2
  have c4 : (convert b32 POOL_MIN).val ≤ (convert b32 POOL_MAX).val := by rw [c2, d2]; exact rnd_mono b32 b3
  have z64 : Sized (perfPools64 eng POOL_MIN POOL_MAX SIZE) SIZE.toNat :=
    ⟨pool_length .., pool_length .., pool_length .., pool_length ..⟩
  have z32 : Sized (perfPools32 eng POOL_MIN POOL_MAX SIZE) SIZE.toNat :=
    ⟨pool_length .., pool_length .., pool_length .., pool_length ..⟩
  have p64 : (poolPairs b64 eng SIZE).1.length = SIZE.toNat ∧ (poolPairs b64 eng SIZE).2.length = SIZE.toNat := ⟨pool_length .., pool_length ..⟩
  have p32 : (poolPairs b32 eng SIZE).1.length = SIZE.toNat ∧ (poolPairs b32 eng SIZE).2.length = SIZE.toNat := ⟨pool_length .., pool_length ..⟩
  have D64 := defs64 R (perfPools64 eng POOL_MIN POOL_MAX SIZE) (pool_in (Or.inl rfl) f1 f2 b1 b3 b2 eng _)
    (pool_in (Or.inl rfl) (by decide +kernel) (by decide +kernel) (by decide +kernel) (by decide +kernel) (by decide +kernel) eng _)
  have D32 := defs32 Rf (perfPools32 eng POOL_MIN POOL_MAX SIZE) (pool_in (Or.inr rfl) c1 d1 c3 c4 d3 eng _)
    (pool_in (Or.inr rfl) (by decide +kernel) (by decide +kernel) (by decide +kernel) (by decide +kernel) (by decide +kernel) eng _)
  have Z64 := sized64 R _ z64
  have Z32 := sized32 Rf _ z32
  let T : Text → Timing := fun n => measure SIZE REPETITIONS (dt n)
  have e1 := section_some Entry.name (perfScalar REPETITIONS dt) T pattern _ (perf_scalar REPETITIONS SIZE h0 dt _ D64 Z64)
  have e2 := section_some Entry.name (perfArray garbage REPETITIONS dt) T pattern _ (perf_array garbage REPETITIONS SIZE h0 dt _ D64 Z64)
  have e3 := section_some Entry.name (perfScalar REPETITIONS dt) T pattern _ (perf_scalar REPETITIONS SIZE h0 dt _ D32 Z32)
  have e4 := section_some Entry.name (perfArray garbagef REPETITIONS dt) T pattern _ (perf_array garbagef REPETITIONS SIZE h0 dt _ D32 Z32)
  have e5 := section_some Prod.fst (perfScalar2 REPETITIONS dt (poolPairs b64 eng SIZE)) T pattern (tuples2D64 R) (by
    simp only [tuples2D64, List.forall_mem_cons]
    exact ⟨perf_scalar2 _ _ h0 _ _ p64 _ _, perf_scalar2 _ _ h0 _ _ p64 _ _, perf_scalar2 _ _ h0 _ _ p64 _ _, fun _ h => absurd h List.not_mem_nil⟩)
  have e6 := section_some Prod.fst (perfArray2 garbage REPETITIONS dt (poolPairs b64 eng SIZE)) T pattern (tuples2Dv64 R) (by
    simp only [tuples2Dv64, List.forall_mem_cons]
    exact ⟨perf_array2 _ _ _ h0 _ _ p64 _ _, perf_array2 _ _ _ h0 _ _ p64 _ _, perf_array2 _ _ _ h0 _ _ p64 _ _, fun _ h => absurd h List.not_mem_nil⟩)
  have e7 := section_some Prod.fst (perfScalar2 REPETITIONS dt (poolPairs b32 eng SIZE)) T pattern (tuples2D32 Rf) (by
    simp only [tuples2D32, List.forall_mem_cons]
    exact ⟨perf_scalar2 _ _ h0 _ _ p32 _ _, perf_scalar2 _ _ h0 _ _ p32 _ _, perf_scalar2 _ _ h0 _ _ p32 _ _, fun _ h => absurd h List.not_mem_nil⟩)
  have e8 := section_some Prod.fst (perfArray2 garbagef REPETITIONS dt (poolPairs b32 eng SIZE)) T pattern (tuples2Dv32 Rf) (by
    simp only [tuples2Dv32, List.forall_mem_cons]
    exact ⟨perf_array2 _ _ _ h0 _ _ p32 _ _, perf_array2 _ _ _ h0 _ _ p32 _ _, perf_array2 _ _ _ h0 _ _ p32 _ _, fun _ h => absurd h List.not_mem_nil⟩)
  rw [← tuplesv64_eq] at e2
  rw [← tuplesv32_eq] at e4
  have hnames : perfNames = (tuples64 R none (perfPools64 eng POOL_MIN POOL_MAX SIZE)).map Entry.name ++
      (tuplesv64 R none (perfPools64 eng POOL_MIN POOL_MAX SIZE)).map Entry.name ++
      (tuples32 Rf none (perfPools32 eng POOL_MIN POOL_MAX SIZE)).map Entry.name ++
      (tuplesv32 Rf none (perfPools32 eng POOL_MIN POOL_MAX SIZE)).map Entry.name ++ (tuples2D64 R).map Prod.fst ++ (tuples2Dv64 R).map Prod.fst ++
      (tuples2D32 Rf).map Prod.fst ++ (tuples2Dv32 Rf).map Prod.fst := by
    simp only [perfNames, baseNames, pairNames, tuples64, tuplesv64, tuples32, tuplesv32, tuples2D64, tuples2Dv64, tuples2D32, tuples2Dv32, String.reduceToList]
    rfl
  have hmain : main R Rf garbage garbagef eng dt nick SIZE REPETITIONS POOL_MIN POOL_MAX pattern fs =
      some ((fs.truncate (perfName nick)).append (perfName nick) ((perfNames.filter pattern).flatMap fun n => printLine n (T n))) := by
    unfold main
    simp only [e1, e2, e3, e4, e5, e6, e7, e8, Option.bind_eq_bind, Option.bind_some, Option.pure_def]
    rw [hnames]
    simp only [List.filter_append, List.flatMap_append]
  refine ⟨_, hmain, ?_, (perfNames.filter pattern).map (fun n => ⟨n, read2 (T n).avg, read2 (T n).err⟩), ?_, ?_, ?_⟩
  · intro n hn
    unfold Fs.append Fs.truncate
    rw [Function.update_of_ne hn, Function.update_of_ne hn]
  · have hfile : ((fs.truncate (perfName nick)).append (perfName nick) ((perfNames.filter pattern).flatMap fun n => printLine n (T n))) (perfName nick) =
        some ((perfNames.filter pattern).flatMap fun n => printLine n (T n)) := by
      unfold Fs.append Fs.truncate
      rw [Function.update_self, Function.update_self]; rfl
    unfold extractTimings
    rw [hfile, Option.bind_eq_bind, Option.bind_some]
    have hw : ∀ n ∈ perfNames.filter pattern, Word n := fun n hn => names_word n (List.mem_of_mem_filter hn)
    generalize perfNames.filter pattern = l at hw
    induction l with
    | nil => rfl
    | cons n l ih =>
      obtain ⟨ln, h1, h2, h3⟩ := extractLine_print n (hw n (by simp)) (T n)
      rw [List.flatMap_cons, h1, List.append_assoc, List.singleton_append, lines_go [] _ h2, List.mapM_cons, List.nil_append, h3,
        ih (fun n hn => hw n (by simp [hn]))]
      rfl
  · rw [List.map_map]; simp [Function.comp_def]
  · intro r hr
    obtain ⟨n, -, rfl⟩ := List.mem_map.1 hr
    dsimp only [T]
    generalize measure SIZE REPETITIONS (dt n) = m
    exact ⟨twoDecimals m.avg, twoDecimals m.err⟩

theorem undefined_scalar (dt : Text → ℕ → BitVec 64) (n : Text) (fcn : Fcn b64) (y : F64) (l : List F64) (h1 : l.length = 1)
    (h2 : ∀ x ∈ l, x = y) (h3 : fcn y = none) : perfScalar 1 dt (⟨n, fcn, l⟩ : Entry b64 (Fcn b64)) = none := by
  obtain ⟨x, rfl⟩ := List.length_eq_one_iff.1 h1
  obtain rfl := h2 x (by simp)
  unfold perfScalar respScalar rounds
  simp [h3]

theorem undefined_section (R : RefMath b64) (dt : Text → ℕ → BitVec 64) (P : Pools b64)
    (h : perfScalar 1 dt (⟨‹"Fast_Sin"›, Vdt.fast_sin, P.sym⟩ : Entry b64 (Fcn b64)) = none) :
    section_ Entry.name (perfScalar 1 dt) (· == ‹"Fast_Sin"›) (tuples64 R none P) = none := by
  have : (tuples64 R none P).filter (fun e => e.name == ‹"Fast_Sin"›) = [⟨‹"Fast_Sin"›, Vdt.fast_sin, P.sym⟩] := by
    simp only [tuples64, String.reduceToList, List.filter_cons, List.append_nil, List.filter_nil]
    simp
  unfold section_
  rw [this, List.foldlM_cons, h]
  simp

/-- The limits of **C70** are needed: with both limits at `4·10^9` a run that selects `Fast_Sin` is undefined, whatever numbers
are drawn. -/
theorem C70_large_pool_undefined (R : RefMath b64) (Rf : RefMath b32) (garbage : ℕ → F64) (garbagef : ℕ → F32) (eng : Engine)
    (dt : Text → ℕ → BitVec 64) (nick : Text) (fs : Fs) :
    main R Rf garbage garbagef eng dt nick 1 1 (ofInt 4000000000) (ofInt 4000000000) (· == ‹"Fast_Sin"›) fs = none := by
  have hfin : (ofInt 4000000000 : F64).isFinite = true := by decide +kernel
  have h0 : (ofInt 4000000000 : F64).val ≠ 0 := by decide +kernel
  have h3 : Vdt.fast_sin (ofInt 4000000000) = none := by decide +kernel
  generalize (ofInt 4000000000 : F64) = y at hfin h0 h3
  have h2 : ∀ x ∈ (perfPools64 eng y y 1).sym, x = y := by
    intro x hx
    have := pool_in (Or.inl rfl) hfin hfin le_rfl le_rfl le_rfl eng _ x hx
    have hv : x.val = y.val := le_antisymm this.2.2 this.2.1
    exact eq_of_val_ne (by rw [hv]; exact h0) hv
  have h1 : (perfPools64 eng y y 1).sym.length = 1 := (pool_length ..).trans (by decide)
  have h5 := undefined_section R dt _ (undefined_scalar dt ‹"Fast_Sin"› Vdt.fast_sin y _ h1 h2 h3)
  unfold main
  dsimp only
  rw [h5]
  simp

example : (lit (-5000) : F64).isFinite = true ∧ (lit 5000 : F64).isFinite = true ∧ -10 ^ 9 ≤ (lit (-5000) : F64).val ∧
    (lit 5000 : F64).val ≤ 10 ^ 9 ∧ (lit (-5000) : F64).val ≤ (lit 5000 : F64).val ∧ (lit 0.00001 : F64).val ≤ (lit 5000 : F64).val := by
  decide +kernel

end Vdt.Perf
