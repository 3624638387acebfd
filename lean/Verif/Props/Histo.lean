import Verif.Model.Histo
import Verif.Props.Perf
import Verif.Props.Comparison
import Verif.Props.TextForms

/-!
# The histograms of the differing bits (C82)
-/

namespace Vdt.Histo
open FP Txt Compare Perf

local notation "‹" s "›" => String.toList s

/-! ### Regular expressions -/

theorem star_suffix (s : Text) : ∀ p ∈ star s, p.2.count ' ' ≤ s.count ' ' := by
  induction s with
  | nil => intro p hp; simp only [star, List.mem_singleton] at hp; subst hp; exact le_rfl
  | cons c t ih =>
    intro p hp
    rw [star] at hp
    split at hp
    · simp only [List.mem_singleton] at hp; subst hp; exact le_rfl
    · rw [List.mem_append, List.mem_map, List.mem_singleton] at hp
      rcases hp with ⟨q, hq, rfl⟩ | rfl
      · exact le_trans (ih q hq) (List.count_le_count_cons ..)
      · exact le_rfl

theorem groups_none (n : ℕ) (s : Text) (h : s.count ' ' < n) : groups n s = none := by
  induction n generalizing s with
  | zero => omega
  | succ n ih =>
    rw [groups, List.findSome?_eq_none_iff]
    intro p hp
    have h1 := star_suffix s p hp
    split
    · rename_i r hr
      rw [hr, List.count_cons_self] at h1
      rw [ih r (by omega)]; rfl
    · rfl

theorem star_head (s : Text) (h : '\n' ∉ s) : (star s).head? = some (s, []) := by
  induction s with
  | nil => rfl
  | cons c t ih =>
    rw [List.mem_cons, not_or] at h
    rw [star, if_neg (Ne.symm h.1), List.head?_append, List.head?_map, ih h.2]
    rfl

theorem star_append (pre t : Text) (h : '\n' ∉ pre) :
    ∃ l, star (pre ++ t) = (star t).map (fun p => (pre ++ p.1, p.2)) ++ l := by
  induction pre with
  | nil => exact ⟨[], by simp⟩
  | cons c pre ih =>
    rw [List.mem_cons, not_or] at h
    obtain ⟨l, hl⟩ := ih h.2
    refine ⟨l.map (fun p => (c :: p.1, p.2)) ++ [([], c :: (pre ++ t))], ?_⟩
    rw [List.cons_append, star, if_neg (Ne.symm h.1), hl, List.map_append, List.map_map, List.append_assoc]
    rfl

/-- A text followed by `n` words: the words are the last groups. -/
theorem groups_words (n : ℕ) (pre : Text) (ws : List Text) (hl : ws.length = n) (h : '\n' ∉ pre)
    (hw : ∀ w ∈ ws, '\n' ∉ w ∧ ' ' ∉ w) : groups n (pre ++ ws.flatMap (' ' :: ·)) = some (pre :: ws) := by
  induction n generalizing pre ws with
  | zero =>
    obtain rfl := List.length_eq_zero_iff.1 hl
    rw [groups, List.flatMap_nil, List.append_nil, star_head pre h]; rfl
  | succ n ih =>
    cases ws with
    | nil => simp at hl
    | cons w ws =>
      have hw1 := hw w (by simp)
      have hws : ∀ w ∈ ws, '\n' ∉ w ∧ ' ' ∉ w := fun v hv => hw v (by simp [hv])
      have hlen : ws.length = n := by simpa using hl
      have hc : ∀ l : List Text, (∀ w ∈ l, '\n' ∉ w ∧ ' ' ∉ w) → (l.flatMap (' ' :: ·)).count ' ' = l.length := by
        intro l hl
        induction l with
        | nil => rfl
        | cons v l ihl =>
          rw [List.flatMap_cons, List.count_append, List.count_cons_self, List.count_eq_zero.2 (hl v (by simp)).2,
            ihl fun w hw => hl w (by simp [hw])]
          simp; omega
      have hcount : (w ++ ws.flatMap (' ' :: ·)).count ' ' = n := by
        rw [List.count_append, List.count_eq_zero.2 hw1.2, hc ws hws, hlen]; omega
      rw [List.flatMap_cons, List.cons_append, groups]
      obtain ⟨l, hl'⟩ := star_append pre (' ' :: (w ++ ws.flatMap (' ' :: ·))) h
      rw [hl', List.findSome?_append, star, if_neg (by decide), List.map_append, List.findSome?_append]
      rw [List.findSome?_eq_none_iff.2]
      · simp only [List.map_cons, List.map_nil, List.findSome?_cons, List.append_nil, Option.none_or]
        rw [ih w ws hlen hw1.1 hws]
        rfl
      · intro p hp
        simp only [List.map_map, List.mem_map] at hp
        obtain ⟨q, hq, rfl⟩ := hp
        have h1 := star_suffix _ q hq
        rw [hcount] at h1
        simp only [Function.comp]
        split
        · rename_i r hr
          rw [hr, List.count_cons_self] at h1
          rw [groups_none n r (by omega)]; rfl
        · rfl

/-- The name of the function is recovered from the name of the file. -/
theorem nameOf_out (nick F : Text) (h : '\n' ∉ F) : nameOf nick (outName nick F) = some F := by
  unfold nameOf outName
  have e : ‹"comparison__"› ++ nick ++ ‹"__"› ++ F ++ ‹".txt"› = (‹"comparison__"› ++ nick ++ ‹"__"›) ++ (F ++ ‹".txt"›) := by
    simp only [List.append_assoc]
  rw [e]
  dsimp only
  rw [if_pos (List.isPrefixOf_iff_prefix.2 (List.prefix_append _ _)), List.drop_left]
  obtain ⟨l, hl⟩ := star_append F ‹".txt"› h
  rw [hl]
  have hs : star ‹".txt"› = [(‹".txt"›, []), (‹".tx"›, ‹"t"›), (‹".t"›, ‹"xt"›), (‹"."›, ‹"txt"›), ([], ‹".txt"›)] := by decide
  rw [hs]
  simp [List.findSome?_cons]

/-! ### Decimal numbers -/

/-- What the script reads when `x` was printed with `p` decimals. -/
def decRead {f : Fmt} (p : ℕ) (x : FP f) : F64 :=
  if x.isNaN then FP.nan else if x.isInf then FP.inf x.sign else
  let q : Rat := (fixedScaled p (FP.abs x).val : Rat) / (10 ^ p : Nat)
  FP.ofRat b64 x.sign (if x.sign then -q else q)

theorem fixed_form {f : Fmt} {p : ℕ} (hp : 0 < p) {x : FP f} (hx : x.isFinite = true) : ∃ i d : Text, (∀ c ∈ i, isDigit 10 c = true) ∧ i ≠ [] ∧
    (∀ c ∈ d, isDigit 10 c = true) ∧ d.length = p ∧ digitsVal 10 (i ++ d) = fixedScaled p (FP.abs x).val ∧
    printFixed p x = (if x.sign then ['-'] else []) ++ (i ++ '.' :: d) ∧ ∃ k < 10, ∃ t, i ++ '.' :: d = digitChar k :: t := by
  have hn := finite_not_nan hx
  have hi := finite_not_inf hx
  obtain ⟨n, hn'⟩ : ∃ n, n = fixedScaled p (FP.abs x).val := ⟨_, rfl⟩
  refine ⟨printNat 10 (n / 10 ^ p), padZero p (printNat 10 (n % 10 ^ p)), printNat_all (by norm_num) (by norm_num) _,
    printNat_ne_nil _ _, padZero_digits _ _ (printNat_all (by norm_num) (by norm_num) _),
    padZero_length _ _ hp (Nat.mod_lt _ (by positivity)), ?_, ?_, ?_⟩
  · rw [digitsVal_append', padZero_length _ _ hp (Nat.mod_lt _ (by positivity)), digitsVal_padZero,
      digitsVal_printNat (by norm_num) (by norm_num), digitsVal_printNat (by norm_num) (by norm_num), ← hn']
    exact Nat.div_add_mod' n (10 ^ p)
  · unfold printFixed
    rw [hn, hi]
    simp only [Bool.false_eq_true, if_false]
    rw [← hn']
  · obtain ⟨k, hk, t, ht⟩ := printNat_head (base := 10) (by norm_num) (by norm_num) (n / 10 ^ p) ('.' :: padZero p (printNat 10 (n % 10 ^ p)))
    exact ⟨k, hk, t, ht⟩

theorem fixed_word {f : Fmt} {p : ℕ} (hp : 0 < p) (x : FP f) : Word (printFixed p x) := by
  cases hx : x.isFinite
  · unfold printFixed
    cases x.sign <;> cases hn : x.isNaN <;> cases hi : x.isInf <;>
      first
      | (constructor <;> simp [isSpace]; done)
      | (exfalso; revert hx hn hi; unfold isFinite isNaN isInf; simp; omega)
  · obtain ⟨i, d, hi, hi0, hd, -, -, h, -⟩ := fixed_form hp hx
    rw [h]
    refine ⟨by simp, fun c hc => ?_⟩
    rw [List.mem_append] at hc
    rcases hc with hc | hc
    · cases hs : x.sign
      · rw [hs] at hc; simp at hc
      · rw [hs] at hc
        obtain rfl : c = '-' := by simpa using hc
        decide
    · rw [List.mem_append, List.mem_cons] at hc
      rcases hc with hc | rfl | hc
      · exact digit_not_space c (hi c hc)
      · decide
      · exact digit_not_space c (hd c hc)

theorem fixed_sign {f : Fmt} {p : ℕ} (hp : 0 < p) {x : FP f} (hx : x.isFinite = true) : ∃ i d : Text, (∀ c ∈ i, isDigit 10 c = true) ∧ i ≠ [] ∧
    (∀ c ∈ d, isDigit 10 c = true) ∧ d.length = p ∧ digitsVal 10 (i ++ d) = fixedScaled p (FP.abs x).val ∧
    readSign (printFixed p x) = (x.sign, i ++ '.' :: d) ∧ ∃ k < 10, ∃ t, i ++ '.' :: d = digitChar k :: t := by
  obtain ⟨i, d, hi, hi0, hd, hl, hv, h, k, hk, t, ht⟩ := fixed_form hp hx
  refine ⟨i, d, hi, hi0, hd, hl, hv, ?_, k, hk, t, ht⟩
  rw [h]
  cases x.sign
  · simp only [Bool.false_eq_true, if_false, List.nil_append]
    rw [ht, readSign_digit k (by omega)]
  · rfl

theorem pyFloat_fixed {f : Fmt} {p : ℕ} (hp : 0 < p) (x : FP f) : pyFloat (printFixed p x) = some (decRead p x) := by
  cases hx : x.isFinite
  · unfold printFixed decRead
    cases hn : x.isNaN
    · cases hi : x.isInf
      · exfalso; revert hx hn hi; unfold isFinite isNaN isInf; simp; omega
      · cases x.sign <;> rfl
    · cases x.sign <;> rfl
  · obtain ⟨i, d, hi, hi0, hd, hl, hv, hsg, k, hk, t, ht⟩ := fixed_sign hp hx
    have hn := finite_not_nan hx
    have hinf := finite_not_inf hx
    have hspl := splitDecimal_fixed i d [] hi hd (stops_nil 10)
    rw [List.append_nil] at hspl
    have hne : i ++ '.' :: d ≠ ‹"nan"› ∧ i ++ '.' :: d ≠ ‹"inf"› := by
      rw [ht]
      have : ∀ k < 10, digitChar k ≠ 'n' ∧ digitChar k ≠ 'i' := by decide
      have := this k hk
      constructor <;> intro h' <;> simp only [String.reduceToList, List.cons.injEq] at h'
      · exact this.1 h'.1
      · exact this.2 h'.1
    unfold pyFloat decRead
    simp only [hsg, hspl, hn, hinf, if_neg hne.1, if_neg hne.2]
    rw [if_neg (by simp [hi0]), hv, hl]
    rfl

/-- A decimal number is no integer for Python. -/
theorem pyInt_fixed {f : Fmt} {p : ℕ} (hp : 0 < p) (x : FP f) : pyInt (printFixed p x) = none := by
  cases hx : x.isFinite
  · unfold printFixed
    cases hn : x.isNaN
    · cases hi : x.isInf
      · exfalso; revert hx hn hi; unfold isFinite isNaN isInf; simp; omega
      · cases x.sign <;> rfl
    · cases x.sign <;> rfl
  · obtain ⟨i, d, hi, hi0, hd, hl, hv, hsg, -⟩ := fixed_sign hp hx
    unfold pyInt
    rw [hsg]
    dsimp only
    rw [if_pos]
    right
    rw [List.all_append, List.all_cons]
    have : isDigit 10 '.' = false := by decide
    rw [this]; simp

theorem pyInt_nat (n : ℕ) : pyInt (printNat 10 n) = some (n : ℤ) := by
  obtain ⟨k, hk, t, ht⟩ := printNat_head (base := 10) (by norm_num) (by norm_num) n []
  rw [List.append_nil] at ht
  have hs : readSign (printNat 10 n) = (false, printNat 10 n) := by
    rw [ht, readSign_digit k (by omega)]
  unfold pyInt
  rw [hs]
  dsimp only
  rw [if_neg, digitsVal_printNat (by norm_num) (by norm_num)]
  · rfl
  · rw [not_or]
    refine ⟨printNat_ne_nil _ _, ?_⟩
    rw [Bool.not_eq_false, List.all_eq_true]
    exact printNat_all (by norm_num) (by norm_num) n

/-! ### Lines -/

theorem digits_plain {base : ℕ} (hb : 2 ≤ base) (hb' : base ≤ 16) (n : ℕ) : '\n' ∉ printNat base n ∧ ' ' ∉ printNat base n := by
  have H := printNat_all hb hb' n
  constructor <;> intro h <;> have := H _ h <;> revert this <;>
    (unfold isDigit; simp [digitVal])

theorem word_plain {t : Text} (h : Word t) : '\n' ∉ t ∧ ' ' ∉ t := by
  constructor <;> intro hc <;> have := h.2 _ hc <;> revert this <;> decide

/-- A number in the notation of `fpToHex`, without the blank. -/
def hex {f : Fmt} (x : FP f) : Text := '0' :: 'x' :: printNat 16 x.toBits.toNat

theorem hex_eq {f : Fmt} (x : FP f) : fpToHex x = hex x ++ [' '] := rfl

theorem hex_plain {f : Fmt} (x : FP f) : '\n' ∉ hex x ∧ ' ' ∉ hex x := by
  have := digits_plain (base := 16) (by norm_num) (by norm_num) x.toBits.toNat
  unfold hex
  simp [this.1, this.2]

theorem digits10_pos (f : Fmt) : 0 < digits10 f := by unfold digits10; split <;> norm_num

/-- A row of a comparison file without its line end. -/
def rowText {f : Fmt} (r : CmpRow f) : Text :=
  hex r.input ++ [hex r.out1, hex r.out2, printNat 10 r.diff, printFixed (digits10 f) r.input].flatMap (' ' :: ·)

theorem cmpRow_text {f : Fmt} (r : CmpRow f) : cmpRow r = rowText r ++ ['\n'] := by
  unfold cmpRow rowText
  simp [hex_eq]

theorem words1 {f : Fmt} (r : CmpRow f) : ∀ w ∈ [hex r.out1, hex r.out2, printNat 10 r.diff, printFixed (digits10 f) r.input], '\n' ∉ w ∧ ' ' ∉ w := by
  intro w hw
  simp only [List.mem_cons, List.not_mem_nil, or_false] at hw
  rcases hw with rfl | rfl | rfl | rfl
  · exact hex_plain _
  · exact hex_plain _
  · exact digits_plain (by norm_num) (by norm_num) _
  · exact word_plain (fixed_word (digits10_pos f) _)

theorem fillLine_row {f : Fmt} (r : CmpRow f) : fillLine (rowText r) = some ((r.diff : ℤ), decRead (digits10 f) r.input) := by
  unfold fillLine rowText
  rw [groups_words 4 _ _ rfl (hex_plain _).1 (words1 r)]
  simp [pyFloat_fixed (digits10_pos f), pyInt_nat]

theorem flat_nl (ws : List Text) (h : ∀ w ∈ ws, '\n' ∉ w ∧ ' ' ∉ w) : '\n' ∉ ws.flatMap (' ' :: ·) := by
  intro hc
  obtain ⟨w, hw, hc⟩ := List.mem_flatMap.1 hc
  rcases List.mem_cons.1 hc with hc | hc
  · exact absurd hc (by decide)
  · exact (h w hw).1 hc

theorem rowText_nl {f : Fmt} (r : CmpRow f) : '\n' ∉ rowText r := by
  unfold rowText
  rw [List.mem_append, not_or]
  exact ⟨(hex_plain _).1, flat_nl _ (words1 r)⟩

/-- A row with two inputs. -/
def rowText2 {f : Fmt} (r : CmpRow2 f) : Text :=
  (hex r.input1 ++ ' ' :: hex r.input2 ++ ' ' :: hex r.out1) ++
    [hex r.out2, printNat 10 r.diff, printFixed (digits10 f) r.input1, printFixed (digits10 f) r.input2].flatMap (' ' :: ·)

theorem cmpRow2_text {f : Fmt} (r : CmpRow2 f) : cmpRow2 r = rowText2 r ++ ['\n'] := by
  unfold cmpRow2 rowText2
  simp [hex_eq]

theorem words2 {f : Fmt} (r : CmpRow2 f) : ∀ w ∈ [hex r.out2, printNat 10 r.diff, printFixed (digits10 f) r.input1,
    printFixed (digits10 f) r.input2], '\n' ∉ w ∧ ' ' ∉ w := by
  intro w hw
  simp only [List.mem_cons, List.not_mem_nil, or_false] at hw
  rcases hw with rfl | rfl | rfl | rfl
  · exact hex_plain _
  · exact digits_plain (by norm_num) (by norm_num) _
  · exact word_plain (fixed_word (digits10_pos f) _)
  · exact word_plain (fixed_word (digits10_pos f) _)

theorem pre2_nl {f : Fmt} (r : CmpRow2 f) : '\n' ∉ hex r.input1 ++ ' ' :: hex r.input2 ++ ' ' :: hex r.out1 := by
  simp [(hex_plain r.input1).1, (hex_plain r.input2).1, (hex_plain r.out1).1]

theorem fillLine_row2 {f : Fmt} (r : CmpRow2 f) : fillLine (rowText2 r) = none := by
  unfold fillLine rowText2
  rw [groups_words 4 _ _ rfl (pre2_nl r) (words2 r)]
  simp [pyFloat_fixed (digits10_pos f), pyInt_fixed (digits10_pos f)]

theorem rowText2_nl {f : Fmt} (r : CmpRow2 f) : '\n' ∉ rowText2 r := by
  unfold rowText2
  rw [List.mem_append, not_or]
  exact ⟨pre2_nl r, flat_nl _ (words2 r)⟩

theorem fill_rows {f : Fmt} (l : List (CmpRow f)) :
    fill_histos (l.flatMap cmpRow) = some (l.map fun r => ((r.diff : ℤ), decRead (digits10 f) r.input)) := by
  unfold fill_histos
  rw [show (cmpRow : CmpRow f → Text) = fun r => rowText r ++ ['\n'] from funext cmpRow_text]
  rw [lines_flatMap rowText rowText_nl]
  rw [Bench.mapM_some (h := fun s => (fillLine s).getD (0, FP.nan)) _ (by
    intro s hs
    obtain ⟨r, -, rfl⟩ := List.mem_map.1 hs
    rw [fillLine_row]; rfl), List.map_map]
  congr 1
  refine List.map_congr_left fun r _ => ?_
  simp [fillLine_row]

theorem fill_rows2 {f : Fmt} (l : List (CmpRow2 f)) (h : l ≠ []) : fill_histos (l.flatMap cmpRow2) = none := by
  unfold fill_histos
  rw [show (cmpRow2 : CmpRow2 f → Text) = fun r => rowText2 r ++ ['\n'] from funext cmpRow2_text]
  rw [lines_flatMap rowText2 rowText2_nl]
  cases l with
  | nil => exact absurd rfl h
  | cons r l =>
    rw [List.map_cons, List.mapM_cons, fillLine_row2]; rfl

/-! ### The file -/

theorem readline_line (l t : Text) (h : '\n' ∉ l) : readline (l ++ '\n' :: t) = (l ++ ['\n'], t) := by
  induction l with
  | nil => rfl
  | cons c l ih =>
    rw [List.mem_cons, not_or] at h
    rw [List.cons_append, readline, if_neg (Ne.symm h.1), ih h.2]
    rfl

/-- The number of bits and the name of a type. -/
def typeOf (f : Fmt) : ℕ × Text := if f.eb + f.mb + 1 = 64 then (64, ‹"double"›) else (32, ‹"float"›)

theorem header_skip (f : Fmt) (name : Text) (hn : '\n' ∉ name) (max min : ℕ) (mean rms : F64) (rest : Text) :
    ∃ s, getTypeLength (cmpPreamble ++ precisionLine f ++ "Comparison specs/function name = ".toList ++ name ++ ['\n'] ++
      "Format: input out1 out2 diffbit (decimal)input\nFirst line are stats: Max Min 0xMean 0xRMS\n".toList ++
      printNat 10 max ++ [' '] ++ printNat 10 min ++ [' '] ++ fpToHex mean ++ fpToHex rms ++ ['\n'] ++ rest) =
        some ((typeOf f).1, (typeOf f).2, s) ∧ (readline (readline (readline (readline s).2).2).2).2 = rest := by
  have e1 : cmpPreamble = "VDT function arithmetics performance comparison file (the first 5 lines are the header)".toList ++ ['\n'] := by
    decide +kernel
  have e2 : "Format: input out1 out2 diffbit (decimal)input\nFirst line are stats: Max Min 0xMean 0xRMS\n".toList =
    "Format: input out1 out2 diffbit (decimal)input".toList ++ '\n' :: ("First line are stats: Max Min 0xMean 0xRMS".toList ++ ['\n']) := by
    decide +kernel
  have e3 : precisionLine f = (if f.eb + f.mb + 1 = 64 then "Double Precision".toList else "Single Precision".toList) ++ ['\n'] := by
    unfold precisionLine; split <;> decide +kernel
  have n1 : '\n' ∉ "VDT function arithmetics performance comparison file (the first 5 lines are the header)".toList := by decide +kernel
  have n2 : '\n' ∉ "Format: input out1 out2 diffbit (decimal)input".toList := by decide +kernel
  have n3 : '\n' ∉ "First line are stats: Max Min 0xMean 0xRMS".toList := by decide +kernel
  have n4 : '\n' ∉ (if f.eb + f.mb + 1 = 64 then "Double Precision".toList else "Single Precision".toList) := by
    split <;> decide +kernel
  have n5 : '\n' ∉ "Comparison specs/function name = ".toList ++ name := by
    rw [List.mem_append, not_or]; exact ⟨by decide +kernel, hn⟩
  have n6 : '\n' ∉ printNat 10 max ++ [' '] ++ printNat 10 min ++ [' '] ++ fpToHex mean ++ fpToHex rms := by
    have a := digits_plain (base := 10) (by norm_num) (by norm_num) max
    have b := digits_plain (base := 10) (by norm_num) (by norm_num) min
    simp [hex_eq, a.1, b.1, (hex_plain mean).1, (hex_plain rms).1]
  rw [e1, e2, e3]
  generalize "VDT function arithmetics performance comparison file (the first 5 lines are the header)".toList = l1 at n1 ⊢
  generalize "Format: input out1 out2 diffbit (decimal)input".toList = l4 at n2 ⊢
  generalize "First line are stats: Max Min 0xMean 0xRMS".toList = l5 at n3 ⊢
  generalize hl3 : "Comparison specs/function name = ".toList ++ name = l3 at n5
  generalize hl6 : printNat 10 max ++ [' '] ++ printNat 10 min ++ [' '] ++ fpToHex mean ++ fpToHex rms = l6 at n6
  generalize hl2 : (if f.eb + f.mb + 1 = 64 then "Double Precision".toList else "Single Precision".toList) = l2 at n4 ⊢
  have e : l1 ++ ['\n'] ++ (l2 ++ ['\n']) ++ "Comparison specs/function name = ".toList ++ name ++ ['\n'] ++
      (l4 ++ '\n' :: (l5 ++ ['\n'])) ++ printNat 10 max ++ [' '] ++ printNat 10 min ++ [' '] ++ fpToHex mean ++ fpToHex rms ++ ['\n'] ++ rest =
      l1 ++ '\n' :: (l2 ++ '\n' :: (l3 ++ '\n' :: (l4 ++ '\n' :: (l5 ++ '\n' :: (l6 ++ '\n' :: rest))))) := by
    rw [← hl3, ← hl6]; simp only [List.append_assoc, List.cons_append, List.nil_append, List.singleton_append]
  rw [e]
  refine ⟨l3 ++ '\n' :: (l4 ++ '\n' :: (l5 ++ '\n' :: (l6 ++ '\n' :: rest))), ?_, ?_⟩
  · unfold getTypeLength
    simp only [readline_line _ _ n1, readline_line _ _ n4]
    rw [← hl2]
    unfold typeOf
    by_cases h64 : f.eb + f.mb + 1 = 64
    · simp only [if_pos h64]; rfl
    · simp only [if_neg h64]; rfl
  · rw [readline_line _ _ n5, readline_line _ _ n2, readline_line _ _ n3, readline_line _ _ n6]

end Vdt.Histo
