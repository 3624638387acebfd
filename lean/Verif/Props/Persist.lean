import Verif.Lemmas.Persist

/-!
# Persistence of random numbers, responses and comparisons (C42 - C46)
-/

namespace Vdt.Txt
open FP

/-! ## C42 -/

/-- A double written with `fpToHex` and read with `fpFromHex` is the same bit pattern, whatever
blanks precede and whatever text follows; only the blank that ends the written text and what follows
remain unread, and the stream stays good. -/
theorem C42_hex_roundtrip (x : F64) (ws r : Text) (hws : ∀ c ∈ ws, isSpace c = true) :
    fpFromHex b64 ⟨ws ++ fpToHex x ++ r, false⟩ = (some x, ⟨' ' :: r, false⟩) := by
  rw [List.append_assoc]; exact fpFromHex_toHex (by decide) x ws r hws

theorem C42_hex_roundtripf (x : F32) (ws r : Text) (hws : ∀ c ∈ ws, isSpace c = true) :
    fpFromHex b32 ⟨ws ++ fpToHex x ++ r, false⟩ = (some x, ⟨' ' :: r, false⟩) := by
  rw [List.append_assoc]; exact fpFromHex_toHex (by decide) x ws r hws

/-- Two numbers with the same text have the same bits, NaN payloads and signs of zero included. -/
theorem C42_hex_injective (x y : F64) (h : fpToHex x = fpToHex y) : x.toBits = y.toBits := by
  have h1 := C42_hex_roundtrip x [] [] (by simp)
  have h2 := C42_hex_roundtrip y [] [] (by simp)
  rw [h, h2] at h1
  simp at h1
  rw [h1]

example : fpToHex (lit (-2) : F64) = "0xc000000000000000 ".toList := by
  unfold fpToHex
  rw [show (lit (-2) : F64).toBits.toNat = 0xc000000000000000 by decide +kernel]
  iterate 15 rw [printNat_big (by norm_num) (by norm_num)]
  rw [printNat_small (by norm_num)]
  decide +kernel

/-! ## C43 -/

theorem truncate_append (fs : Fs) (out t : Text) : (fs.truncate out).append out t = Function.update fs out (some t) := by
  unfold Fs.truncate Fs.append
  rw [Function.update_idem, Function.update_self]
  rfl

theorem open_update (fs : Fs) (out t : Text) : Fs.open (Function.update fs out (some t)) out = ⟨t, false⟩ := by
  unfold Fs.open
  rw [Function.update_self]

/-- Five lines without line breaks inside are skipped as the header. -/
theorem skip5 (a b c d e r : Text) (ha : '\n' ∉ a) (hb : '\n' ∉ b) (hc : '\n' ∉ c) (hd : '\n' ∉ d) (he : '\n' ∉ e) :
    skipLines 5 ⟨a ++ '\n' :: (b ++ '\n' :: (c ++ '\n' :: (d ++ '\n' :: (e ++ '\n' :: r)))), false⟩ = ⟨r, false⟩ := by
  unfold skipLines
  rw [getline_line _ _ ha]; unfold skipLines
  rw [getline_line _ _ hb]; unfold skipLines
  rw [getline_line _ _ hc]; unfold skipLines
  rw [getline_line _ _ hd]; unfold skipLines
  rw [getline_line _ _ he]; rfl

/-- The first line of a file without its line break. -/
def precWord (f : Fmt) : Text := if f.eb + f.mb + 1 = 64 then "Double Precision".toList else "Single Precision".toList

theorem precisionLine_eq (f : Fmt) : precisionLine f = precWord f ++ ['\n'] := by
  unfold precisionLine precWord
  split <;> decide

theorem precWord_nl (f : Fmt) : '\n' ∉ precWord f := by
  unfold precWord
  split <;> decide

theorem printNat10_nl (n : Nat) : '\n' ∉ printNat 10 n := by
  intro h
  have := printNat_all (base := 10) (by norm_num) (by norm_num) n _ h
  exact absurd this (by decide)

/-- A pool of random numbers that was not read from a file: the file that `writeFile` makes, read by
the constructor, has the same numbers in the same order; no other file changes.  `dec` is the default
notation of numbers, of which only the absence of line breaks matters. -/
theorem C43_pool1D_roundtrip {f : Fmt} (hf : f.eb + f.mb + 1 ≤ 64) (dec : FP f → Text) (hdec : ∀ x, '\n' ∉ dec x)
    (p : Pool1D f) (hp : p.size ≠ 0) (out : Text) (fs : Fs) :
    (Pool1D.ofFile f (p.writeFile dec out fs) out).numbers = p.numbers ∧
    ∀ name, name ≠ out → p.writeFile dec out fs name = fs name := by
  unfold Pool1D.writeFile
  dsimp only
  rw [if_neg hp, truncate_append]
  refine ⟨?_, fun name hn => by rw [Function.update_of_ne hn]⟩
  unfold Pool1D.ofFile
  dsimp only
  rw [open_update, precisionLine_eq,
    show poolPreamble = "VDT Random numbers file (the first 5 lines are the header)".toList ++ ['\n'] by decide]
  simp only [List.append_assoc, List.cons_append, List.nil_append]
  rw [← List.append_assoc "Minimum Number = ".toList, ← List.append_assoc "Maximum Number = ".toList,
    ← List.append_assoc "Total numbers = ".toList,
    skip5 _ _ _ _ _ _ (by decide) (precWord_nl f) (by simp [hdec]) (by simp [hdec]) (by simp [printNat10_nl])]
  have h := (hexR_inverts (α := FP f) hf id).all_end (hexR_blank f) p.numbers (by simp) [] (by simp)
  simpa using h

/-- The numbers drawn by the constructor survive. -/
theorem C43_pool1D_made (rng : Nat → F64) (min max : F64) (size : BitVec 64) (hs : size ≠ 0) (dec : F64 → Text)
    (hdec : ∀ x, '\n' ∉ dec x) (out : Text) (fs : Fs) :
    (Pool1D.ofFile b64 ((Pool1D.make rng min max size).writeFile dec out fs) out).numbers = (List.range size.toNat).map rng :=
  (C43_pool1D_roundtrip (by decide) dec hdec _ hs out fs).1

/-- As `C43_pool1D_made` in single precision. -/
theorem C43_pool1D_madef (rng : Nat → F32) (min max : F32) (size : BitVec 64) (hs : size ≠ 0) (dec : F32 → Text)
    (hdec : ∀ x, '\n' ∉ dec x) (out : Text) (fs : Fs) :
    (Pool1D.ofFile b32 ((Pool1D.make rng min max size).writeFile dec out fs) out).numbers = (List.range size.toNat).map rng :=
  (C43_pool1D_roundtrip (by decide) dec hdec _ hs out fs).1

theorem interleave_eq {f : Fmt} (xs ys : List (FP f)) (h : xs.length = ys.length) :
    interleave xs ys = some ((xs.zip ys).flatMap fun p => fpToHex p.1 ++ fpToHex p.2) := by
  induction xs generalizing ys with
  | nil => cases ys <;> simp_all [interleave]
  | cons x xs ih =>
    cases ys with
    | nil => simp at h
    | cons y ys =>
      rw [interleave, ih ys (by simpa using h)]
      simp

theorem dealXY_flat {f : Fmt} (ps : List (FP f × FP f)) :
    dealXY false (ps.flatMap fun p => [p.1, p.2]) = (ps.map Prod.fst, ps.map Prod.snd) := by
  induction ps with
  | nil => rfl
  | cons p ps ih => simp [dealXY, ih]

/-- Two-dimensional pools: both coordinates survive.  The hypothesis on the lengths holds for every
pool the constructor makes (`C43_pool2D_made`). -/
theorem C43_pool2D_roundtrip {f : Fmt} (hf : f.eb + f.mb + 1 ≤ 64) (dec : FP f → Text) (hdec : ∀ x, '\n' ∉ dec x)
    (p : Pool2D f) (hp : p.size ≠ 0) (hl : p.numbersX.length = p.numbersY.length) (out : Text) (fs : Fs) :
    ∃ fs', p.writeFile dec out fs = some fs' ∧ (Pool2D.ofFile f fs' out).numbersX = p.numbersX ∧
      (Pool2D.ofFile f fs' out).numbersY = p.numbersY ∧ ∀ name, name ≠ out → fs' name = fs name := by
  unfold Pool2D.writeFile
  dsimp only
  rw [if_neg hp, interleave_eq _ _ hl]
  refine ⟨_, rfl, ?_⟩
  rw [truncate_append]
  have key : (hexR f).all (skipLines 5 (Fs.open (Function.update fs out (some (pool2Preamble ++ precisionLine f ++
      "Minimum Number = ".toList ++ dec p.minX ++ [' '] ++ dec p.minY ++ ['\n'] ++
      "Maximum Number = ".toList ++ dec p.maxX ++ [' '] ++ dec p.maxY ++ ['\n'] ++
      "Total numbers = ".toList ++ printNat 10 p.size.toNat ++ ['\n'] ++
      (p.numbersX.zip p.numbersY).flatMap fun p => fpToHex p.1 ++ fpToHex p.2))) out)) =
      (p.numbersX.zip p.numbersY).flatMap fun p => [p.1, p.2] := by
    rw [open_update, precisionLine_eq,
      show pool2Preamble = "VDT Random numbers file 2D (the first 5 lines are the header)".toList ++ ['\n'] by decide]
    have e : ∀ a b c d e : Text, ∀ t : Text, ("Minimum Number = ".toList ++ (a ++ ' ' :: (b ++ '\n' :: ("Maximum Number = ".toList ++
        (c ++ ' ' :: (d ++ '\n' :: ("Total numbers = ".toList ++ (e ++ '\n' :: t)))))))) =
        ("Minimum Number = ".toList ++ (a ++ ' ' :: b)) ++ '\n' :: (("Maximum Number = ".toList ++ (c ++ ' ' :: d)) ++ '\n' ::
          (("Total numbers = ".toList ++ e) ++ '\n' :: t)) := by
      intro a b c d e t; simp
    simp only [List.append_assoc, List.cons_append, List.nil_append]
    rw [e, skip5 _ _ _ _ _ _ (by decide) (precWord_nl f) (by simp [hdec]) (by simp [hdec]) (by simp [printNat10_nl])]
    have h := (hexR_inverts (α := FP f) hf id).all_end (hexR_blank f)
      ((p.numbersX.zip p.numbersY).flatMap fun p => [p.1, p.2]) (by simp) [] (by simp)
    simpa [List.flatMap_assoc] using h
  refine ⟨?_, ?_, fun name hn => by rw [Function.update_of_ne hn]⟩
  · show (dealXY false _).1 = _
    rw [key, dealXY_flat]
    exact List.map_fst_zip (by omega)
  · show (dealXY false _).2 = _
    rw [key, dealXY_flat]
    exact List.map_snd_zip (by omega)

theorem C43_pool2D_made (rng : Nat → F64) (minX minY maxX maxY : F64) (size : BitVec 64) (hs : size ≠ 0) (dec : F64 → Text)
    (hdec : ∀ x, '\n' ∉ dec x) (out : Text) (fs : Fs) :
    ∃ fs', (Pool2D.make rng minX minY maxX maxY size).writeFile dec out fs = some fs' ∧
      (Pool2D.ofFile b64 fs' out).numbersX = (List.range size.toNat).map rng ∧
      (Pool2D.ofFile b64 fs' out).numbersY = (List.range size.toNat).map fun i => rng (size.toNat + i) := by
  obtain ⟨fs', h1, h2, h3, -⟩ := C43_pool2D_roundtrip (by decide) dec hdec (Pool2D.make rng minX minY maxX maxY size) hs
    (by simp [Pool2D.make]) out fs
  exact ⟨fs', h1, h2, h3⟩

theorem C43_pool2D_madef (rng : Nat → F32) (minX minY maxX maxY : F32) (size : BitVec 64) (hs : size ≠ 0) (dec : F32 → Text)
    (hdec : ∀ x, '\n' ∉ dec x) (out : Text) (fs : Fs) :
    ∃ fs', (Pool2D.make rng minX minY maxX maxY size).writeFile dec out fs = some fs' ∧
      (Pool2D.ofFile b32 fs' out).numbersX = (List.range size.toNat).map rng ∧
      (Pool2D.ofFile b32 fs' out).numbersY = (List.range size.toNat).map fun i => rng (size.toNat + i) := by
  obtain ⟨fs', h1, h2, h3, -⟩ := C43_pool2D_roundtrip (by decide) dec hdec (Pool2D.make rng minX minY maxX maxY size) hs
    (by simp [Pool2D.make]) out fs
  exact ⟨fs', h1, h2, h3⟩

/-- The hypotheses are met by a pool of three numbers and a notation. -/
example : (3 : BitVec 64) ≠ 0 ∧ ∀ x : F64, '\n' ∉ (fun _ => "1.5e-07".toList : F64 → Text) x :=
  ⟨by decide, fun _ => show '\n' ∉ "1.5e-07".toList by decide⟩

/-! ## C44 -/

theorem respHeader_skip (f : Fmt) (name r : Text) (hn : '\n' ∉ name) : skipLines 5 ⟨respHeader f name ++ r, false⟩ = ⟨r, false⟩ := by
  unfold respHeader
  rw [precisionLine_eq,
    show respPreamble = "VDT function arithmetics performance 1 input file (the first 5 lines are the header)".toList ++ ['\n'] by decide,
    show "--\n--\n".toList = "--".toList ++ '\n' :: ("--".toList ++ ['\n']) by decide]
  simp only [List.append_assoc, List.cons_append, List.nil_append]
  rw [← List.append_assoc "Function Name = ".toList]
  exact skip5 _ _ _ _ _ _ (by decide) (precWord_nl f) (by simp [hn]) (by decide) (by decide)

theorem respRow_inverts {f : Fmt} (hf : f.eb + f.mb + 1 ≤ 64) :
    Inverts ((hexR f).and (hexR f)) respRow id (fun _ => True) :=
  (((and_inverts (hexR_inverts hf Prod.fst) (hexR_inverts hf Prod.snd)).blank ['\n'] (by simp [isSpace])).congr
    (fun x => by simp [respRow]) (by simp))

theorem respRow2_inverts {f : Fmt} (hf : f.eb + f.mb + 1 ≤ 64) :
    Inverts ((hexR f).and ((hexR f).and (hexR f))) respRow2 id (fun _ => True) :=
  (((and_inverts (hexR_inverts hf fun x : FP f × FP f × FP f => x.1) (and_inverts (hexR_inverts hf fun x : FP f × FP f × FP f => x.2.1) (hexR_inverts hf fun x : FP f × FP f × FP f => x.2.2))).blank
    ['\n'] (by simp [isSpace])).congr (fun x => by simp [respRow2]) (by simp))

/-- The response of a function that was computed (not read from a file), written and read again, has
the same inputs and outputs in the same order, whatever they are (NaN payloads included), if the name
of the function has no line break. -/
theorem C44_response1D_roundtrip {f : Fmt} (hf : f.eb + f.mb + 1 ≤ 64) (p : Resp1D f) (hp : p.fromFile = false)
    (hn : '\n' ∉ p.fcnName) (out : Text) (fs : Fs) :
    (Resp1D.ofFile f (p.writeFile out fs) out).rows = p.rows ∧ ∀ name, name ≠ out → p.writeFile out fs name = fs name := by
  unfold Resp1D.writeFile
  dsimp only
  rw [if_neg (by simp [hp]), truncate_append]
  refine ⟨?_, fun name hn => by rw [Function.update_of_ne hn]⟩
  unfold Resp1D.ofFile
  dsimp only
  rw [open_update, respHeader_skip f _ _ hn]
  have h := (respRow_inverts hf).all_end (and_blank (hexR_blank f)) p.rows (by simp) [] (by simp)
  simpa using h

theorem C44_response2D_roundtrip {f : Fmt} (hf : f.eb + f.mb + 1 ≤ 64) (p : Resp2D f) (hp : p.fromFile = false)
    (hn : '\n' ∉ p.fcnName) (out : Text) (fs : Fs) :
    (Resp2D.ofFile f (p.writeFile out fs) out).rows = p.rows ∧ ∀ name, name ≠ out → p.writeFile out fs name = fs name := by
  unfold Resp2D.writeFile
  dsimp only
  rw [if_neg (by simp [hp]), truncate_append]
  refine ⟨?_, fun name hn => by rw [Function.update_of_ne hn]⟩
  unfold Resp2D.ofFile
  dsimp only
  rw [open_update, respHeader_skip f _ _ hn]
  have h := (respRow2_inverts hf).all_end (and_blank (hexR_blank f)) p.rows (by simp) [] (by simp)
  simpa using h

/-- A response made from a list of inputs and a function: the file holds every input with its value. -/
theorem C44_response1D_made (name : Text) (hn : '\n' ∉ name) (input : List F64) (fcn : F64 → F64) (out : Text) (fs : Fs) :
    (Resp1D.ofFile b64 ((Resp1D.make name input fcn).writeFile out fs) out).rows = input.map fun x => (x, fcn x) :=
  (C44_response1D_roundtrip (by decide) (Resp1D.make name input fcn) rfl hn out fs).1

theorem C44_response1D_madef (name : Text) (hn : '\n' ∉ name) (input : List F32) (fcn : F32 → F32) (out : Text) (fs : Fs) :
    (Resp1D.ofFile b32 ((Resp1D.make name input fcn).writeFile out fs) out).rows = input.map fun x => (x, fcn x) :=
  (C44_response1D_roundtrip (by decide) (Resp1D.make name input fcn) rfl hn out fs).1

example : '\n' ∉ "fast_exp".toList := by decide

/-! ## C45 -/

/-- The row of a comparison as the tuple its reader produces. -/
def cmpTuple {f : Fmt} (r : CmpRow f) : FP f × FP f × FP f × Nat × FP f :=
  (r.input, r.out1, r.out2, r.diff, fixedRead f (digits10 f) r.input)

theorem digits10_pos (f : Fmt) : 0 < digits10 f := by unfold digits10; split <;> norm_num

theorem cmpRow_inverts {f : Fmt} [MaxNat f] (hf : f.eb + f.mb + 1 ≤ 64) :
    Inverts (cmpRowR f) cmpRow cmpTuple (fun r => r.input.isFinite = true ∧ r.diff < 2 ^ 16) :=
  (and_inverts (hexR_inverts hf CmpRow.input) (and_inverts (hexR_inverts hf CmpRow.out1) (and_inverts (hexR_inverts hf CmpRow.out2)
    (and_inverts (u16R_inverts CmpRow.diff) (floatR_inverts (digits10 f) (digits10_pos f) '\n' (by decide) CmpRow.input))))).congr
    (fun x => by simp [cmpRow]) (by rintro x ⟨h1, h2⟩; exact ⟨trivial, trivial, trivial, h2, h1⟩)

theorem statsR_inverts : Inverts statsR (fun x : Nat × Nat × F64 × F64 =>
      printNat 10 x.1 ++ [' '] ++ (printNat 10 x.2.1 ++ [' '] ++ (fpToHex x.2.2.1 ++ fpToHex x.2.2.2))) id
    (fun x => x.1 < 2 ^ 16 ∧ x.2.1 < 2 ^ 16) :=
  (and_inverts (u16R_inverts fun x : Nat × Nat × F64 × F64 => x.1) (and_inverts (u16R_inverts fun x : Nat × Nat × F64 × F64 => x.2.1)
    (and_inverts (hexR_inverts (by decide) fun x : Nat × Nat × F64 × F64 => x.2.2.1)
      (hexR_inverts (by decide) fun x : Nat × Nat × F64 × F64 => x.2.2.2)))).congr
    (fun x => rfl) (by rintro x ⟨h1, h2⟩; exact ⟨h1, h2, trivial, trivial⟩)

theorem cmp_skip (f : Fmt) (name r : Text) (hn : '\n' ∉ name) :
    skipLines 5 ⟨cmpPreamble ++ precisionLine f ++ "Comparison specs/function name = ".toList ++ name ++ ['\n'] ++
      "Format: input out1 out2 diffbit (decimal)input\nFirst line are stats: Max Min 0xMean 0xRMS\n".toList ++ r, false⟩ = ⟨r, false⟩ := by
  rw [precisionLine_eq,
    show cmpPreamble = "VDT function arithmetics performance comparison file (the first 5 lines are the header)".toList ++ ['\n'] by decide,
    show "Format: input out1 out2 diffbit (decimal)input\nFirst line are stats: Max Min 0xMean 0xRMS\n".toList =
      "Format: input out1 out2 diffbit (decimal)input".toList ++ '\n' :: ("First line are stats: Max Min 0xMean 0xRMS".toList ++ ['\n']) by decide]
  simp only [List.append_assoc, List.cons_append, List.nil_append]
  rw [← List.append_assoc "Comparison specs/function name = ".toList]
  exact skip5 _ _ _ _ _ _ (by decide) (precWord_nl f) (by simp [hn]) (by decide) (by decide)

/-- What `readCmp` does with a file written by `writeFile`, up to the reading of the rows. -/
theorem readCmp_written {f : Fmt} (p : Cmp1D f) (hn : '\n' ∉ p.name) (h1 : p.max < 2 ^ 16) (h2 : p.min < 2 ^ 16) (rows : Text) :
    ∃ lo : Text, (∀ c ∈ lo, isSpace c = true) ∧ readCmp f 5 ⟨cmpHeader p ++ rows, false⟩ =
      (some (p.max, p.min, p.mean, p.rms),
        ((cmpRowR f).all ⟨lo ++ rows, false⟩).map fun r => ⟨r.1, r.2.1, r.2.2.1, r.2.2.2.1⟩) := by
  obtain ⟨lo, hlo, h⟩ := statsR_inverts (p.max, p.min, p.mean, p.rms) ⟨h1, h2⟩
  refine ⟨lo ++ ['\n'], ?_, ?_⟩
  · intro c hc
    rcases List.mem_append.1 hc with h | h
    · exact hlo c h
    · obtain rfl : c = '\n' := by simpa using h
      decide
  · unfold readCmp cmpHeader
    have e := cmp_skip f p.name (printNat 10 p.max ++ [' '] ++ (printNat 10 p.min ++ [' '] ++ (fpToHex p.mean ++ fpToHex p.rms)) ++ ('\n' :: rows)) hn
    simp only [List.append_assoc, List.cons_append, List.nil_append] at e ⊢
    rw [e]
    have h' := h [] ('\n' :: rows) (by simp)
    simp only [List.append_assoc, List.cons_append, List.nil_append] at h'
    rw [h']
    rfl

/-- The full statement of C45: whatever the rows, the file gives back statistics and rows. -/
def C45_statement : Prop := ∀ (p : Cmp1D b64), p.fromFile = false → '\n' ∉ p.name → p.max < 2 ^ 16 → p.min < 2 ^ 16 →
  (∀ r ∈ p.rows, r.diff < 2 ^ 16) → ∀ (out : Text) (fs : Fs),
    readCmp b64 5 (Fs.open (p.writeFile out fs) out) = (some (p.max, p.min, p.mean, p.rms), p.rows)

theorem cmpWrite {f : Fmt} (p : Cmp1D f) (hp : p.fromFile = false) (out : Text) (fs : Fs) :
    Fs.open (p.writeFile out fs) out = ⟨cmpHeader p ++ p.rows.flatMap cmpRow, false⟩ := by
  unfold Cmp1D.writeFile
  dsimp only
  rw [if_neg (by simp [hp]), truncate_append, open_update]

/-- Finite inputs: statistics and all rows are read back.  (What is missing from the full statement:
rows whose input is infinite or NaN, see `C45_violated`.) -/
theorem C45_comparison_partial {f : Fmt} [MaxNat f] (hf : f.eb + f.mb + 1 ≤ 64) (p : Cmp1D f) (hp : p.fromFile = false)
    (hn : '\n' ∉ p.name) (h1 : p.max < 2 ^ 16) (h2 : p.min < 2 ^ 16) (hd : ∀ r ∈ p.rows, r.diff < 2 ^ 16)
    (hfin : ∀ r ∈ p.rows, r.input.isFinite = true) (out : Text) (fs : Fs) :
    readCmp f 5 (Fs.open (p.writeFile out fs) out) = (some (p.max, p.min, p.mean, p.rms), p.rows) := by
  rw [cmpWrite p hp]
  obtain ⟨lo, hlo, h⟩ := readCmp_written p hn h1 h2 (p.rows.flatMap cmpRow)
  rw [h, (cmpRow_inverts hf).all_end (and_blank (hexR_blank f)) p.rows (fun r hr => ⟨hfin r hr, hd r hr⟩) lo hlo,
    List.map_map]
  refine congrArg _ ?_
  exact (List.map_congr_left (fun r _ => rfl)).trans (List.map_id _)

theorem and_none_right {α β : Type} (a : Reader α) (b : Reader β) (s s' : IStream) (x : α) (h : a.run s = (some x, s'))
    (h' : (b.run s').1 = none) : ((a.and b).run s).1 = none := by
  show (a.run s).1.bind (fun x => ((b.run (a.run s).2).1.map fun y => (x, y))) = none
  rw [h]
  show ((b.run s').1.map fun y => (x, y)) = none
  rw [h']; rfl

theorem and_none_left {α β : Type} (a : Reader α) (b : Reader β) (s : IStream) (h : (a.run s).1 = none) :
    ((a.and b).run s).1 = none := by
  show (a.run s).1.bind (fun x => ((b.run (a.run s).2).1.map fun y => (x, y))) = none
  rw [h]; rfl

/-- A row whose input is infinite or NaN ends the reading: that row and everything behind it is lost. -/
theorem C45_nonfinite_truncates {f : Fmt} [MaxNat f] (hf : f.eb + f.mb + 1 ≤ 64) (p : Cmp1D f) (hp : p.fromFile = false)
    (hn : '\n' ∉ p.name) (h1 : p.max < 2 ^ 16) (h2 : p.min < 2 ^ 16) (pre post : List (CmpRow f)) (bad : CmpRow f)
    (hr : p.rows = pre ++ bad :: post) (hd : ∀ r ∈ pre, r.diff < 2 ^ 16) (hdb : bad.diff < 2 ^ 16)
    (hfin : ∀ r ∈ pre, r.input.isFinite = true) (hbad : bad.input.isFinite = false) (out : Text) (fs : Fs) :
    (readCmp f 5 (Fs.open (p.writeFile out fs) out)).2 = pre := by
  rw [cmpWrite p hp, hr]
  obtain ⟨lo, hlo, h⟩ := readCmp_written p hn h1 h2 ((pre ++ bad :: post).flatMap cmpRow)
  rw [h]
  dsimp only
  rw [List.flatMap_append]
  obtain ⟨lo', hlo', h'⟩ := (cmpRow_inverts hf).all pre ((bad :: post).flatMap cmpRow) (fun r hr => ⟨hfin r hr, hd r hr⟩) lo hlo
  rw [h']
  have hb : ((cmpRowR f).run ⟨lo' ++ (bad :: post).flatMap cmpRow, false⟩).1 = none := by
    rw [List.flatMap_cons]
    have e : lo' ++ (cmpRow bad ++ post.flatMap cmpRow) = lo' ++ (fpToHex bad.input ++ (fpToHex bad.out1 ++ (fpToHex bad.out2 ++
        (printNat 10 bad.diff ++ ' ' :: (printFixed (digits10 f) bad.input ++ ('\n' :: post.flatMap cmpRow)))))) := by
      simp [cmpRow]
    rw [e]
    have s1 := fpFromHex_toHex hf bad.input lo' (fpToHex bad.out1 ++ (fpToHex bad.out2 ++
        (printNat 10 bad.diff ++ ' ' :: (printFixed (digits10 f) bad.input ++ ('\n' :: post.flatMap cmpRow))))) hlo'
    have s2 := fpFromHex_toHex hf bad.out1 [' '] (fpToHex bad.out2 ++
        (printNat 10 bad.diff ++ ' ' :: (printFixed (digits10 f) bad.input ++ ('\n' :: post.flatMap cmpRow)))) (by simp [isSpace])
    have s3 := fpFromHex_toHex hf bad.out2 [' '] (
        (printNat 10 bad.diff ++ ' ' :: (printFixed (digits10 f) bad.input ++ ('\n' :: post.flatMap cmpRow)))) (by simp [isSpace])
    have s4 := readUInt_dec 16 bad.diff hdb [' '] (' ' :: (printFixed (digits10 f) bad.input ++ ('\n' :: post.flatMap cmpRow)))
      (by simp [isSpace]) (stops_space 10 ' ' (by decide) _)
    have s5 := (readFloat_notfinite (digits10 f) bad.input hbad [' '] ('\n' :: post.flatMap cmpRow) (by simp [isSpace])).1
    simp only [List.cons_append, List.nil_append] at s2 s3 s4 s5
    exact and_none_right _ _ _ _ _ s1 (and_none_right _ _ _ _ _ s2 (and_none_right _ _ _ _ _ s3
      (and_none_right _ _ _ _ _ s4 s5)))
  rw [Reader.all_none _ _ hb, List.append_nil, List.map_map]
  exact (List.map_congr_left (fun r _ => rfl)).trans (List.map_id _)

/-- C45 does not hold: a comparison with the single input NaN is read back empty. -/
theorem C45_violated : ¬ C45_statement := by
  intro h
  let row : CmpRow b64 := ⟨FP.nan, FP.nan, FP.nan, 0⟩
  let p : Cmp1D b64 := ⟨false, [], [], 0, 0, zero false, zero false, [row]⟩
  have h1 := h p rfl (by simp [p]) (by decide) (by decide) (by simp [p, row]) [] (fun _ => none)
  have h2 := C45_nonfinite_truncates (f := b64) (by decide) p rfl (by simp [p]) (by decide) (by decide) [] [] row rfl
    (by simp) (by decide) (by simp) (by decide +kernel) [] (fun _ => none)
  rw [h1] at h2
  exact absurd h2 (by simp [p])

/-- The constructor of `fcnComparison_old` skips two header lines instead of five: it reads neither
the statistics nor any row of a file that `fcnComparison_old::writeFile` wrote. -/
theorem C45_old_reads_nothing {f : Fmt} (p : Cmp1D f) (hp : p.fromFile = false) (out : Text) (fs : Fs) :
    readCmp f 2 (Fs.open (p.writeFile out fs) out) = (none, []) := by
  rw [cmpWrite p hp]
  obtain ⟨r, hr⟩ : ∃ r, cmpHeader p ++ p.rows.flatMap cmpRow =
      "VDT function arithmetics performance comparison file (the first 5 lines are the header)".toList ++ '\n' :: (precWord f ++ '\n' ::
        ('C' :: r)) := by
    refine ⟨"omparison specs/function name = ".toList ++ (p.name ++ ['\n'] ++
      "Format: input out1 out2 diffbit (decimal)input\nFirst line are stats: Max Min 0xMean 0xRMS\n".toList ++
      printNat 10 p.max ++ [' '] ++ printNat 10 p.min ++ [' '] ++ fpToHex p.mean ++ fpToHex p.rms ++ ['\n'] ++ p.rows.flatMap cmpRow), ?_⟩
    unfold cmpHeader
    rw [precisionLine_eq,
      show cmpPreamble = "VDT function arithmetics performance comparison file (the first 5 lines are the header)".toList ++ ['\n'] by decide,
      show "Comparison specs/function name = ".toList = 'C' :: "omparison specs/function name = ".toList by decide]
    simp only [List.append_assoc, List.cons_append, List.nil_append]
  rw [hr]
  have h2 : skipLines 2 ⟨"VDT function arithmetics performance comparison file (the first 5 lines are the header)".toList ++ '\n' ::
      (precWord f ++ '\n' :: ('C' :: r)), false⟩ = ⟨'C' :: r, false⟩ := by
    unfold skipLines
    rw [getline_line _ _ (by decide)]; unfold skipLines
    rw [getline_line _ _ (precWord_nl f)]; rfl
  unfold readCmp
  dsimp only
  rw [h2]
  have h3 : readUInt 10 16 ⟨'C' :: r, false⟩ = (none, ⟨'C' :: r, true⟩) := by
    have e1 : skipws ('C' :: r) = 'C' :: r := by
      unfold skipws; rw [List.dropWhile_cons_of_neg (by decide)]
    have e2 : readSign ('C' :: r) = (false, 'C' :: r) := rfl
    have e3 : ('C' :: r).takeWhile (isDigit 10) = [] := by rw [List.takeWhile_cons_of_neg (by decide)]
    have e4 : ('C' :: r).dropWhile (isDigit 10) = 'C' :: r := by rw [List.dropWhile_cons_of_neg (by decide)]
    unfold readUInt
    simp only [Bool.false_eq_true, if_false, e1, e2, skipPrefix_10, e3, e4, if_true]
  have h4 : ∀ t, fpFromHex b64 ⟨t, true⟩ = (none, ⟨t, true⟩) := by
    intro t; unfold fpFromHex; rw [readUInt_failed]; rfl
  have h4' : ∀ t, fpFromHex f ⟨t, true⟩ = (none, ⟨t, true⟩) := by
    intro t; unfold fpFromHex; rw [readUInt_failed]; rfl
  have h5 : statsR.run ⟨'C' :: r, false⟩ = (none, ⟨'C' :: r, true⟩) := by
    show ((readUInt 10 16 _).1.bind _, _) = _
    rw [h3]
    show (none, _) = _
    refine congrArg _ ?_
    show (fpFromHex b64 (fpFromHex b64 (readUInt 10 16 (readUInt 10 16 ⟨'C' :: r, false⟩).2).2).2).2 = _
    rw [h3, readUInt_failed, h4, h4]
  rw [h5]
  refine congrArg _ ?_
  have h6 : ((cmpRowR f).run ⟨'C' :: r, true⟩).1 = none := by
    exact and_none_left _ _ _ (by show (fpFromHex f ⟨'C' :: r, true⟩).1 = none; rw [h4'])
  dsimp only
  rw [Reader.all_none _ _ h6]
  rfl

/-- The hypotheses of `C45_comparison_partial` are met by a comparison with one row. -/
example : ∃ p : Cmp1D b64, p.fromFile = false ∧ '\n' ∉ p.name ∧ p.max < 2 ^ 16 ∧ p.min < 2 ^ 16 ∧ p.rows ≠ [] ∧
    (∀ r ∈ p.rows, r.diff < 2 ^ 16) ∧ ∀ r ∈ p.rows, r.input.isFinite = true :=
  ⟨⟨false, "exp vs fast_exp".toList, [], 3, 3, lit 3, lit (-1), [⟨lit 0.5, lit 2, lit 3, 3⟩]⟩, rfl, by decide, by decide, by decide,
    by simp, by simp, by simp only [List.mem_singleton, forall_eq]; decide +kernel⟩

/-! Two inputs -/

def cmpTuple2 {f : Fmt} (r : CmpRow2 f) : FP f × FP f × FP f × FP f × Nat × FP f × FP f :=
  (r.input1, r.input2, r.out1, r.out2, r.diff, fixedRead f (digits10 f) r.input1, fixedRead f (digits10 f) r.input2)

theorem cmpRow2_inverts {f : Fmt} [MaxNat f] (hf : f.eb + f.mb + 1 ≤ 64) :
    Inverts (cmpRow2R f) cmpRow2 cmpTuple2 (fun r => r.input1.isFinite = true ∧ r.input2.isFinite = true ∧ r.diff < 2 ^ 16) :=
  (and_inverts (hexR_inverts hf CmpRow2.input1) (and_inverts (hexR_inverts hf CmpRow2.input2) (and_inverts (hexR_inverts hf CmpRow2.out1)
    (and_inverts (hexR_inverts hf CmpRow2.out2) (and_inverts (u16R_inverts CmpRow2.diff)
      (and_inverts (floatR_inverts (digits10 f) (digits10_pos f) ' ' (by decide) CmpRow2.input1)
        (floatR_inverts (digits10 f) (digits10_pos f) '\n' (by decide) CmpRow2.input2))))))).congr
    (fun x => by simp [cmpRow2]) (by rintro x ⟨h1, h2, h3⟩; exact ⟨trivial, trivial, trivial, trivial, h3, h1, h2⟩)

/-- Comparisons of functions of two variables with finite inputs are read back. -/
theorem C45_comparison2D_partial {f : Fmt} [MaxNat f] (hf : f.eb + f.mb + 1 ≤ 64) (p : Cmp2D f) (hp : p.fromFile = false)
    (hn : '\n' ∉ p.name) (h1 : p.max < 2 ^ 16) (h2 : p.min < 2 ^ 16) (hd : ∀ r ∈ p.rows, r.diff < 2 ^ 16)
    (hfin : ∀ r ∈ p.rows, r.input1.isFinite = true ∧ r.input2.isFinite = true) (out : Text) (fs : Fs) :
    readCmp2 f (Fs.open (p.writeFile out fs) out) = (some (p.max, p.min, p.mean, p.rms), p.rows) := by
  unfold Cmp2D.writeFile
  dsimp only
  rw [if_neg (by simp [hp]), truncate_append, open_update]
  obtain ⟨lo, hlo, h⟩ := statsR_inverts (p.max, p.min, p.mean, p.rms) ⟨h1, h2⟩
  unfold readCmp2 cmpHeader2
  have e := cmp_skip f p.name (printNat 10 p.max ++ [' '] ++ (printNat 10 p.min ++ [' '] ++ (fpToHex p.mean ++ fpToHex p.rms)) ++
    ('\n' :: p.rows.flatMap cmpRow2)) hn
  simp only [List.append_assoc, List.cons_append, List.nil_append] at e ⊢
  rw [e]
  have h' := h [] ('\n' :: p.rows.flatMap cmpRow2) (by simp)
  simp only [List.append_assoc, List.cons_append, List.nil_append] at h'
  rw [h']
  dsimp only
  have h3 := (cmpRow2_inverts hf).all_end (and_blank (hexR_blank f)) p.rows
    (fun r hr => ⟨(hfin r hr).1, (hfin r hr).2, hd r hr⟩) (lo ++ ['\n']) (by
      intro c hc
      rcases List.mem_append.1 hc with h | h
      · exact hlo c h
      · obtain rfl : c = '\n' := by simpa using h
        decide)
  rw [List.append_assoc] at h3
  rw [show lo ++ '\n' :: p.rows.flatMap cmpRow2 = lo ++ (['\n'] ++ p.rows.flatMap cmpRow2) from rfl, h3, List.map_map]
  refine congrArg _ ?_
  exact (List.map_congr_left (fun r _ => rfl)).trans (List.map_id _)

/-! ## C46 -/

/-- The copy of a file differs in its first line only: what follows the header is the same stream. -/
theorem copyFile_skip (pre : Text) (hpre : '\n' ∉ pre) (src out : Text) (hsrc : '\n' ∉ src) (hne : src ≠ out) (fs : Fs) :
    skipLines 5 (Fs.open (copyFile (pre ++ ['\n']) src out (fs.truncate out)) out) = skipLines 5 (Fs.open fs src) := by
  have h1 : Fs.open (fs.truncate out) src = Fs.open fs src := by
    unfold Fs.open Fs.truncate; rw [Function.update_of_ne hne]
  unfold copyFile
  rw [truncate_append, open_update, h1]
  have e : "Dumped by an object initialised by ".toList ++ src ++ " - ".toList ++ (pre ++ ['\n']) ++ (getline (Fs.open fs src)).rest =
      ("Dumped by an object initialised by ".toList ++ (src ++ (" - ".toList ++ pre))) ++ '\n' :: (getline (Fs.open fs src)).rest := by
    simp
  rw [e]
  show skipLines 4 (getline _) = skipLines 4 (getline _)
  rw [getline_line _ _ (by simp [hsrc, hpre])]
  unfold Fs.open
  cases fs src with
  | none => rfl
  | some t =>
    cases t with
    | nil => rfl
    | cons a t => rfl

theorem copyFile_other (pre src out : Text) (fs : Fs) (name : Text) (hn : name ≠ out) :
    copyFile pre src out (fs.truncate out) name = fs name := by
  unfold copyFile
  rw [truncate_append, Function.update_of_ne hn]

/-- Copying a file onto itself leaves nothing behind the first line. -/
theorem copyFile_self (pre : Text) (hpre : '\n' ∉ pre) (src : Text) (hsrc : '\n' ∉ src) (fs : Fs) :
    skipLines 5 (Fs.open (copyFile (pre ++ ['\n']) src src (fs.truncate src)) src) = ⟨[], true⟩ := by
  unfold copyFile
  rw [truncate_append, open_update]
  have e : "Dumped by an object initialised by ".toList ++ src ++ " - ".toList ++ (pre ++ ['\n']) ++
      (getline (Fs.open (fs.truncate src) src)).rest =
      ("Dumped by an object initialised by ".toList ++ (src ++ (" - ".toList ++ pre))) ++ '\n' :: [] := by
    unfold Fs.open Fs.truncate
    rw [Function.update_self]
    simp [getline]
  rw [e]
  show skipLines 4 (getline _) = _
  rw [getline_line _ _ (by simp [hsrc, hpre])]
  rfl

/-- The full statement of C46 for pools. -/
def C46_statement : Prop := ∀ (fs : Fs) (a b : Text) (dec : F64 → Text), '\n' ∉ a →
  (Pool1D.ofFile b64 ((Pool1D.ofFile b64 fs a).writeFile dec b fs) b).numbers = (Pool1D.ofFile b64 fs a).numbers ∧
  ∀ name, name ≠ b → (Pool1D.ofFile b64 fs a).writeFile dec b fs name = fs name

/-- Loading file `a` and writing to another file `b` makes `b` hold the same numbers, and changes no
other file.  (Missing from the full statement: `b = a`, see `C46_violated`.) -/
theorem C46_pool1D_copy_partial {f : Fmt} (fs : Fs) (a b : Text) (ha : '\n' ∉ a) (hab : a ≠ b) (dec : FP f → Text) :
    (Pool1D.ofFile f ((Pool1D.ofFile f fs a).writeFile dec b fs) b).numbers = (Pool1D.ofFile f fs a).numbers ∧
    ∀ name, name ≠ b → (Pool1D.ofFile f fs a).writeFile dec b fs name = fs name := by
  have h : (Pool1D.ofFile f fs a).writeFile dec b fs =
      copyFile ("VDT Random numbers file (the first 5 lines are the header)".toList ++ ['\n']) a b (fs.truncate b) := by
    unfold Pool1D.writeFile
    dsimp only
    rw [if_pos (show (Pool1D.ofFile f fs a).size = 0 from rfl), show poolPreamble = "VDT Random numbers file (the first 5 lines are the header)".toList ++ ['\n'] by decide]
    rfl
  rw [h]
  refine ⟨?_, fun name hn => copyFile_other _ _ _ _ _ hn⟩
  show (hexR f).all (skipLines 5 _) = (hexR f).all (skipLines 5 _)
  rw [copyFile_skip _ (by decide) a b ha hab]

theorem C46_pool2D_copy_partial {f : Fmt} (fs : Fs) (a b : Text) (ha : '\n' ∉ a) (hab : a ≠ b) (dec : FP f → Text) :
    ∃ fs', (Pool2D.ofFile f fs a).writeFile dec b fs = some fs' ∧
    (Pool2D.ofFile f fs' b).numbersX = (Pool2D.ofFile f fs a).numbersX ∧
    (Pool2D.ofFile f fs' b).numbersY = (Pool2D.ofFile f fs a).numbersY ∧
    ∀ name, name ≠ b → fs' name = fs name := by
  refine ⟨copyFile ("VDT Random numbers file 2D (the first 5 lines are the header)".toList ++ ['\n']) a b (fs.truncate b), ?_, ?_, ?_,
    fun name hn => copyFile_other _ _ _ _ _ hn⟩
  · unfold Pool2D.writeFile
    dsimp only
    rw [if_pos (show (Pool2D.ofFile f fs a).size = 0 from rfl), show pool2Preamble = "VDT Random numbers file 2D (the first 5 lines are the header)".toList ++ ['\n'] by decide]
    rfl
  · show (dealXY false ((hexR f).all (skipLines 5 _))).1 = (dealXY false ((hexR f).all (skipLines 5 _))).1
    rw [copyFile_skip _ (by decide) a b ha hab]
  · show (dealXY false ((hexR f).all (skipLines 5 _))).2 = (dealXY false ((hexR f).all (skipLines 5 _))).2
    rw [copyFile_skip _ (by decide) a b ha hab]

theorem C46_response1D_copy_partial {f : Fmt} (fs : Fs) (a b : Text) (ha : '\n' ∉ a) (hab : a ≠ b) :
    (Resp1D.ofFile f ((Resp1D.ofFile f fs a).writeFile b fs) b).rows = (Resp1D.ofFile f fs a).rows ∧
    ∀ name, name ≠ b → (Resp1D.ofFile f fs a).writeFile b fs name = fs name := by
  have h : (Resp1D.ofFile f fs a).writeFile b fs =
      copyFile ("VDT function arithmetics performance 1 input file (the first 5 lines are the header)".toList ++ ['\n']) a b (fs.truncate b) := by
    unfold Resp1D.writeFile
    dsimp only
    rw [if_pos (show (Resp1D.ofFile f fs a).fromFile = true from rfl), show respPreamble = "VDT function arithmetics performance 1 input file (the first 5 lines are the header)".toList ++ ['\n'] by decide]
    rfl
  rw [h]
  refine ⟨?_, fun name hn => copyFile_other _ _ _ _ _ hn⟩
  show ((hexR f).and (hexR f)).all (skipLines 5 _) = ((hexR f).and (hexR f)).all (skipLines 5 _)
  rw [copyFile_skip _ (by decide) a b ha hab]

/-- Writing a pool back to the file it came from destroys the numbers, whatever they were. -/
theorem C46_pool1D_self {f : Fmt} (fs : Fs) (a : Text) (ha : '\n' ∉ a) (dec : FP f → Text) :
    (Pool1D.ofFile f ((Pool1D.ofFile f fs a).writeFile dec a fs) a).numbers = [] := by
  have h : (Pool1D.ofFile f fs a).writeFile dec a fs =
      copyFile ("VDT Random numbers file (the first 5 lines are the header)".toList ++ ['\n']) a a (fs.truncate a) := by
    unfold Pool1D.writeFile
    dsimp only
    rw [if_pos (show (Pool1D.ofFile f fs a).size = 0 from rfl), show poolPreamble = "VDT Random numbers file (the first 5 lines are the header)".toList ++ ['\n'] by decide]
    rfl
  rw [h]
  show (hexR f).all (skipLines 5 _) = []
  rw [copyFile_self _ (by decide) a ha]
  refine Reader.all_none _ _ ?_
  show (fpFromHex f _).1 = none
  unfold fpFromHex
  rw [readUInt_failed]; rfl

/-- C46 does not hold: the numbers of a pool of one number are gone after writing it to its own file. -/
theorem C46_violated : ¬ C46_statement := by
  intro h
  have h0 := C43_pool1D_made (fun _ => (lit 2 : F64)) (lit 1) (lit 3) 1 (by decide) (fun _ => []) (by simp) ['a'] (fun _ => none)
  generalize (Pool1D.make (fun _ => (lit 2 : F64)) (lit 1) (lit 3) 1).writeFile (fun _ => []) ['a'] (fun _ => none) = fs at h0
  have h1 := (h fs ['a'] ['a'] (fun _ => []) (by decide)).1
  rw [C46_pool1D_self fs ['a'] (by decide) _, h0] at h1
  exact absurd h1 (by simp)

example : '\n' ∉ "pool.txt".toList ∧ "pool.txt".toList ≠ "copy.txt".toList := by decide

end Vdt.Txt
