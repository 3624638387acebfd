import Verif.Model.Streams

/-!
# Files of random numbers, function responses and comparisons

Model of the constructors from a file and of `writeFile` of `randomPool1D/2D`
(`include/diagnostic/vdtdiag_random.h`), `fcnResponse1D/2D` (`vdtdiag_fcnResponse.h`) and
`fcnComparison1D/2D`, `fcnComparison_old` (`vdtdiag_fcnComparison.h`).

Simplifications: the default formatting of the limits in the header of a pool (`<< m_min`) is a
parameter `dec`; the row loops use 32-bit indices (fewer than `2^32` rows); the random engine is a
parameter.
-/

namespace Vdt.Txt
open FP

/-! ## Reading loops -/

theorem readUInt_length (base bits : Nat) (s : IStream) :
    (readUInt base bits s).2.rest.length ≤ s.rest.length ∧
    ((readUInt base bits s).1.isSome = true → (readUInt base bits s).2.rest.length < s.rest.length) := by
  have h1 : (skipws s.rest).length ≤ s.rest.length := (List.dropWhile_sublist _).length_le
  have h2 : ∀ t, (readSign t).2.length ≤ t.length := by
    intro t; unfold readSign; split <;> simp
  have h3 : ∀ t, (skipPrefix base t).length ≤ t.length := by
    intro t; unfold skipPrefix; split <;> (try split) <;> simp <;> omega
  unfold readUInt
  by_cases hf : s.fail
  · simp [hf]
  · simp only [hf, Bool.false_eq_true, if_false]
    generalize ht : skipPrefix base (readSign (skipws s.rest)).2 = t
    have h4 : t.length ≤ s.rest.length := ht ▸ (h3 _).trans ((h2 _).trans h1)
    have h5 : (t.takeWhile (isDigit base)).length + (t.dropWhile (isDigit base)).length = t.length := by
      rw [← List.length_append, List.takeWhile_append_dropWhile]
    split
    · exact ⟨by simp; omega, by simp⟩
    · rename_i hne
      have : 0 < (t.takeWhile (isDigit base)).length := List.length_pos_iff.2 hne
      split
      · exact ⟨by simp; omega, by simp⟩
      · exact ⟨by simp; omega, fun _ => by simp; omega⟩

/-- A formatted read that gains ground whenever it succeeds. -/
structure Reader (α : Type) where
  run : IStream → Option α × IStream
  le : ∀ s, (run s).2.rest.length ≤ s.rest.length
  lt : ∀ s, (run s).1.isSome = true → (run s).2.rest.length < s.rest.length

/-- `ifile >> v` for `fpFromHex<T> v`. -/
def hexR (f : Fmt) : Reader (FP f) where
  run := fpFromHex f
  le s := (readUInt_length 16 64 s).1
  lt s h := (readUInt_length 16 64 s).2 (by
    unfold fpFromHex at h
    simpa using h)

/-- `ifile >> v` for a decimal `uint16_t v`. -/
def u16R : Reader Nat where
  run := readUInt 10 16
  le s := (readUInt_length 10 16 s).1
  lt s h := (readUInt_length 10 16 s).2 h

theorem splitDecimal_length (t : Text) : (splitDecimal t).1.length + (splitDecimal t).2.1.length + (splitDecimal t).2.2.length ≤ t.length := by
  have h5 : ∀ t : Text, (t.takeWhile (isDigit 10)).length + (t.dropWhile (isDigit 10)).length = t.length := by
    intro t; rw [← List.length_append, List.takeWhile_append_dropWhile]
  have := h5 t
  unfold splitDecimal
  dsimp only
  split
  · rename_i r hr
    have h6 := h5 r
    rw [hr] at this
    simp at this ⊢
    omega
  · simp; omega

theorem readFloat_length (f : Fmt) (s : IStream) :
    (readFloat f s).2.rest.length ≤ s.rest.length ∧
    ((readFloat f s).1.isSome = true → (readFloat f s).2.rest.length < s.rest.length) := by
  have h1 : (skipws s.rest).length ≤ s.rest.length := (List.dropWhile_sublist _).length_le
  have h2 : ∀ t, (readSign t).2.length ≤ t.length := by
    intro t; unfold readSign; split <;> simp
  unfold readFloat
  by_cases hf : s.fail
  · simp [hf]
  · simp only [hf, Bool.false_eq_true, if_false]
    generalize ht : (readSign (skipws s.rest)).2 = t
    have h4 : t.length ≤ s.rest.length := ht ▸ (h2 _).trans h1
    have h5 := splitDecimal_length t
    generalize splitDecimal t = p at h5 ⊢
    obtain ⟨i, d, r⟩ := p
    dsimp only at h5 ⊢
    split
    · exact ⟨by simp; omega, by simp⟩
    · rename_i hne
      have : 0 < i.length + d.length := by
        rw [← List.length_append]; exact List.length_pos_iff.2 hne
      split
      · exact ⟨by simp; omega, by simp⟩
      · generalize ofRat f _ _ = v
        split
        · exact ⟨by simp; omega, by simp⟩
        · exact ⟨by simp; omega, fun _ => by simp; omega⟩

/-- `ifile >> v` for a floating point `v`. -/
def floatR (f : Fmt) : Reader (FP f) where
  run := readFloat f
  le s := (readFloat_length f s).1
  lt s h := (readFloat_length f s).2 h

/-- `ifile >> a >> b`: the second read is attempted in any case (and fails on a failed stream). -/
def Reader.and {α β : Type} (a : Reader α) (b : Reader β) : Reader (α × β) where
  run s := ((a.run s).1.bind fun x => (b.run (a.run s).2).1.map fun y => (x, y), (b.run (a.run s).2).2)
  le s := (b.le _).trans (a.le s)
  lt s h := by
    have ha : (a.run s).1.isSome = true := by
      cases h' : (a.run s).1 with
      | none => simp [h'] at h
      | some x => rfl
    exact lt_of_le_of_lt (b.le _) (a.lt s ha)

/-- `while (ifile >> v) vec.push_back(v)`. -/
def Reader.all {α : Type} (rd : Reader α) (s : IStream) : List α :=
  match h : (rd.run s).1 with
  | some v => v :: rd.all (rd.run s).2
  | none => []
termination_by s.rest.length
decreasing_by exact rd.lt s (by simp [h])

/-! ## Header lines -/

/-- `"Double Precision\n"` or `"Single Precision\n"` according to `sizeof(T)==8`. -/
def precisionLine (f : Fmt) : Text :=
  if f.eb + f.mb + 1 = 64 then "Double Precision\n".toList else "Single Precision\n".toList

/-- The branch of every `writeFile` that copies the source file behind a new first line
(`vdtdiag_random.h:82-89`, `181-188`, `vdtdiag_fcnResponse.h:104-111`, `222-229`,
`vdtdiag_fcnComparison.h:116-123`, `233-240`).  `fs` already holds the emptied output file. -/
def copyFile (preamble : Text) (src out : Text) (fs : Fs) : Fs :=
  fs.append out ("Dumped by an object initialised by ".toList ++ src ++ " - ".toList ++ preamble ++
    (getline (fs.open src)).rest)

/-! ## Random pools -/

/-- include/diagnostic/vdtdiag_random.h:125-127 and vdtdiag_interfaces.h:231-233. -/
structure Pool1D (f : Fmt) where
  size : BitVec 64
  fileName : Text
  min : FP f
  max : FP f
  numbers : List (FP f)

/-- include/diagnostic/vdtdiag_random.h:47-53, vdtdiag_interfaces.h:203-206,215-229: the `i`-th number
drawn from the engine is `rng i`. -/
def Pool1D.make {f : Fmt} (rng : Nat → FP f) (min max : FP f) (size : BitVec 64) : Pool1D f :=
  ⟨size, [], min, max, (List.range size.toNat).map rng⟩

/-- include/diagnostic/vdtdiag_random.h:57-71 -/
def Pool1D.ofFile (f : Fmt) (fs : Fs) (name : Text) : Pool1D f :=
  ⟨0, name, zero false, zero false, (hexR f).all (skipLines 5 (fs.open name))⟩

/-- include/diagnostic/vdtdiag_random.h:79 -/
def poolPreamble : Text := "VDT Random numbers file (the first 5 lines are the header)\n".toList

/-- include/diagnostic/vdtdiag_random.h:78-104 -/
def Pool1D.writeFile {f : Fmt} (dec : FP f → Text) (p : Pool1D f) (out : Text) (fs : Fs) : Fs :=
  let fs := fs.truncate out
  if p.size = 0 then copyFile poolPreamble p.fileName out fs
  else fs.append out (poolPreamble ++ precisionLine f ++
    "Minimum Number = ".toList ++ dec p.min ++ ['\n'] ++
    "Maximum Number = ".toList ++ dec p.max ++ ['\n'] ++
    "Total numbers = ".toList ++ printNat 10 p.size.toNat ++ ['\n'] ++
    p.numbers.flatMap fpToHex)

/-- include/diagnostic/vdtdiag_random.h:231-236 -/
structure Pool2D (f : Fmt) where
  size : BitVec 64
  fileName : Text
  minX : FP f
  minY : FP f
  maxX : FP f
  maxY : FP f
  numbersX : List (FP f)
  numbersY : List (FP f)

/-- include/diagnostic/vdtdiag_random.h:134-145: the second coordinates are drawn after all the first ones. -/
def Pool2D.make {f : Fmt} (rng : Nat → FP f) (minX minY maxX maxY : FP f) (size : BitVec 64) : Pool2D f :=
  ⟨size, [], minX, minY, maxX, maxY, (List.range size.toNat).map rng,
    (List.range size.toNat).map fun i => rng (size.toNat + i)⟩

/-- include/diagnostic/vdtdiag_random.h:161-169: numbers with an even counter go to the first vector,
the others to the second; `odd` is `counter%2`. -/
def dealXY {α : Type} : Bool → List α → List α × List α
  | _, [] => ([], [])
  | false, v :: l => let r := dealXY true l; (v :: r.1, r.2)
  | true, v :: l => let r := dealXY false l; (r.1, v :: r.2)

/-- include/diagnostic/vdtdiag_random.h:149-170 -/
def Pool2D.ofFile (f : Fmt) (fs : Fs) (name : Text) : Pool2D f :=
  let r := dealXY false ((hexR f).all (skipLines 5 (fs.open name)))
  ⟨0, name, zero false, zero false, zero false, zero false, r.1, r.2⟩

/-- include/diagnostic/vdtdiag_random.h:178 -/
def pool2Preamble : Text := "VDT Random numbers file 2D (the first 5 lines are the header)\n".toList

/-- include/diagnostic/vdtdiag_random.h:199-205: `for (i=0;i<2*X.size();++i)` alternately `X[i/2]` and
`Y[i/2]`; `none` if `Y` is read out of bounds. -/
def interleave {f : Fmt} : List (FP f) → List (FP f) → Option Text
  | [], _ => some []
  | _ :: _, [] => none
  | x :: xs, y :: ys => (interleave xs ys).map fun t => fpToHex x ++ fpToHex y ++ t

/-- include/diagnostic/vdtdiag_random.h:177-208 -/
def Pool2D.writeFile {f : Fmt} (dec : FP f → Text) (p : Pool2D f) (out : Text) (fs : Fs) : Option Fs :=
  let fs := fs.truncate out
  if p.size = 0 then some (copyFile pool2Preamble p.fileName out fs)
  else do
    let body ← interleave p.numbersX p.numbersY
    return fs.append out (pool2Preamble ++ precisionLine f ++
      "Minimum Number = ".toList ++ dec p.minX ++ [' '] ++ dec p.minY ++ ['\n'] ++
      "Maximum Number = ".toList ++ dec p.maxX ++ [' '] ++ dec p.maxY ++ ['\n'] ++
      "Total numbers = ".toList ++ printNat 10 p.size.toNat ++ ['\n'] ++ body)

/-! ## Function responses -/

/-- include/diagnostic/vdtdiag_interfaces.h:192-197; input and output as rows. -/
structure Resp1D (f : Fmt) where
  fromFile : Bool
  fcnName : Text
  fileName : Text
  rows : List (FP f × FP f)

/-- include/diagnostic/vdtdiag_fcnResponse.h:42-47 -/
def Resp1D.make {f : Fmt} (name : Text) (input : List (FP f)) (fcn : FP f → FP f) : Resp1D f :=
  ⟨false, name, "From scratch".toList, input.map fun x => (x, fcn x)⟩

/-- include/diagnostic/vdtdiag_fcnResponse.h:66-79, vdtdiag_interfaces.h:167-170 -/
def Resp1D.ofFile (f : Fmt) (fs : Fs) (name : Text) : Resp1D f :=
  ⟨true, "From ".toList ++ name, name, ((hexR f).and (hexR f)).all (skipLines 5 (fs.open name))⟩

/-- include/diagnostic/vdtdiag_fcnResponse.h:101,219 -/
def respPreamble : Text :=
  "VDT function arithmetics performance 1 input file (the first 5 lines are the header)\n".toList

/-- include/diagnostic/vdtdiag_fcnResponse.h:113-119,231-237 -/
def respHeader (f : Fmt) (name : Text) : Text :=
  respPreamble ++ precisionLine f ++ "Function Name = ".toList ++ name ++ ['\n'] ++ "--\n--\n".toList

/-- include/diagnostic/vdtdiag_fcnResponse.h:122 -/
def respRow {f : Fmt} (r : FP f × FP f) : Text := fpToHex r.1 ++ fpToHex r.2 ++ ['\n']

/-- include/diagnostic/vdtdiag_fcnResponse.h:100-124 -/
def Resp1D.writeFile {f : Fmt} (p : Resp1D f) (out : Text) (fs : Fs) : Fs :=
  let fs := fs.truncate out
  if p.fromFile then copyFile respPreamble p.fileName out fs
  else fs.append out (respHeader f p.fcnName ++ p.rows.flatMap respRow)

/-- As `Resp1D` with two inputs. -/
structure Resp2D (f : Fmt) where
  fromFile : Bool
  fcnName : Text
  fileName : Text
  rows : List (FP f × FP f × FP f)

/-- include/diagnostic/vdtdiag_fcnResponse.h:148-158 (equally many first and second inputs) -/
def Resp2D.make {f : Fmt} (name : Text) (input : List (FP f × FP f)) (fcn : FP f → FP f → FP f) : Resp2D f :=
  ⟨false, name, "From scratch".toList, input.map fun x => (x.1, x.2, fcn x.1 x.2)⟩

/-- include/diagnostic/vdtdiag_fcnResponse.h:181-195 -/
def Resp2D.ofFile (f : Fmt) (fs : Fs) (name : Text) : Resp2D f :=
  ⟨true, "From ".toList ++ name, name,
    ((hexR f).and ((hexR f).and (hexR f))).all (skipLines 5 (fs.open name))⟩

/-- include/diagnostic/vdtdiag_fcnResponse.h:240-241 -/
def respRow2 {f : Fmt} (r : FP f × FP f × FP f) : Text :=
  fpToHex r.1 ++ fpToHex r.2.1 ++ fpToHex r.2.2 ++ ['\n']

/-- include/diagnostic/vdtdiag_fcnResponse.h:218-243 -/
def Resp2D.writeFile {f : Fmt} (p : Resp2D f) (out : Text) (fs : Fs) : Fs :=
  let fs := fs.truncate out
  if p.fromFile then copyFile respPreamble p.fileName out fs
  else fs.append out (respHeader f p.fcnName ++ p.rows.flatMap respRow2)

/-! ## Comparisons -/

/-- One row: input, first output, second output, differing bits. -/
structure CmpRow (f : Fmt) where
  input : FP f
  out1 : FP f
  out2 : FP f
  diff : Nat

/-- include/diagnostic/vdtdiag_fcnComparison.h:149 and vdtdiag_interfaces.h:103-112. -/
structure Cmp1D (f : Fmt) where
  fromFile : Bool
  name : Text
  fileName : Text
  max : Nat
  min : Nat
  mean : F64
  rms : F64
  rows : List (CmpRow f)

/-- include/diagnostic/vdtdiag_fcnComparison.h:113 -/
def cmpPreamble : Text :=
  "VDT function arithmetics performance comparison file (the first 5 lines are the header)\n".toList

/-- `std::numeric_limits<T>::digits10` -/
def digits10 (f : Fmt) : Nat := if f.eb + f.mb + 1 = 64 then 15 else 6

/-- include/diagnostic/vdtdiag_fcnComparison.h:140-142 -/
def cmpRow {f : Fmt} (r : CmpRow f) : Text :=
  fpToHex r.input ++ fpToHex r.out1 ++ fpToHex r.out2 ++ printNat 10 r.diff ++ [' '] ++
  printFixed (digits10 f) r.input ++ ['\n']

/-- include/diagnostic/vdtdiag_fcnComparison.h:125-136 -/
def cmpHeader {f : Fmt} (p : Cmp1D f) : Text :=
  cmpPreamble ++ precisionLine f ++ "Comparison specs/function name = ".toList ++ p.name ++ ['\n'] ++
  "Format: input out1 out2 diffbit (decimal)input\nFirst line are stats: Max Min 0xMean 0xRMS\n".toList ++
  printNat 10 p.max ++ [' '] ++ printNat 10 p.min ++ [' '] ++ fpToHex p.mean ++ fpToHex p.rms ++ ['\n']

/-- include/diagnostic/vdtdiag_fcnComparison.h:112-144 (`fcnComparison_old`: 394-423, the same text) -/
def Cmp1D.writeFile {f : Fmt} (p : Cmp1D f) (out : Text) (fs : Fs) : Fs :=
  let fs := fs.truncate out
  if p.fromFile then copyFile cmpPreamble p.fileName out fs
  else fs.append out (cmpHeader p ++ p.rows.flatMap cmpRow)

/-- include/diagnostic/vdtdiag_fcnComparison.h:70-75: the rows. -/
def cmpRowR (f : Fmt) : Reader (FP f × FP f × FP f × Nat × FP f) :=
  (hexR f).and ((hexR f).and ((hexR f).and (u16R.and (floatR f))))

/-- include/diagnostic/vdtdiag_fcnComparison.h:63 -/
def statsR : Reader (Nat × Nat × F64 × F64) := u16R.and (u16R.and ((hexR b64).and (hexR b64)))

/-- What the constructor from a file reads after `header` lines: the four statistics (`none` if they
cannot be read; the members then keep partial or indeterminate values) and the rows.
include/diagnostic/vdtdiag_fcnComparison.h:53-76 with `header = 5`, 302-327 (`fcnComparison_old`) with
`header = 2`. -/
def readCmp (f : Fmt) (header : Nat) (s : IStream) : Option (Nat × Nat × F64 × F64) × List (CmpRow f) :=
  let s := skipLines header s
  ((statsR.run s).1, ((cmpRowR f).all (statsR.run s).2).map fun r => ⟨r.1, r.2.1, r.2.2.1, r.2.2.2.1⟩)

/-- One row of a comparison with two inputs. -/
structure CmpRow2 (f : Fmt) where
  input1 : FP f
  input2 : FP f
  out1 : FP f
  out2 : FP f
  diff : Nat

/-- As `Cmp1D`, include/diagnostic/vdtdiag_fcnComparison.h:267-268. -/
structure Cmp2D (f : Fmt) where
  fromFile : Bool
  name : Text
  fileName : Text
  max : Nat
  min : Nat
  mean : F64
  rms : F64
  rows : List (CmpRow2 f)

/-- include/diagnostic/vdtdiag_fcnComparison.h:257-260 -/
def cmpRow2 {f : Fmt} (r : CmpRow2 f) : Text :=
  fpToHex r.input1 ++ fpToHex r.input2 ++ fpToHex r.out1 ++ fpToHex r.out2 ++ printNat 10 r.diff ++ [' '] ++
  printFixed (digits10 f) r.input1 ++ [' '] ++ printFixed (digits10 f) r.input2 ++ ['\n']

/-- include/diagnostic/vdtdiag_fcnComparison.h:242-253 -/
def cmpHeader2 {f : Fmt} (p : Cmp2D f) : Text :=
  cmpPreamble ++ precisionLine f ++ "Comparison specs/function name = ".toList ++ p.name ++ ['\n'] ++
  "Format: input out1 out2 diffbit (decimal)input\nFirst line are stats: Max Min 0xMean 0xRMS\n".toList ++
  printNat 10 p.max ++ [' '] ++ printNat 10 p.min ++ [' '] ++ fpToHex p.mean ++ fpToHex p.rms ++ ['\n']

/-- include/diagnostic/vdtdiag_fcnComparison.h:229-262 -/
def Cmp2D.writeFile {f : Fmt} (p : Cmp2D f) (out : Text) (fs : Fs) : Fs :=
  let fs := fs.truncate out
  if p.fromFile then copyFile cmpPreamble p.fileName out fs
  else fs.append out (cmpHeader2 p ++ p.rows.flatMap cmpRow2)

/-- include/diagnostic/vdtdiag_fcnComparison.h:186-192: the rows. -/
def cmpRow2R (f : Fmt) : Reader (FP f × FP f × FP f × FP f × Nat × FP f × FP f) :=
  (hexR f).and ((hexR f).and ((hexR f).and ((hexR f).and (u16R.and ((floatR f).and (floatR f))))))

/-- include/diagnostic/vdtdiag_fcnComparison.h:169-193 -/
def readCmp2 (f : Fmt) (s : IStream) : Option (Nat × Nat × F64 × F64) × List (CmpRow2 f) :=
  let s := skipLines 5 s
  ((statsR.run s).1, ((cmpRow2R f).all (statsR.run s).2).map fun r => ⟨r.1, r.2.1, r.2.2.1, r.2.2.2.1, r.2.2.2.2.1⟩)

end Vdt.Txt
