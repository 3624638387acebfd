import Verif.Float.Basic
import Verif.Model.Common

/-!
# Text streams and files

The part of the C++ stream library that `include/diagnostic/` uses, on lists of characters:
`std::getline`, `operator>>` for unsigned integers in base 10 and 16 and for floating point numbers,
`operator<<` for unsigned integers in base 10 and 16 and for floating point numbers with
`std::fixed`.  The rules are those of the C++ standard ([istream.formatted],
[facet.num.get.virtuals]) in the "C" locale as libstdc++ implements them.

Simplifications: `eofbit` is not kept, because every operation of the modelled code on an exhausted
stream fails; disks never fill up and every file can be opened for writing; file names are byte
strings and two names denote the same file exactly if they are equal.
-/

namespace Vdt.Txt
open FP

abbrev Text := List Char

/-- An `std::istream`: the characters not read yet and the `failbit`. -/
structure IStream where
  rest : Text
  fail : Bool
  deriving DecidableEq

/-- `std::isspace` in the "C" locale. -/
def isSpace (c : Char) : Bool :=
  c == ' ' || c == '\t' || c == '\n' || c == '\r' || c == Char.ofNat 11 || c == Char.ofNat 12

/-- Skipping of white space in front of a formatted read. -/
def skipws (t : Text) : Text := t.dropWhile isSpace

/-- The value of a digit character in any base up to 16. -/
def digitVal (c : Char) : Option Nat :=
  let n := c.toNat
  if 48 ≤ n ∧ n ≤ 57 then some (n - 48)
  else if 97 ≤ n ∧ n ≤ 102 then some (n - 87)
  else if 65 ≤ n ∧ n ≤ 70 then some (n - 55)
  else none

/-- The digit character of a value below 16, lower case as `std::nouppercase` demands. -/
def digitChar (n : Nat) : Char := if n < 10 then Char.ofNat (48 + n) else Char.ofNat (87 + n)

def isDigit (base : Nat) (c : Char) : Bool :=
  match digitVal c with
  | some d => decide (d < base)
  | none => false

/-- `operator<<` for unsigned integers: no prefix, no leading zeros. -/
def printNat (base : Nat) (n : Nat) : Text :=
  if h : 2 ≤ base ∧ base ≤ n then printNat base (n / base) ++ [digitChar (n % base)]
  else [digitChar n]
termination_by n
decreasing_by exact Nat.div_lt_self (by omega) (by omega)

/-- Value of a list of digits, most significant first. -/
def digitsVal (base : Nat) (ds : Text) : Nat :=
  ds.foldl (fun a c => a * base + (digitVal c).getD 0) 0

/-- An optional sign: whether it was `-`, and the remaining characters. -/
def readSign : Text → Bool × Text
  | '-' :: t => (true, t)
  | '+' :: t => (false, t)
  | t => (false, t)

/-- The optional prefix `0x` or `0X` of base 16. -/
def skipPrefix (base : Nat) (t : Text) : Text :=
  match t with
  | '0' :: 'x' :: t' => if base = 16 then t' else t
  | '0' :: 'X' :: t' => if base = 16 then t' else t
  | _ => t

/-- `operator>>` for an unsigned integer of `bits` bits with the stream's base set to `base`.  The
answer is `none` if the read fails: nothing to read, no digit, or the number is out of range (a `-`
negates modulo `2^bits`). -/
def readUInt (base bits : Nat) (s : IStream) : Option Nat × IStream :=
  if s.fail then (none, s) else
  let t := skipws s.rest
  let (neg, t) := readSign t
  let t := skipPrefix base t
  let ds := t.takeWhile (isDigit base)
  let rest := t.dropWhile (isDigit base)
  let v := digitsVal base ds
  if ds = [] then (none, ⟨rest, true⟩)
  else if 2 ^ bits ≤ v then (none, ⟨rest, true⟩)
  else (some (if neg then (2 ^ bits - v) % 2 ^ bits else v), ⟨rest, false⟩)

/-- `std::getline`; the line itself is not used by the modelled code. -/
def getline (s : IStream) : IStream :=
  if s.fail then s else
  match s.rest with
  | [] => ⟨[], true⟩
  | t => ⟨(t.dropWhile (· != '\n')).drop 1, false⟩

/-- A number of header lines skipped. -/
def skipLines : Nat → IStream → IStream
  | 0, s => s
  | n + 1, s => skipLines n (getline s)

/-- The value printed with a fixed number `p` of decimals: `|x| 10^p` rounded to the nearest
integer, ties to even. -/
def fixedScaled (p : Nat) (q : Rat) : Nat := rne (q * (10 ^ p : Nat))

/-- Pads a digit string with zeros on the left to at least `n` characters. -/
def padZero (n : Nat) (t : Text) : Text := List.replicate (n - t.length) '0' ++ t

/-- `operator<<` of a floating point number with `std::fixed` and precision `p > 0`. -/
def printFixed {f : Fmt} (p : Nat) (x : FP f) : Text :=
  (if x.sign then ['-'] else []) ++
  (if x.isNaN then "nan".toList
   else if x.isInf then "inf".toList
   else
    let n := fixedScaled p (FP.abs x).val
    printNat 10 (n / 10 ^ p) ++ '.' :: padZero p (printNat 10 (n % 10 ^ p)))

/-- The longest prefix of the form digits `.` digits, without exponent: integer digits, fraction
digits, the rest. -/
def splitDecimal (t : Text) : Text × Text × Text :=
  let i := t.takeWhile (isDigit 10)
  let r := t.dropWhile (isDigit 10)
  match r with
  | '.' :: r' => (i, r'.takeWhile (isDigit 10), r'.dropWhile (isDigit 10))
  | _ => (i, [], r)

/-- `operator>>` for a floating point number, for text without exponent: `none` if there is no
digit (so also for `nan` and `inf`, which `num_get` does not accept), if an exponent letter follows
(not modelled; the modelled writers never produce one) or if the number overflows. -/
def readFloat (f : Fmt) (s : IStream) : Option (FP f) × IStream :=
  if s.fail then (none, s) else
  let t := skipws s.rest
  let (neg, t) := readSign t
  let (i, d, rest) := splitDecimal t
  if i ++ d = [] then (none, ⟨rest, true⟩)
  else if rest.head? = some 'e' ∨ rest.head? = some 'E' then (none, ⟨rest, true⟩)
  else
    let q : Rat := (digitsVal 10 (i ++ d) : Rat) / (10 ^ d.length : Nat)
    let v := FP.ofRat f neg (if neg then -q else q)
    if v.isInf then (none, ⟨rest, true⟩) else (some v, ⟨rest, false⟩)

/-- The file system: contents of the existing files. -/
abbrev Fs := Text → Option Text

/-- `std::ofstream ofile(name)`: creates or empties the file. -/
def Fs.truncate (fs : Fs) (name : Text) : Fs := Function.update fs name (some [])

/-- Writing to the file opened by `truncate`. -/
def Fs.append (fs : Fs) (name : Text) (t : Text) : Fs :=
  Function.update fs name (some ((fs name).getD [] ++ t))

/-- `std::ifstream ifile(name)`: a stream in failed state if there is no such file. -/
def Fs.open (fs : Fs) (name : Text) : IStream :=
  match fs name with
  | some t => ⟨t, false⟩
  | none => ⟨[], true⟩

/-- include/diagnostic/vdtdiag_filePersistence.h:47-49
`stream << "0x" << setbase(16) << fp2uint(value) << setbase(10) << ' '` -/
def fpToHex {f : Fmt} (x : FP f) : Text := '0' :: 'x' :: (printNat 16 x.toBits.toNat ++ [' '])

/-- include/diagnostic/vdtdiag_filePersistence.h:62-73.  `operator>>` reads a `uint64_t` in base 16,
`getValue` reinterprets its low bits (all 64 for `double`, the low 32 for `float`). -/
def fpFromHex (f : Fmt) (s : IStream) : Option (FP f) × IStream :=
  let (v, s) := readUInt 16 64 s
  (v.map fun v => FP.ofBits (BitVec.ofNat _ v), s)

end Vdt.Txt
