import Verif.Model.Perf

/-!
# The histograms of the differing bits

Model of `scripts/diffhisto.py`.  `none` stands for a Python exception.  The ROOT library is outside the
model: a histogram is described by its name, its axes and the values `Fill` was called with.  Colours,
canvases and the messages on the screen are left out.  The nickname is used in a regular expression; it
is taken as plain text here, which is right for letters, digits and underscores.
-/

namespace Vdt.Histo
open FP Txt

local notation "‹" s "›" => String.toList s

/-- `file.readline()`: the line with its end, and what is left of the file. -/
def readline : Text → Text × Text
  | [] => ([], [])
  | c :: t => if c = '\n' then ([c], t) else (c :: (readline t).1, (readline t).2)

/-- scripts/diffhisto.py:8-20 with what is left of the file. -/
def getTypeLength (s : Text) : Option (Nat × Text × Text) :=
  let s := (readline s).2
  match (readline s).1 with
  | [] => none
  | c :: _ => some (if c = 'D' then (64, ‹"double"›, (readline s).2) else (32, ‹"float"›, (readline s).2))

/-- scripts/diffhisto.py:24-38 -/
def getYaxisRange (name : Text) : Int × Int :=
  let r : Int × Int := (-5000, 5000)
  let r := if Compare.contains ‹"Asin"› name || Compare.contains ‹"Acos"› name then (-1, 1) else r
  let r := if Compare.contains ‹"Log"› name || Compare.contains ‹"Isqrt"› name then (0, r.2) else r
  let r := if Compare.contains ‹"Exp"› name then (-705, 705) else r
  if Compare.contains ‹"Expf"› name then (-85, 85) else r

/-- The ways `.*` can match at the beginning of a text: the part matched and the rest, in the order in
which they are tried. -/
def star : Text → List (Text × Text)
  | [] => [([], [])]
  | c :: t => if c = '\n' then [([], c :: t)] else (star t).map (fun p => (c :: p.1, p.2)) ++ [([], c :: t)]

/-- `re.match("comparison__" + nick + "__(.*).txt", filename)`: the group. -/
def nameOf (nick filename : Text) : Option Text :=
  let pre := ‹"comparison__"› ++ nick ++ ‹"__"›
  if pre.isPrefixOf filename then
    (star (filename.drop pre.length)).findSome? fun p =>
      match p.2 with
      | c :: 't' :: 'x' :: 't' :: _ => if c = '\n' then none else some p.1
      | _ => none
  else none

/-- `re.match("(.*) (.*) … (.*)", line)` with `n` blanks: the groups. -/
def groups : Nat → Text → Option (List Text)
  | 0, s => (star s).head?.map fun p => [p.1]
  | n + 1, s => (star s).findSome? fun p =>
      match p.2 with
      | ' ' :: r => (groups n r).map (p.1 :: ·)
      | _ => none

/-- `int(s)` of Python, for texts without white space and underscores. -/
def pyInt (s : Text) : Option Int :=
  let (neg, t) := readSign s
  if t = [] ∨ t.all (isDigit 10) = false then none
  else some (if neg then -(digitsVal 10 t : Int) else digitsVal 10 t)

/-- scripts/diffhisto.py:54-59: the values the two histograms are filled with (bits, input). -/
def fillLine (line : Text) : Option (Int × F64) := do
  let m ← groups 4 line
  let inputval ← Perf.pyFloat (← m[4]?)
  let db ← pyInt (← m[3]?)
  return (db, inputval)

/-- scripts/diffhisto.py:48-59 -/
def fill_histos (s : Text) : Option (List (Int × F64)) := (Perf.lines [] s).mapM fillLine

/-- The pair of histograms of one file: the name of the function, the bits of the type, its name, the
input axis and the fills.  The axis of the bits has `typelength + 1` bins from `-0.5` to
`typelength + 0.5`. -/
structure Histos where
  name : Text
  typelength : Nat
  typeName : Text
  axis : Int × Int
  fills : List (Int × F64)

/-- scripts/diffhisto.py:80-112: one round of the loop. -/
def study (cwd : Fs) (nick filename : Text) : Option Histos := do
  let s ← cwd filename
  let (typelength, typelength_s, s) ← getTypeLength s
  let fcn_name ← nameOf nick filename
  let s := (readline (readline (readline (readline s).2).2).2).2
  return ⟨fcn_name, typelength, typelength_s, getYaxisRange fcn_name, ← fill_histos s⟩

/-- scripts/diffhisto.py:42-44,63-130.  `listing` is `os.listdir(dirname)`; the files are opened in the
working directory. -/
def compare (cwd : Fs) (listing : List Text) (nick : Text) : Option (List Histos) :=
  (listing.filter fun filename => (nameOf nick filename).isSome).mapM (study cwd nick)

/-- What bin `b` (from 1) of a histogram with `n` bins from `lo` to `hi` counts (scripts/diffhisto.py:91-98
and the documentation of ROOT; exact arithmetic, no limit on the contents). -/
def binCount (n : Nat) (lo hi : ℚ) (fills : List ℚ) (b : Nat) : Nat :=
  fills.countP fun x => decide (lo + (b - 1) * ((hi - lo) / n) ≤ x ∧ x < lo + b * ((hi - lo) / n))

end Vdt.Histo
