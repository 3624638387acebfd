import Verif.Model.Cmd
import Verif.Model.Persist
import Verif.Model.Diag

/-!
# The comparison of two benchmark runs

Model of `progs/vdtArithmComparison.cpp`, of the constructors of `fcnComparison1D/2D` from outputs
(`include/diagnostic/vdtdiag_fcnComparison.h`, `vdtdiag_interfaces.h`) and of
`scripts/checkAccuracy.py`.  `none` stands for undefined behaviour, a failed assertion or an exception
nobody catches.  Output to the screen is left out; file names are not interpreted (no directories).

Comparing two equal outputs converts `-inf` to `uint16_t`, which is undefined.  To speak about runs in
which this happens the conversion is a parameter `cast`; `Diag.toUInt 16` is the strict one.
-/

namespace Vdt.Compare
open FP Txt Cmd Diag

local notation "‹" s "›" => String.toList s

/-- `s.find(pat) != npos` -/
def contains (pat s : Text) : Bool := s.tails.any (pat.isPrefixOf ·)

/-- `s.substr(0, s.find(pat))` -/
def before (pat : Text) : Text → Text
  | [] => []
  | c :: t => if pat.isPrefixOf (c :: t) then [] else c :: before pat t

/-- `s.substr(pos)` -/
def substr (pos : Nat) (s : Text) : Option Text := if pos ≤ s.length then some (s.drop pos) else none

/-- The text `std::getline` stores in a string that was empty before. -/
def lineText (s : IStream) : Text := if s.fail then [] else s.rest.takeWhile (· != '\n')

/-- include/diagnostic/vdtdiag_helper.h:174-183, with the conversion of line 182 as a parameter. -/
def diffbitOn {f : Fmt} (cast : F64 → Option Nat) (log2 : F64 → F64) (a b : FP f) : Option Nat :=
  let ia := fp2uint64 a
  let ib := fp2uint64 b
  let c := if ia > ib then ia - ib else ib - ia
  cast (log2 (ofNat c.toNat) + lit 1)

/-- include/diagnostic/vdtdiag_interfaces.h:53-69 and vdtdiag_fcnComparison.h:46-51; the rows are those the
loop of `writeFile` (vdtdiag_fcnComparison.h:139-142) picks out of the vectors. -/
def makeCmp {f : Fmt} (cast : F64 → Option Nat) (log2 : F64 → F64) (name : Text) (input out1 out2 : List (FP f)) :
    Option (Cmp1D f) := do
  if out2.length ≠ out1.length then none else
  let diffs ← (out1.zip out2).mapM fun p => diffbitOn cast log2 p.1 p.2
  let s ← calcStats Stats.init diffs
  let rows ← (List.range input.length).mapM fun i => do
    return (⟨← input[i]?, ← out1[i]?, ← out2[i]?, ← diffs[i]?⟩ : CmpRow f)
  return ⟨false, name, ‹"From scratch"›, s.max, s.min, s.mean, s.rms, rows⟩

/-- As `makeCmp` with two inputs (vdtdiag_fcnComparison.h:160-167,256-260). -/
def makeCmp2 {f : Fmt} (cast : F64 → Option Nat) (log2 : F64 → F64) (name : Text) (input1 input2 out1 out2 : List (FP f)) :
    Option (Cmp2D f) := do
  if out2.length ≠ out1.length then none else
  let diffs ← (out1.zip out2).mapM fun p => diffbitOn cast log2 p.1 p.2
  let s ← calcStats Stats.init diffs
  let rows ← (List.range input1.length).mapM fun i => do
    return (⟨← input1[i]?, ← input2[i]?, ← out1[i]?, ← out2[i]?, ← diffs[i]?⟩ : CmpRow2 f)
  return ⟨false, name, ‹"From scratch"›, s.max, s.min, s.mean, s.rms, rows⟩

/-! ### `progs/vdtArithmComparison.cpp` -/

/-- vdtArithmComparison.cpp:115-126: precision (`true` for single) and function name from the header of a
response file.  `npos + 2` is 1, `npos + 1` is 0. -/
def readHeader (s : IStream) : Option (Bool × Text) := do
  let s := getline s
  let singlePrec : Bool := lineText s != ‹"Double Precision"›
  let s := getline s
  let tmp := lineText s
  let tmp ← substr (match find '=' tmp with | some n => n + 2 | none => 1) tmp
  let fcname ← substr (match find '_' tmp with | some n => n + 1 | none => 0) tmp
  return (singlePrec, fcname)

/-- vdtArithmComparison.cpp:142-143,152-153,161-162,171-172 -/
def label (fcname ref test : Text) : Text :=
  fcname ++ ‹" "› ++ before ‹"__"› ref ++ ‹" VS "› ++ before ‹"__"› test

/-- vdtArithmComparison.cpp:148,156,167,175 -/
def outName (nick fcname : Text) : Text := ‹"comparison__"› ++ nick ++ ‹"__"› ++ fcname ++ ‹".txt"›

/-- vdtArithmComparison.cpp:140-157 for `double`, 159-176 for `float`. -/
def compareAs (f : Fmt) (cast : F64 → Option Nat) (log2 : F64 → F64) (nick fcname : Text) (fs : Fs) (ref test : Text) :
    Option Fs := do
  if contains ‹"Atan2"› ref then
    let rref := (Resp2D.ofFile f fs ref).rows
    let rtest := (Resp2D.ofFile f fs test).rows
    let c ← makeCmp2 cast log2 (label fcname ref test) (rref.map (·.1)) (rref.map (·.2.1)) (rref.map (·.2.2)) (rtest.map (·.2.2))
    return c.writeFile (outName nick fcname) fs
  else
    let rref := (Resp1D.ofFile f fs ref).rows
    let rtest := (Resp1D.ofFile f fs test).rows
    let c ← makeCmp cast log2 (label fcname ref test) (rref.map (·.1)) (rref.map (·.2)) (rtest.map (·.2))
    return c.writeFile (outName nick fcname) fs

/-- vdtArithmComparison.cpp:106-178: one round of the loop. -/
def compareFile (cast : F64 → Option Nat) (log2 : F64 → F64) (nick : Text) (fs : Fs) (p : Text × Text) : Option Fs :=
  if fs p.1 = none then some fs else do
  let h ← readHeader (fs.open p.1)
  if fs p.2 = none then return fs
  if h.1 then compareAs b32 cast log2 nick h.2 fs p.1 p.2 else compareAs b64 cast log2 nick h.2 fs p.1 p.2

/-- vdtArithmComparison.cpp:41-182: exit code and file system at the end. -/
def main (cast : F64 → Option Nat) (log2 : F64 → F64) (argv : List Text) (fs : Fs) : Option (Nat × Fs) :=
  let opt := ((Cmd.new.addOption ‹"-n"› ‹"--nick"›).addOption ‹"-R"› ‹"--reference"›).addOption ‹"-T"› ‹"--test"›
  let r := opt.parseCmd argv
  if r.1 = false then some (1, fs) else
  if r.2.isSet ‹"-h"› then some (0, fs) else
  let nick := r.2.getArgument ‹"-n"›
  if nick = [] then some (1, fs) else
  let ref := list2vector (r.2.getArgument ‹"-R"›)
  if ref = [] then some (1, fs) else
  let test := list2vector (r.2.getArgument ‹"-T"›)
  if test = [] then some (1, fs) else
  if test.length ≠ ref.length then some (1, fs) else
  ((ref.zip test).foldlM (compareFile cast log2 nick) fs).map fun fs => (0, fs)

/-! ### `scripts/checkAccuracy.py` -/

/-- scripts/checkAccuracy.py:10-54 -/
def functions : List Text :=
  [‹"Acos"›, ‹"Acosv"›, ‹"Asin"›, ‹"Asinv"›, ‹"Atan"›, ‹"Atanv"›, ‹"Atan2"›, ‹"Atan2v"›, ‹"Cos"›, ‹"Cosv"›, ‹"Exp"›, ‹"Expv"›,
   ‹"Isqrt"›, ‹"Isqrtv"›, ‹"Log"›, ‹"Logv"›, ‹"Sin"›, ‹"Sinv"›, ‹"Tan"›, ‹"Tanv"›, ‹"Tanh"›, ‹"Tanhv"›,
   ‹"Acosf"›, ‹"Acosfv"›, ‹"Asinf"›, ‹"Asinfv"›, ‹"Atanf"›, ‹"Atanfv"›, ‹"Atan2f"›, ‹"Atan2fv"›, ‹"Cosf"›, ‹"Cosfv"›,
   ‹"Expf"›, ‹"Expfv"›, ‹"Isqrtf"›, ‹"Isqrtfv"›, ‹"Logf"›, ‹"Logfv"›, ‹"Sinf"›, ‹"Sinfv"›, ‹"Tanf"›, ‹"Tanfv"›,
   ‹"Tanhf"›, ‹"Tanhfv"›]

/-- scripts/checkAccuracy.py:8,64 -/
def responseFilename (nick fast function : Text) : Text := nick ++ ‹"__"› ++ fast ++ function ++ ‹"__response.txt"›

/-- scripts/checkAccuracy.py:59-65 -/
def getRefs (nick : Text) (fast : Text := []) : Text :=
  let fast := if fast ≠ [] then fast ++ ‹"_"› else fast
  let refstring := functions.foldl (fun s function => s ++ (responseFilename nick fast function ++ ‹","›)) []
  refstring.dropLast

/-- scripts/checkAccuracy.py:67-68 -/
def getTests (nick : Text) : Text := getRefs nick ‹"Fast"›

/-- scripts/checkAccuracy.py:77-80 -/
def command (nick : Text) : Text :=
  ‹"vdtArithmComparison -n="› ++ nick ++ ‹" -T=\""› ++ getTests nick ++ ‹"\" -R=\""› ++ getRefs nick ++ ‹"\""›

/-- The words a shell makes of a line, for lines whose only special characters are blanks and double
quotes.  `cur` is the word being read. -/
def shellWords (quoted : Bool) (cur : Option Text) : Text → List Text
  | [] => cur.toList
  | c :: t =>
    if c = '"' then shellWords (!quoted) (some (cur.getD [])) t
    else if c = ' ' ∧ quoted = false then cur.toList ++ shellWords false none t
    else shellWords quoted (some (cur.getD [] ++ [c])) t

end Vdt.Compare
