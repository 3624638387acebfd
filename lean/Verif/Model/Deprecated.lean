import Verif.Model.Mersenne
import Verif.Model.Bench
import Verif.Model.Compare

/-!
# The deprecated classes of responses and comparisons

Model of `fcnResponse_old` (`include/diagnostic/vdtdiag_fcnResponse.h:267-391`) and of
`fcnComparison_old` (`include/diagnostic/vdtdiag_fcnComparison.h:273-475`), from which `fcnResponse1D` and
`fcnComparison1D` were derived.  (`randomPool_old` is in `Model/Mersenne.lean`.)

The simplifications are those of the models of the replacements (`Model/Persist.lean`,
`Model/Bench.lean`, `Model/Compare.lean`).
-/

namespace Vdt.Txt
open FP

/-- include/diagnostic/vdtdiag_fcnResponse.h:383-389 -/
structure RespOld (f : Fmt) where
  fromFile : Bool
  fcnName : Text
  fileName : Text
  input : List (FP f)
  output : List (FP f)

/-- include/diagnostic/vdtdiag_fcnResponse.h:274-284 -/
def RespOld.make {f : Fmt} (name : Text) (input : List (FP f)) (fcn : Bench.Fcn f) : Option (RespOld f) := do
  return ⟨false, name, "From Scratch".toList, input, ← input.mapM fcn⟩

/-- include/diagnostic/vdtdiag_fcnResponse.h:289-303: the number of elements is kept in 32 bits. -/
def RespOld.ofArray {f : Fmt} (garbage : Nat → FP f) (name : Text) (input : List (FP f)) (fcnv : Bench.ArrayFcn f) :
    Option (RespOld f) := do
  if input.length = 0 then none else
  let size : BitVec 32 := BitVec.ofNat 32 input.length
  let m ← fcnv size 0 input.length (Bench.respMem garbage input)
  let outs ← (List.range size.toNat).mapM fun i => Arr.load m (input.length + i)
  return ⟨false, name, "From Scratch".toList, input, outs⟩

/-- include/diagnostic/vdtdiag_fcnResponse.h:307-323 -/
def RespOld.ofFile (f : Fmt) (fs : Fs) (name : Text) : RespOld f :=
  let rows := ((hexR f).and (hexR f)).all (skipLines 5 (fs.open name))
  ⟨true, "From ".toList ++ name, name, rows.map Prod.fst, rows.map Prod.snd⟩

/-- include/diagnostic/vdtdiag_fcnResponse.h:342 -/
def respOldPreamble : Text :=
  "VDT function arithmetics performance file (the first 5 lines are the header)\n".toList

/-- include/diagnostic/vdtdiag_fcnResponse.h:341-366; `none` if the loop reads past the outputs. -/
def RespOld.writeFile {f : Fmt} (p : RespOld f) (out : Text) (fs : Fs) : Option Fs := do
  let fs := fs.truncate out
  if p.fromFile then return copyFile respOldPreamble p.fileName out fs else
  let rows ← (List.range p.input.length).mapM fun i => do
    return fpToHex (← p.input[i]?) ++ fpToHex (← p.output[i]?) ++ ['\n']
  return fs.append out (respOldPreamble ++ precisionLine f ++ "Function Name = ".toList ++ p.fcnName ++ ['\n'] ++
    "--\n--\n".toList ++ rows.flatten)

/-- include/diagnostic/vdtdiag_fcnComparison.h:279-299, 445-473: both outputs must have the length of the
input; the vector of differences and the mean are taken over the length of the input. -/
def cmpOldMake {f : Fmt} (cast : F64 → Option Nat) (log2 : F64 → F64) (name : Text) (input out1 out2 : List (FP f)) :
    Option (Cmp1D f) := do
  if input.length ≠ out1.length then none else
  if input.length ≠ out2.length then none else
  let diffs ← (List.range input.length).mapM fun i => do
    Compare.diffbitOn cast log2 (← out1[i]?) (← out2[i]?)
  let s ← Diag.calcStats Diag.Stats.init diffs
  let rows ← (List.range input.length).mapM fun i => do
    return (⟨← input[i]?, ← out1[i]?, ← out2[i]?, ← diffs[i]?⟩ : CmpRow f)
  return ⟨false, name, "From scratch".toList, s.max, s.min, s.mean, s.rms, rows⟩

end Vdt.Txt
