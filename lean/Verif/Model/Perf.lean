import Verif.Model.Bench
import Verif.Model.Compare
import Verif.Model.Diag

/-!
# The performance benchmark and the script that tabulates it

Model of `fcnPerformance::print` (`include/diagnostic/vdtdiag_fcnPerformance.h:118-127`), of the program
`progs/vdtPerfBenchmark.cpp` behind its command line and of `scripts/tabulateVDTResults.py`.

The measured times are a parameter: `dt name i` is what the timer returns in round `i` for the function
`name`.  The regular expression of option `-p` is a predicate on names.  Output to the screen is left out.
Python exceptions are `none`.
-/

namespace Vdt.Perf
open FP Txt Rand Diag Bench

local notation "‹" s "›" => String.toList s

/-- `std::setw(n) << std::left`, and `%-ns` of Python. -/
def padRight (n : Nat) (t : Text) : Text := t ++ List.replicate (n - t.length) ' '

/-- `%ns` of Python. -/
def padLeft (n : Nat) (t : Text) : Text := List.replicate (n - t.length) ' ' ++ t

/-- vdtdiag_fcnPerformance.h:118-127 with the default scale. -/
def printLine (name : Text) (t : Timing) : Text :=
  ‹"Function "› ++ padRight 15 name ++ ‹" : "› ++ printFixed 2 t.avg ++ ‹" +- "› ++ printFixed 2 t.err ++ ‹" ns"› ++ ['\n']

/-- One round of calls, if there is any round at all (vdtdiag_fcnPerformance.h:183-204, 230-252): the
address of element zero is taken, then the function is called on all inputs.  All rounds are alike, so
only one is modelled; what the function returns is not used. -/
def rounds (reps : BitVec 32) (size : Nat) (round : Option Unit) : Option Unit :=
  if reps + reps = 0 then some () else if size = 0 then none else round

/-- vdtdiag_fcnPerformance.h:45-57,166-210 -/
def perfScalar {f : Fmt} (reps : BitVec 32) (dt : Text → Nat → BitVec 64) (e : Entry f (Fcn f)) : Option Timing := do
  rounds reps e.input.length ((respScalar e.name e.input e.fcn).map fun _ => ())
  return measure (BitVec.ofNat 32 e.input.length) reps (dt e.name)

/-- vdtdiag_fcnPerformance.h:80-92,261-294.  The results are read back from the array. -/
def perfArray {f : Fmt} (garbage : Nat → FP f) (reps : BitVec 32) (dt : Text → Nat → BitVec 64) (e : Entry f (ArrayFcn f)) :
    Option Timing := do
  rounds reps e.input.length ((respArray garbage e.name e.input e.fcn).map fun _ => ())
  return measure (BitVec.ofNat 32 e.input.length) reps (dt e.name)

/-- vdtdiag_fcnPerformance.h:60-73,213-258 -/
def perfScalar2 {f : Fmt} (reps : BitVec 32) (dt : Text → Nat → BitVec 64) (P : List (FP f) × List (FP f)) (e : Text × Fcn2 f) :
    Option Timing := do
  rounds reps P.1.length ((respScalar2 e.1 P.1 P.2 e.2).map fun _ => ())
  return measure (BitVec.ofNat 32 P.1.length) reps (dt e.1)

/-- vdtdiag_fcnPerformance.h:95-108,298-332 -/
def perfArray2 {f : Fmt} (garbage : Nat → FP f) (reps : BitVec 32) (dt : Text → Nat → BitVec 64) (P : List (FP f) × List (FP f))
    (e : Text × ArrayFcn2 f) : Option Timing := do
  rounds reps P.1.length ((respArray2 garbage e.1 P.1 P.2 e.2).map fun _ => ())
  return measure (BitVec.ofNat 32 P.1.length) reps (dt e.1)

/-- vdtdiag_fcnTuples.h:61-69 -/
def tuples2D64 (R : RefMath b64) : List (Text × Fcn2 b64) :=
  [(‹"Identity2D"›, (some <| identity2D · ·)), (‹"Atan2"›, (some <| R.atan2 · ·)), (‹"Fast_Atan2"›, (some <| Vdt.fast_atan2 · ·))]

/-- vdtdiag_fcnTuples.h:71-79 -/
def tuples2D32 (R : RefMath b32) : List (Text × Fcn2 b32) :=
  [(‹"Identity2Df"›, (some <| identity2D · ·)), (‹"Atan2f"›, (some <| R.atan2 · ·)), (‹"Fast_Atan2f"›, (some <| Vdt.fast_atan2f · ·))]

/-- vdtdiag_fcnTuples.h:82-90 -/
def tuples2Dv64 (R : RefMath b64) : List (Text × ArrayFcn2 b64) :=
  [(‹"Identity2Dv"›, Arr.arrayFn2 (some <| identity2D · ·)), (‹"Atan2v"›, Arr.arrayFn2 (some <| R.atan2 · ·)),
   (‹"Fast_Atan2v"›, Arr.arrayFn2 (some <| Vdt.fast_atan2 · ·))]

/-- vdtdiag_fcnTuples.h:93-101 -/
def tuples2Dv32 (R : RefMath b32) : List (Text × ArrayFcn2 b32) :=
  [(‹"Identity2Dfv"›, Arr.arrayFn2 (some <| identity2D · ·)), (‹"Atan2fv"›, Arr.arrayFn2 (some <| R.atan2 · ·)),
   (‹"Fast_Atan2fv"›, Arr.arrayFn2 (some <| Vdt.fast_atan2f · ·))]

/-- vdtPerfBenchmark.cpp:125-128 -/
def perfPools64 (eng : Engine) (POOL_MIN POOL_MAX : F64) (SIZE : BitVec 32) : Pools b64 :=
  ⟨pool1D eng POOL_MIN POOL_MAX (SIZE.setWidth 64), pool1D eng (lit 0.00001) POOL_MAX (SIZE.setWidth 64),
   pool1D eng (lit (-1)) (lit 1) (SIZE.setWidth 64), pool1D eng (lit (-705)) (lit 705) (SIZE.setWidth 64)⟩

/-- vdtPerfBenchmark.cpp:160-163: the limits are converted to `float`. -/
def perfPools32 (eng : Engine) (POOL_MIN POOL_MAX : F64) (SIZE : BitVec 32) : Pools b32 :=
  ⟨pool1D eng (convert b32 POOL_MIN) (convert b32 POOL_MAX) (SIZE.setWidth 64),
   pool1D eng (convert b32 (lit 0.00001 : F64)) (convert b32 POOL_MAX) (SIZE.setWidth 64),
   pool1D eng (lit (-1)) (lit 1) (SIZE.setWidth 64), pool1D eng (lit (-80)) (lit 80) (SIZE.setWidth 64)⟩

/-- The loops of `main` (vdtPerfBenchmark.cpp:136-140 and the others): the functions whose name matches, in order. -/
def section_ {α : Type} (name : α → Text) (perf : α → Option Timing) (pattern : Text → Bool) (l : List α) : Option Text :=
  (l.filter fun e => pattern (name e)).foldlM (fun out e => do return out ++ printLine (name e) (← perf e)) []

/-- vdtPerfBenchmark.cpp:119 -/
def perfName (nick : Text) : Text := nick ++ ‹"__performance_benchmark.txt"›

/-- vdtPerfBenchmark.cpp:119-235 without Vc. -/
def main (R : RefMath b64) (Rf : RefMath b32) (garbage : Nat → F64) (garbagef : Nat → F32) (eng : Engine)
    (dt : Text → Nat → BitVec 64) (nick : Text) (SIZE REPETITIONS : BitVec 32) (POOL_MIN POOL_MAX : F64) (pattern : Text → Bool)
    (fs : Fs) : Option Fs := do
  let P := perfPools64 eng POOL_MIN POOL_MAX SIZE
  let P2 := poolPairs b64 eng SIZE
  let s1 ← section_ Entry.name (perfScalar REPETITIONS dt) pattern (tuples64 R none P)
  let s2 ← section_ Entry.name (perfArray garbage REPETITIONS dt) pattern (tuplesv64 R none P)
  let Pf := perfPools32 eng POOL_MIN POOL_MAX SIZE
  let P2f := poolPairs b32 eng SIZE
  let s3 ← section_ Entry.name (perfScalar REPETITIONS dt) pattern (tuples32 Rf none Pf)
  let s4 ← section_ Entry.name (perfArray garbagef REPETITIONS dt) pattern (tuplesv32 Rf none Pf)
  let s5 ← section_ Prod.fst (perfScalar2 REPETITIONS dt P2) pattern (tuples2D64 R)
  let s6 ← section_ Prod.fst (perfArray2 garbage REPETITIONS dt P2) pattern (tuples2Dv64 R)
  let s7 ← section_ Prod.fst (perfScalar2 REPETITIONS dt P2f) pattern (tuples2D32 Rf)
  let s8 ← section_ Prod.fst (perfArray2 garbagef REPETITIONS dt P2f) pattern (tuples2Dv32 Rf)
  return (fs.truncate (perfName nick)).append (perfName nick) (s1 ++ s2 ++ s3 ++ s4 ++ s5 ++ s6 ++ s7 ++ s8)

/-! ## `scripts/tabulateVDTResults.py` -/

/-- `for line in file`: the lines of a file (without their line end). -/
def lines (cur : Text) : Text → List Text
  | [] => if cur = [] then [] else [cur]
  | c :: t => if c = '\n' then cur :: lines [] t else lines (cur ++ [c]) t

/-- `line.split()` -/
def words (cur : Text) : Text → List Text
  | [] => if cur = [] then [] else [cur]
  | c :: t => if isSpace c then (if cur = [] then words [] t else cur :: words [] t) else words (cur ++ [c]) t

/-- `float(s)` of Python, for decimal notation without exponent. -/
def pyFloat (s : Text) : Option F64 :=
  let (neg, t) := readSign s
  if t = ‹"nan"› then some FP.nan
  else if t = ‹"inf"› then some (FP.inf neg)
  else
    let (i, d, rest) := splitDecimal t
    if i ++ d = [] ∨ rest ≠ [] then none
    else
      let q : Rat := (digitsVal 10 (i ++ d) : Rat) / (10 ^ d.length : Nat)
      some (FP.ofRat b64 neg (if neg then -q else q))

/-- `[name, time, err]` -/
structure Row where
  name : Text
  time : F64
  err : F64
deriving DecidableEq

/-- tabulateVDTResults.py:7-17 (for one line) -/
def extractLine (line : Text) : Option Row := do
  let w := words [] line
  return ⟨← w[1]?, ← pyFloat (← w[3]?), ← pyFloat (← w[5]?)⟩

/-- tabulateVDTResults.py:7-17 -/
def extractTimings (fs : Fs) (filename : Text) : Option (List Row) := do
  (lines [] (← fs filename)).mapM extractLine

/-- tabulateVDTResults.py:20-34: `offset` and `offsetErr`; the second has no value before the first
identity function (using it raises `UnboundLocalError`). -/
def normaliseFrom (offset : F64) (offsetErr : Option F64) : List Row → Option (List Row)
  | [] => some []
  | r :: rs =>
    if contains ‹"Identity"› r.name then normaliseFrom r.time (some r.err) rs
    else do
      let o ← offsetErr
      let l ← normaliseFrom offset offsetErr rs
      return ⟨r.name, r.time - offset, sqrt (r.err * r.err + o * o)⟩ :: l

/-- tabulateVDTResults.py:20-34 -/
def normaliseTimings (timings : List Row) : Option (List Row) := normaliseFrom (lit (-1)) none timings

/-- tabulateVDTResults.py:36-45 -/
def extractTitleTimings (fs : Fs) (normalise : Bool) (filename : Text) : Option (Text × List Row) := do
  let timings ← extractTimings fs filename
  let title := Compare.before ‹"__"› filename
  let final ← if normalise then normaliseTimings timings else some timings
  return (title, final)

/-- `"%.2f" % x`, `"%.1f" % x` -/
def pyFixed (p : Nat) (x : F64) : Text := if x.isNaN then ‹"nan"› else printFixed p x

/-- `"%.2f +- %.2f" %(time,err)` -/
def pm (time err : F64) : Text := pyFixed 2 time ++ ‹" +- "› ++ pyFixed 2 err

/-- `print a, b, c` (all items end up on one line, separated by one blank) -/
def pyPrint (items : List Text) : Text := (items.intersperse [' ']).flatten ++ ['\n']

/-- `norm/dividend` with a zero dividend replaced (tabulateVDTResults.py:71-73, 126-128) -/
def factor (norm time : F64) : F64 := norm / (if FP.eq time (lit 0) then lit 1 else time)

/-- tabulateVDTResults.py:60-78: line `i` of the summary table. -/
def summaryLine (files : List (Text × List Row)) (name : Text) (i : Nat) : Option Text := do
  let rs ← files.mapM fun p => p.2[i]?
  match rs with
  | [] => return pyPrint [padLeft 16 name]
  | r :: rest =>
    return pyPrint (padLeft 16 name :: padLeft 20 (pm r.time r.err ++ ‹" "›) ::
      rest.map fun s => padLeft 20 (pm s.time s.err ++ ‹" "› ++ pyFixed 1 (factor r.time s.time) ++ ‹"X"›))

/-- tabulateVDTResults.py:48-78 -/
def createSummaryTable (files : List (Text × List Row)) : Option Text := do
  let first ← files.head?
  let head := pyPrint (‹"   Function Name"› :: files.map fun p => padLeft 20 p.1)
  let ls ← (List.range first.2.length).mapM fun i => do summaryLine files (← first.2[i]?).name i
  return head ++ ls.flatten

/-- tabulateVDTResults.py:82-86 -/
def timingsDict (timings : List Row) (name : Text) : Option (F64 × F64) :=
  (timings.reverse.find? fun r => r.name = name).map fun r => (r.time, r.err)

/-- tabulateVDTResults.py:123-131 -/
def vectCell (norm : F64) (funcName : Text) (timings : List Row) : Option Text := do
  let (time, _) ← timingsDict timings (funcName ++ ['v'])
  let (_, err) ← timingsDict timings funcName
  return padLeft 20 (pm time err ++ ‹" "› ++ pyFixed 1 (factor norm time) ++ ‹" X"›)

/-- tabulateVDTResults.py:107-133, one function. -/
def vectLine (files : List (Text × List Row)) (r : Row) : Option Text := do
  if ['v'].isSuffixOf r.name then return []
  let cells ← files.mapM fun p => vectCell r.time r.name p.2
  return pyPrint (padLeft 16 r.name :: padLeft 20 (pm r.time r.err) :: cells)

/-- tabulateVDTResults.py:89-133 -/
def createVectTable (files : List (Text × List Row)) : Option Text := do
  let first ← files.head?
  let head := pyPrint (‹"   Function Name"› :: padLeft 20 first.1 :: files.map fun p => padLeft 20 (p.1 ++ ‹" vect."›))
  let ls ← first.2.mapM (vectLine files)
  return head ++ ls.flatten

/-- `s.replace("Inverse","Inv")` for text in which the pattern occurs at most once. -/
def replaceInverse : Text → Text
  | [] => []
  | c :: t => if ‹"Inverse"›.isPrefixOf (c :: t) then ‹"Inv"› ++ (c :: t).drop 7 else c :: replaceInverse t

/-- tabulateVDTResults.py:147-161, one function; dividing by zero raises an exception. -/
def libmLine (timings : List Row) (r : Row) : Option Text := do
  if ‹"Fast_"›.isPrefixOf r.name || ['v'].isSuffixOf r.name then return []
  let vdtName := replaceInverse (‹"Fast_"› ++ r.name)
  let (vdtTime, vdtErr) ← timingsDict timings vdtName
  if FP.eq vdtTime (lit 0) then none
  let speedup := r.time / vdtTime
  return pyPrint [padLeft 16 r.name, padLeft 20 (pm r.time r.err), padLeft 20 (pm vdtTime vdtErr ++ ‹" "› ++ pyFixed 1 speedup ++ ‹"X"›)]

/-- tabulateVDTResults.py:136-161 -/
def createLibmVdtTable (title : Text) (timings : List Row) : Option Text := do
  let head := ‹"--------- "› ++ title ++ ‹" Scalar Calls ----------"› ++ ['\n'] ++
    pyPrint [padLeft 16 ‹"Function Name"›, padLeft 16 ‹"Libm"›, padLeft 16 ‹"VDT"›]
  let ls ← timings.mapM (libmLine timings)
  return head ++ ls.flatten

end Vdt.Perf
