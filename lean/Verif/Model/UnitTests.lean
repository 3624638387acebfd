import Verif.Model.Persist

/-!
# The unit tests of the file formats

Model of `progs/units/test_randomPool.cpp`, `test_fcnResponse.cpp` and of the last part of `test_fcnComparison.cpp`.

Simplifications: what goes to `std::cout` is left out; the random numbers, the functions and the decimal notation are parameters; a
comparison object is a parameter (how it is made is the subject of Model/Compare.lean).
-/

namespace Vdt.UnitTests
open Vdt.FP Vdt.Txt

local notation "‹" s "›" => String.toList s

/-- progs/units/test_randomPool.cpp:18-25 and 28-35: make a pool, write it, read it, write what was read under another name. -/
def poolTest {f : Fmt} (dec : FP f → Text) (rng : Nat → FP f) (min max : FP f) (size : BitVec 64) (a b : Text) (fs : Fs) : Fs :=
  let fs := (Pool1D.make rng min max size).writeFile dec a fs
  (Pool1D.ofFile f fs a).writeFile dec b fs

/-- progs/units/test_randomPool.cpp:39-46 and 49-56 -/
def poolTest2 {f : Fmt} (dec : FP f → Text) (rng : Nat → FP f) (minX minY maxX maxY : FP f) (size : BitVec 64) (a b : Text) (fs : Fs) : Option Fs := do
  let fs ← (Pool2D.make rng minX minY maxX maxY size).writeFile dec a fs
  (Pool2D.ofFile f fs a).writeFile dec b fs

/-- progs/units/test_randomPool.cpp:11-58 -/
def randomPool (dec64 : F64 → Text) (dec32 : F32 → Text) (r1 : Nat → F64) (r2 : Nat → F32) (r3 : Nat → F64) (r4 : Nat → F32) (fs : Fs) : Option Fs := do
  let fs := poolTest dec64 r1 (lit 1) (lit 2) 10 ‹"testDpRandomNumbers.txt"› ‹"testDpRandomNumbers_rewritten.txt"› fs
  let fs := poolTest dec32 r2 (-lit 200) (lit 200) 10 ‹"testSpRandomNumbers.txt"› ‹"testSpRandomNumbers_rewritten.txt"› fs
  let fs ← poolTest2 dec64 r3 (lit 1) (lit 2) (lit 4) (lit 7) 10 ‹"testDpRandomNumbers2D.txt"› ‹"testDpRandomNumbers2D_rewritten.txt"› fs
  poolTest2 dec32 r4 (-lit 200) (-lit 1000) (lit 200) (lit 10000) 10 ‹"testSpRandomNumbers2D.txt"› ‹"testSpRandomNumbers2D_rewritten.txt"› fs

/-- progs/units/test_fcnResponse.cpp:21-27 and 30-36: the function on all inputs, written, read and written under another name. -/
def responseTest {f : Fmt} (name : Text) (input : List (FP f)) (fcn : FP f → FP f) (a b : Text) (fs : Fs) : Fs :=
  let fs := (Resp1D.make name input fcn).writeFile a fs
  (Resp1D.ofFile f fs a).writeFile b fs

/-- progs/units/test_fcnResponse.cpp:41-52 and 55-66 -/
def responseTest2 {f : Fmt} (name : Text) (input : List (FP f × FP f)) (fcn : FP f → FP f → FP f) (a b : Text) (fs : Fs) : Fs :=
  let fs := (Resp2D.make name input fcn).writeFile a fs
  (Resp2D.ofFile f fs a).writeFile b fs

/-- progs/units/test_fcnResponse.cpp:16-68 -/
def response (in1 : List F64) (in2 : List F32) (in3 : List (F64 × F64)) (in4 : List (F32 × F32)) (exp : F64 → F64) (expf : F32 → F32)
    (atan2 : F64 → F64 → F64) (atan2f : F32 → F32 → F32) (fs : Fs) : Fs :=
  let fs := responseTest ‹"Exp"› in1 exp ‹"testDpFcnPerf.txt"› ‹"testDpFcnPerf_fromFile.txt"› fs
  let fs := responseTest ‹"Exp"› in2 expf ‹"testSpFcnPerf.txt"› ‹"testSpFcnPerf_fromFile.txt"› fs
  let fs := responseTest2 ‹"Atan2"› in3 atan2 ‹"testDp2FcnPerf.txt"› ‹"testDp2FcnPerf_fromFile.txt"› fs
  responseTest2 ‹"Atan2"› in4 atan2f ‹"testSp2FcnPerf.txt"› ‹"testSp2FcnPerf_fromFile.txt"› fs

/-- progs/units/test_fcnComparison.cpp:31-34 and 47-50: write a comparison and read it. -/
def comparison {f : Fmt} (p : Cmp1D f) (name : Text) (fs : Fs) : Option (Nat × Nat × F64 × F64) × List (CmpRow f) :=
  readCmp f 5 (Fs.open (p.writeFile name fs) name)

/-- progs/units/test_fcnComparison.cpp:70-73: `fcnComparison<float>` is the class for one input
(include/diagnostic/vdtdiag_fcnComparison.h:479-480). -/
def comparison2 (p : Cmp2D b32) (name : Text) (fs : Fs) : Option (Nat × Nat × F64 × F64) × List (CmpRow b32) :=
  readCmp b32 5 (Fs.open (p.writeFile name fs) name)

end Vdt.UnitTests
