import Verif.Model.Streams
import Verif.Model.Diag
import Verif.Model.Sqrt
import Verif.Model.Exp
import Verif.Model.Tan
import Verif.Model.Tanh
import Verif.Model.Asin
import Verif.Model.Atan

/-!
# The reports of the unit test programs

Model of the printing part of `include/diagnostic/vdtdiag_helper.h` (lines 129-331) and of three programs in `progs/units`.

Simplifications: `operator<<` for floating-point numbers in default notation is a parameter `dec` that gets the precision of the stream
and the number; the array functions are functions of lists (their memory accesses are the subject of Model/ArrayFns.lean).  A result
`none` stands for undefined behaviour.
-/

namespace Vdt.Report
open Vdt.FP Vdt.Txt Vdt.Diag Vdt.details

local notation "‹" s "›" => String.toList s

/-- `std::bitset<64>::to_string`: the most significant bit comes first (include/diagnostic/vdtdiag_helper.h:131-135,154). -/
def bitString (v : BitVec 64) : Text := (List.range 64).map fun i => if v.getLsbD (63 - i) then '1' else '0'

/-- include/diagnostic/vdtdiag_helper.h:139-169.  All indices are below 64. -/
def getbsasstr {f : Fmt} (x : FP f) : Text :=
  let double := decide (f.eb + f.mb + 1 = 64)
  let offset := if double then 0 else 32
  let expSize := if double then 11 else 8
  let mantSize := if double then 52 else 23
  let s := bitString (fp2uint64 x)
  [s.getD offset ' '] ++ [' '] ++ (List.range' (offset + 1) expSize).map (s.getD · ' ') ++ [' '] ++
    (List.range' (offset + 1 + expSize) mantSize).map (s.getD · ' ')

/-- `std::cout`: its precision and what was written. -/
structure Out where
  prec : Nat
  text : Text

/-- The precision of a stream that nobody has changed is six. -/
def Out.start : Out := ⟨6, []⟩

/-- include/diagnostic/vdtdiag_helper.h:222-231 -/
def printDifferentBit {f : Fmt} (log2 : F64 → F64) (dec : Nat → FP f → Text) (a b : FP f) (showIdentical : Bool) (o : Out) : Option Out := do
  let d ← diffbit log2 a b
  let line := ‹"Different bit between "› ++ dec 10 a ++ ‹" and "› ++ dec 10 b ++ ‹" is "› ++ printNat 10 d ++ ['\n']
  let bits := if showIdentical then getbsasstr a ++ ['\n'] ++ getbsasstr b ++ ['\n', '\n'] else []
  some ⟨10, o.text ++ line ++ bits⟩

/-- include/diagnostic/vdtdiag_helper.h:237-241 -/
def printFuncDiff {f : Fmt} (log2 : F64 → F64) (dec : Nat → FP f → Text) (name : Text) (f1 f2 : FP f → Option (FP f)) (x : FP f) (o : Out) : Option Out := do
  let o : Out := ⟨o.prec, o.text ++ ‹"Function "› ++ name ++ ['('] ++ dec o.prec x ++ [')', '\n']⟩
  printDifferentBit log2 dec (← f1 x) (← f2 x) true o

/-- include/diagnostic/vdtdiag_helper.h:244-248 -/
def printFuncDiff2 {f : Fmt} (log2 : F64 → F64) (dec : Nat → FP f → Text) (name : Text) (f1 f2 : FP f → FP f → Option (FP f)) (x y : FP f) (o : Out) : Option Out := do
  let o : Out := ⟨o.prec, o.text ++ ‹"Function "› ++ name ++ ['('] ++ dec o.prec x ++ [',', ' '] ++ dec o.prec y ++ [')', '\n']⟩
  printDifferentBit log2 dec (← f1 x y) (← f2 x y) true o

/-- include/diagnostic/vdtdiag_helper.h:296-309: the loop over the values. -/
def printFuncDiffs {f : Fmt} (log2 : F64 → F64) (dec : Nat → FP f → Text) (name : Text) (f1 f2 : FP f → Option (FP f)) : List (FP f) → Out → Option Out
  | [], o => some o
  | x :: xs, o => do printFuncDiffs log2 dec name f1 f2 xs (← printFuncDiff log2 dec name f1 f2 x o)

/-- include/diagnostic/vdtdiag_helper.h:315-330 -/
def printFuncDiffs2 {f : Fmt} (log2 : F64 → F64) (dec : Nat → FP f → Text) (name : Text) (f1 f2 : FP f → FP f → Option (FP f)) : List (FP f × FP f) → Out → Option Out
  | [], o => some o
  | x :: xs, o => do printFuncDiffs2 log2 dec name f1 f2 xs (← printFuncDiff2 log2 dec name f1 f2 x.1 x.2 o)

/-- include/diagnostic/vdtdiag_helper.h:264-267: the loop over the results. -/
def printRows {f : Fmt} (log2 : F64 → F64) (dec : Nat → FP f → Text) : List (FP f × FP f × FP f) → Out → Option Out
  | [], o => some o
  | r :: rs, o => do
    let o : Out := ⟨o.prec, o.text ++ ‹"Calculated in "› ++ dec o.prec r.1 ++ ['\n']⟩
    printRows log2 dec rs (← printDifferentBit log2 dec r.2.1 r.2.2 true o)

/-- include/diagnostic/vdtdiag_helper.h:253-270 (274-291 with two arguments is the same with another line in front of each result) -/
def printArrayDiff {f : Fmt} (log2 : F64 → F64) (dec : Nat → FP f → Text) (name : Text) (f1 f2 : List (FP f) → Option (List (FP f))) (xs : List (FP f)) (o : Out) :
    Option Out := do
  let r1 ← f1 xs
  let r2 ← f2 xs
  printRows log2 dec (xs.zip (r1.zip r2)) ⟨o.prec, o.text ++ ‹"Function "› ++ name ++ ['\n']⟩

/-! ## Programs -/

/-- progs/units/fpDifferentBit.cpp:10-16 -/
def fpDifferentBit (log2 : F64 → F64) (dec32 : Nat → F32 → Text) (dec64 : Nat → F64 → Text) : Option Out := do
  let o ← printDifferentBit log2 dec32 (lit 3) (-lit 3) true Out.start
  let o ← printDifferentBit log2 dec64 (lit 123) (lit 123.00001) true o
  printDifferentBit log2 dec32 (lit 4) (lit 4) true o

/-- progs/units/sqrt_test.cpp:21 -/
def sqrtVals : List F64 := [lit 1e200, lit 1.34e101, lit 2, lit 1e-16, lit 0, lit 1e-50, lit 4, lit 10, lit 500, lit 0.1]
/-- progs/units/sqrt_test.cpp:30 -/
def sqrtValsf : List F32 := [lit 87, lit 50, lit 2, lit 1e-5, lit 0, lit 1e-8, lit 4, lit 10, lit 50, lit 95]

/-- progs/units/sqrt_test.cpp:16-37; the array functions apply the scalar ones to the elements. -/
def sqrtTest (log2 : F64 → F64) (dec32 : Nat → F32 → Text) (dec64 : Nat → F64 → Text) : Option Out := do
  let o ← printFuncDiffs log2 dec64 ‹"isqrt"› (some ∘ isqrt) (some ∘ fast_isqrt) sqrtVals Out.start
  let o ← printArrayDiff log2 dec64 ‹"sqrtv"› (some ∘ List.map isqrt) (some ∘ List.map fast_isqrt) sqrtVals o
  let o ← printFuncDiffs log2 dec64 ‹"approx_isqrt"› (some ∘ isqrt) (some ∘ fast_approx_isqrt) sqrtVals o
  let o ← printArrayDiff log2 dec64 ‹"approx_isqrtv"› (some ∘ List.map isqrt) (some ∘ List.map fast_approx_isqrt) sqrtVals o
  let o ← printFuncDiffs log2 dec32 ‹"sqrtf"› (some ∘ isqrtf) (some ∘ fast_isqrtf) sqrtValsf o
  let o ← printArrayDiff log2 dec32 ‹"sqrtvf"› (some ∘ List.map isqrtf) (some ∘ List.map fast_isqrtf) sqrtValsf o
  let o ← printFuncDiffs log2 dec32 ‹"approx_sqrtf"› (some ∘ isqrtf) (some ∘ fast_approx_isqrtf) sqrtValsf o
  printArrayDiff log2 dec32 ‹"approx_sqrtvf"› (some ∘ List.map isqrtf) (some ∘ List.map fast_approx_isqrtf) sqrtValsf o

/-- progs/units/inv_test.cpp:21 -/
def invVals : List F64 := [lit 1e200, lit 1e-17, lit 1, lit 0.5, lit 0.3, -lit 10, -lit 1e300, -lit 0.2, -lit 101, -lit 88]

/-- progs/units/inv_test.cpp:16-22: the program up to the end of its first report. -/
def invTestStart (log2 : F64 → F64) (dec64 : Nat → F64 → Text) : Option Out :=
  printFuncDiffs log2 dec64 ‹"inv"› (some ∘ inv) (some ∘ fast_inv) invVals Out.start

/-! The other programs up to the end of their first report; the function of the C library is a parameter.  Arrays with fewer values than
their size end with zeros. -/

/-- progs/units/exp_test.cpp:16-22 -/
def expTestStart (log2 : F64 → F64) (dec64 : Nat → F64 → Text) (exp : F64 → F64) : Option Out :=
  printFuncDiffs log2 dec64 ‹"exp"› (some ∘ exp) fast_exp [-lit 705, -lit 100, -lit 2, -lit 1e-16, lit 0, lit 1e-50, lit 4, lit 10, lit 500, lit 805] Out.start

/-- progs/units/tan_test.cpp:16-24 -/
def tanTestStart (log2 : F64 → F64) (dec64 : Nat → F64 → Text) (tan : F64 → F64) : Option Out :=
  printFuncDiffs log2 dec64 ‹"tan"› (some ∘ tan) fast_tan [lit 0.01, lit 0.1 + M_PI / lit 4, lit 0.01 + M_PI / lit 2, lit 1176.2 * M_PI, lit 0,
    -M_PI / lit 7.5, M_PI / lit 85, -M_PI / lit 19, M_PI / lit 10, -lit 0.000001] Out.start

/-- progs/units/tanh_test.cpp:16-22 -/
def tanhTestStart (log2 : F64 → F64) (dec64 : Nat → F64 → Text) (tanh : F64 → F64) : Option Out :=
  printFuncDiffs log2 dec64 ‹"tanh"› (some ∘ tanh) (some ∘ fast_tanh) [-lit 1e200, -lit 1e50, -lit 10, -lit 0.1, lit 0, lit 0.3, lit 2.3, lit 1e20, lit 1e303, lit 0] Out.start

/-- progs/units/asin_test.cpp:21 and acos_test.cpp:21 -/
def asinVals : List F64 := [lit 1, lit 0.9, lit 0.8, lit 0.6, lit 1e-200, lit 0, -lit 0.00004, -lit 0.2, -lit 0.8, -lit 0.9999999999]
/-- progs/units/asin_test.cpp:16-22 -/
def asinTestStart (log2 : F64 → F64) (dec64 : Nat → F64 → Text) (asin : F64 → F64) : Option Out :=
  printFuncDiffs log2 dec64 ‹"asin"› (some ∘ asin) (some ∘ fast_asin) asinVals Out.start
/-- progs/units/acos_test.cpp:16-22 -/
def acosTestStart (log2 : F64 → F64) (dec64 : Nat → F64 → Text) (acos : F64 → F64) : Option Out :=
  printFuncDiffs log2 dec64 ‹"acos"› (some ∘ acos) (some ∘ fast_acos) asinVals Out.start

/-- progs/units/atan_test.cpp:16-22 -/
def atanTestStart (log2 : F64 → F64) (dec64 : Nat → F64 → Text) (atan : F64 → F64) : Option Out :=
  printFuncDiffs log2 dec64 ‹"atan"› (some ∘ atan) (some ∘ fast_atan) [-lit 1e200, -lit 1e50, -lit 300, -lit 20, lit 0, lit 13, lit 230, lit 1e20, lit 1e303, lit 0] Out.start

/-- progs/units/atan2_test.cpp:10-17 -/
def atan2TestStart (log2 : F64 → F64) (dec32 : Nat → F32 → Text) (atan2f : F32 → F32 → F32) : Option Out :=
  printFuncDiffs2 log2 dec32 ‹"atan2f"› (fun y x => some (atan2f y x)) (fun y x => some (fast_atan2f y x))
    ([-lit 1e30, -lit 1e19, -lit 300, -lit 20, -lit 0.23, lit 0, lit 13, lit 230, lit 1e20, lit 1e30].zip
      [lit 1e2, lit 1e1, lit 400, lit 20, lit 0.934, lit 0, -lit 21.2, -lit 532, -lit 1e17, -lit 1e29]) Out.start

end Vdt.Report
