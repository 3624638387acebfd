import Verif.Float.Basic

/-!
# Diagnostics: bit differences, statistics, timer, performance measurement

Model of parts of `include/diagnostic/vdtdiag_helper.h`, `vdtdiag_interfaces.h` and
`vdtdiag_fcnPerformance.h`.  Undefined behaviour (a floating point number converted to an unsigned
type that cannot hold it, `int` overflow) is `none`.  `uint32_t` and `uint64_t` are `BitVec`.
-/

namespace Vdt.Diag
open Vdt.FP

/-- Conversion of a `double` to an unsigned integer type of `w` bits. -/
def toUInt (w : Nat) (x : F64) : Option Nat :=
  if x.isFinite = true ∧ 0 ≤ truncRat x.val ∧ truncRat x.val < 2 ^ w then some (truncRat x.val).toNat else none

/-- Conversion of an unsigned integer to `double`. -/
def ofNat (n : Nat) : F64 := ofRat b64 false n

/-- include/diagnostic/vdtdiag_helper.h:116-127: a `float` occupies the low half of the union of a
little-endian machine, the high half is zero. -/
def fp2uint64 {f : Fmt} (x : FP f) : BitVec 64 := BitVec.ofNat 64 x.toBits.toNat

/-- include/diagnostic/vdtdiag_helper.h:174-183.  `log2` is the function of libm, given as a
parameter. -/
def diffbit {f : Fmt} (log2 : F64 → F64) (a b : FP f) : Option Nat :=
  let ia := fp2uint64 a
  let ib := fp2uint64 b
  let c := if ia > ib then ia - ib else ib - ia
  toUInt 16 (log2 (ofNat c.toNat) + lit 1)

/-! ## Statistics -/

/-- The members of `IfcnComparison` that `m_calcStats` fills
(include/diagnostic/vdtdiag_interfaces.h:108-113). -/
structure Stats where
  mean : F64
  rms : F64
  min : Nat
  max : Nat

/-- include/diagnostic/vdtdiag_interfaces.h:110-113: the initial values. -/
def Stats.init : Stats := ⟨lit 0, lit 0, 255, 0⟩

/-- State of the loop of include/diagnostic/vdtdiag_interfaces.h:129-136 -/
structure Sums where
  x : F64
  x2 : F64
  min : Nat
  max : Nat

/-- include/diagnostic/vdtdiag_interfaces.h:129-136: the body; `bitdiff*bitdiff` is an `int` product. -/
def Sums.step (s : Sums) (d : Nat) : Option Sums :=
  if d * d < 2147483648 then
    some ⟨s.x + ofNat d, s.x2 + ofNat (d * d), if d < s.min then d else s.min, if d > s.max then d else s.max⟩
  else none

/-- include/diagnostic/vdtdiag_interfaces.h:125-145.  `size` is the `uint32_t` of line 138 (the number of
outputs, which is the number of differences). -/
def calcStats (init : Stats) (diffs : List Nat) : Option Stats := do
  let s ← diffs.foldlM Sums.step ⟨lit 0, lit 0, init.min, init.max⟩
  let size : BitVec 32 := BitVec.ofNat 32 diffs.length
  let mean := s.x / ofNat size.toNat
  let rms := if size = 1 then lit (-1) else (s.x2 - ofNat size.toNat * mean * mean) / ofNat (size - 1).toNat
  pure ⟨mean, rms, s.min, s.max⟩

/-- include/diagnostic/vdtdiag_interfaces.h:100 -/
def Stats.hasDifference (s : Stats) : Bool := decide (s.max > 0)

/-- include/diagnostic/vdtdiag_interfaces.h:117-122 -/
def fillBitDiffs {f : Fmt} (log2 : F64 → F64) (out1 out2 : List (FP f)) : Option (List Nat) :=
  (out1.zip out2).mapM fun p => diffbit log2 p.1 p.2

/-! ## Timer -/

/-- `timespec` -/
structure Timespec where
  sec : Int
  nsec : Int

/-- include/diagnostic/vdtdiag_helper.h:379-386.  The differences fit in `long`; the negative ones wrap
when converted to `uint64_t`. -/
def elapsed (t1 t2 : Timespec) : Option Nat :=
  let sec := t2.sec - t1.sec
  let nsec := t2.nsec - t1.nsec
  let e : BitVec 64 := BitVec.ofInt 64 nsec
  toUInt 64 (ofNat e.toNat + lit 1000000000 * FP.ofInt sec)

/-! ## Performance -/

/-- include/diagnostic/vdtdiag_fcnPerformance.h:183-204 (and 230-252, 272-290, 310-328): the loop over the
repetitions; `dt i` is what the timer returns in round `i`. -/
def measureLoop (reps : BitVec 32) (dt : Nat → BitVec 64) : BitVec 64 × BitVec 64 :=
  let warm_up := reps
  (List.range (reps + warm_up).toNat).foldl
    (fun (s : BitVec 64 × BitVec 64) irep =>
      if irep ≥ warm_up.toNat then (s.1 + dt irep, s.2 + dt irep * dt irep) else s) (0, 0)

/-- What `calculate_mean_and_err` computes. -/
structure Timing where
  avg : F64
  rms2 : F64
  err : F64

/-- include/diagnostic/vdtdiag_fcnPerformance.h:344-355 -/
def meanAndErr (t t2 : F64) (iterations : BitVec 64) : Timing :=
  let avg := t / ofNat iterations.toNat
  let rms2 := (t2 - ofNat iterations.toNat * avg * avg) / ofNat (iterations - 1).toNat
  let rms := sqrt rms2
  ⟨avg, rms2, rms / sqrt (ofNat iterations.toNat)⟩

/-- include/diagnostic/vdtdiag_fcnPerformance.h:166-210 (and 213-258, 261-294, 298-332): the product
`size * m_repetitions` is computed in `uint32_t`. -/
def measure (size reps : BitVec 32) (dt : Nat → BitVec 64) : Timing :=
  let s := measureLoop reps dt
  let iterations : BitVec 64 := (size * reps).setWidth 64
  meanAndErr (ofNat s.1.toNat) (ofNat s.2.toNat) iterations

end Vdt.Diag
