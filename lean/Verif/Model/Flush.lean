import Verif.Model.Exp
import Verif.Model.Log
import Verif.Model.Tan
import Verif.Model.Tanh
import Verif.Model.Asin
import Verif.Model.Atan
import Verif.Model.Sqrt

/-!
# Arithmetic that flushes small numbers to zero

The functions of `include/*.h` once more, on a processor that replaces subnormal operands and results by zero.  This is how
the library of progs/numpyBootstrap.csh:9 runs: `c++ -Ofast -shared` links start-up code into the library that switches the
processor to this mode for the whole process.

* What is flushed is left open: `Mode` says for every operation whether an operand or a result is replaced, `Mode.Ok` that
  only small ones are.  Processors differ in details (results are inspected before or after rounding).
* Conversions to and from integers, changes of the sign and operations on bit patterns replace nothing (the operand of a
  conversion to an integer is an operand).
* The order of the operations and the tests are those of the source; no contraction and no other freedom of `-Ofast`.
* Undefined behaviour is `none`, as in the models of the functions.
-/

namespace Vdt.Flush
open FP details

/-- The operations whose results may be flushed. -/
inductive Op
  | add | sub | mul | div | sqrt

/-- Which operands and results are replaced; `res` is given the operation, its operands and the rounded result, `cvt` the
operand and the result of a conversion to float. -/
structure Mode where
  arg : ∀ {f : Fmt}, FP f → FP f
  res : ∀ {f : Fmt}, Op → FP f → FP f → FP f → FP f
  cvt : F64 → F32 → F32

/-- Only subnormal operands are replaced, only results up to the smallest normal number, and only by zero of the same sign.
(The smallest normal number is included because a result may be inspected before it is rounded.) -/
structure Mode.Ok (m : Mode) : Prop where
  arg : ∀ {f : Fmt} (x : FP f), m.arg x = x ∨ x.mag < 2 ^ f.mb ∧ m.arg x = zero x.sign
  res : ∀ {f : Fmt} (o : Op) (x y r : FP f), m.res o x y r = r ∨ r.mag ≤ 2 ^ f.mb ∧ m.res o x y r = zero r.sign
  cvt : ∀ (x : F64) (r : F32), m.cvt x r = r ∨ r.mag ≤ 2 ^ b32.mb ∧ m.cvt x r = zero r.sign

/-- Every subnormal operand and every subnormal result is replaced. -/
structure Mode.Full (m : Mode) : Prop extends m.Ok where
  arg_sub : ∀ {f : Fmt} (x : FP f), x.mag < 2 ^ f.mb → m.arg x = zero x.sign
  res_sub : ∀ {f : Fmt} (o : Op) (x y r : FP f), r.mag < 2 ^ f.mb → m.res o x y r = zero r.sign
  cvt_sub : ∀ (x : F64) (r : F32), r.mag < 2 ^ b32.mb → m.cvt x r = zero r.sign

namespace Mode
/-- Comparisons look at the replaced operands. -/
def gt {f : Fmt} (m : Mode) (x y : FP f) : Bool := FP.gt (m.arg x) (m.arg y)
def lt {f : Fmt} (m : Mode) (x y : FP f) : Bool := FP.lt (m.arg x) (m.arg y)
def le {f : Fmt} (m : Mode) (x y : FP f) : Bool := FP.le (m.arg x) (m.arg y)
def eq {f : Fmt} (m : Mode) (x y : FP f) : Bool := FP.eq (m.arg x) (m.arg y)
def ne {f : Fmt} (m : Mode) (x y : FP f) : Bool := FP.ne (m.arg x) (m.arg y)
end Mode

/-- A number in a program that runs in mode `m`. -/
structure Z (m : Mode) (f : Fmt) where
  v : FP f

/-- A constant or a variable. -/
def of {m : Mode} {f : Fmt} (x : FP f) : Z m f := ⟨x⟩

namespace Z
variable {m : Mode} {f : Fmt}

instance : Add (Z m f) := ⟨fun a b => ⟨m.res .add (m.arg a.v) (m.arg b.v) (m.arg a.v + m.arg b.v)⟩⟩
instance : Sub (Z m f) := ⟨fun a b => ⟨m.res .sub (m.arg a.v) (m.arg b.v) (m.arg a.v - m.arg b.v)⟩⟩
instance : Mul (Z m f) := ⟨fun a b => ⟨m.res .mul (m.arg a.v) (m.arg b.v) (m.arg a.v * m.arg b.v)⟩⟩
instance : Div (Z m f) := ⟨fun a b => ⟨m.res .div (m.arg a.v) (m.arg b.v) (m.arg a.v / m.arg b.v)⟩⟩

/-- `std::sqrt` -/
def sqrt (a : Z m f) : Z m f := ⟨m.res .sqrt (m.arg a.v) (m.arg a.v) (FP.sqrt (m.arg a.v))⟩
/-- A change of the sign or of other bits. -/
def map (g : FP f → FP f) (a : Z m f) : Z m f := ⟨g a.v⟩

end Z

/-- include/vdtcore_common.h:217-223 with the conversion to float in `sp2uint32(x)`. -/
def fpfloor (m : Mode) (x : F64) : Option F64 := do
  let ret ← strict.f2i (m.arg x)
  let ret := wrap32 (ret - ((sp2uint32 (m.cvt x (convert b32 (m.arg x))) >>> 31).toNat : Int))
  return ofInt ret

/-- include/vdtcore_common.h:230-235 -/
def fpfloorf (m : Mode) (x : F32) : Option F32 := do
  let ret ← strict.f2i (m.arg x)
  let ret := wrap32 (ret - ((sp2uint32 x >>> 31).toNat : Int))
  return ofInt ret

variable {m : Mode}

/-- include/exp.h:77-78 -/
def expReduce (x px : Z m b64) : Z m b64 :=
  let x := x - px * of (lit 6.93145751953125E-1)
  x - px * of (lit 1.42860682030941723212E-6)

/-- include/exp.h:80-104 -/
def expCore (x : Z m b64) : Z m b64 :=
  let xx := x * x
  let px := of PX1exp
  let px := px * xx
  let px := px + of PX2exp
  let px := px * xx
  let px := px + of PX3exp
  let px := px * x
  let qx := of QX1exp
  let qx := qx * xx
  let qx := qx + of QX2exp
  let qx := qx * xx
  let qx := qx + of QX3exp
  let qx := qx * xx
  let qx := qx + of QX4exp
  let x := px / (qx - px)
  of (lit 1.0) + of (lit 2.0) * x

/-- include/exp.h:70-113 -/
def fast_exp (m : Mode) (initial_x : F64) : Option F64 := do
  let t : Z m b64 := of LOG2E * of initial_x + of (lit 0.5)
  let px ← fpfloor m t.v
  let n ← strict.f2i (m.arg px)
  let x : Z m b64 := expReduce (of initial_x) (of px)
  let x := expCore x
  let x := x * of (pow2n n)
  let x := if m.gt initial_x EXP_LIMIT then of (inf false) else x
  let x := if m.lt initial_x (-EXP_LIMIT) then of (lit 0) else x
  return x.v

/-- include/exp.h:124-125 -/
def expfReduce (x z : Z m b32) : Z m b32 :=
  let x := x - z * of C1F
  x - z * of C2F

/-- include/exp.h:128-141 -/
def expfCore (x : Z m b32) : Z m b32 :=
  let x2 := x * x
  let z := x * of PX1expf
  let z := z + of PX2expf
  let z := z * x
  let z := z + of PX3expf
  let z := z * x
  let z := z + of PX4expf
  let z := z * x
  let z := z + of PX5expf
  let z := z * x
  let z := z + of PX6expf
  let z := z * x2
  z + (x + of (lit 1.0))

/-- include/exp.h:118-151 -/
def fast_expf (m : Mode) (initial_x : F32) : Option F32 := do
  let t : Z m b32 := of LOG2EF * of initial_x + of (lit 0.5)
  let z ← fpfloorf m t.v
  let x : Z m b32 := expfReduce (of initial_x) (of z)
  let n ← strict.f2i (m.arg z)
  let z := expfCore x
  let n127 ← strict.i32 (n + 0x7f)
  let sh ← strict.shl n127 23
  let z := z * of (uint322sp (BitVec.ofInt 32 sh))
  let z := if m.gt initial_x MAXLOGF then of (inf false) else z
  let z := if m.lt initial_x MINLOGF then of (lit 0) else z
  return z.v

/-- include/log.h:43-64 -/
def get_log_px (x : Z m b64) : Z m b64 :=
  let px := of (lit 1.01875663804580931796E-4)
  let px := px * x
  let px := px + of (lit 4.97494994976747001425E-1)
  let px := px * x
  let px := px + of (lit 4.70579119878881725854E0)
  let px := px * x
  let px := px + of (lit 1.44989225341610930846E1)
  let px := px * x
  let px := px + of (lit 1.79368678507819816313E1)
  let px := px * x
  px + of (lit 7.70838733755885391666E0)

/-- include/log.h:66-84 -/
def get_log_qx (x : Z m b64) : Z m b64 :=
  let qx := x
  let qx := qx + of (lit 1.12873587189167450590E1)
  let qx := qx * x
  let qx := qx + of (lit 4.52279145837532221105E1)
  let qx := qx * x
  let qx := qx + of (lit 8.29875266912776603211E1)
  let qx := qx * x
  let qx := qx + of (lit 7.11544750618563894466E1)
  let qx := qx * x
  qx + of (lit 2.31251620126765340583E1)

/-- include/log.h:89-126 -/
def fast_log (m : Mode) (x : F64) : F64 :=
  let original_x := x
  let me := getMantExponent x
  let t := m.gt me.1 SQRTH
  let fe : Z m b64 := if t then of me.2 + of (lit 1) else of me.2
  let x : Z m b64 := if t then of me.1 else of me.1 + of me.1
  let x := x - of (lit 1.0)
  let px := get_log_px x
  let x2 := x * x
  let px := px * x
  let px := px * x2
  let qx := get_log_qx x
  let res := px / qx
  let res := res - fe * of (lit 2.121944400546905827679e-4)
  let res := res - of (lit 0.5) * x2
  let res := x + res
  let res := res + fe * of (lit 0.693359375)
  let res := if m.gt original_x LOG_UPPER_LIMIT then of (inf false) else res
  let res := if m.lt original_x LOG_LOWER_LIMIT then of (-nan) else res
  res.v

/-- include/log.h:147-165 -/
def get_log_poly (x : Z m b32) : Z m b32 :=
  let y := x * of PX1logf
  let y := y + of PX2logf
  let y := y * x
  let y := y + of PX3logf
  let y := y * x
  let y := y + of PX4logf
  let y := y * x
  let y := y + of PX5logf
  let y := y * x
  let y := y + of PX6logf
  let y := y * x
  let y := y + of PX7logf
  let y := y * x
  let y := y + of PX8logf
  let y := y * x
  y + of PX9logf

/-- include/log.h:172-200 -/
def fast_logf (m : Mode) (x : F32) : F32 :=
  let original_x := x
  let me := getMantExponentf x
  let t := m.gt me.1 SQRTHF
  let fe : Z m b32 := if t then of me.2 + of (lit 1) else of me.2
  let x : Z m b32 := if t then of me.1 else of me.1 + of me.1
  let x := x - of (lit 1.0)
  let x2 := x * x
  let res := get_log_poly x
  let res := res * (x2 * x)
  let res := res + of (-lit 2.12194440e-4) * fe
  let res := res + of (-lit 0.5) * x2
  let res := x + res
  let res := res + of (lit 0.693359375) * fe
  let res := if m.gt original_x LOGF_UPPER_LIMIT then of (inf false) else res
  let res := if m.lt original_x LOGF_LOWER_LIMIT then of (-nan) else res
  res.v

/-- include/sincos.h:72-85 -/
def get_sin_px (x : Z m b64) : Z m b64 :=
  let px := of C1sin
  let px := px * x
  let px := px + of C2sin
  let px := px * x
  let px := px + of C3sin
  let px := px * x
  let px := px + of C4sin
  let px := px * x
  let px := px + of C5sin
  let px := px * x
  px + of C6sin

/-- include/sincos.h:89-102 -/
def get_cos_px (x : Z m b64) : Z m b64 :=
  let px := of C1cos
  let px := px * x
  let px := px + of C2cos
  let px := px * x
  let px := px + of C3cos
  let px := px * x
  let px := px + of C4cos
  let px := px * x
  let px := px + of C5cos
  let px := px * x
  px + of C6cos

/-- include/sincos.h:121-122 -/
def sin45 (z : Z m b64) : Z m b64 :=
  let zz := z * z
  z + z * zz * get_sin_px zz

/-- include/sincos.h:121, 123 -/
def cos45 (z : Z m b64) : Z m b64 :=
  let zz := z * z
  of (lit 1.0) - zz * of (lit 0.5) + zz * zz * get_cos_px zz

/-- include/sincos.h:132-160 with 107-115 and 119-124 -/
def fast_sincos (m : Mode) (xx : F64) : Option (F64 × F64) := do
  let a : Z m b64 := of (FP.abs xx)
  let t : Z m b64 := of ONEOPIO4 * a
  let quad ← strict.f2i (m.arg t.v)
  let q1 ← strict.i32 (quad + 1)
  let quad := clearLow q1
  let y := of (ofInt quad)
  let z := ((a - y * of DP1) - y * of DP2) - y * of DP3
  let j := quad
  let signS := andI j 4
  let j := j - 2
  let signC := andI j 4
  let poly := andI j 2
  let s := sin45 z
  let c := cos45 z
  let s1 := if poly = 0 then c.v else s.v
  let c1 := if poly = 0 then s.v else c.v
  let c1 := if signC = 0 then -c1 else c1
  let s1 := if signS ≠ 0 then -s1 else s1
  let s1 := if m.lt xx (lit 0) then -s1 else s1
  return (s1, c1)

/-- include/sincos.h:189-194 -/
def sinf45 (x : Z m b32) : Z m b32 :=
  let z := x * x
  ((of (-lit 1.9515295891E-4) * z + of (lit 8.3321608736E-3)) * z - of (lit 1.6666654611E-1)) * z * x + x

/-- include/sincos.h:189, 196-199 -/
def cosf45 (x : Z m b32) : Z m b32 :=
  let z := x * x
  ((of (lit 2.443315711809948E-005) * z - of (lit 1.388731625493765E-003)) * z
    + of (lit 4.166664568298827E-002)) * z * z - of (lit 0.5) * z + of (lit 1.0)

/-- include/sincos.h:207-233 with 168-179 and 187-200 -/
def fast_sincosf (m : Mode) (xx : F32) : Option (F32 × F32) := do
  let a : Z m b32 := of (FP.abs xx)
  let t : Z m b32 := of ONEOPIO4F * a
  let quad ← strict.f2i (m.arg t.v)
  let q1 ← strict.i32 (quad + 1)
  let quad := clearLow q1
  let y := of (ofInt quad)
  let x := ((a - y * of DP1F) - y * of DP2F) - y * of DP3F
  let j := quad
  let signS := andI j 4
  let j := j - 2
  let signC := andI j 4
  let poly := andI j 2
  let s := sinf45 x
  let c := cosf45 x
  let s1 := if poly = 0 then c.v else s.v
  let c1 := if poly = 0 then s.v else c.v
  let c1 := if signC = 0 then -c1 else c1
  let s1 := if signS ≠ 0 then -s1 else s1
  let s1 := if m.lt xx (ofInt 0) then -s1 else s1
  return (s1, c1)

/-- include/tan.h:91-112 -/
def tanCore (z : Z m b64) : Z m b64 :=
  let zz := z * z
  let px := of PX1tan
  let px := px * zz
  let px := px + of PX2tan
  let px := px * zz
  let px := px + of PX3tan
  let qx := zz
  let qx := qx + of QX1tan
  let qx := qx * zz
  let qx := qx + of QX2tan
  let qx := qx * zz
  let qx := qx + of QX3tan
  let qx := qx * zz
  let qx := qx + of QX4tan
  if m.gt zz.v (lit 1.0e-14) then z + z * zz * px / qx else z

/-- include/tan.h:136-149 -/
def tanfCore (z : Z m b32) : Z m b32 :=
  let zz := z * z
  let r := (((((of (lit 9.38540185543E-3) * zz
      + of (lit 3.11992232697E-3)) * zz
      + of (lit 2.44301354525E-2)) * zz
      + of (lit 5.34112807005E-2)) * zz
      + of (lit 1.33387994085E-1)) * zz
      + of (lit 3.33331568548E-1)) * zz * z
      + z
  if m.gt zz.v (lit 1.0e-14) then r else z

/-- include/tan.h:115-124 and 152-160 -/
def tanFinish {f : Fmt} (xor : FP f → FP f) (x : FP f) (res : Z m f) (quad : Int) : Z m f :=
  let quad := andI quad 2 / 2
  let alt : Int := ((BitVec.ofInt 32 quad) ^^^ 1#32).toInt
  let zeroIfXNonZero : Z m f := of (ofBool (m.eq x (lit 0)))
  let res := res + zeroIfXNonZero
  let res := of (ofInt quad) * (of (-lit 1) / res) + of (ofInt alt) * res
  res.map xor * (of (lit 1) - zeroIfXNonZero)

/-- include/tan.h:84-126 with 58-66 -/
def fast_tan (m : Mode) (x : F64) : Option F64 := do
  let sign_mask := getSignMask x
  let a : Z m b64 := of (FP.abs x)
  let t : Z m b64 := of ONEOPIO4 * a
  let quad ← strict.f2i (m.arg t.v)
  let q1 ← strict.i32 (quad + 1)
  let quad := clearLow q1
  let y := of (ofInt quad)
  let z := ((a - y * of DP1tan) - y * of DP2tan) - y * of DP3tan
  return (tanFinish (fun r => dpXORuint64 r sign_mask) x (tanCore z) quad).v

/-- include/tan.h:130-162 with 70-78 -/
def fast_tanf (m : Mode) (x : F32) : Option F32 := do
  let sign_mask := getSignMaskf x
  let a : Z m b32 := of (FP.abs x)
  let t : Z m b32 := of ONEOPIO4F * a
  let quad ← strict.f2i (m.arg t.v)
  let q1 ← strict.i32 (quad + 1)
  let quad := clearLow q1
  let y := of (ofInt quad)
  let z := ((a - y * of DP1Ftan) - y * of DP2Ftan) - y * of DP3Ftan
  return (tanFinish (fun r => spXORuint32 r sign_mask) x (tanfCore z) quad).v

/-- include/tanh.h:51-53 -/
def tanhDouble {f : Fmt} (t : Z m f) : Z m f := of (ofInt 2) * t / (t * t + of (ofInt 1))

/-- include/tanh.h:36-54 -/
def fast_tanh (m : Mode) (x : F64) : F64 :=
  if m.gt (FP.abs x) (lit 20) then FP.copysign (lit 1) x
  else
    let xx : Z m b64 := of x * of (lit 0.125)
    let xx2 := xx * xx
    let numer := of (ofInt 135135) + xx2 * (of (ofInt 17325) + xx2 * (of (ofInt 378) + xx2 * of (ofInt 1)))
    let denom := of (ofInt 135135) + xx2 * (of (ofInt 62370) + xx2 * (of (ofInt 3150) + xx2 * of (ofInt 28)))
    let tanh := xx * numer / denom
    let tanh := tanhDouble tanh
    let tanh := tanhDouble tanh
    (tanhDouble tanh).v

/-- include/tanh.h:58-70 -/
def fast_tanhf (m : Mode) (x : F32) : F32 :=
  if m.gt (FP.abs x) (lit 9.1) then FP.copysign (lit 1) x
  else
    let xx : Z m b32 := of x * of (lit 0.125)
    let xx2 := xx * xx
    let tanh := xx * (xx2 + of (ofInt 15)) / (of (ofInt 6) * xx2 + of (ofInt 15))
    let tanh := tanhDouble tanh
    let tanh := tanhDouble tanh
    (tanhDouble tanh).v

/-- include/asin.h:60-71 -/
def getRX (x : Z m b64) : Z m b64 :=
  let rx := of RX1asin
  let rx := rx * x
  let rx := rx + of RX2asin
  let rx := rx * x
  let rx := rx + of RX3asin
  let rx := rx * x
  let rx := rx + of RX4asin
  let rx := rx * x
  rx + of RX5asin

/-- include/asin.h:72-82 -/
def getSX (x : Z m b64) : Z m b64 :=
  let sx := x
  let sx := sx + of SX1asin
  let sx := sx * x
  let sx := sx + of SX2asin
  let sx := sx * x
  let sx := sx + of SX3asin
  let sx := sx * x
  sx + of SX4asin

/-- include/asin.h:84-97 -/
def getPX (x : Z m b64) : Z m b64 :=
  let px := of PX1asin
  let px := px * x
  let px := px + of PX2asin
  let px := px * x
  let px := px + of PX3asin
  let px := px * x
  let px := px + of PX4asin
  let px := px * x
  let px := px + of PX5asin
  let px := px * x
  px + of PX6asin

/-- include/asin.h:99-111 -/
def getQX (x : Z m b64) : Z m b64 :=
  let qx := x
  let qx := qx + of QX1asin
  let qx := qx * x
  let qx := qx + of QX2asin
  let qx := qx * x
  let qx := qx + of QX3asin
  let qx := qx * x
  let qx := qx + of QX4asin
  let qx := qx * x
  qx + of QX5asin

/-- include/asin.h:127-137, which is done for every argument. -/
def asinLarge (a : Z m b64) : Z m b64 :=
  let zz := of (lit 1.0) - a
  let px := getRX zz
  let qx := getSX zz
  let p := zz * px / qx
  let zz := (zz + zz).sqrt
  let z := of PIO4 - zz
  let zz := zz * p - of MOREBITS
  let z := z - zz
  z + of PIO4

/-- include/asin.h:140-144 -/
def asinSmall (a : Z m b64) : Z m b64 :=
  let zz := a * a
  let px := getPX zz
  let qx := getQX zz
  let z := zz * px / qx
  a * z + a

/-- include/asin.h:120-153 -/
def fast_asin (m : Mode) (x : F64) : F64 :=
  let sign_mask := getSignMask x
  let a := FP.abs x
  let z := asinLarge (of a : Z m b64)
  let z := if m.lt a (lit 0.625) then asinSmall (of a) else z
  let res := if m.lt a (lit 1e-8) then of a else z
  dpORuint64 res.v sign_mask

/-- include/asin.h:157-202 -/
def fast_asinf (m : Mode) (x : F32) : F32 :=
  let sign_mask := getSignMaskf x
  let a := FP.abs x
  let big := m.gt a (lit 0.5)
  let flag : BitVec 32 := if big then 1#32 else 0#32
  let z : Z m b32 := if big then of (lit 0.5) * (of (lit 1) - of a) else of a * of a
  let x := if big then z.sqrt else of a
  let z := ((((of (lit 4.2163199048E-2) * z
    + of (lit 2.4181311049E-2)) * z
    + of (lit 4.5470025998E-2)) * z
    + of (lit 7.4953002686E-2)) * z
    + of (lit 1.6666752422E-1)) * z * x
    + x
  let tmp := z + z
  let tmp := of PIO2F - tmp
  let res := if m.lt a (lit 1e-4) then of a
    else tmp * of (ofInt flag.toNat) + of (ofInt (1#32 - flag).toNat) * z
  spORuint32 res.v sign_mask

/-- include/asin.h:207 -/
def fast_acos (m : Mode) (x : F64) : F64 := (of PIO2 - of (fast_asin m x) : Z m b64).v
/-- include/asin.h:211 -/
def fast_acosf (m : Mode) (x : F32) : F32 := (of PIO2F - of (fast_asinf m x) : Z m b32).v

/-- include/atan.h:38-57 -/
def get_atan_px (x2 : Z m b64) : Z m b64 :=
  let px := of (-lit 8.750608600031904122785E-1)
  let px := px * x2
  let px := px + of (-lit 1.615753718733365076637E1)
  let px := px * x2
  let px := px + of (-lit 7.500855792314704667340E1)
  let px := px * x2
  let px := px + of (-lit 1.228866684490136173410E2)
  let px := px * x2
  px + of (-lit 6.485021904942025371773E1)

/-- include/atan.h:60-79 -/
def get_atan_qx (x2 : Z m b64) : Z m b64 :=
  let qx := x2
  let qx := qx + of (lit 2.485846490142306297962E1)
  let qx := qx * x2
  let qx := qx + of (lit 1.650270098316988542046E2)
  let qx := qx * x2
  let qx := qx + of (lit 4.328810604912902668951E2)
  let qx := qx * x2
  let qx := qx + of (lit 4.853903996359136964868E2)
  let qx := qx * x2
  qx + of (lit 1.945506571482613964425E2)

/-- include/atan.h:93-122 and include/atan2.h:49-80 -/
def atanPos (o : Z m b64) : Z m b64 :=
  let y := PIO4
  let factor := MOREBITSO2
  let x := (o - of (lit 1.0)) / (o + of (lit 1.0))
  let c1 := m.gt o.v T3PO8
  let y := if c1 then PIO2 else y
  let factor := if c1 then MOREBITS else factor
  let x := if c1 then of (-lit 1.0) / o else x
  let c2 := m.le o.v (lit 0.66)
  let y := if c2 then lit 0 else y
  let factor := if c2 then lit 0 else factor
  let x := if c2 then o else x
  let x2 := x * x
  let px := get_atan_px x2
  let qx := get_atan_qx x2
  let poq := px / qx
  let res := x * x2 * poq + x
  let res := res + of y
  res + of factor

/-- include/atan.h:86-125 -/
def fast_atan (m : Mode) (x : F64) : F64 :=
  let sign_mask := getSignMask x
  dpORuint64 (atanPos (of (FP.abs x) : Z m b64)).v sign_mask

/-- include/atan.h:150-154 -/
def atanfPoly (x : Z m b32) : Z m b32 :=
  let x2 := x * x
  (((of (lit 8.05374449538e-2) * x2
    - of (lit 1.38776856032E-1)) * x2
    + of (lit 1.99777106478E-1)) * x2
    - of (lit 3.33329491539E-1)) * x2 * x + x

/-- include/atan.h:129-157 -/
def fast_atanf (m : Mode) (xx : F32) : F32 :=
  let sign_mask := getSignMaskf xx
  let x0 : Z m b32 := of (FP.abs xx)
  let c1 := m.gt x0.v (lit 0.4142135623730950)
  let c2 := m.gt x0.v (lit 2.414213562373095)
  let x := if c1 then (x0 - of (lit 1)) / (x0 + of (lit 1)) else x0
  let y := if c1 then PIO4F else lit 0
  let x := if c2 then (of (lit 1) / x0).map fun r => -r else x
  let y := if c2 then PIO2F else y
  spORuint32 (of y + atanfPoly x).v sign_mask

/-- include/atan2.h:35-91 -/
def fast_atan2 (m : Mode) (y x : F64) : F64 :=
  let xx := FP.abs x
  let yy := FP.abs y
  let swap := m.gt yy xx
  let tmp : F64 := if swap then lit 1 else lit 0.0
  let yx := if swap then (xx, yy) else (yy, xx)
  let yy := yx.1
  let xx := yx.2
  let oneIfXXZero : Z m b64 := of (ofBool (m.eq xx (lit 0)))
  let t : Z m b64 := of yy / (of xx + oneIfXXZero)
  let ret := atanPos t
  let ret := ret * (of (lit 1) - oneIfXXZero)
  let ret := if m.eq y (ofInt 0) then of (lit 0.0) else ret
  let ret := if m.ne tmp (ofInt 0) then of PIO2 - ret else ret
  let ret := if m.lt x (ofInt 0) then of PI - ret else ret
  if m.lt y (ofInt 0) then -ret.v else ret.v

/-- include/atan2.h:93-134 -/
def fast_atan2f (m : Mode) (y x : F32) : F32 :=
  let xx := FP.abs x
  let yy := FP.abs y
  let swap := m.gt yy xx
  let tmp : F32 := if swap then lit 1 else lit 0.0
  let yx := if swap then (xx, yy) else (yy, xx)
  let yy := yx.1
  let xx := yx.2
  let oneIfXXZero : Z m b32 := of (ofBool (m.eq xx (lit 0)))
  let t : Z m b32 := of yy / of xx
  let big := m.gt t.v (lit 0.4142135623730950)
  let z := if big then (t - of (lit 1)) / (t + of (lit 1)) else t
  let ret := atanfPoly z
  let ret := ret * (of (lit 1) - oneIfXXZero)
  let ret := if m.eq y (lit 0) then of (lit 0) else ret
  let ret := if big then ret + of PIO4F else ret
  let ret := if m.ne tmp (ofInt 0) then of PIO2F - ret else ret
  let ret := if m.lt x (lit 0) then of PIF - ret else ret
  if m.lt y (lit 0) then -ret.v else ret.v

/-- include/sqrt.h:46-47 -/
def isqrtLoop {f : Fmt} (x2 : Z m f) : Nat → Z m f → Z m f
  | 0, y => y
  | n + 1, y => isqrtLoop x2 n (y * (of (lit 1.5) - x2 * y * y))

/-- include/sqrt.h:37-50 -/
def fast_isqrt_general (m : Mode) (x : F64) (ISQRT_ITERATIONS : Nat) : Z m b64 :=
  let x2 : Z m b64 := of x * of (lit 0.5)
  isqrtLoop x2 ISQRT_ITERATIONS (of (uint642dp (0x5fe6eb50c7aa19f9#64 - (dp2uint64 x >>> 1))))

/-- include/sqrt.h:68-80 -/
def fast_isqrtf_general (m : Mode) (x : F32) (ISQRT_ITERATIONS : Nat) : Z m b32 :=
  let x2 : Z m b32 := of x * of (lit 0.5)
  isqrtLoop x2 ISQRT_ITERATIONS (of (uint322sp (0x5f3759df#32 - (sp2uint32 x >>> 1))))

/-- include/inv.h:38-43 -/
def fast_inv_general (m : Mode) (x : F64) (isqrt_iterations : Nat) : Z m b64 :=
  let sign_mask := getSignMask x
  let r := fast_isqrt_general m (FP.abs x) isqrt_iterations
  r * r.map fun r => dpORuint64 r sign_mask

/-- include/inv.h:66-71 -/
def fast_invf_general (m : Mode) (x : F32) (isqrt_iterations : Nat) : Z m b32 :=
  let sign_mask := getSignMaskf x
  let r := fast_isqrtf_general m (FP.abs x) isqrt_iterations
  r * r.map fun r => spORuint32 r sign_mask

end Vdt.Flush
