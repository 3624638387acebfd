import Verif.Model.Exp
import Verif.Model.Log
import Verif.Model.Tan
import Verif.Model.Tanh
import Verif.Model.Asin
import Verif.Model.Atan
import Verif.Model.Sqrt

/-!
# Floating-point exceptions

The functions of `include/*.h` once more, each operation together with the exceptions of IEEE 754 it raises.  The library
takes care of them in two places (include/atan2.h:46-48, include/tan.h:119-121) because some programs stop at an exception:
ReleaseNotes.txt, V0.3.4.

* Modelled: invalid operation, division by zero, overflow.  Not modelled: underflow and inexact, which rounding raises all the
  time and at which no program stops.
* Constants are converted when the code is compiled and raise nothing.  NaNs are quiet.
* The order of the operations and the tests are those of the source; a value that is overwritten later has been computed and
  has raised its exceptions (`over`).
* Undefined behaviour is `none`, as in the models of the functions.
-/

namespace Vdt.Fpe
open FP details

/-- The exceptions raised so far. -/
structure Exc where
  invalid : Bool := false
  divByZero : Bool := false
  overflow : Bool := false
deriving DecidableEq

/-- Exceptions of one part of the computation or of the other. -/
def Exc.join (a b : Exc) : Exc := ⟨a.invalid || b.invalid, a.divByZero || b.divByZero, a.overflow || b.overflow⟩

/-- IEEE 754, section 7, for an operation that is not a division: the result is NaN although no operand is; the result is
infinite although the operands are finite. -/
def raised {f : Fmt} (r : FP f) (args : List (FP f)) : Exc :=
  { invalid := r.isNaN && args.all fun a => !a.isNaN
    overflow := r.isInf && args.all FP.isFinite }

/-- The division: an exact infinity from finite operands is a division by zero and not an overflow. -/
def raisedDiv {f : Fmt} (x y : FP f) : Exc :=
  let r := x / y
  { invalid := r.isNaN && !x.isNaN && !y.isNaN
    divByZero := x.isFinite && !x.isZero && y.isZero
    overflow := r.isInf && x.isFinite && y.isFinite && !y.isZero }

/-- The comparisons `<`, `<=`, `>`, `>=` raise the invalid exception if an operand is NaN; `==` and `!=` do not. -/
def raisedCmp {f : Fmt} (x y : FP f) : Exc := { invalid := x.isNaN || y.isNaN }

/-- A computed value and the exceptions raised on the way to it. -/
structure Ev (f : Fmt) where
  res : FP f
  exc : Exc

/-- A constant or a variable. -/
def of {f : Fmt} (x : FP f) : Ev f := ⟨x, {}⟩

namespace Ev
variable {f : Fmt}

instance : Add (Ev f) := ⟨fun a b => ⟨a.res + b.res, (a.exc.join b.exc).join (raised (a.res + b.res) [a.res, b.res])⟩⟩
instance : Sub (Ev f) := ⟨fun a b => ⟨a.res - b.res, (a.exc.join b.exc).join (raised (a.res - b.res) [a.res, b.res])⟩⟩
instance : Mul (Ev f) := ⟨fun a b => ⟨a.res * b.res, (a.exc.join b.exc).join (raised (a.res * b.res) [a.res, b.res])⟩⟩
instance : Div (Ev f) := ⟨fun a b => ⟨a.res / b.res, (a.exc.join b.exc).join (raisedDiv a.res b.res)⟩⟩

/-- `std::sqrt` -/
def sqrt (a : Ev f) : Ev f := ⟨FP.sqrt a.res, a.exc.join (raised (FP.sqrt a.res) [a.res])⟩
/-- A change of the sign or of other bits raises nothing. -/
def map (g : FP f → FP f) (a : Ev f) : Ev f := ⟨g a.res, a.exc⟩
/-- The exceptions of another part of the computation. -/
def also (a : Ev f) (e : Exc) : Ev f := ⟨a.res, a.exc.join e⟩
/-- `a` is computed and then, if the test succeeds, overwritten by `b`. -/
def over (a : Ev f) (t : Bool) (b : Ev f) : Ev f := if t then ⟨b.res, a.exc.join b.exc⟩ else a

end Ev

/-- include/exp.h:70-113; the conversion to float is in `fpfloor` (include/vdtcore_common.h:217-223). -/
def fast_exp (initial_x : F64) : Option (Ev b64) := do
  let t := of LOG2E * of initial_x + of (lit 0.5)
  let px ← fpfloor strict t.res
  let n ← strict.f2i px
  let x := of initial_x - of px * of (lit 6.93145751953125E-1)
  let x := x - of px * of (lit 1.42860682030941723212E-6)
  let xx := x * x
  let p := of PX1exp
  let p := p * xx
  let p := p + of PX2exp
  let p := p * xx
  let p := p + of PX3exp
  let p := p * x
  let q := of QX1exp
  let q := q * xx
  let q := q + of QX2exp
  let q := q * xx
  let q := q + of QX3exp
  let q := q * xx
  let q := q + of QX4exp
  let x := p / (q - p)
  let x := of (lit 1.0) + of (lit 2.0) * x
  let x := x * of (pow2n n)
  let x := x.over (FP.gt initial_x EXP_LIMIT) (of (inf false))
  let x := x.over (FP.lt initial_x (-EXP_LIMIT)) (of (lit 0))
  let conv : Exc := { overflow := (convert b32 t.res).isInf && t.res.isFinite }
  return x.also ((t.exc.join conv).join (raisedCmp initial_x EXP_LIMIT))

/-- include/exp.h:118-151 -/
def fast_expf (initial_x : F32) : Option (Ev b32) := do
  let t := of LOG2EF * of initial_x + of (lit 0.5)
  let z ← fpfloorf strict t.res
  let x := of initial_x - of z * of C1F
  let x := x - of z * of C2F
  let n ← strict.f2i z
  let x2 := x * x
  let z := x * of PX1expf
  let z := z + of PX2expf
  let z := z * x
  let z := z + of PX3expf
  let z := z * x
  let z := z + of PX4expf
  let z := z * x
  let z := z + of PX5expf
  let z := z * x
  let z := z + of PX6expf
  let z := z * x2
  let z := z + (x + of (lit 1.0))
  let n127 ← strict.i32 (n + 0x7f)
  let sh ← strict.shl n127 23
  let z := z * of (uint322sp (BitVec.ofInt 32 sh))
  let z := z.over (FP.gt initial_x MAXLOGF) (of (inf false))
  let z := z.over (FP.lt initial_x MINLOGF) (of (lit 0))
  return z.also (t.exc.join (raisedCmp initial_x MAXLOGF))

/-- include/log.h:43-64 -/
def get_log_px (x : Ev b64) : Ev b64 :=
  let px := of (lit 1.01875663804580931796E-4)
  let px := px * x
  let px := px + of (lit 4.97494994976747001425E-1)
  let px := px * x
  let px := px + of (lit 4.70579119878881725854E0)
  let px := px * x
  let px := px + of (lit 1.44989225341610930846E1)
  let px := px * x
  let px := px + of (lit 1.79368678507819816313E1)
  let px := px * x
  px + of (lit 7.70838733755885391666E0)

/-- include/log.h:66-84 -/
def get_log_qx (x : Ev b64) : Ev b64 :=
  let qx := x
  let qx := qx + of (lit 1.12873587189167450590E1)
  let qx := qx * x
  let qx := qx + of (lit 4.52279145837532221105E1)
  let qx := qx * x
  let qx := qx + of (lit 8.29875266912776603211E1)
  let qx := qx * x
  let qx := qx + of (lit 7.11544750618563894466E1)
  let qx := qx * x
  qx + of (lit 2.31251620126765340583E1)

/-- include/log.h:89-126 -/
def fast_log (x : F64) : Ev b64 :=
  let original_x := x
  let me := getMantExponent x
  let t := FP.gt me.1 SQRTH
  let fe := if t then of me.2 + of (lit 1) else of me.2
  let x := if t then of me.1 else of me.1 + of me.1
  let x := x - of (lit 1.0)
  let px := get_log_px x
  let x2 := x * x
  let px := px * x
  let px := px * x2
  let qx := get_log_qx x
  let res := px / qx
  let res := res - fe * of (lit 2.121944400546905827679e-4)
  let res := res - of (lit 0.5) * x2
  let res := x + res
  let res := res + fe * of (lit 0.693359375)
  let res := res.over (FP.gt original_x LOG_UPPER_LIMIT) (of (inf false))
  let res := res.over (FP.lt original_x LOG_LOWER_LIMIT) (of (-nan))
  res.also ((raisedCmp me.1 SQRTH).join (raisedCmp original_x LOG_UPPER_LIMIT))

/-- include/log.h:147-165 -/
def get_log_poly (x : Ev b32) : Ev b32 :=
  let y := x * of PX1logf
  let y := y + of PX2logf
  let y := y * x
  let y := y + of PX3logf
  let y := y * x
  let y := y + of PX4logf
  let y := y * x
  let y := y + of PX5logf
  let y := y * x
  let y := y + of PX6logf
  let y := y * x
  let y := y + of PX7logf
  let y := y * x
  let y := y + of PX8logf
  let y := y * x
  y + of PX9logf

/-- include/log.h:172-200 -/
def fast_logf (x : F32) : Ev b32 :=
  let original_x := x
  let me := getMantExponentf x
  let t := FP.gt me.1 SQRTHF
  let fe := if t then of me.2 + of (lit 1) else of me.2
  let x := if t then of me.1 else of me.1 + of me.1
  let x := x - of (lit 1.0)
  let x2 := x * x
  let res := get_log_poly x
  let res := res * (x2 * x)
  let res := res + of (-lit 2.12194440e-4) * fe
  let res := res + of (-lit 0.5) * x2
  let res := x + res
  let res := res + of (lit 0.693359375) * fe
  let res := res.over (FP.gt original_x LOGF_UPPER_LIMIT) (of (inf false))
  let res := res.over (FP.lt original_x LOGF_LOWER_LIMIT) (of (-nan))
  res.also ((raisedCmp me.1 SQRTHF).join (raisedCmp original_x LOGF_UPPER_LIMIT))

/-- include/sincos.h:72-85 -/
def get_sin_px (x : Ev b64) : Ev b64 :=
  let px := of C1sin
  let px := px * x
  let px := px + of C2sin
  let px := px * x
  let px := px + of C3sin
  let px := px * x
  let px := px + of C4sin
  let px := px * x
  let px := px + of C5sin
  let px := px * x
  px + of C6sin

/-- include/sincos.h:89-102 -/
def get_cos_px (x : Ev b64) : Ev b64 :=
  let px := of C1cos
  let px := px * x
  let px := px + of C2cos
  let px := px * x
  let px := px + of C3cos
  let px := px * x
  let px := px + of C4cos
  let px := px * x
  let px := px + of C5cos
  let px := px * x
  px + of C6cos

/-- include/sincos.h:121-122 -/
def sin45 (z : Ev b64) : Ev b64 :=
  let zz := z * z
  z + z * zz * get_sin_px zz

/-- include/sincos.h:121, 123 -/
def cos45 (z : Ev b64) : Ev b64 :=
  let zz := z * z
  of (lit 1.0) - zz * of (lit 0.5) + zz * zz * get_cos_px zz

/-- include/sincos.h:132-160 with 107-115 and 119-124; the values of sine and cosine and the exceptions of both. -/
def fast_sincos (xx : F64) : Option (F64 × F64 × Exc) := do
  let a := of (FP.abs xx)
  let t := of ONEOPIO4 * a
  let quad ← quadrant strict (FP.abs xx)
  let y := of (ofInt quad)
  let z := ((a - y * of DP1) - y * of DP2) - y * of DP3
  let j := quad
  let signS := andI j 4
  let j := j - 2
  let signC := andI j 4
  let poly := andI j 2
  let s := sin45 z
  let c := cos45 z
  let e := (t.exc.join (s.exc.join c.exc)).join (raisedCmp xx (lit 0))
  let s1 := if poly = 0 then c.res else s.res
  let c1 := if poly = 0 then s.res else c.res
  let c1 := if signC = 0 then -c1 else c1
  let s1 := if signS ≠ 0 then -s1 else s1
  let s1 := if FP.lt xx (lit 0) then -s1 else s1
  return (s1, c1, e)

/-- include/sincos.h:189-194 -/
def sinf45 (x : Ev b32) : Ev b32 :=
  let z := x * x
  ((of (-lit 1.9515295891E-4) * z + of (lit 8.3321608736E-3)) * z - of (lit 1.6666654611E-1)) * z * x + x

/-- include/sincos.h:189, 196-199 -/
def cosf45 (x : Ev b32) : Ev b32 :=
  let z := x * x
  ((of (lit 2.443315711809948E-005) * z - of (lit 1.388731625493765E-003)) * z
    + of (lit 4.166664568298827E-002)) * z * z - of (lit 0.5) * z + of (lit 1.0)

/-- include/sincos.h:207-233 with 168-179 and 187-200 -/
def fast_sincosf (xx : F32) : Option (F32 × F32 × Exc) := do
  let a := of (FP.abs xx)
  let t := of ONEOPIO4F * a
  let quad ← quadrantf strict (FP.abs xx)
  let y := of (ofInt quad)
  let x := ((a - y * of DP1F) - y * of DP2F) - y * of DP3F
  let j := quad
  let signS := andI j 4
  let j := j - 2
  let signC := andI j 4
  let poly := andI j 2
  let s := sinf45 x
  let c := cosf45 x
  let e := (t.exc.join (s.exc.join c.exc)).join (raisedCmp xx (ofInt 0))
  let s1 := if poly = 0 then c.res else s.res
  let c1 := if poly = 0 then s.res else c.res
  let c1 := if signC = 0 then -c1 else c1
  let s1 := if signS ≠ 0 then -s1 else s1
  let s1 := if FP.lt xx (ofInt 0) then -s1 else s1
  return (s1, c1, e)

/-- include/tan.h:91-112 -/
def tanCore (z : Ev b64) : Ev b64 :=
  let zz := z * z
  let px := of PX1tan
  let px := px * zz
  let px := px + of PX2tan
  let px := px * zz
  let px := px + of PX3tan
  let qx := zz
  let qx := qx + of QX1tan
  let qx := qx * zz
  let qx := qx + of QX2tan
  let qx := qx * zz
  let qx := qx + of QX3tan
  let qx := qx * zz
  let qx := qx + of QX4tan
  (z.over (FP.gt zz.res (lit 1.0e-14)) (z + z * zz * px / qx)).also (zz.exc.join (raisedCmp zz.res (lit 1.0e-14)))

/-- include/tan.h:136-149 -/
def tanfCore (z : Ev b32) : Ev b32 :=
  let zz := z * z
  let r := (((((of (lit 9.38540185543E-3) * zz
      + of (lit 3.11992232697E-3)) * zz
      + of (lit 2.44301354525E-2)) * zz
      + of (lit 5.34112807005E-2)) * zz
      + of (lit 1.33387994085E-1)) * zz
      + of (lit 3.33331568548E-1)) * zz * z
      + z
  (z.over (FP.gt zz.res (lit 1.0e-14)) r).also (zz.exc.join (raisedCmp zz.res (lit 1.0e-14)))

/-- include/tan.h:115-124 and 152-160 -/
def tanFinish {f : Fmt} (xor : FP f → FP f) (x : FP f) (res : Ev f) (quad : Int) : Ev f :=
  let quad := andI quad 2 / 2
  let alt : Int := ((BitVec.ofInt 32 quad) ^^^ 1#32).toInt
  let zeroIfXNonZero : Ev f := of (ofBool (FP.eq x (lit 0)))
  let res := res + zeroIfXNonZero
  let res := of (ofInt quad) * (of (-lit 1) / res) + of (ofInt alt) * res
  res.map xor * (of (lit 1) - zeroIfXNonZero)

/-- include/tan.h:84-126 with 58-66 -/
def fast_tan (x : F64) : Option (Ev b64) := do
  let sign_mask := getSignMask x
  let a := of (FP.abs x)
  let t := of ONEOPIO4 * a
  let quad ← strict.f2i t.res
  let q1 ← strict.i32 (quad + 1)
  let quad := clearLow q1
  let y := of (ofInt quad)
  let z := ((a - y * of DP1tan) - y * of DP2tan) - y * of DP3tan
  return (tanFinish (fun r => dpXORuint64 r sign_mask) x (tanCore z) quad).also t.exc

/-- include/tan.h:130-162 with 70-78 -/
def fast_tanf (x : F32) : Option (Ev b32) := do
  let sign_mask := getSignMaskf x
  let a := of (FP.abs x)
  let t := of ONEOPIO4F * a
  let quad ← strict.f2i t.res
  let q1 ← strict.i32 (quad + 1)
  let quad := clearLow q1
  let y := of (ofInt quad)
  let z := ((a - y * of DP1Ftan) - y * of DP2Ftan) - y * of DP3Ftan
  return (tanFinish (fun r => spXORuint32 r sign_mask) x (tanfCore z) quad).also t.exc

/-- include/tanh.h:51-53 -/
def tanhDouble {f : Fmt} (t : Ev f) : Ev f := of (ofInt 2) * t / (t * t + of (ofInt 1))

/-- include/tanh.h:36-54 -/
def fast_tanh (x : F64) : Ev b64 :=
  if FP.gt (FP.abs x) (lit 20) then of (FP.copysign (lit 1) x)
  else
    let xx := of x * of (lit 0.125)
    let xx2 := xx * xx
    let numer := of (ofInt 135135) + xx2 * (of (ofInt 17325) + xx2 * (of (ofInt 378) + xx2 * of (ofInt 1)))
    let denom := of (ofInt 135135) + xx2 * (of (ofInt 62370) + xx2 * (of (ofInt 3150) + xx2 * of (ofInt 28)))
    let tanh := xx * numer / denom
    let tanh := tanhDouble tanh
    let tanh := tanhDouble tanh
    (tanhDouble tanh).also (raisedCmp x (lit 20))

/-- include/tanh.h:58-70 -/
def fast_tanhf (x : F32) : Ev b32 :=
  if FP.gt (FP.abs x) (lit 9.1) then of (FP.copysign (lit 1) x)
  else
    let xx := of x * of (lit 0.125)
    let xx2 := xx * xx
    let tanh := xx * (xx2 + of (ofInt 15)) / (of (ofInt 6) * xx2 + of (ofInt 15))
    let tanh := tanhDouble tanh
    let tanh := tanhDouble tanh
    (tanhDouble tanh).also (raisedCmp x (lit 9.1))

/-- include/asin.h:60-71 -/
def getRX (x : Ev b64) : Ev b64 :=
  let rx := of RX1asin
  let rx := rx * x
  let rx := rx + of RX2asin
  let rx := rx * x
  let rx := rx + of RX3asin
  let rx := rx * x
  let rx := rx + of RX4asin
  let rx := rx * x
  rx + of RX5asin

/-- include/asin.h:72-82 -/
def getSX (x : Ev b64) : Ev b64 :=
  let sx := x
  let sx := sx + of SX1asin
  let sx := sx * x
  let sx := sx + of SX2asin
  let sx := sx * x
  let sx := sx + of SX3asin
  let sx := sx * x
  sx + of SX4asin

/-- include/asin.h:84-97 -/
def getPX (x : Ev b64) : Ev b64 :=
  let px := of PX1asin
  let px := px * x
  let px := px + of PX2asin
  let px := px * x
  let px := px + of PX3asin
  let px := px * x
  let px := px + of PX4asin
  let px := px * x
  let px := px + of PX5asin
  let px := px * x
  px + of PX6asin

/-- include/asin.h:99-111 -/
def getQX (x : Ev b64) : Ev b64 :=
  let qx := x
  let qx := qx + of QX1asin
  let qx := qx * x
  let qx := qx + of QX2asin
  let qx := qx * x
  let qx := qx + of QX3asin
  let qx := qx * x
  let qx := qx + of QX4asin
  let qx := qx * x
  qx + of QX5asin

/-- include/asin.h:127-137, which is done for every argument. -/
def asinLarge (a : Ev b64) : Ev b64 :=
  let zz := of (lit 1.0) - a
  let px := getRX zz
  let qx := getSX zz
  let p := zz * px / qx
  let zz := (zz + zz).sqrt
  let z := of PIO4 - zz
  let zz := zz * p - of MOREBITS
  let z := z - zz
  z + of PIO4

/-- include/asin.h:140-144 -/
def asinSmall (a : Ev b64) : Ev b64 :=
  let zz := a * a
  let px := getPX zz
  let qx := getQX zz
  let z := zz * px / qx
  a * z + a

/-- include/asin.h:120-153 -/
def fast_asin (x : F64) : Ev b64 :=
  let sign_mask := getSignMask x
  let a := FP.abs x
  let z := asinLarge (of a)
  let z := z.over (FP.lt a (lit 0.625)) (asinSmall (of a))
  let res := z.over (FP.lt a (lit 1e-8)) (of a)
  (res.also (raisedCmp a (lit 0.625))).map fun r => dpORuint64 r sign_mask

/-- include/asin.h:157-202 -/
def fast_asinf (x : F32) : Ev b32 :=
  let sign_mask := getSignMaskf x
  let a := FP.abs x
  let big := FP.gt a (lit 0.5)
  let flag : BitVec 32 := if big then 1#32 else 0#32
  let z := if big then of (lit 0.5) * (of (lit 1) - of a) else of a * of a
  let x := if big then z.sqrt else of a
  let z := ((((of (lit 4.2163199048E-2) * z
    + of (lit 2.4181311049E-2)) * z
    + of (lit 4.5470025998E-2)) * z
    + of (lit 7.4953002686E-2)) * z
    + of (lit 1.6666752422E-1)) * z * x
    + x
  let tmp := z + z
  let tmp := of PIO2F - tmp
  let res := if FP.lt a (lit 1e-4) then (of a).also tmp.exc
    else tmp * of (ofInt flag.toNat) + of (ofInt (1#32 - flag).toNat) * z
  (res.also (raisedCmp a (lit 0.5))).map fun r => spORuint32 r sign_mask

/-- include/asin.h:207 -/
def fast_acos (x : F64) : Ev b64 := of PIO2 - fast_asin x
/-- include/asin.h:211 -/
def fast_acosf (x : F32) : Ev b32 := of PIO2F - fast_asinf x

/-- include/atan.h:38-57 -/
def get_atan_px (x2 : Ev b64) : Ev b64 :=
  let px := of (-lit 8.750608600031904122785E-1)
  let px := px * x2
  let px := px + of (-lit 1.615753718733365076637E1)
  let px := px * x2
  let px := px + of (-lit 7.500855792314704667340E1)
  let px := px * x2
  let px := px + of (-lit 1.228866684490136173410E2)
  let px := px * x2
  px + of (-lit 6.485021904942025371773E1)

/-- include/atan.h:60-79 -/
def get_atan_qx (x2 : Ev b64) : Ev b64 :=
  let qx := x2
  let qx := qx + of (lit 2.485846490142306297962E1)
  let qx := qx * x2
  let qx := qx + of (lit 1.650270098316988542046E2)
  let qx := qx * x2
  let qx := qx + of (lit 4.328810604912902668951E2)
  let qx := qx * x2
  let qx := qx + of (lit 4.853903996359136964868E2)
  let qx := qx * x2
  qx + of (lit 1.945506571482613964425E2)

/-- include/atan.h:93-122 and include/atan2.h:49-80 -/
def atanPos (o : Ev b64) : Ev b64 :=
  let y := PIO4
  let factor := MOREBITSO2
  let x := (o - of (lit 1.0)) / (o + of (lit 1.0))
  let c1 := FP.gt o.res T3PO8
  let y := if c1 then PIO2 else y
  let factor := if c1 then MOREBITS else factor
  let x := x.over c1 (of (-lit 1.0) / o)
  let c2 := FP.le o.res (lit 0.66)
  let y := if c2 then lit 0 else y
  let factor := if c2 then lit 0 else factor
  let x := x.over c2 o
  let x2 := x * x
  let px := get_atan_px x2
  let qx := get_atan_qx x2
  let poq := px / qx
  let res := x * x2 * poq + x
  let res := res + of y
  (res + of factor).also (raisedCmp o.res T3PO8)

/-- include/atan.h:86-125 -/
def fast_atan (x : F64) : Ev b64 :=
  let sign_mask := getSignMask x
  (atanPos (of (FP.abs x))).map fun r => dpORuint64 r sign_mask

/-- include/atan.h:150-154 -/
def atanfPoly (x : Ev b32) : Ev b32 :=
  let x2 := x * x
  (((of (lit 8.05374449538e-2) * x2
    - of (lit 1.38776856032E-1)) * x2
    + of (lit 1.99777106478E-1)) * x2
    - of (lit 3.33329491539E-1)) * x2 * x + x

/-- include/atan.h:129-157 -/
def fast_atanf (xx : F32) : Ev b32 :=
  let sign_mask := getSignMaskf xx
  let x0 := of (FP.abs xx)
  let c1 := FP.gt x0.res (lit 0.4142135623730950)
  let c2 := FP.gt x0.res (lit 2.414213562373095)
  let x := x0.over c1 ((x0 - of (lit 1)) / (x0 + of (lit 1)))
  let y := if c1 then PIO4F else lit 0
  let x := x.over c2 ((of (lit 1) / x0).map fun r => -r)
  let y := if c2 then PIO2F else y
  ((of y + atanfPoly x).also (raisedCmp x0.res (lit 0.4142135623730950))).map fun r => spORuint32 r sign_mask

/-- include/atan2.h:35-91 -/
def fast_atan2 (y x : F64) : Ev b64 :=
  let xx := FP.abs x
  let yy := FP.abs y
  let swap := FP.gt yy xx
  let tmp : F64 := if swap then lit 1 else lit 0.0
  let yx := if swap then (xx, yy) else (yy, xx)
  let e := raisedCmp yy xx
  let yy := yx.1
  let xx := yx.2
  let oneIfXXZero := of (ofBool (FP.eq xx (lit 0)))
  let t := of yy / (of xx + oneIfXXZero)
  let ret := atanPos t
  let ret := ret * (of (lit 1) - oneIfXXZero)
  let ret := ret.over (FP.eq y (ofInt 0)) (of (lit 0.0))
  let ret := ret.over (FP.ne tmp (ofInt 0)) (of PIO2 - ret)
  let ret := ret.over (FP.lt x (ofInt 0)) (of PI - ret)
  (ret.map fun r => if FP.lt y (ofInt 0) then -r else r).also e

/-- include/atan2.h:93-134 -/
def fast_atan2f (y x : F32) : Ev b32 :=
  let xx := FP.abs x
  let yy := FP.abs y
  let swap := FP.gt yy xx
  let tmp : F32 := if swap then lit 1 else lit 0.0
  let yx := if swap then (xx, yy) else (yy, xx)
  let e := raisedCmp yy xx
  let yy := yx.1
  let xx := yx.2
  let oneIfXXZero := of (ofBool (FP.eq xx (lit 0)))
  let t := of yy / of xx
  let big := FP.gt t.res (lit 0.4142135623730950)
  let z := t.over big ((t - of (lit 1)) / (t + of (lit 1)))
  let ret := atanfPoly z
  let ret := ret * (of (lit 1) - oneIfXXZero)
  let ret := ret.over (FP.eq y (lit 0)) (of (lit 0))
  let ret := ret.over big (ret + of PIO4F)
  let ret := ret.over (FP.ne tmp (ofInt 0)) (of PIO2F - ret)
  let ret := ret.over (FP.lt x (lit 0)) (of PIF - ret)
  (ret.map fun r => if FP.lt y (lit 0) then -r else r).also (e.join (raisedCmp t.res (lit 0.4142135623730950)))

/-- include/sqrt.h:46-47 -/
def isqrtLoop {f : Fmt} (x2 : Ev f) : Nat → Ev f → Ev f
  | 0, y => y
  | n + 1, y => isqrtLoop x2 n (y * (of (lit 1.5) - x2 * y * y))

/-- include/sqrt.h:37-50 -/
def fast_isqrt_general (x : F64) (ISQRT_ITERATIONS : Nat) : Ev b64 :=
  let x2 := of x * of (lit 0.5)
  (isqrtLoop x2 ISQRT_ITERATIONS (of (uint642dp (0x5fe6eb50c7aa19f9#64 - (dp2uint64 x >>> 1))))).also x2.exc

/-- include/sqrt.h:68-80 -/
def fast_isqrtf_general (x : F32) (ISQRT_ITERATIONS : Nat) : Ev b32 :=
  let x2 := of x * of (lit 0.5)
  (isqrtLoop x2 ISQRT_ITERATIONS (of (uint322sp (0x5f3759df#32 - (sp2uint32 x >>> 1))))).also x2.exc

/-- include/inv.h:38-43 -/
def fast_inv_general (x : F64) (isqrt_iterations : Nat) : Ev b64 :=
  let sign_mask := getSignMask x
  let r := fast_isqrt_general (FP.abs x) isqrt_iterations
  r * r.map fun r => dpORuint64 r sign_mask

/-- include/inv.h:66-71 -/
def fast_invf_general (x : F32) (isqrt_iterations : Nat) : Ev b32 :=
  let sign_mask := getSignMaskf x
  let r := fast_isqrtf_general (FP.abs x) isqrt_iterations
  r * r.map fun r => spORuint32 r sign_mask

end Vdt.Fpe
