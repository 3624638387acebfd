import Verif.Model.Sincos

/-! # `include/tan.h` -/

namespace Vdt
open FP details

namespace details
/-- include/tan.h:38-45 -/
def PX1tan : F64 := -lit 1.30936939181383777646E4
def PX2tan : F64 := lit 1.15351664838587416140E6
def PX3tan : F64 := -lit 1.79565251976484877988E7
def QX1tan : F64 := lit 1.36812963470692954678E4
def QX2tan : F64 := -lit 1.32089234440210967447E6
def QX3tan : F64 := lit 2.50083801823357915839E7
def QX4tan : F64 := -lit 5.38695755929454629881E7

/-- include/tan.h:47-49 -/
def DP1tan : F64 := lit 7.853981554508209228515625E-1
def DP2tan : F64 := lit 7.94662735614792836714E-9
def DP3tan : F64 := lit 3.06161699786838294307E-17

/-- include/tan.h:51-53 -/
def DP1Ftan : F32 := convert b32 (lit 0.78515625 : F64)
def DP2Ftan : F32 := convert b32 (lit 2.4187564849853515625e-4 : F64)
def DP3Ftan : F32 := convert b32 (lit 3.77489497744594108e-8 : F64)

/-- include/tan.h:65 -/
def reduceWithTan (x y : F64) : F64 := ((x - y * DP1tan) - y * DP2tan) - y * DP3tan
/-- include/tan.h:77 -/
def reduceWithTanf (x y : F32) : F32 := ((x - y * DP1Ftan) - y * DP2Ftan) - y * DP3Ftan

/-- include/tan.h:58-66 (its quadrant statements are those of sincos.h:110-111) -/
def reduce2quadranttan {m : Type → Type} [Monad m] (M : Machine m) (x : F64) : m (F64 × Int) := do
  let x := FP.abs x
  let quad ← M.f2i (ONEOPIO4 * x)
  let q1 ← M.i32 (quad + 1)
  let quad := clearLow q1
  let y : F64 := ofInt quad
  return (reduceWithTan x y, quad)

/-- include/tan.h:70-78 -/
def reduce2quadranttanf {m : Type → Type} [Monad m] (M : Machine m) (x : F32) : m (F32 × Int) := do
  let x := FP.abs x
  let quad ← M.f2i (ONEOPIO4F * x)
  let q1 ← M.i32 (quad + 1)
  let quad := clearLow q1
  let y : F32 := ofInt quad
  return (reduceWithTanf x y, quad)

/-- include/tan.h:91-112, the rational approximation on the reduced argument. -/
def tanCore (z : F64) : F64 :=
  let zz := z * z
  let res := z
  if FP.gt zz (lit 1.0e-14) then
    let px := PX1tan
    let px := px * zz
    let px := px + PX2tan
    let px := px * zz
    let px := px + PX3tan
    let qx := zz
    let qx := qx + QX1tan
    let qx := qx * zz
    let qx := qx + QX2tan
    let qx := qx * zz
    let qx := qx + QX3tan
    let qx := qx * zz
    let qx := qx + QX4tan
    z + z * zz * px / qx
  else res

/-- include/tan.h:136-149 -/
def tanfCore (z : F32) : F32 :=
  let zz := z * z
  let res := z
  if FP.gt zz (lit 1.0e-14) then
    (((((lit 9.38540185543E-3 * zz
      + lit 3.11992232697E-3) * zz
      + lit 2.44301354525E-2) * zz
      + lit 5.34112807005E-2) * zz
      + lit 1.33387994085E-1) * zz
      + lit 3.33331568548E-1) * zz * z
      + z
  else res

/-- include/tan.h:115-124 / 152-160: quadrant selection without branches, sign, zero guard. -/
def tanFinish {f : Fmt} (xor : FP f → FP f) (x res : FP f) (quad : Int) : FP f :=
  let quad := andI quad 2 / 2                -- `quad &= 2; quad >>= 1`
  let alt : Int := ((BitVec.ofInt 32 quad) ^^^ 1#32).toInt
  let zeroIfXNonZero : FP f := ofBool (FP.eq x (lit 0))
  let res := res + zeroIfXNonZero
  let res := ofInt quad * (-lit 1 / res) + ofInt alt * res
  xor res * (lit 1 - zeroIfXNonZero)
end details

/-- include/tan.h:84-126 -/
def fast_tanM {m : Type → Type} [Monad m] (M : Machine m) (x : F64) : m F64 := do
  let sign_mask := getSignMask x
  let r ← reduce2quadranttan M x
  let res := tanCore r.1
  return tanFinish (fun r => dpXORuint64 r sign_mask) x res r.2

/-- include/tan.h:130-162 -/
def fast_tanfM {m : Type → Type} [Monad m] (M : Machine m) (x : F32) : m F32 := do
  let sign_mask := getSignMaskf x
  let r ← reduce2quadranttanf M x
  let res := tanfCore r.1
  return tanFinish (fun r => spXORuint32 r sign_mask) x res r.2

/-- Strict C++ semantics: `none` is undefined behaviour. -/
def fast_tan (x : F64) : Option F64 := fast_tanM strict x
def fast_tanf (x : F32) : Option F32 := fast_tanfM strict x

end Vdt
