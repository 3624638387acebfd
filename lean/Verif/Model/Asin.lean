import Verif.Model.Common

/-! # `include/asin.h` -/

namespace Vdt
open FP details

namespace details
/-- include/asin.h:36-58 -/
def RX1asin : F64 := lit 2.967721961301243206100E-3
def RX2asin : F64 := -lit 5.634242780008963776856E-1
def RX3asin : F64 := lit 6.968710824104713396794E0
def RX4asin : F64 := -lit 2.556901049652824852289E1
def RX5asin : F64 := lit 2.853665548261061424989E1
def SX1asin : F64 := -lit 2.194779531642920639778E1
def SX2asin : F64 := lit 1.470656354026814941758E2
def SX3asin : F64 := -lit 3.838770957603691357202E2
def SX4asin : F64 := lit 3.424398657913078477438E2
def PX1asin : F64 := lit 4.253011369004428248960E-3
def PX2asin : F64 := -lit 6.019598008014123785661E-1
def PX3asin : F64 := lit 5.444622390564711410273E0
def PX4asin : F64 := -lit 1.626247967210700244449E1
def PX5asin : F64 := lit 1.956261983317594739197E1
def PX6asin : F64 := -lit 8.198089802484824371615E0
def QX1asin : F64 := -lit 1.474091372988853791896E1
def QX2asin : F64 := lit 7.049610280856842141659E1
def QX3asin : F64 := -lit 1.471791292232726029859E2
def QX4asin : F64 := lit 1.395105614657485689735E2
def QX5asin : F64 := -lit 4.918853881490881290097E1

/-- include/asin.h:60-71 -/
def getRX (x : F64) : F64 :=
  let rx := RX1asin
  let rx := rx * x
  let rx := rx + RX2asin
  let rx := rx * x
  let rx := rx + RX3asin
  let rx := rx * x
  let rx := rx + RX4asin
  let rx := rx * x
  rx + RX5asin

/-- include/asin.h:72-82 -/
def getSX (x : F64) : F64 :=
  let sx := x
  let sx := sx + SX1asin
  let sx := sx * x
  let sx := sx + SX2asin
  let sx := sx * x
  let sx := sx + SX3asin
  let sx := sx * x
  sx + SX4asin

/-- include/asin.h:84-97 -/
def getPX (x : F64) : F64 :=
  let px := PX1asin
  let px := px * x
  let px := px + PX2asin
  let px := px * x
  let px := px + PX3asin
  let px := px * x
  let px := px + PX4asin
  let px := px * x
  let px := px + PX5asin
  let px := px * x
  px + PX6asin

/-- include/asin.h:99-111 -/
def getQX (x : F64) : F64 :=
  let qx := x
  let qx := qx + QX1asin
  let qx := qx * x
  let qx := qx + QX2asin
  let qx := qx * x
  let qx := qx + QX3asin
  let qx := qx * x
  let qx := qx + QX4asin
  let qx := qx * x
  qx + QX5asin

/-- include/asin.h:127-137: the branch for large arguments. -/
def asinLarge (a : F64) : F64 :=
  let zz := lit 1.0 - a
  let px := getRX zz
  let qx := getSX zz
  let p := zz * px / qx
  let zz := FP.sqrt (zz + zz)
  let z := PIO4 - zz
  let zz := zz * p - MOREBITS
  let z := z - zz
  z + PIO4

/-- include/asin.h:140-144: the branch for small arguments. -/
def asinSmall (a : F64) : F64 :=
  let zz := a * a
  let px := getPX zz
  let qx := getQX zz
  let z := zz * px / qx
  a * z + a

/-- include/asin.h:127-149 on the absolute value. -/
def asinPos (a : F64) : F64 :=
  let z := if FP.lt a (lit 0.625) then asinSmall a else asinLarge a
  if FP.lt a (lit 1e-8) then a else z
end details

/-- include/asin.h:120-153 -/
def fast_asin (x : F64) : F64 :=
  let sign_mask := getSignMask x
  let a := FP.abs x
  dpORuint64 (asinPos a) sign_mask

namespace details
/-- include/asin.h:178-183 -/
def asinfPoly (z x : F32) : F32 :=
  ((((lit 4.2163199048E-2 * z
    + lit 2.4181311049E-2) * z
    + lit 4.5470025998E-2) * z
    + lit 7.4953002686E-2) * z
    + lit 1.6666752422E-1) * z * x
    + x

/-- include/asin.h:160-197 on the absolute value. -/
def asinfPos (a : F32) : F32 :=
  let big := FP.gt a (lit 0.5)
  let flag : BitVec 32 := if big then 1#32 else 0#32
  let z := if big then lit 0.5 * (lit 1 - a) else a * a
  let x := if big then FP.sqrt z else a
  let z := asinfPoly z x
  let tmp := z + z
  let tmp := PIO2F - tmp
  if FP.lt a (lit 1e-4) then a
  else tmp * ofInt flag.toNat + ofInt (1#32 - flag).toNat * z
end details

/-- include/asin.h:157-202 -/
def fast_asinf (x : F32) : F32 :=
  let sign_mask := getSignMaskf x
  let a := FP.abs x
  spORuint32 (asinfPos a) sign_mask

/-- include/asin.h:207 -/
def fast_acos (x : F64) : F64 := PIO2 - fast_asin x

/-- include/asin.h:211 -/
def fast_acosf (x : F32) : F32 := PIO2F - fast_asinf x

end Vdt
