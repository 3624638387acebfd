import Verif.Model.Common

/-! # `include/atan.h` and `include/atan2.h` -/

namespace Vdt
open FP details

namespace details
/-- include/atan.h:35-36 -/
def T3PO8 : F64 := lit 2.41421356237309504880
def MOREBITSO2 : F64 := MOREBITS * lit 0.5

/-- include/atan.h:38-57 -/
def get_atan_px (x2 : F64) : F64 :=
  let PX1atan := -lit 8.750608600031904122785E-1
  let PX2atan := -lit 1.615753718733365076637E1
  let PX3atan := -lit 7.500855792314704667340E1
  let PX4atan := -lit 1.228866684490136173410E2
  let PX5atan := -lit 6.485021904942025371773E1
  let px : F64 := PX1atan
  let px := px * x2
  let px := px + PX2atan
  let px := px * x2
  let px := px + PX3atan
  let px := px * x2
  let px := px + PX4atan
  let px := px * x2
  px + PX5atan

/-- include/atan.h:60-79 -/
def get_atan_qx (x2 : F64) : F64 :=
  let QX1atan := lit 2.485846490142306297962E1
  let QX2atan := lit 1.650270098316988542046E2
  let QX3atan := lit 4.328810604912902668951E2
  let QX4atan := lit 4.853903996359136964868E2
  let QX5atan := lit 1.945506571482613964425E2
  let qx := x2
  let qx := qx + QX1atan
  let qx := qx * x2
  let qx := qx + QX2atan
  let qx := qx * x2
  let qx := qx + QX3atan
  let qx := qx * x2
  let qx := qx + QX4atan
  let qx := qx * x2
  qx + QX5atan

/-- include/atan.h:110-119 (= atan2.h:66-75): `x*x2*(px/qx) + x` -/
def atanCore (x : F64) : F64 :=
  let x2 := x * x
  let px := get_atan_px x2
  let qx := get_atan_qx x2
  let poq := px / qx
  x * x2 * poq + x

/-- include/atan.h:93-108 (= atan2.h:49-64): range reduction of a non-negative argument;
returns `(y, factor, x)`. -/
def atanReduce (originalx : F64) : F64 × F64 × F64 :=
  let y := PIO4
  let factor := MOREBITSO2
  let x := (originalx - lit 1.0) / (originalx + lit 1.0)
  let c1 := FP.gt originalx T3PO8
  let y := if c1 then PIO2 else y
  let factor := if c1 then MOREBITS else factor
  let x := if c1 then -lit 1.0 / originalx else x
  let c2 := FP.le originalx (lit 0.66)
  let y := if c2 then lit 0 else y
  let factor := if c2 then lit 0 else factor
  let x := if c2 then originalx else x
  (y, factor, x)

/-- include/atan.h:93-122: arctangent of a non-negative argument. -/
def atanPos (x : F64) : F64 :=
  let r := atanReduce x
  let res := atanCore r.2.2
  let res := res + r.1
  res + r.2.1
end details

/-- include/atan.h:86-125 -/
def fast_atan (x : F64) : F64 :=
  let sign_mask := getSignMask x
  let x := FP.abs x
  dpORuint64 (atanPos x) sign_mask

namespace details
/-- include/atan.h:137-145; returns `(y, x)` -/
def atanfReduce (x0 : F32) : F32 × F32 :=
  let x := x0
  let y : F32 := lit 0
  let c1 := FP.gt x0 (lit 0.4142135623730950)
  let x := if c1 then (x0 - lit 1) / (x0 + lit 1) else x
  let y := if c1 then PIO4F else y
  let c2 := FP.gt x0 (lit 2.414213562373095)
  let x := if c2 then -(lit 1 / x0) else x
  let y := if c2 then PIO2F else y
  (y, x)

/-- include/atan.h:150-154, the polynomial part without the final `+ x` -/
def atanfPoly (x x2 : F32) : F32 :=
  (((lit 8.05374449538e-2 * x2
    - lit 1.38776856032E-1) * x2
    + lit 1.99777106478E-1) * x2
    - lit 3.33329491539E-1) * x2 * x

/-- include/atan.h:134-154 -/
def atanfPos (x0 : F32) : F32 :=
  let r := atanfReduce x0
  let x2 := r.2 * r.2
  r.1 + (atanfPoly r.2 x2 + r.2)
end details

/-- include/atan.h:129-157 -/
def fast_atanf (xx : F32) : F32 :=
  let sign_mask := getSignMaskf xx
  let x := FP.abs xx
  spORuint32 (atanfPos x) sign_mask

/-- include/atan2.h:35-91 -/
def fast_atan2 (y x : F64) : F64 :=
  let xx := FP.abs x
  let yy := FP.abs y
  let tmp : F64 := lit 0.0
  let swap := FP.gt yy xx
  let tmp := if swap then lit 1 else tmp
  let yx := if swap then (xx, yy) else (yy, xx)
  let yy := yx.1
  let xx := yx.2
  let oneIfXXZero : F64 := ofBool (FP.eq xx (lit 0))
  let t := yy / (xx + oneIfXXZero)
  let r := atanReduce t
  let ret := atanCore r.2.2
  let ret := ret + r.1
  let ret := ret + r.2.1
  let ret := ret * (lit 1 - oneIfXXZero)
  let ret := if FP.eq y (ofInt 0) then lit 0.0 else ret
  let ret := if FP.ne tmp (ofInt 0) then PIO2 - ret else ret
  let ret := if FP.lt x (ofInt 0) then PI - ret else ret
  if FP.lt y (ofInt 0) then -ret else ret

/-- include/atan2.h:93-134 -/
def fast_atan2f (y x : F32) : F32 :=
  let xx := FP.abs x
  let yy := FP.abs y
  let tmp : F32 := lit 0.0
  let swap := FP.gt yy xx
  let tmp := if swap then lit 1 else tmp
  let yx := if swap then (xx, yy) else (yy, xx)
  let yy := yx.1
  let xx := yx.2
  let oneIfXXZero : F32 := ofBool (FP.eq xx (lit 0))
  let t := yy / xx
  let z := t
  let big := FP.gt t (lit 0.4142135623730950)
  let z := if big then (t - lit 1) / (t + lit 1) else z
  let z2 := z * z
  let ret := atanfPoly z z2 + z
  let ret := ret * (lit 1 - oneIfXXZero)
  let ret := if FP.eq y (lit 0) then lit 0 else ret
  let ret := if big then ret + PIO4F else ret
  let ret := if FP.ne tmp (ofInt 0) then PIO2F - ret else ret
  let ret := if FP.lt x (lit 0) then PIF - ret else ret
  if FP.lt y (lit 0) then -ret else ret

end Vdt
