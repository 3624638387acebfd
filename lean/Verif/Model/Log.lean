import Verif.Model.Common

/-! # `include/log.h` -/

namespace Vdt
open FP details

namespace details
/-- include/log.h:38-41 -/
def LOG_UPPER_LIMIT : F64 := lit 1e307
def LOG_LOWER_LIMIT : F64 := ofInt 0
def SQRTH : F64 := lit 0.70710678118654752440

/-- include/log.h:43-64 -/
def get_log_px (x : F64) : F64 :=
  let PX1log := lit 1.01875663804580931796E-4
  let PX2log := lit 4.97494994976747001425E-1
  let PX3log := lit 4.70579119878881725854E0
  let PX4log := lit 1.44989225341610930846E1
  let PX5log := lit 1.79368678507819816313E1
  let PX6log := lit 7.70838733755885391666E0
  let px : F64 := PX1log
  let px := px * x
  let px := px + PX2log
  let px := px * x
  let px := px + PX3log
  let px := px * x
  let px := px + PX4log
  let px := px * x
  let px := px + PX5log
  let px := px * x
  px + PX6log

/-- include/log.h:66-84 -/
def get_log_qx (x : F64) : F64 :=
  let QX1log := lit 1.12873587189167450590E1
  let QX2log := lit 4.52279145837532221105E1
  let QX3log := lit 8.29875266912776603211E1
  let QX4log := lit 7.11544750618563894466E1
  let QX5log := lit 2.31251620126765340583E1
  let qx := x
  let qx := qx + QX1log
  let qx := qx * x
  let qx := qx + QX2log
  let qx := qx * x
  let qx := qx + QX3log
  let qx := qx * x
  let qx := qx + QX4log
  let qx := qx * x
  qx + QX5log

/-- include/log.h:98 `x > SQRTH ? fe += 1. : x += x`, then `x -= 1.0` (line 99). -/
def logBlend (x fe : F64) : F64 × F64 :=
  let r := if FP.gt x SQRTH then (x, fe + lit 1) else (x + x, fe)
  (r.1 - lit 1.0, r.2)

/-- include/log.h:102-117 on the blended argument. -/
def logCore (x fe : F64) : F64 :=
  let px := get_log_px x
  let x2 := x * x
  let px := px * x
  let px := px * x2
  let qx := get_log_qx x
  let res := px / qx
  let res := res - fe * lit 2.121944400546905827679e-4
  let res := res - lit 0.5 * x2
  let res := x + res
  res + fe * lit 0.693359375
end details

/-- include/log.h:89-126 -/
def fast_log (x : F64) : F64 :=
  let original_x := x
  let me := getMantExponent x
  let b := logBlend me.1 me.2
  let res := logCore b.1 b.2
  let res := if FP.gt original_x LOG_UPPER_LIMIT then inf false else res
  if FP.lt original_x LOG_LOWER_LIMIT then -nan else res

namespace details
/-- include/log.h:134-135 -/
def LOGF_UPPER_LIMIT : F32 := MAXNUMF
def LOGF_LOWER_LIMIT : F32 := ofInt 0

/-- include/log.h:137-145 -/
def PX1logf : F32 := lit 7.0376836292E-2
def PX2logf : F32 := -lit 1.1514610310E-1
def PX3logf : F32 := lit 1.1676998740E-1
def PX4logf : F32 := -lit 1.2420140846E-1
def PX5logf : F32 := lit 1.4249322787E-1
def PX6logf : F32 := -lit 1.6668057665E-1
def PX7logf : F32 := lit 2.0000714765E-1
def PX8logf : F32 := -lit 2.4999993993E-1
def PX9logf : F32 := lit 3.3333331174E-1

/-- include/log.h:147-165 -/
def get_log_poly (x : F32) : F32 :=
  let y := x * PX1logf
  let y := y + PX2logf
  let y := y * x
  let y := y + PX3logf
  let y := y * x
  let y := y + PX4logf
  let y := y * x
  let y := y + PX5logf
  let y := y * x
  let y := y + PX6logf
  let y := y * x
  let y := y + PX7logf
  let y := y * x
  let y := y + PX8logf
  let y := y * x
  y + PX9logf

/-- include/log.h:167 -/
def SQRTHF : F32 := lit 0.707106781186547524

/-- include/log.h:179-180 -/
def logfBlend (x fe : F32) : F32 × F32 :=
  let r := if FP.gt x SQRTHF then (x, fe + lit 1) else (x + x, fe)
  (r.1 - lit 1.0, r.2)

/-- include/log.h:182-192 -/
def logfCore (x fe : F32) : F32 :=
  let x2 := x * x
  let res := get_log_poly x
  let res := res * (x2 * x)
  let res := res + (-lit 2.12194440e-4) * fe
  let res := res + (-lit 0.5) * x2
  let res := x + res
  res + lit 0.693359375 * fe
end details

/-- include/log.h:172-200 -/
def fast_logf (x : F32) : F32 :=
  let original_x := x
  let me := getMantExponentf x
  let b := logfBlend me.1 me.2
  let res := logfCore b.1 b.2
  let res := if FP.gt original_x LOGF_UPPER_LIMIT then inf false else res
  if FP.lt original_x LOGF_LOWER_LIMIT then -nan else res

end Vdt
