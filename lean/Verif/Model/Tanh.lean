import Verif.Model.Common

/-! # `include/tanh.h` -/

namespace Vdt
open FP details

namespace details
/-- include/tanh.h:45-50: the Padé approximant at `x/8` (integer literals are converted to double). -/
def tanhPade (x : F64) : F64 :=
  let xx := x * lit 0.125
  let xx2 := xx * xx
  let numer := ofInt 135135 + xx2 * (ofInt 17325 + xx2 * (ofInt 378 + xx2 * ofInt 1))
  let denom := ofInt 135135 + xx2 * (ofInt 62370 + xx2 * (ofInt 3150 + xx2 * ofInt 28))
  xx * numer / denom

/-- include/tanh.h:51-53: `tanh = 2 * tanh / (tanh * tanh + 1)` -/
def tanhDouble {f : Fmt} (t : FP f) : FP f := ofInt 2 * t / (t * t + ofInt 1)

/-- include/tanh.h:64-66 -/
def tanhPadef (x : F32) : F32 :=
  let xx := x * lit 0.125
  let xx2 := xx * xx
  xx * (xx2 + ofInt 15) / (ofInt 6 * xx2 + ofInt 15)
end details

/-- include/tanh.h:36-54 -/
def fast_tanh (x : F64) : F64 :=
  if FP.gt (FP.abs x) (lit 20) then FP.copysign (lit 1) x
  else
    let tanh := tanhPade x
    let tanh := tanhDouble tanh
    let tanh := tanhDouble tanh
    tanhDouble tanh

/-- include/tanh.h:58-70 -/
def fast_tanhf (x : F32) : F32 :=
  if FP.gt (FP.abs x) (lit 9.1) then FP.copysign (lit 1) x
  else
    let tanh := tanhPadef x
    let tanh := tanhDouble tanh
    let tanh := tanhDouble tanh
    tanhDouble tanh

end Vdt
