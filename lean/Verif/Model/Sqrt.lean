import Verif.Model.Common

/-! # `include/sqrt.h`, `include/inv.h`, `include/identity.h`, `include/stdwrap.h` -/

namespace Vdt
open FP details

namespace details
/-- include/sqrt.h:46-47: the Newton loop (`y *= threehalfs - x2*y*y`, `n` times). -/
def isqrtLoop {f : Fmt} (x2 : FP f) : Nat → FP f → FP f
  | 0, y => y
  | n + 1, y => isqrtLoop x2 n (y * (lit 1.5 - x2 * y * y))
end details

/-- include/sqrt.h:37-50 -/
def fast_isqrt_general (x : F64) (ISQRT_ITERATIONS : Nat) : F64 :=
  let x2 := x * lit 0.5
  let y := x
  let i := dp2uint64 y
  let i := 0x5fe6eb50c7aa19f9#64 - (i >>> 1)
  let y := uint642dp i
  isqrtLoop x2 ISQRT_ITERATIONS y

/-- include/sqrt.h:55 -/
def fast_isqrt (x : F64) : F64 := fast_isqrt_general x 4
/-- include/sqrt.h:58 -/
def fast_approx_isqrt (x : F64) : F64 := fast_isqrt_general x 3
/-- include/sqrt.h:63 -/
def isqrt (x : F64) : F64 := lit 1 / FP.sqrt x

/-- include/sqrt.h:68-80 -/
def fast_isqrtf_general (x : F32) (ISQRT_ITERATIONS : Nat) : F32 :=
  let x2 := x * lit 0.5
  let y := x
  let i := sp2uint32 y
  let i := 0x5f3759df#32 - (i >>> 1)
  let y := uint322sp i
  isqrtLoop x2 ISQRT_ITERATIONS y

/-- include/sqrt.h:85 -/
def fast_isqrtf (x : F32) : F32 := fast_isqrtf_general x 2
/-- include/sqrt.h:88 -/
def fast_approx_isqrtf (x : F32) : F32 := fast_isqrtf_general x 1
/-- include/sqrt.h:93 -/
def isqrtf (x : F32) : F32 := lit 1 / FP.sqrt x

/-- include/inv.h:38-43 -/
def fast_inv_general (x : F64) (isqrt_iterations : Nat) : F64 :=
  let sign_mask := getSignMask x
  let sqrt_one_over_x := fast_isqrt_general (FP.abs x) isqrt_iterations
  sqrt_one_over_x * dpORuint64 sqrt_one_over_x sign_mask

/-- include/inv.h:48 -/
def fast_inv (x : F64) : F64 := fast_inv_general x 4
/-- include/inv.h:53 -/
def fast_approx_inv (x : F64) : F64 := fast_inv_general x 3
/-- include/inv.h:58 -/
def inv (x : F64) : F64 := lit 1 / x

/-- include/inv.h:66-71 -/
def fast_invf_general (x : F32) (isqrt_iterations : Nat) : F32 :=
  let sign_mask := getSignMaskf x
  let sqrt_one_over_x := fast_isqrtf_general (FP.abs x) isqrt_iterations
  sqrt_one_over_x * spORuint32 sqrt_one_over_x sign_mask

/-- include/inv.h:76 -/
def fast_invf (x : F32) : F32 := fast_invf_general x 2
/-- include/inv.h:81 -/
def fast_approx_invf (x : F32) : F32 := fast_invf_general x 1
/-- include/inv.h:86 -/
def invf (x : F32) : F32 := lit 1 / x

/-- include/identity.h:30-32 and 36-38 -/
def identity {f : Fmt} (x : FP f) : FP f := x
def fast_identity {f : Fmt} (x : FP f) : FP f := x
def identity2D {f : Fmt} (x _y : FP f) : FP f := x

/-- include/stdwrap.h: `fast_sqrt`, `fast_div`, `fast_fma` (plain product plus sum), `fast_fmac`
(correctly rounded). -/
def fast_sqrt {f : Fmt} (x : FP f) : FP f := FP.sqrt x
def fast_div {f : Fmt} (x y : FP f) : FP f := x / y
def fast_fma {f : Fmt} (x y z : FP f) : FP f := x * y + z
def fast_fmac {f : Fmt} (x y z : FP f) : FP f := FP.fma x y z

end Vdt
