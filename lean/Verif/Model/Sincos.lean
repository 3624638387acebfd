import Verif.Model.Common

/-! # `include/sincos.h`, `include/sin.h`, `include/cos.h` -/

namespace Vdt
open FP details

namespace details
/-- include/sincos.h:40-42 (defined there, not used by the code) -/
def DP1sc : F64 := lit 7.85398125648498535156E-1
def DP2sc : F64 := lit 3.77489470793079817668E-8
def DP3sc : F64 := lit 2.69515142907905952645E-15

/-- include/sincos.h:44-49 -/
def C1sin : F64 := lit 1.58962301576546568060E-10
def C2sin : F64 := -lit 2.50507477628578072866E-8
def C3sin : F64 := lit 2.75573136213857245213E-6
def C4sin : F64 := -lit 1.98412698295895385996E-4
def C5sin : F64 := lit 8.33333333332211858878E-3
def C6sin : F64 := -lit 1.66666666666666307295E-1

/-- include/sincos.h:51-56 -/
def C1cos : F64 := -lit 1.13585365213876817300E-11
def C2cos : F64 := lit 2.08757008419747316778E-9
def C3cos : F64 := -lit 2.75573141792967388112E-7
def C4cos : F64 := lit 2.48015872888517045348E-5
def C5cos : F64 := -lit 1.38888888888730564116E-3
def C6cos : F64 := lit 4.16666666666665929218E-2

/-- include/sincos.h:58-60 -/
def DP1 : F64 := lit 7.853981554508209228515625E-1
def DP2 : F64 := lit 7.94662735614792836714E-9
def DP3 : F64 := lit 3.06161699786838294307E-17

/-- include/sincos.h:64-66: double literals converted to float -/
def DP1F : F32 := convert b32 (lit 0.78515625 : F64)
def DP2F : F32 := convert b32 (lit 2.4187564849853515625e-4 : F64)
def DP3F : F32 := convert b32 (lit 3.77489497744594108e-8 : F64)

/-- include/sincos.h:72-85 -/
def get_sin_px (x : F64) : F64 :=
  let px := C1sin
  let px := px * x
  let px := px + C2sin
  let px := px * x
  let px := px + C3sin
  let px := px * x
  let px := px + C4sin
  let px := px * x
  let px := px + C5sin
  let px := px * x
  px + C6sin

/-- include/sincos.h:89-102 -/
def get_cos_px (x : F64) : F64 :=
  let px := C1cos
  let px := px * x
  let px := px + C2cos
  let px := px * x
  let px := px + C3cos
  let px := px * x
  let px := px + C4cos
  let px := px * x
  let px := px + C5cos
  let px := px * x
  px + C6cos

/-- `q & (~1)` on `int` (include/sincos.h:111 with `q = quad+1`). -/
def clearLow (q : Int) : Int := (BitVec.ofInt 32 q &&& ~~~(1#32)).toInt

/-- include/sincos.h:110-112: the quadrant number of `|x|`. -/
def quadrant {m : Type → Type} [Monad m] (M : Machine m) (x : F64) : m Int := do
  let quad ← M.f2i (ONEOPIO4 * x)
  let q1 ← M.i32 (quad + 1)
  return clearLow q1

/-- include/sincos.h:114 -/
def reduceWith (x y : F64) : F64 := ((x - y * DP1) - y * DP2) - y * DP3

/-- include/sincos.h:107-115; returns the reduced argument and the quadrant. -/
def reduce2quadrant {m : Type → Type} [Monad m] (M : Machine m) (x : F64) : m (F64 × Int) := do
  let x := FP.abs x
  let quad ← quadrant M x
  let y : F64 := ofInt quad
  return (reduceWith x y, quad)

/-- include/sincos.h:119-124; returns `(s, c)`. -/
def fast_sincos_m45_45 (z : F64) : F64 × F64 :=
  let zz := z * z
  let s := z + z * zz * get_sin_px zz
  let c := lit 1.0 - zz * lit 0.5 + zz * zz * get_cos_px zz
  (s, c)

/-- `j & k` on `int` -/
def andI (j k : Int) : Int := (BitVec.ofInt 32 j &&& BitVec.ofInt 32 k).toInt
end details

/-- include/sincos.h:132-160; returns `(s, c)`.  `signS`, `signC`, `poly` are doubles there and are
only compared with 0; they hold small integers exactly, so the integers are compared here. -/
def fast_sincosM {m : Type → Type} [Monad m] (M : Machine m) (xx : F64) : m (F64 × F64) := do
  let r ← reduce2quadrant M xx
  let x := r.1
  let j := r.2
  let signS := andI j 4
  let j := j - 2
  let signC := andI j 4
  let poly := andI j 2
  let sc := fast_sincos_m45_45 x
  let s := if poly = 0 then sc.2 else sc.1
  let c := if poly = 0 then sc.1 else sc.2
  let c := if signC = 0 then -c else c
  let s := if signS ≠ 0 then -s else s
  let s := if FP.lt xx (lit 0) then -s else s
  return (s, c)

namespace details
/-- include/sincos.h:172-174 -/
def quadrantf {m : Type → Type} [Monad m] (M : Machine m) (x : F32) : m Int := do
  let quad ← M.f2i (ONEOPIO4F * x)
  let q1 ← M.i32 (quad + 1)
  return clearLow q1

/-- include/sincos.h:178 -/
def reduceWithf (x y : F32) : F32 := ((x - y * DP1F) - y * DP2F) - y * DP3F

/-- include/sincos.h:168-179 -/
def reduce2quadrantf {m : Type → Type} [Monad m] (M : Machine m) (x : F32) : m (F32 × Int) := do
  let x := FP.abs x
  let quad ← quadrantf M x
  let y : F32 := ofInt quad
  return (reduceWithf x y, quad)

/-- include/sincos.h:187-200 -/
def fast_sincosf_m45_45 (x : F32) : F32 × F32 :=
  let z := x * x
  let s := ((-lit 1.9515295891E-4 * z + lit 8.3321608736E-3) * z - lit 1.6666654611E-1) * z * x + x
  let c := ((lit 2.443315711809948E-005 * z - lit 1.388731625493765E-003) * z
      + lit 4.166664568298827E-002) * z * z - lit 0.5 * z + lit 1.0
  (s, c)
end details

/-- include/sincos.h:207-233 -/
def fast_sincosfM {m : Type → Type} [Monad m] (M : Machine m) (xx : F32) : m (F32 × F32) := do
  let r ← reduce2quadrantf M xx
  let x := r.1
  let j := r.2
  let signS := andI j 4
  let j := j - 2
  let signC := andI j 4
  let poly := andI j 2
  let sc := fast_sincosf_m45_45 x
  let ls := if poly = 0 then sc.2 else sc.1
  let lc := if poly = 0 then sc.1 else sc.2
  let lc := if signC = 0 then -lc else lc
  let ls := if signS ≠ 0 then -ls else ls
  let ls := if FP.lt xx (ofInt 0) then -ls else ls
  return (ls, lc)

/-- include/sin.h:37 -/
def fast_sinM {m : Type → Type} [Monad m] (M : Machine m) (x : F64) : m F64 := do
  let sc ← fast_sincosM M x
  return sc.1
/-- include/sin.h:41 -/
def fast_sinfM {m : Type → Type} [Monad m] (M : Machine m) (x : F32) : m F32 := do
  let sc ← fast_sincosfM M x
  return sc.1
/-- include/cos.h:22 -/
def fast_cosM {m : Type → Type} [Monad m] (M : Machine m) (x : F64) : m F64 := do
  let sc ← fast_sincosM M x
  return sc.2
/-- include/cos.h:26 -/
def fast_cosfM {m : Type → Type} [Monad m] (M : Machine m) (x : F32) : m F32 := do
  let sc ← fast_sincosfM M x
  return sc.2

/-- Strict C++ semantics: `none` is undefined behaviour. -/
def fast_sincos (x : F64) : Option (F64 × F64) := fast_sincosM strict x
def fast_sincosf (x : F32) : Option (F32 × F32) := fast_sincosfM strict x
def fast_sin (x : F64) : Option F64 := fast_sinM strict x
def fast_cos (x : F64) : Option F64 := fast_cosM strict x
def fast_sinf (x : F32) : Option F32 := fast_sinfM strict x
def fast_cosf (x : F32) : Option F32 := fast_cosfM strict x

end Vdt
