import Verif.Model.Common

/-! # `include/exp.h` -/

namespace Vdt
open FP details

namespace details
/-- include/exp.h:37 -/
def EXP_LIMIT : F64 := ofInt 708
/-- include/exp.h:39-45 -/
def PX1exp : F64 := lit 1.26177193074810590878E-4
def PX2exp : F64 := lit 3.02994407707441961300E-2
def PX3exp : F64 := lit 9.99999999999999999910E-1
def QX1exp : F64 := lit 3.00198505138664455042E-6
def QX2exp : F64 := lit 2.52448340349684104192E-3
def QX3exp : F64 := lit 2.27265548208155028766E-1
def QX4exp : F64 := lit 2.00000000000000000009E0
/-- include/exp.h:47 -/
def LOG2E : F64 := lit 1.4426950408889634073599
/-- include/exp.h:49-50 -/
def MAXLOGF : F32 := lit 88.72283905206835
def MINLOGF : F32 := -lit 88
/-- include/exp.h:52-53 -/
def C1F : F32 := lit 0.693359375
def C2F : F32 := -lit 2.12194440e-4
/-- include/exp.h:55-60 -/
def PX1expf : F32 := lit 1.9875691500E-4
def PX2expf : F32 := lit 1.3981999507E-3
def PX3expf : F32 := lit 8.3334519073E-3
def PX4expf : F32 := lit 4.1665795894E-2
def PX5expf : F32 := lit 1.6666665459E-1
def PX6expf : F32 := lit 5.0000001201E-1
/-- include/exp.h:62 -/
def LOG2EF : F32 := lit 1.44269504088896341

/-- include/exp.h:77-78, the two argument-reduction statements. -/
def expReduce (x px : F64) : F64 :=
  let x := x - px * lit 6.93145751953125E-1
  x - px * lit 1.42860682030941723212E-6

/-- include/exp.h:80-101, `e^x` on the reduced argument. -/
def expCore (x : F64) : F64 :=
  let xx := x * x
  let px := PX1exp
  let px := px * xx
  let px := px + PX2exp
  let px := px * xx
  let px := px + PX3exp
  let px := px * x
  let qx := QX1exp
  let qx := qx * xx
  let qx := qx + QX2exp
  let qx := qx * xx
  let qx := qx + QX3exp
  let qx := qx * xx
  let qx := qx + QX4exp
  let x := px / (qx - px)
  lit 1.0 + lit 2.0 * x

/-- include/exp.h:104, the double `2^n` assembled from its exponent field. -/
def pow2n (n : Int) : F64 := uint642dp ((BitVec.ofInt 64 n + 1023#64) <<< 52)

/-- include/exp.h:124-125 -/
def expfReduce (x z : F32) : F32 :=
  let x := x - z * C1F
  x - z * C2F

/-- include/exp.h:128-141 -/
def expfCore (x : F32) : F32 :=
  let x2 := x * x
  let z := x * PX1expf
  let z := z + PX2expf
  let z := z * x
  let z := z + PX3expf
  let z := z * x
  let z := z + PX4expf
  let z := z * x
  let z := z + PX5expf
  let z := z * x
  let z := z + PX6expf
  let z := z * x2
  z + (x + lit 1.0)
end details

/-- include/exp.h:70-113 -/
def fast_expM {m : Type → Type} [Monad m] (M : Machine m) (initial_x : F64) : m F64 := do
  let x := initial_x
  let px ← fpfloor M (LOG2E * x + lit 0.5)
  let n ← M.f2i px
  let x := expReduce x px
  let x := expCore x
  let x := x * pow2n n
  let x := if FP.gt initial_x EXP_LIMIT then inf false else x
  let x := if FP.lt initial_x (-EXP_LIMIT) then lit 0 else x
  return x

/-- include/exp.h:118-151 -/
def fast_expfM {m : Type → Type} [Monad m] (M : Machine m) (initial_x : F32) : m F32 := do
  let x := initial_x
  let z ← fpfloorf M (LOG2EF * x + lit 0.5)
  let x := expfReduce x z
  let n ← M.f2i z
  let z := expfCore x
  let n127 ← M.i32 (n + 0x7f)
  let sh ← M.shl n127 23
  let z := z * uint322sp (BitVec.ofInt 32 sh)
  let z := if FP.gt initial_x MAXLOGF then inf false else z
  let z := if FP.lt initial_x MINLOGF then lit 0 else z
  return z

/-- Strict C++ semantics: `none` is undefined behaviour. -/
def fast_exp (x : F64) : Option F64 := fast_expM strict x
def fast_expf (x : F32) : Option F32 := fast_expfM strict x

end Vdt
