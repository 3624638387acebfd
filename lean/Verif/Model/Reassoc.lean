import Verif.Model.Contract
import Verif.Model.Build

/-!
# Compilation with value-changing optimisations

The multi-target library is compiled with `-Ofast` (progs/numpyBootstrap.csh:9, also the comment at the head of
src/numpy_wrapper_generator.py), which among others lets the compiler replace an expression by another one that is equal to
it for real numbers.  Here this is modelled for the argument reductions of sine, cosine and exponential: the expression of
the reduction may be replaced, the rest of the function stays as written.

Outside the repository, and therefore an assumption of the model: the meaning of the compiler options.  That a compiler
may make such a replacement does not say that it does.
-/

namespace Vdt.Fast
open FP details
open Vdt.Txt (Text)

/-- An arithmetic expression in two variables. -/
inductive Ar (f : Fmt) where
  | x
  | y
  | c (v : FP f)
  | add (a b : Ar f)
  | sub (a b : Ar f)
  | mul (a b : Ar f)

/-- The value as a program computes it, with a rounding after each operation. -/
def Ar.evalF {f : Fmt} : Ar f → FP f → FP f → FP f
  | .x, u, _ => u
  | .y, _, v => v
  | .c w, _, _ => w
  | .add a b, u, v => a.evalF u v + b.evalF u v
  | .sub a b, u, v => a.evalF u v - b.evalF u v
  | .mul a b, u, v => a.evalF u v * b.evalF u v

/-- include/sincos.h:114 -/
def sinRed : Ar b64 := .sub (.sub (.sub .x (.mul .y (.c DP1))) (.mul .y (.c DP2))) (.mul .y (.c DP3))
/-- include/sincos.h:178 -/
def sinfRed : Ar b32 := .sub (.sub (.sub .x (.mul .y (.c DP1F))) (.mul .y (.c DP2F))) (.mul .y (.c DP3F))
/-- include/exp.h:77-78 -/
def expRed : Ar b64 := .sub (.sub .x (.mul .y (.c (lit 6.93145751953125E-1)))) (.mul .y (.c (lit 1.42860682030941723212E-6)))
/-- include/exp.h:124-125 -/
def expfRed : Ar b32 := .sub (.sub .x (.mul .y (.c C1F))) (.mul .y (.c C2F))

/-- include/sincos.h:107-160 with another expression for the reduction. -/
def fast_sincosBy (red : F64 → F64 → F64) (xx : F64) : Option (F64 × F64) := do
  let a := FP.abs xx
  let quad ← quadrant strict a
  let x := red a (ofInt quad)
  let j := quad
  let signS := andI j 4
  let j := j - 2
  let signC := andI j 4
  let poly := andI j 2
  let sc := fast_sincos_m45_45 x
  let s := if poly = 0 then sc.2 else sc.1
  let c := if poly = 0 then sc.1 else sc.2
  let c := if signC = 0 then -c else c
  let s := if signS ≠ 0 then -s else s
  let s := if FP.lt xx (lit 0) then -s else s
  return (s, c)

/-- include/sincos.h:168-233 with another expression for the reduction. -/
def fast_sincosfBy (red : F32 → F32 → F32) (xx : F32) : Option (F32 × F32) := do
  let a := FP.abs xx
  let quad ← quadrantf strict a
  let x := red a (ofInt quad)
  let j := quad
  let signS := andI j 4
  let j := j - 2
  let signC := andI j 4
  let poly := andI j 2
  let sc := fast_sincosf_m45_45 x
  let ls := if poly = 0 then sc.2 else sc.1
  let lc := if poly = 0 then sc.1 else sc.2
  let lc := if signC = 0 then -lc else lc
  let ls := if signS ≠ 0 then -ls else ls
  let ls := if FP.lt xx (ofInt 0) then -ls else ls
  return (ls, lc)

/-- include/exp.h:70-113 with another expression for the reduction. -/
def fast_expBy (red : F64 → F64 → F64) (initial_x : F64) : Option F64 := do
  let x := initial_x
  let px ← fpfloor strict (LOG2E * x + lit 0.5)
  let n ← strict.f2i px
  let x := red x px
  let x := expCore x
  let x := x * pow2n n
  let x := if FP.gt initial_x EXP_LIMIT then inf false else x
  let x := if FP.lt initial_x (-EXP_LIMIT) then lit 0 else x
  return x

/-- include/exp.h:118-151 with another expression for the reduction. -/
def fast_expfBy (red : F32 → F32 → F32) (initial_x : F32) : Option F32 := do
  let x := initial_x
  let z ← fpfloorf strict (LOG2EF * x + lit 0.5)
  let x := red x z
  let n ← strict.f2i z
  let z := expfCore x
  let n127 ← strict.i32 (n + 0x7f)
  let sh ← strict.shl n127 23
  let z := z * uint322sp (BitVec.ofInt 32 sh)
  let z := if FP.gt initial_x MAXLOGF then inf false else z
  let z := if FP.lt initial_x MINLOGF then lit 0 else z
  return z

/-- progs/numpyBootstrap.csh:9 -/
def bootstrapLine : Text :=
  "c++ -Ofast -shared -fPIC -Wall -o libvdtFatLibWrapper.so vdtFatLibWrapper.cc -I../include/".toList

/-- The options of GCC that allow the replacement of an expression by one that is equal to it for real numbers. -/
def reassociates (flags : List Text) : Bool :=
  flags.any fun w => w ∈ ["-Ofast", "-ffast-math", "-funsafe-math-optimizations", "-fassociative-math"].map String.toList

end Vdt.Fast
