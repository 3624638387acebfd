import Verif.Float.Fused
import Verif.Model.Streams

/-!
# The hand-written functions of the multi-target library

Model of `src/fatlib.h`.  The code is compiled once for every target and the version for the machine is chosen when the program is loaded.

Simplification: the choice is a parameter (one target per machine); the compiler may fuse the sum on targets that have the instruction.
-/

namespace Vdt.Fatlib
open Vdt.FP Vdt.Txt

/-- src/fatlib.h:19-25 and 41-47: both lists name the same targets. -/
inductive Target | default | sse3 | corei7 | bdver1 | avx2fma | avx | avx512f
  deriving DecidableEq

/-- The targets with an instruction for `x*y+z` (FMA4 on `bdver1`, the EVEX forms on `avx512f`). -/
def Target.hasFma : Target → Bool
  | bdver1 | avx2fma | avx512f => true
  | _ => false

/-- The arguments of the macro `FATHALLO` as they stand in the source (src/fatlib.h:19-25): the operator `#` keeps the quotes. -/
def Target.source : Target → Text
  | default => "\"default\"".toList
  | sse3 => "\"sse3\"".toList
  | corei7 => "\"arch=corei7\"".toList
  | bdver1 => "\"arch=bdver1\"".toList
  | avx2fma => "\"avx2\",\"fma\"".toList
  | avx => "\"avx\"".toList
  | avx512f => "\"avx512f\"".toList

/-- src/fatlib.h:15-16,29-31 -/
def vdt_arch (t : Target) : Text := "target is ".toList ++ t.source

/-- src/fatlib.h:55-56; `fused` is the compiler's choice. -/
def theFMA {f : Fmt} (fused : Bool) (x y z : FP f) : FP f := mad fused x y z

/-- src/fatlib.h:59-64: the version of the function for target `t`. -/
def myfmaCPP {f : Fmt} (fuse : Target → Bool) (t : Target) (x y z : FP f) : FP f := theFMA (t.hasFma && fuse t) x y z

/-- src/fatlib.h:67 -/
def myfmaF (fuse : Target → Bool) (t : Target) (x y z : F32) : F32 := myfmaCPP fuse t x y z

/-- src/fatlib.h:68: the function returns `float`. -/
def myfmaD (fuse : Target → Bool) (t : Target) (x y z : F64) : F32 := convert b32 (myfmaCPP fuse t x y z)

end Vdt.Fatlib
