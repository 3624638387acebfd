import Verif.Float.Basic

/-!
# `include/vdtcore_common.h`

Unsigned C++ integers are `BitVec`s, `int32_t` values are Lean integers in `[-2^31, 2^31)`.
-/

namespace Vdt

/-- The steps of the C++ code whose behaviour can be undefined, as an interface. -/
structure Machine (m : Type → Type) where
  /-- `int32_t(x)` for a floating point `x` -/
  f2i : {f : Fmt} → FP f → m Int
  /-- the value of a signed 32-bit arithmetic expression whose mathematical value is given -/
  i32 : Int → m Int
  /-- `a << k` on `int32_t` -/
  shl : Int → Nat → m Int

/-- Does a mathematical integer fit `int32_t`? -/
def inI32 (n : Int) : Bool := decide (-2147483648 ≤ n ∧ n < 2147483648)

/-- Conversion modulo `2^32` into `int32_t` (implementation-defined, modular on every target of the
library). -/
def wrap32 (n : Int) : Int := Int.bmod n 4294967296

/-- `int32_t(x)` is defined exactly if `x` is a number whose truncation fits. -/
def f2iDefined {f : Fmt} (x : FP f) : Bool := x.isFinite && inI32 (FP.truncRat x.val)

/-- Strict C++11: every undefined step is the outcome `none`. -/
def strict : Machine Option where
  f2i x := if f2iDefined x then some (FP.truncRat x.val) else none
  i32 n := if inI32 n then some n else none
  shl a k := if 0 ≤ a ∧ a * 2 ^ k < 4294967296 then some (wrap32 (a * 2 ^ k)) else none

/-- What a concrete machine delivers in the undefined cases: anything. -/
structure Oracle where
  f2i : (f : Fmt) → FP f → BitVec 32
  i32 : Int → BitVec 32
  shl : Int → Nat → BitVec 32

/-- A machine that computes the defined cases and asks the oracle otherwise. -/
def Oracle.machine (o : Oracle) : Machine Id where
  f2i {f} x := if f2iDefined x then FP.truncRat x.val else (o.f2i f x).toInt
  i32 n := if inI32 n then n else (o.i32 n).toInt
  shl a k := if 0 ≤ a ∧ a * 2 ^ k < 4294967296 then wrap32 (a * 2 ^ k) else (o.shl a k).toInt

namespace details
open FP

/-- `M_PI`, `M_PI_2`, `M_PI_4` of `<cmath>` (glibc literals). -/
def M_PI : F64 := lit 3.14159265358979323846
def M_PI_2 : F64 := lit 1.57079632679489661923
def M_PI_4 : F64 := lit 0.78539816339744830962

/-- include/vdtcore_common.h:40-44 -/
def TWOPI : F64 := lit 2 * M_PI
def PI : F64 := M_PI
def PIO2 : F64 := M_PI_2
def PIO4 : F64 := M_PI_4
def ONEOPIO4 : F64 := lit 4 / M_PI

/-- include/vdtcore_common.h:46-50 -/
def TWOPIF : F32 := convert b32 (lit 2 * M_PI : F64)
def PIF : F32 := convert b32 M_PI
def PIO2F : F32 := convert b32 M_PI_2
def PIO4F : F32 := convert b32 M_PI_4
def ONEOPIO4F : F32 := convert b32 (lit 4 / M_PI : F64)

/-- include/vdtcore_common.h:52 -/
def MOREBITS : F64 := lit 6.123233995736765886130E-17

/-- include/vdtcore_common.h:55 -/
def MAXNUMF : F32 := lit 3.4028234663852885981170418348451692544e38

/-- include/vdtcore_common.h:76-80 -/
def uint642dp (ll : BitVec 64) : F64 := FP.ofBits (f := b64) ll

/-- include/vdtcore_common.h:85-89 -/
def dp2uint64 (x : F64) : BitVec 64 := x.toBits

/-- include/vdtcore_common.h:93-95 -/
def dpANDuint64 (x : F64) (i : BitVec 64) : F64 := uint642dp (dp2uint64 x &&& i)

/-- include/vdtcore_common.h:98-100 -/
def dpORuint64 (x : F64) (i : BitVec 64) : F64 := uint642dp (dp2uint64 x ||| i)

/-- include/vdtcore_common.h:103-105 -/
def dpXORuint64 (x : F64) (i : BitVec 64) : F64 := uint642dp (dp2uint64 x ^^^ i)

/-- include/vdtcore_common.h:108-111 -/
def getSignMask (x : F64) : BitVec 64 := dp2uint64 x &&& 0x8000000000000000#64

/-- include/vdtcore_common.h:115-119 (the `int` parameter is stored into a `uint32_t`) -/
def uint322sp (i : BitVec 32) : F32 := FP.ofBits (f := b32) i

/-- include/vdtcore_common.h:123-127 -/
def sp2uint32 (x : F32) : BitVec 32 := x.toBits

/-- include/vdtcore_common.h:131-133 -/
def spANDuint32 (x : F32) (i : BitVec 32) : F32 := uint322sp (sp2uint32 x &&& i)

/-- include/vdtcore_common.h:136-138 -/
def spORuint32 (x : F32) (i : BitVec 32) : F32 := uint322sp (sp2uint32 x ||| i)

/-- include/vdtcore_common.h:142-144 -/
def spXORuint32 (x : F32) (i : BitVec 32) : F32 := uint322sp (sp2uint32 x ^^^ i)

/-- include/vdtcore_common.h:147-150 -/
def getSignMaskf (x : F32) : BitVec 32 := sp2uint32 x &&& 0x80000000#32

/-- include/vdtcore_common.h:154-174; returns `(mantissa, fe)`. -/
def getMantExponent (x : F64) : F64 × F64 :=
  let n := dp2uint64 x
  let le := n >>> 52
  let e : Int := (le.setWidth 32).toInt
  let fe : F64 := ofInt (e - 1023)
  let n := n &&& 0x800FFFFFFFFFFFFF#64
  let p05 := 0x3FE0000000000000#64
  let n := n ||| p05
  (uint642dp n, fe)

/-- include/vdtcore_common.h:178-191; returns `(mantissa, fe)`.  `(n >> 23) - 127` is unsigned
arithmetic stored into an `int32_t`. -/
def getMantExponentf (x : F32) : F32 × F32 :=
  let n := sp2uint32 x
  let e : Int := ((n >>> 23) - 127#32).toInt
  let fe : F32 := ofInt e
  let p05f := 0x3f000000#32
  let n := n &&& 0x807fffff#32
  let n := n ||| p05f
  (uint322sp n, fe)

/-- include/vdtcore_common.h:195-210, the overloads `fp2uint` and `int2fp` -/
def fp2uintf (x : F32) : BitVec 32 := sp2uint32 x
def fp2uint (x : F64) : BitVec 64 := dp2uint64 x
def int2fpf (i : BitVec 32) : F32 := uint322sp i
def int2fp (i : BitVec 64) : F64 := uint642dp i

/-- include/vdtcore_common.h:217-223.  `sp2uint32(x)` converts the double to float first; the
subtraction is unsigned and stored back modulo `2^32`. -/
def fpfloor {m : Type → Type} [Monad m] (M : Machine m) (x : F64) : m F64 := do
  let ret ← M.f2i x
  let ret := wrap32 (ret - ((sp2uint32 (convert b32 x) >>> 31).toNat : Int))
  return ofInt ret

/-- include/vdtcore_common.h:230-235 -/
def fpfloorf {m : Type → Type} [Monad m] (M : Machine m) (x : F32) : m F32 := do
  let ret ← M.f2i x
  let ret := wrap32 (ret - ((sp2uint32 x >>> 31).toNat : Int))
  return ofInt ret

end details
end Vdt
