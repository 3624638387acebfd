import Mathlib.Data.Rat.Defs
import Mathlib.Algebra.Order.Ring.Unbundled.Rat

/-!
# IEEE-754 binary floating point

A bit-exact, executable model of the binary32/binary64 data and operations the C++ code of
`/repo/include/*.h` uses (`float`, `double`, `+ - * /`, `sqrt`, comparisons, conversions).

A number is its bit pattern: the sign bit and the *magnitude code* (exponent field and fraction
field read as one natural number).  Every pattern exists, NaN payloads included.

Simplification: an arithmetic operation that yields a NaN yields one canonical quiet NaN (C++ does
not specify sign and payload).
-/

namespace Vdt

/-- A binary interchange format: number of exponent bits and of fraction bits. -/
structure Fmt where
  eb : Nat
  mb : Nat
deriving DecidableEq

/-- `double` -/
@[reducible] def b64 : Fmt := ⟨11, 52⟩
/-- `float` -/
@[reducible] def b32 : Fmt := ⟨8, 23⟩

namespace Fmt
/-- Code of the infinite magnitude: all ones in the exponent field, zero fraction. -/
def infMag (f : Fmt) : Nat := (2 ^ f.eb - 1) * 2 ^ f.mb
/-- Number of magnitude codes. -/
def magCount (f : Fmt) : Nat := 2 ^ (f.eb + f.mb)
/-- Exponent of the smallest normal number. -/
def emin (f : Fmt) : Int := 2 - 2 ^ (f.eb - 1)
end Fmt

/-- A floating point bit pattern of format `f`. -/
structure FP (f : Fmt) where
  sign : Bool
  mag : Nat
  bound : mag < f.magCount
deriving DecidableEq

abbrev F64 := FP b64
abbrev F32 := FP b32

/-- Powers of two as rationals. -/
def p2 (k : Int) : Rat := if 0 ≤ k then ((2 ^ k.toNat : Nat) : Rat) else mkRat 1 (2 ^ (-k).toNat)

/-- Value of a finite magnitude code. -/
def magVal (f : Fmt) (c : Nat) : Rat :=
  let E := c / 2 ^ f.mb
  let F := c % 2 ^ f.mb
  if E = 0 then (F : Rat) * p2 (f.emin - f.mb)
  else ((2 ^ f.mb + F : Nat) : Rat) * p2 ((E : Int) - 1 + f.emin - f.mb)

/-- `⌊log₂ q⌋` for `q > 0`. -/
def ilog2 (q : Rat) : Int :=
  let d : Int := (Nat.log2 q.num.natAbs : Int) - (Nat.log2 q.den : Int)
  if p2 d ≤ q then d else d - 1

/-- Nearest natural number to `q ≥ 0`, ties to even. -/
def rne (q : Rat) : Nat :=
  let n := q.num.natAbs
  let fl := n / q.den
  let r := n % q.den
  if 2 * r < q.den then fl
  else if q.den < 2 * r then fl + 1
  else if fl % 2 = 0 then fl else fl + 1

/-- Magnitude code of `q ≥ 0` rounded to nearest, ties to even (overflow goes to infinity). -/
def roundMag (f : Fmt) (q : Rat) : Nat :=
  if q ≤ 0 then 0
  else
    let e := max (ilog2 q) f.emin
    let k := rne (q / p2 (e - f.mb))
    min ((e - f.emin).toNat * 2 ^ f.mb + k) f.infMag

theorem Fmt.infMag_lt (f : Fmt) : f.infMag < f.magCount := by
  unfold Fmt.infMag Fmt.magCount
  rw [Nat.pow_add]
  exact Nat.mul_lt_mul_of_pos_right (Nat.sub_lt (Nat.two_pow_pos _) Nat.one_pos) (Nat.two_pow_pos _)

theorem roundMag_le (f : Fmt) (q : Rat) : roundMag f q ≤ f.infMag := by
  unfold roundMag
  split
  · exact Nat.zero_le _
  · exact Nat.min_le_right _ _

theorem roundMag_lt (f : Fmt) (q : Rat) : roundMag f q < f.magCount :=
  Nat.lt_of_le_of_lt (roundMag_le f q) f.infMag_lt

namespace FP
variable {f : Fmt}

def isNaN (x : FP f) : Bool := decide (f.infMag < x.mag)
def isInf (x : FP f) : Bool := decide (x.mag = f.infMag)
def isFinite (x : FP f) : Bool := decide (x.mag < f.infMag)
def isZero (x : FP f) : Bool := decide (x.mag = 0)

/-- The rational number a finite pattern stands for. -/
def val (x : FP f) : Rat := if x.sign then -magVal f x.mag else magVal f x.mag

/-- Round an exact rational; `zs` is the sign to use when the exact value is zero. -/
def ofRat (f : Fmt) (zs : Bool) (q : Rat) : FP f :=
  ⟨if q = 0 then zs else decide (q < 0), roundMag f (if q < 0 then -q else q), roundMag_lt _ _⟩

/-- A decimal literal of the source text. -/
def lit (q : Rat) : FP f := ofRat f false q

def inf (s : Bool) : FP f := ⟨s, f.infMag, f.infMag_lt⟩
def zero (s : Bool) : FP f := ⟨s, 0, Nat.two_pow_pos _⟩

/-- Code of the canonical quiet NaN: infinity plus the top fraction bit. -/
def nanMag (f : Fmt) : Nat := min (f.infMag + 2 ^ (f.mb - 1)) (f.magCount - 1)

/-- The canonical quiet NaN. -/
def nan : FP f := ⟨false, nanMag f,
  Nat.lt_of_le_of_lt (Nat.min_le_right _ _) (Nat.sub_lt (Nat.two_pow_pos _) Nat.one_pos)⟩

def neg (x : FP f) : FP f := ⟨!x.sign, x.mag, x.bound⟩
/-- `std::fabs` -/
def abs (x : FP f) : FP f := ⟨false, x.mag, x.bound⟩
/-- `std::copysign(x, y)` -/
def copysign (x y : FP f) : FP f := ⟨y.sign, x.mag, x.bound⟩

def add (x y : FP f) : FP f :=
  if x.isNaN || y.isNaN then nan
  else if x.isInf then (if y.isInf && (x.sign != y.sign) then nan else x)
  else if y.isInf then y
  else ofRat f (x.sign && y.sign) (x.val + y.val)

def sub (x y : FP f) : FP f := add x (neg y)

def mul (x y : FP f) : FP f :=
  if x.isNaN || y.isNaN then nan
  else if x.isInf || y.isInf then (if x.isZero || y.isZero then nan else inf (x.sign ^^ y.sign))
  else ofRat f (x.sign ^^ y.sign) (x.val * y.val)

def div (x y : FP f) : FP f :=
  if x.isNaN || y.isNaN then nan
  else if x.isInf then (if y.isInf then nan else inf (x.sign ^^ y.sign))
  else if y.isInf then zero (x.sign ^^ y.sign)
  else if y.isZero then (if x.isZero then nan else inf (x.sign ^^ y.sign))
  else ofRat f (x.sign ^^ y.sign) (x.val / y.val)

/-- `std::fma`: one rounding of `x*y+z`. -/
def fma (x y z : FP f) : FP f :=
  if x.isNaN || y.isNaN || z.isNaN then nan
  else if x.isInf || y.isInf then
    (if x.isZero || y.isZero then nan else
      if z.isInf && (z.sign != (x.sign ^^ y.sign)) then nan else inf (x.sign ^^ y.sign))
  else if z.isInf then z
  else ofRat f ((x.sign ^^ y.sign) && z.sign) (x.val * y.val + z.val)

/-- Integer square root by bisection on bits (structural recursion, so the kernel can run it). -/
def isqrtGo (n : Nat) : Nat → Nat → Nat
  | 0, r => r
  | b + 1, r =>
    let r' := r + 2 ^ b
    isqrtGo n b (if r' * r' ≤ n then r' else r)

/-- `⌊√n⌋` -/
def isqrtNat (n : Nat) : Nat := isqrtGo n (Nat.log2 n / 2 + 1) 0

/-- A rational that rounds like `√q`: `√q` truncated far beyond the precision of `f`, with a
sticky bit appended when inexact. -/
def sqrtApprox (f : Fmt) (q : Rat) : Rat :=
  let e := ilog2 q
  let k : Int := (f.mb : Int) + 2 - e / 2     -- scale so that the root has about mb+3 bits
  let s := q * p2 (2 * k)
  let n := s.num.natAbs / s.den
  let r := isqrtNat n
  let exact : Bool := decide ((r * r : Nat) = n ∧ s.num.natAbs % s.den = 0)
  (((2 * r + (if exact then 0 else 1) : Nat) : Rat)) * p2 (-k - 1)

/-- `std::sqrt` -/
def sqrt (x : FP f) : FP f :=
  if x.isNaN then nan
  else if x.isZero then x
  else if x.sign then nan
  else if x.isInf then x
  else ofRat f false (sqrtApprox f x.val)

/-- An extended value used for ordering: `-1/0/1` infinite part, and the finite value. -/
def lt (x y : FP f) : Bool :=
  if x.isNaN || y.isNaN then false
  else if x.isInf then (x.sign && !(y.isInf && y.sign))
  else if y.isInf then !y.sign
  else decide (x.val < y.val)

def eq (x y : FP f) : Bool :=
  if x.isNaN || y.isNaN then false
  else if x.isInf || y.isInf then (x.isInf && y.isInf && (x.sign == y.sign))
  else decide (x.val = y.val)

def le (x y : FP f) : Bool := lt x y || eq x y
def gt (x y : FP f) : Bool := lt y x
def ge (x y : FP f) : Bool := le y x
def ne (x y : FP f) : Bool := !eq x y

/-- Truncation towards zero of a rational. -/
def truncRat (q : Rat) : Int := Int.tdiv q.num q.den

/-- Integer to floating point. -/
def ofInt (n : Int) : FP f := ofRat f false (n : Rat)

/-- Conversion between formats (`float(x)`, `double(x)`). -/
def convert {f : Fmt} (g : Fmt) (x : FP f) : FP g :=
  if x.isNaN then nan
  else if x.isInf then inf x.sign
  else ofRat g x.sign x.val

/-- `static_cast<FP>(bool)` -/
def ofBool (b : Bool) : FP f := ofInt (if b then 1 else 0)

/-! Bit patterns -/

/-- The bit pattern, as the unsigned integer the union of `vdtcore_common.h:60-71` shows. -/
def toBits (x : FP f) : BitVec (f.eb + f.mb + 1) :=
  BitVec.ofNat _ ((if x.sign then f.magCount else 0) + x.mag)

/-- The number with a given bit pattern. -/
def ofBits (b : BitVec (f.eb + f.mb + 1)) : FP f :=
  ⟨decide (f.magCount ≤ b.toNat), b.toNat % f.magCount, Nat.mod_lt _ (Nat.two_pow_pos _)⟩

instance : Add (FP f) := ⟨add⟩
instance : Sub (FP f) := ⟨sub⟩
instance : Mul (FP f) := ⟨mul⟩
instance : Div (FP f) := ⟨div⟩
instance : Neg (FP f) := ⟨neg⟩

end FP
end Vdt
