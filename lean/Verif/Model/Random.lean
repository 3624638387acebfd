import Verif.Float.Basic

/-!
# Filling the random pools

Model of `IrandomPool::fillVector` (`include/diagnostic/vdtdiag_interfaces.h:215-229`) and of the
constructors of `randomPool1D`, `randomPool2D` from limits and size
(`include/diagnostic/vdtdiag_random.h:47-53`, `134-145`).

The code uses the standard library: `std::mt19937_64` is a parameter, the stream of its 64-bit
outputs; `std::uniform_real_distribution<long double>` is modelled as libstdc++ implements it, with
the 80-bit `long double` of x86 (64 significant bits).  The product and the sum are rounded
separately.
-/

namespace Vdt.Rand
open FP

/-- `long double` of x86, as a set of values: 15 exponent bits, 64 significant bits. -/
@[reducible] def b80 : Fmt := ⟨15, 63⟩

/-- Successive outputs of `m_mtwister_engine`. -/
abbrev Engine := Nat → BitVec 64

/-- `std::generate_canonical<long double, 64>` of libstdc++ (`bits/random.tcc`): one engine output
suffices for the 64 significant bits; `sum / tmp` with `tmp = 2^64`, and the largest number below one
should the quotient reach one. -/
def canonical (g : BitVec 64) : FP b80 :=
  let sum : FP b80 := ofRat b80 false (g.toNat : Rat)
  let tmp : FP b80 := ofRat b80 false (2 ^ 64)
  let ret := sum / tmp
  if FP.le (lit 1) ret then ⟨false, (lit 1 : FP b80).mag - 1, Nat.lt_of_le_of_lt (Nat.sub_le _ _) (lit 1 : FP b80).bound⟩ else ret

/-- vdtdiag_interfaces.h:220,224: `uniform_dist(min, max)` applied to one engine output. -/
def uniform {f : Fmt} (min max : FP f) (g : BitVec 64) : FP b80 :=
  canonical g * (convert b80 max - convert b80 min) + convert b80 min

/-- vdtdiag_interfaces.h:215-229, beginning with engine output number `k`. -/
def fillVector {f : Fmt} (eng : Engine) (k : Nat) (min max : FP f) (size : BitVec 64) : List (FP f) :=
  (List.range size.toNat).map fun i => convert f (uniform min max (eng (k + i)))

/-- vdtdiag_random.h:47-53: the numbers of a `randomPool1D`. -/
def pool1D {f : Fmt} (eng : Engine) (min max : FP f) (size : BitVec 64) : List (FP f) :=
  fillVector eng 0 min max size

/-- vdtdiag_random.h:134-145: `m_numbersX` and `m_numbersY` of a `randomPool2D`, filled one after the
other from the same engine. -/
def pool2D {f : Fmt} (eng : Engine) (minX minY maxX maxY : FP f) (size : BitVec 64) : List (FP f) × List (FP f) :=
  (fillVector eng 0 minX maxX size, fillVector eng size.toNat minY maxY size)

end Vdt.Rand
