import Verif.Model.Flush

/-!
# The rounding directions of the processor

`fesetround` changes the direction in which every operation of the functions of `include/*.h` rounds.  The functions over an
arithmetic with other results are those of `Model/Flush.lean`; here are the modes for the four directions.

* Only what the functions read at run time is changed: the constants are rounded to nearest, as the compiler does it.
* No direction changes the operands.  Conversions of 32-bit integers to double are exact.  (Those to float are exact up to `2^24`; beyond
  that the model keeps rounding to nearest, so the theorems about float stay below.)
* Overflow follows rounding to nearest; the theorems are about results below `2^1023` (float: `2^127`).
* The sign of a zero that is the exact result of a subtraction depends on the direction; `Mode.Dir` leaves it open.
-/

namespace Vdt.Flush
open FP

/-- The next larger number. -/
def nextUp {f : Fmt} (x : FP f) : FP f :=
  if x.sign = false ∨ x.mag = 0 then (if h : x.mag + 1 < f.magCount then ⟨false, x.mag + 1, h⟩ else x)
  else ⟨true, x.mag - 1, lt_of_le_of_lt (Nat.sub_le _ _) x.bound⟩

/-- The next smaller number. -/
def nextDown {f : Fmt} (x : FP f) : FP f := FP.neg (nextUp (FP.neg x))

/-- How the number `r` compares with the exact result. -/
def cmpExact {f : Fmt} (o : Op) (x y r : FP f) : Ordering :=
  match o with
  | .add => compare r.val (x.val + y.val)
  | .sub => compare r.val (x.val - y.val)
  | .mul => compare r.val (x.val * y.val)
  | .div => compare r.val (x.val / y.val)
  | .sqrt => compare (r.val * r.val) x.val

/-- `FE_TONEAREST` -/
def nearest : Mode := ⟨fun x => x, fun _ _ _ r => r, fun _ r => r⟩

/-- `FE_UPWARD` -/
def upward : Mode := ⟨fun x => x, fun o x y r => if cmpExact o x y r = .lt then nextUp r else r,
  fun x r => if r.val < x.val then nextUp r else r⟩

/-- `FE_DOWNWARD` -/
def downward : Mode := ⟨fun x => x, fun o x y r => if cmpExact o x y r = .gt then nextDown r else r,
  fun x r => if x.val < r.val then nextDown r else r⟩

/-- `FE_TOWARDZERO` (a result has the sign of the rounded one, or that one is zero) -/
def towardZero : Mode := ⟨fun x => x,
  fun o x y r => if cmpExact o x y r = .gt ∧ 0 < r.val then nextDown r else if cmpExact o x y r = .lt ∧ r.val < 0 then nextUp r else r,
  fun x r => if x.val < r.val ∧ 0 < r.val then nextDown r else if r.val < x.val ∧ r.val < 0 then nextUp r else r⟩

end Vdt.Flush
