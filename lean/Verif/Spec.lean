import Verif.Float.Basic
import Mathlib.Data.Real.Basic
import Mathlib.Algebra.Order.Floor.Ring
import Mathlib.Data.Rat.Floor

/-!
# Vocabulary of the property statements

Small notions used to *state* properties, independent of the models of the functions.
-/

namespace Vdt
namespace FP
variable {f : Fmt}

/-- The real number a finite pattern stands for. -/
noncomputable def real (x : FP f) : ℝ := (x.val : ℝ)

/-- A finite number whose magnitude is at least the smallest normal number. -/
def Normal (x : FP f) : Prop := x.isFinite = true ∧ (2 : ℚ) ^ f.emin ≤ |x.val|

/-- `x` is finite and within `2^-k` relative error of the real number `r`. -/
def CloseRel (x : FP f) (r : ℝ) (ε : ℝ) : Prop := x.isFinite = true ∧ |x.real - r| ≤ ε * |r|

/-- `x` is finite and within absolute error `ε` of the real number `r`. -/
def CloseAbs (x : FP f) (r : ℝ) (ε : ℝ) : Prop := x.isFinite = true ∧ |x.real - r| ≤ ε

/-- The two patterns differ in the sign bit and nothing else. -/
def SignFlipped (x y : FP f) : Prop := x.sign ≠ y.sign ∧ x.mag = y.mag

/-- Negative zero and positive zero. -/
def pzero : FP f := zero false
def nzero : FP f := zero true

end FP
end Vdt
