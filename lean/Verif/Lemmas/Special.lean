import Verif.Lemmas.Common
import Verif.Model.Exp

/-! # NaN propagation, infinities, sign symmetry of the operations -/

namespace Vdt
namespace FP
variable {f : Fmt}

theorem nanMag_gt (f : Fmt) [f.Ok] : f.infMag < nanMag f := by
  unfold nanMag
  have h1 : 2 ^ (f.mb - 1) > 0 := Nat.two_pow_pos _
  have h2 : f.infMag + 1 < f.magCount := by
    unfold Fmt.infMag Fmt.magCount
    have hm : 2 ≤ 2 ^ f.mb := by
      have := Fmt.Ok.mb1 (f := f)
      calc 2 = 2 ^ 1 := rfl
        _ ≤ 2 ^ f.mb := Nat.pow_le_pow_right (by norm_num) this
    have he : 0 < 2 ^ f.eb := Nat.two_pow_pos _
    rw [pow_add, Nat.sub_mul]
    have : 2 ^ f.mb ≤ 2 ^ f.eb * 2 ^ f.mb := Nat.le_mul_of_pos_left _ he
    omega
  omega

@[simp] theorem nan_isNaN [f.Ok] : (nan : FP f).isNaN = true := by
  simp [isNaN, nan, nanMag_gt]

@[simp] theorem inf_isInf (s : Bool) : (inf s : FP f).isInf = true := by simp [isInf, inf]
@[simp] theorem inf_isNaN (s : Bool) : (inf s : FP f).isNaN = false := by simp [isNaN, inf]

theorem add_nan_left {x : FP f} (h : x.isNaN = true) (y : FP f) : add x y = nan := by simp [add, h]
theorem add_nan_right {y : FP f} (x : FP f) (h : y.isNaN = true) : add x y = nan := by simp [add, h]
theorem sub_nan_left {x : FP f} (h : x.isNaN = true) (y : FP f) : sub x y = nan := by simp [sub, add, h]
theorem sub_nan_right {y : FP f} (x : FP f) (h : y.isNaN = true) : sub x y = nan := by simp [sub, add, h]
theorem mul_nan_left {x : FP f} (h : x.isNaN = true) (y : FP f) : mul x y = nan := by simp [mul, h]
theorem mul_nan_right {y : FP f} (x : FP f) (h : y.isNaN = true) : mul x y = nan := by simp [mul, h]
theorem div_nan_left {x : FP f} (h : x.isNaN = true) (y : FP f) : div x y = nan := by simp [div, h]
theorem div_nan_right {y : FP f} (x : FP f) (h : y.isNaN = true) : div x y = nan := by simp [div, h]
theorem lt_nan_left {x : FP f} (h : x.isNaN = true) (y : FP f) : lt x y = false := by simp [lt, h]
theorem lt_nan_right {y : FP f} (x : FP f) (h : y.isNaN = true) : lt x y = false := by simp [lt, h]
theorem gt_nan_left {x : FP f} (h : x.isNaN = true) (y : FP f) : gt x y = false := by simp [gt, lt, h]
theorem gt_nan_right {y : FP f} (x : FP f) (h : y.isNaN = true) : gt x y = false := by simp [gt, lt, h]
theorem eq_nan_left {x : FP f} (h : x.isNaN = true) (y : FP f) : eq x y = false := by simp [eq, h]
theorem le_nan_left {x : FP f} (h : x.isNaN = true) (y : FP f) : le x y = false := by simp [le, lt, eq, h]

section
variable [f.Ok]
@[simp] theorem add_nan_l (y : FP f) : add nan y = nan := add_nan_left nan_isNaN y
@[simp] theorem add_nan_r (y : FP f) : add y nan = nan := add_nan_right y nan_isNaN
@[simp] theorem sub_nan_l (y : FP f) : sub nan y = nan := sub_nan_left nan_isNaN y
@[simp] theorem sub_nan_r (y : FP f) : sub y nan = nan := sub_nan_right y nan_isNaN
@[simp] theorem mul_nan_l (y : FP f) : mul nan y = nan := mul_nan_left nan_isNaN y
@[simp] theorem mul_nan_r (y : FP f) : mul y nan = nan := mul_nan_right y nan_isNaN
@[simp] theorem div_nan_l (y : FP f) : div nan y = nan := div_nan_left nan_isNaN y
@[simp] theorem div_nan_r (y : FP f) : div y nan = nan := div_nan_right y nan_isNaN
@[simp] theorem lt_nan_l (y : FP f) : lt nan y = false := lt_nan_left nan_isNaN y
@[simp] theorem lt_nan_r (y : FP f) : lt y nan = false := lt_nan_right y nan_isNaN
@[simp] theorem gt_nan_l (y : FP f) : gt nan y = false := gt_nan_left nan_isNaN y
@[simp] theorem gt_nan_r (y : FP f) : gt y nan = false := gt_nan_right y nan_isNaN
@[simp] theorem le_nan_l (y : FP f) : le nan y = false := le_nan_left nan_isNaN y
end

/-! ### Orders -/

/-- An infinite number is one of the two infinities. -/
theorem eq_inf {x : FP f} (h : x.isInf = true) : x = inf x.sign := by
  simp [isInf] at h
  ext <;> simp [inf, h]

theorem eq_zero' {x : FP f} (h : x.isZero = true) : x = zero x.sign := by
  simp [isZero] at h
  ext <;> simp [zero, h]

theorem zero_finite [f.Ok] (s : Bool) : (zero s : FP f).isFinite = true := by
  have h : 0 < f.infMag := by
    unfold Fmt.infMag
    have := Fmt.Ok.eb2 (f := f)
    have h2 : 2 ^ 2 ≤ 2 ^ f.eb := Nat.pow_le_pow_right (by norm_num) this
    have h3 : 0 < 2 ^ f.mb := Nat.two_pow_pos _
    apply Nat.mul_pos _ h3
    omega
  simp [isFinite, zero, h]

@[simp] theorem val_zero (s : Bool) : (zero s : FP f).val = 0 := val_eq_zero.2 rfl

/-- Comparison with zero of a number that is not a NaN. -/
theorem lt_zero_iff [f.Ok] {x z : FP f} (hz : z.isZero = true) (h : x.isNaN = false) :
    lt x z = (x.sign && !x.isZero) := by
  have hzn := eq_zero' hz
  have hzf : z.isFinite = true := by rw [hzn]; exact zero_finite _
  have hzv : z.val = 0 := by rw [hzn]; exact val_zero _
  rcases trichotomy x with hx | hx | hx
  · rw [hx] at h; cases h
  · have h0 : x.isZero = false := by
      have := zero_finite (f := f) false
      simp [isInf, isZero, isFinite, zero] at *; omega
    simp [lt, h, hx, finite_not_nan hzf, finite_not_inf hzf, h0]
  · rw [lt_fin hx hzf, hzv, Bool.eq_iff_iff]
    simp only [decide_eq_true_eq, Bool.and_eq_true, Bool.not_eq_true']
    rw [val_neg_iff]
    simp [isZero, Nat.pos_iff_ne_zero]

/-! ### Sign symmetry on finite operands -/

theorem mul_neg_left [f.Ok] {x y : FP f} (hx : x.isFinite = true) (hy : y.isFinite = true) :
    mul (neg x) y = neg (mul x y) := by
  rw [mul_fin (by simpa using hx) hy, mul_fin hx hy, ← ofRat_neg, val_neg, neg_sign, neg_mul]
  congr 1; cases x.sign <;> cases y.sign <;> rfl

theorem mul_neg_right [f.Ok] {x y : FP f} (hx : x.isFinite = true) (hy : y.isFinite = true) :
    mul x (neg y) = neg (mul x y) := by
  rw [mul_fin hx (by simpa using hy), mul_fin hx hy, ← ofRat_neg, val_neg, neg_sign, mul_neg]
  congr 1; cases x.sign <;> cases y.sign <;> rfl

/-- `(-x)*(-y)` and `x*y` are the same pattern for every pair of patterns. -/
theorem mul_neg_neg (x y : FP f) : mul (neg x) (neg y) = mul x y := by
  unfold mul
  simp only [neg_isNaN, neg_isInf, neg_isZero, neg_sign, val_neg, neg_mul_neg]
  cases x.sign <;> cases y.sign <;> rfl

theorem div_neg_left {x y : FP f} (hx : x.isNaN = false) (hy : y.isNaN = false)
    (h1 : ¬ (x.isInf = true ∧ y.isInf = true)) (h2 : ¬ (x.isZero = true ∧ y.isZero = true)) :
    div (neg x) y = neg (div x y) := by
  unfold div
  simp only [neg_isNaN, neg_isInf, neg_isZero, neg_sign, val_neg, hx, hy, Bool.or_false, Bool.false_eq_true, if_false]
  by_cases a : x.isInf = true
  · have b : y.isInf = false := by
      by_contra hb; exact h1 ⟨a, by simpa using hb⟩
    simp only [a, b, if_true, Bool.false_eq_true, if_false]
    ext <;> simp [inf]
  · simp only [a, Bool.false_eq_true, if_false]
    by_cases b : y.isInf = true
    · simp only [b, if_true]; ext <;> simp [zero]
    · simp only [b, Bool.false_eq_true, if_false]
      by_cases c : y.isZero = true
      · have d : x.isZero = false := by
          by_contra hb; exact h2 ⟨by simpa using hb, c⟩
        simp only [c, d, if_true, Bool.false_eq_true, if_false]; ext <;> simp [inf]
      · simp only [c, Bool.false_eq_true, if_false]
        rw [← ofRat_neg, neg_div]
        congr 1; cases x.sign <;> cases y.sign <;> rfl

/-- A product that is a NaN comes from a NaN or from zero times infinity. -/
theorem mul_neg_left' {x y : FP f} (hx : x.isNaN = false) (hy : y.isNaN = false)
    (h : ¬ ((x.isInf = true ∨ y.isInf = true) ∧ (x.isZero = true ∨ y.isZero = true))) :
    mul (neg x) y = neg (mul x y) := by
  unfold mul
  simp only [neg_isNaN, neg_isInf, neg_isZero, neg_sign, val_neg, hx, hy, Bool.or_false, Bool.false_eq_true, if_false]
  by_cases a : (x.isInf || y.isInf) = true
  · have b : (x.isZero || y.isZero) = false := by
      by_contra hb
      rw [Bool.not_eq_false] at hb
      simp only [Bool.or_eq_true] at a hb
      exact h ⟨a, hb⟩
    simp only [a, b, if_true, Bool.false_eq_true, if_false]
    ext <;> simp [inf]
  · simp only [a]
    rw [if_neg (by simp), if_neg (by simp), ← ofRat_neg, neg_mul]
    congr 1; cases x.sign <;> cases y.sign <;> rfl

end FP
end Vdt
