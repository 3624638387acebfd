import Verif.Real.Taylor
import Mathlib.Analysis.SpecialFunctions.Trigonometric.Arctan
import Mathlib.Analysis.SpecialFunctions.Trigonometric.Inverse
import Mathlib.Analysis.Real.Pi.Bounds
import Mathlib.Analysis.Complex.Exponential
import Mathlib.Analysis.SpecialFunctions.Log.Basic

/-! # Rational enclosures of the elementary functions at a rational argument

Each lemma reduces `a ≤ h x ≤ b` to inequalities between rational numbers: a Taylor sum and its remainder. They serve to show that a given result is far from the exact value.
-/

namespace Vdt

/-- `Σ_{k<n} x^k/k!`. -/
def expQ (x : ℚ) : ℕ → ℚ
  | 0 => 0
  | n + 1 => expQ x n + x ^ n / n.factorial

/-- `Σ_{k<n} (-1)^k x^(2k+1)/(2k+1)!`. -/
def sinQ (x : ℚ) : ℕ → ℚ
  | 0 => 0
  | n + 1 => sinQ x n + (-1) ^ n * x ^ (2 * n + 1) / (2 * n + 1).factorial

/-- `Σ_{k<n} (-1)^k x^(2k)/(2k)!`. -/
def cosQ (x : ℚ) : ℕ → ℚ
  | 0 => 0
  | n + 1 => cosQ x n + (-1) ^ n * x ^ (2 * n) / (2 * n).factorial

/-- The remainder after `n` terms of the exponential series. -/
def expRem (x : ℚ) (n : ℕ) : ℚ := |x| ^ n * ((n + 1) / (n.factorial * n))
/-- The remainder of the Taylor sums of sine and cosine whose next power is `n`. -/
def trigRem (x : ℚ) (n : ℕ) : ℚ := |x| ^ n / n.factorial

theorem expQ_cast (x : ℚ) (n : ℕ) : ((expQ x n : ℚ) : ℝ) = ∑ m ∈ Finset.range n, (x : ℝ) ^ m / m.factorial := by
  induction n with
  | zero => simp [expQ]
  | succ n ih => rw [expQ, Finset.sum_range_succ, ← ih]; push_cast; rfl

theorem sinQ_cast (x : ℚ) (n : ℕ) : ((sinQ x n : ℚ) : ℝ) = sinR x n := by
  induction n with
  | zero => simp [sinQ, sinR]
  | succ n ih => rw [sinQ, sinR, ← ih]; push_cast; rfl

theorem cosQ_cast (x : ℚ) (n : ℕ) : ((cosQ x n : ℚ) : ℝ) = cosR x n := by
  induction n with
  | zero => simp [cosQ, cosR]
  | succ n ih => rw [cosQ, cosR, ← ih]; push_cast; rfl

theorem exp_near (x : ℚ) (n : ℕ) (hx : |x| ≤ 1) (hn : 0 < n) : |Real.exp x - (expQ x n : ℚ)| ≤ (expRem x n : ℚ) := by
  have h := Real.exp_bound (x := (x : ℝ)) (by exact_mod_cast hx) hn
  rw [expQ_cast]; unfold expRem; push_cast; simpa using h

theorem sin_near (x : ℚ) (n : ℕ) : |Real.sin x - (sinQ x n : ℚ)| ≤ (trigRem x (2 * n + 1) : ℚ) := by
  rw [sinQ_cast]; unfold trigRem; push_cast; exact (taylor n).2 x

theorem cos_near (x : ℚ) (n : ℕ) : |Real.cos x - (cosQ x n : ℚ)| ≤ (trigRem x (2 * n) : ℚ) := by
  rw [cosQ_cast]; unfold trigRem; push_cast; exact (taylor n).1 x

theorem encl_of_near {r : ℝ} {s e a b : ℚ} (h : |r - s| ≤ e) (h1 : a ≤ s - e) (h2 : s + e ≤ b) : (a : ℝ) ≤ r ∧ r ≤ b := by
  have h1' := (Rat.cast_le (K := ℝ)).2 h1
  have h2' := (Rat.cast_le (K := ℝ)).2 h2
  push_cast at h1' h2'
  have := abs_le.1 h
  constructor <;> linarith [this.1, this.2]

theorem exp_encl {x a b : ℚ} (n : ℕ) (hx : |x| ≤ 1) (hn : 0 < n) (h1 : a ≤ expQ x n - expRem x n) (h2 : expQ x n + expRem x n ≤ b) :
    (a : ℝ) ≤ Real.exp x ∧ Real.exp x ≤ b := encl_of_near (exp_near x n hx hn) h1 h2

theorem sin_encl {x a b : ℚ} (n : ℕ) (h1 : a ≤ sinQ x n - trigRem x (2 * n + 1)) (h2 : sinQ x n + trigRem x (2 * n + 1) ≤ b) :
    (a : ℝ) ≤ Real.sin x ∧ Real.sin x ≤ b := encl_of_near (sin_near x n) h1 h2

theorem cos_encl {x a b : ℚ} (n : ℕ) (h1 : a ≤ cosQ x n - trigRem x (2 * n)) (h2 : cosQ x n + trigRem x (2 * n) ≤ b) :
    (a : ℝ) ≤ Real.cos x ∧ Real.cos x ≤ b := encl_of_near (cos_near x n) h1 h2

theorem log_encl {x a b : ℚ} (n : ℕ) (hx : 0 < x) (ha : |a| ≤ 1) (hb : |b| ≤ 1) (hn : 0 < n) (h1 : expQ a n + expRem a n ≤ x) (h2 : x ≤ expQ b n - expRem b n) :
    (a : ℝ) ≤ Real.log x ∧ Real.log x ≤ b := by
  have x0 : (0 : ℝ) < x := by exact_mod_cast hx
  constructor
  · rw [Real.le_log_iff_exp_le x0]
    exact (exp_encl (a := expQ a n - expRem a n) n ha hn le_rfl h1).2
  · rw [Real.log_le_iff_le_exp x0]
    exact (exp_encl (b := expQ b n + expRem b n) n hb hn h2 le_rfl).1

theorem half_pi_gt {a : ℚ} (h0 : 0 ≤ a) (h1 : a ≤ 1.5) : -(Real.pi / 2) < (a : ℝ) ∧ (a : ℝ) < Real.pi / 2 := by
  have p := Real.pi_gt_three
  have a0 : (0 : ℝ) ≤ a := by exact_mod_cast h0
  have a1 := (Rat.cast_le (K := ℝ)).2 h1
  push_cast at a1
  constructor <;> linarith

theorem asin_encl {x a b : ℚ} (n : ℕ) (hx : |x| ≤ 1) (a0 : 0 ≤ a) (b0 : 0 ≤ b) (a1 : a ≤ 1.5) (b1 : b ≤ 1.5)
    (h1 : sinQ a n + trigRem a (2 * n + 1) ≤ x) (h2 : x ≤ sinQ b n - trigRem b (2 * n + 1)) :
    (a : ℝ) ≤ Real.arcsin x ∧ Real.arcsin x ≤ b := by
  have hx' : (x : ℝ) ∈ Set.Icc (-1 : ℝ) 1 := by
    have := abs_le.1 hx
    exact ⟨by exact_mod_cast this.1, by exact_mod_cast this.2⟩
  have pa := half_pi_gt a0 a1
  have pb := half_pi_gt b0 b1
  constructor
  · rw [Real.le_arcsin_iff_sin_le ⟨pa.1.le, pa.2.le⟩ hx']
    exact (sin_encl (a := sinQ a n - trigRem a (2 * n + 1)) n le_rfl h1).2
  · rw [Real.arcsin_le_iff_le_sin hx' ⟨pb.1.le, pb.2.le⟩]
    exact (sin_encl (b := sinQ b n + trigRem b (2 * n + 1)) n h2 le_rfl).1

theorem atan_encl {x a b : ℚ} (n : ℕ) (x0 : 0 ≤ x) (a0 : 0 ≤ a) (b0 : 0 ≤ b) (a1 : a ≤ 1.5) (b1 : b ≤ 1.5)
    (h1 : sinQ a n + trigRem a (2 * n + 1) ≤ x * (cosQ a n - trigRem a (2 * n)))
    (h2 : x * (cosQ b n + trigRem b (2 * n)) ≤ sinQ b n - trigRem b (2 * n + 1)) :
    (a : ℝ) ≤ Real.arctan x ∧ Real.arctan x ≤ b := by
  have pa := half_pi_gt a0 a1
  have pb := half_pi_gt b0 b1
  have x0' : (0 : ℝ) ≤ x := by exact_mod_cast x0
  constructor
  · rw [← Real.arctan_tan pa.1 pa.2]
    refine Real.arctan_mono ?_
    rw [Real.tan_eq_sin_div_cos, div_le_iff₀ (Real.cos_pos_of_mem_Ioo ⟨pa.1, pa.2⟩)]
    have s := (sin_encl (a := sinQ a n - trigRem a (2 * n + 1)) n le_rfl (le_refl (sinQ a n + trigRem a (2 * n + 1)))).2
    have c := (cos_encl (b := cosQ a n + trigRem a (2 * n)) n (le_refl (cosQ a n - trigRem a (2 * n))) le_rfl).1
    have h1' := (Rat.cast_le (K := ℝ)).2 h1
    rw [Rat.cast_mul] at h1'
    exact s.trans (h1'.trans (mul_le_mul_of_nonneg_left c x0'))
  · rw [← Real.arctan_tan pb.1 pb.2]
    refine Real.arctan_mono ?_
    rw [Real.tan_eq_sin_div_cos, le_div_iff₀ (Real.cos_pos_of_mem_Ioo ⟨pb.1, pb.2⟩)]
    have s := (sin_encl (b := sinQ b n + trigRem b (2 * n + 1)) n (le_refl (sinQ b n - trigRem b (2 * n + 1))) le_rfl).1
    have c := (cos_encl (a := cosQ b n - trigRem b (2 * n)) n le_rfl (le_refl (cosQ b n + trigRem b (2 * n)))).2
    have h2' := (Rat.cast_le (K := ℝ)).2 h2
    rw [Rat.cast_mul] at h2'
    exact (mul_le_mul_of_nonneg_left c x0').trans (h2'.trans s)

/-- For an argument with positive cosine. -/
theorem tan_encl {x a b : ℚ} (n : ℕ) (a0 : 0 ≤ a) (b0 : 0 ≤ b) (c0 : 0 < cosQ x n - trigRem x (2 * n))
    (h1 : a * (cosQ x n + trigRem x (2 * n)) ≤ sinQ x n - trigRem x (2 * n + 1)) (h2 : sinQ x n + trigRem x (2 * n + 1) ≤ b * (cosQ x n - trigRem x (2 * n))) :
    (a : ℝ) ≤ Real.tan x ∧ Real.tan x ≤ b := by
  have s := sin_encl (x := x) n le_rfl le_rfl
  have c := cos_encl (x := x) n le_rfl le_rfl
  have a0' : (0 : ℝ) ≤ a := by exact_mod_cast a0
  have b0' : (0 : ℝ) ≤ b := by exact_mod_cast b0
  have c0' := (Rat.cast_lt (K := ℝ)).2 c0
  rw [Rat.cast_zero] at c0'
  have cp : 0 < Real.cos x := c0'.trans_le c.1
  have h1' := (Rat.cast_le (K := ℝ)).2 h1
  have h2' := (Rat.cast_le (K := ℝ)).2 h2
  rw [Rat.cast_mul] at h1' h2'
  rw [Real.tan_eq_sin_div_cos, le_div_iff₀ cp, div_le_iff₀ cp]
  exact ⟨(mul_le_mul_of_nonneg_left c.2 a0').trans (h1'.trans s.1), s.2.trans (h2'.trans (mul_le_mul_of_nonneg_left c.1 b0'))⟩

theorem tanh_exp_two (x : ℝ) : Real.tanh x * (Real.exp (2 * x) + 1) = Real.exp (2 * x) - 1 := by
  rw [Real.tanh_eq_sinh_div_cosh, Real.sinh_eq, Real.cosh_eq, two_mul, Real.exp_add, Real.exp_neg]
  have := Real.exp_pos x
  generalize Real.exp x = t at *
  have : t⁻¹ + t ≠ 0 := by positivity
  field_simp

theorem tanh_encl {x a b : ℚ} (n : ℕ) (hx : |2 * x| ≤ 1) (hn : 0 < n) (a1 : a < 1) (b1 : b < 1)
    (h1 : 1 + a ≤ (1 - a) * (expQ (2 * x) n - expRem (2 * x) n)) (h2 : (1 - b) * (expQ (2 * x) n + expRem (2 * x) n) ≤ 1 + b) :
    (a : ℝ) ≤ Real.tanh x ∧ Real.tanh x ≤ b := by
  have e := exp_encl (x := 2 * x) n hx hn le_rfl le_rfl
  have a1' : (0 : ℝ) < 1 - a := by have : (a : ℝ) < 1 := by exact_mod_cast a1
                                   linarith
  have b1' : (0 : ℝ) < 1 - b := by have : (b : ℝ) < 1 := by exact_mod_cast b1
                                   linarith
  have h1' := (Rat.cast_le (K := ℝ)).2 h1
  have h2' := (Rat.cast_le (K := ℝ)).2 h2
  rw [Rat.cast_mul] at h1' h2'
  have k1 := h1'.trans (mul_le_mul_of_nonneg_left e.1 (by push_cast; exact a1'.le))
  have k2 := (mul_le_mul_of_nonneg_left e.2 (by push_cast; exact b1'.le : (0 : ℝ) ≤ ((1 - b : ℚ) : ℝ))).trans h2'
  push_cast at k1 k2
  have t := tanh_exp_two (x : ℝ)
  have ep := Real.exp_pos (2 * (x : ℝ))
  generalize Real.exp (2 * (x : ℝ)) = E at *
  constructor
  · refine le_of_mul_le_mul_right ?_ (by linarith : 0 < E + 1)
    rw [t]; linarith
  · refine le_of_mul_le_mul_right ?_ (by linarith : 0 < E + 1)
    rw [t]; linarith

end Vdt
