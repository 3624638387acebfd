import Verif.Real.Tools
import Mathlib.Analysis.SpecialFunctions.Trigonometric.Deriv
import Mathlib.Data.Nat.Factorial.Basic

/-! # Taylor polynomials of sine and cosine -/

namespace Vdt
open Set

/-- `Σ_{k<n} (-1)^k x^(2k+1)/(2k+1)!`. -/
noncomputable def sinR (x : ℝ) : ℕ → ℝ
  | 0 => 0
  | n + 1 => sinR x n + (-1) ^ n * x ^ (2 * n + 1) / (2 * n + 1).factorial

/-- `Σ_{k<n} (-1)^k x^(2k)/(2k)!`. -/
noncomputable def cosR (x : ℝ) : ℕ → ℝ
  | 0 => 0
  | n + 1 => cosR x n + (-1) ^ n * x ^ (2 * n) / (2 * n).factorial

theorem hasDerivAt_sinR (n : ℕ) (y : ℝ) : HasDerivAt (fun y => sinR y n) (cosR y n) y := by
  induction n with
  | zero => simpa [sinR, cosR] using hasDerivAt_const y (0 : ℝ)
  | succ n ih =>
    have h1 := (((hasDerivAt_pow (2 * n + 1) y).const_mul ((-1 : ℝ) ^ n)).div_const (((2 * n + 1).factorial : ℕ) : ℝ))
    have h := ih.add h1
    have e : cosR y (n + 1) = cosR y n + (-1) ^ n * (((2 * n + 1 : ℕ) : ℝ) * y ^ (2 * n + 1 - 1)) / (((2 * n + 1).factorial : ℕ) : ℝ) := by
      rw [cosR, Nat.factorial_succ]
      have p1 : (((2 * n).factorial : ℕ) : ℝ) ≠ 0 := by positivity
      push_cast
      have p2 : 2 * (n : ℝ) + 1 ≠ 0 := by positivity
      field_simp
    rw [e]; exact h

theorem hasDerivAt_cosR (n : ℕ) (y : ℝ) : HasDerivAt (fun y => cosR y (n + 1)) (-sinR y n) y := by
  induction n with
  | zero => simpa [sinR, cosR] using hasDerivAt_const y (1 : ℝ)
  | succ n ih =>
    have h1 := (((hasDerivAt_pow (2 * (n + 1)) y).const_mul ((-1 : ℝ) ^ (n + 1))).div_const (((2 * (n + 1)).factorial : ℕ) : ℝ))
    have h := ih.add h1
    have e : -sinR y (n + 1) = -sinR y n + (-1) ^ (n + 1) * (((2 * (n + 1) : ℕ) : ℝ) * y ^ (2 * (n + 1) - 1)) / (((2 * (n + 1)).factorial : ℕ) : ℝ) := by
      rw [sinR, show 2 * (n + 1) = (2 * n + 1) + 1 by ring, Nat.factorial_succ (2 * n + 1)]
      have p1 : (((2 * n + 1).factorial : ℕ) : ℝ) ≠ 0 := by positivity
      push_cast
      have p2 : 2 * (n : ℝ) + 1 + 1 ≠ 0 := by positivity
      field_simp
      ring
    rw [e]; exact h

theorem sinR_zero (n : ℕ) : sinR 0 n = 0 := by
  induction n with
  | zero => rfl
  | succ n ih => rw [sinR, ih]; simp

theorem cosR_zero (n : ℕ) : cosR 0 (n + 1) = 1 := by
  induction n with
  | zero => simp [cosR]
  | succ n ih => rw [cosR, ih]; simp

theorem taylor (n : ℕ) : (∀ x, |Real.cos x - cosR x n| ≤ |x| ^ (2 * n) / (2 * n).factorial) ∧
    (∀ x, |Real.sin x - sinR x n| ≤ |x| ^ (2 * n + 1) / (2 * n + 1).factorial) := by
  have step1 : ∀ n, (∀ x, |Real.cos x - cosR x n| ≤ |x| ^ (2 * n) / (2 * n).factorial) →
      ∀ x, |Real.sin x - sinR x n| ≤ |x| ^ (2 * n + 1) / (2 * n + 1).factorial := by
    intro n hc x
    have h := mvt_pow (f := fun y => Real.sin y - sinR y n) (f' := fun y => Real.cos y - cosR y n)
      (C := 1 / (2 * n).factorial) (x := x) (2 * n)
      (fun y _ => (Real.hasDerivAt_sin y).sub (hasDerivAt_sinR n y))
      (fun y _ => (hc y).trans (le_of_eq (by ring)))
    simp only [Real.sin_zero, sinR_zero, sub_zero] at h
    refine h.trans (le_of_eq ?_)
    rw [Nat.factorial_succ]
    push_cast
    field_simp
  induction n with
  | zero =>
    have h0 : ∀ x, |Real.cos x - cosR x 0| ≤ |x| ^ (2 * 0) / (2 * 0).factorial := by
      intro x; simpa [cosR] using Real.abs_cos_le_one x
    exact ⟨h0, step1 0 h0⟩
  | succ n ih =>
    have h0 : ∀ x, |Real.cos x - cosR x (n + 1)| ≤ |x| ^ (2 * (n + 1)) / (2 * (n + 1)).factorial := by
      intro x
      have h := mvt_pow (f := fun y => Real.cos y - cosR y (n + 1)) (f' := fun y => -Real.sin y - -sinR y n)
        (C := 1 / (2 * n + 1).factorial) (x := x) (2 * n + 1)
        (fun y _ => (Real.hasDerivAt_cos y).sub (hasDerivAt_cosR n y))
        (fun y _ => by
          have : -Real.sin y - -sinR y n = -(Real.sin y - sinR y n) := by ring
          rw [this, abs_neg]
          exact (ih.2 y).trans (le_of_eq (by ring)))
      simp only [Real.cos_zero, cosR_zero, sub_self, sub_zero] at h
      refine h.trans (le_of_eq ?_)
      rw [show 2 * (n + 1) = (2 * n + 1) + 1 by ring, Nat.factorial_succ (2 * n + 1)]
      push_cast
      field_simp
    exact ⟨h0, step1 _ h0⟩

/-- `Σ_{k<9} (-w)^k/(2k+1)!` -/
def sinTl : List ℚ := [1, -1/6, 1/120, -1/5040, 1/362880, -1/39916800, 1/6227020800, -1/1307674368000, 1/355687428096000]
/-- `Σ_{k<9} (-w)^k/(2k)!` -/
def cosTl : List ℚ := [1, -1/2, 1/24, -1/720, 1/40320, -1/3628800, 1/479001600, -1/87178291200, 1/20922789888000]

theorem sinTl_eq (x : ℝ) : sinR x 9 = x * pev sinTl (x * x) := by
  simp only [sinR, sinTl, pev_cons, pev_nil, Nat.factorial]
  push_cast
  ring

theorem cosTl_eq (x : ℝ) : cosR x 9 = pev cosTl (x * x) := by
  simp only [cosR, cosTl, pev_cons, pev_nil, Nat.factorial]
  push_cast
  ring

theorem sin_taylor {x : ℝ} (h : |x| ≤ 0.8) : |Real.sin x - x * pev sinTl (x * x)| ≤ 2 ^ (-62 : ℤ) * |x| := by
  rw [← sinTl_eq]
  refine ((taylor 9).2 x).trans ?_
  have : |x| ^ (2 * 9) ≤ 0.8 ^ (2 * 9) := pow_le_pow_left₀ (abs_nonneg _) h _
  rw [pow_succ, mul_comm, mul_comm (2 ^ (-62 : ℤ)) |x|, mul_div_assoc]
  apply mul_le_mul_of_nonneg_left _ (abs_nonneg _)
  refine (div_le_div_of_nonneg_right this (by positivity)).trans ?_
  norm_num [Nat.factorial]

theorem cos_taylor {x : ℝ} (h : |x| ≤ 0.8) : |Real.cos x - pev cosTl (x * x)| ≤ 2 ^ (-58 : ℤ) := by
  rw [← cosTl_eq]
  refine ((taylor 9).1 x).trans ?_
  have : |x| ^ (2 * 9) ≤ 0.8 ^ (2 * 9) := pow_le_pow_left₀ (abs_nonneg _) h _
  refine (div_le_div_of_nonneg_right this (by positivity)).trans ?_
  norm_num [Nat.factorial]

end Vdt
