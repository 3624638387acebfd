import Verif.Real.Poly
import Mathlib.Analysis.Calculus.MeanValue
import Mathlib.Analysis.Calculus.Deriv.MeanValue
import Mathlib.Analysis.Calculus.Deriv.Pow
import Mathlib.Analysis.SpecialFunctions.Log.Deriv
import Mathlib.Analysis.SpecialFunctions.Trigonometric.Arctan
import Mathlib.Analysis.SpecialFunctions.Trigonometric.ArctanDeriv
import Mathlib.Tactic.NormNum

/-! # Mean value bounds, and the constants `log 2` and `π` to many digits -/

namespace Vdt
open Set

/-- A function whose derivative is dominated by that of `B` grows at most like `B`. -/
theorem mvt_mono {f f' B B' : ℝ → ℝ} {x : ℝ} (hx : 0 ≤ x)
    (hf : ∀ y ∈ Icc 0 x, HasDerivAt f (f' y) y) (hB : ∀ y ∈ Icc 0 x, HasDerivAt B (B' y) y)
    (h : ∀ y ∈ Icc 0 x, |f' y| ≤ B' y) : |f x - f 0| ≤ B x - B 0 := by
  have h0 : (0 : ℝ) ∈ Icc 0 x := ⟨le_rfl, hx⟩
  have h1 : x ∈ Icc 0 x := ⟨hx, le_rfl⟩
  have key : ∀ (g g' : ℝ → ℝ), (∀ y ∈ Icc 0 x, HasDerivAt g (g' y) y) → (∀ y ∈ Icc 0 x, 0 ≤ g' y) → g 0 ≤ g x := by
    intro g g' hg hg'
    have hm : MonotoneOn g (Icc 0 x) := by
      apply monotoneOn_of_hasDerivWithinAt_nonneg (convex_Icc 0 x) (f' := g')
      · exact fun y hy => (hg y hy).continuousAt.continuousWithinAt
      · exact fun y hy => (hg y (interior_subset hy)).hasDerivWithinAt
      · exact fun y hy => hg' y (interior_subset hy)
    exact hm h0 h1 hx
  have k1 := key (fun y => B y - f y) (fun y => B' y - f' y) (fun y hy => (hB y hy).sub (hf y hy))
    (fun y hy => by have := (abs_le.1 (h y hy)).2; linarith)
  have k2 := key (fun y => B y + f y) (fun y => B' y + f' y) (fun y hy => (hB y hy).add (hf y hy))
    (fun y hy => by have := (abs_le.1 (h y hy)).1; linarith)
  rw [abs_le]
  constructor <;> linarith

/-- Derivative at most `C |y|^n` gives growth at most `C |x|^(n+1)/(n+1)`. -/
theorem mvt_pow {f f' : ℝ → ℝ} {C x : ℝ} (n : ℕ)
    (hf : ∀ y ∈ uIcc 0 x, HasDerivAt f (f' y) y) (h : ∀ y ∈ uIcc 0 x, |f' y| ≤ C * |y| ^ n) :
    |f x - f 0| ≤ C * |x| ^ (n + 1) / (n + 1) := by
  have hB : ∀ y : ℝ, HasDerivAt (fun y => C * y ^ (n + 1) / (n + 1)) (C * y ^ n) y := by
    intro y
    have h := ((hasDerivAt_pow (n + 1) y).const_mul C).div_const ((n : ℝ) + 1)
    have e : C * y ^ n = C * (((n + 1 : ℕ) : ℝ) * y ^ (n + 1 - 1)) / ((n : ℝ) + 1) := by
      have : (n : ℝ) + 1 ≠ 0 := by positivity
      push_cast; field_simp
    rw [e]; exact h
  rcases le_total 0 x with hx | hx
  · rw [uIcc_of_le hx] at hf h
    have := mvt_mono hx hf (fun y _ => hB y) (fun y hy => by
      have := h y hy; rwa [abs_of_nonneg hy.1] at this)
    rw [abs_of_nonneg hx]
    simpa using this
  · rw [uIcc_of_ge hx] at hf h
    have hx' : 0 ≤ -x := by linarith
    have := mvt_mono (f := fun y => f (-y)) (f' := fun y => -f' (-y)) hx'
      (fun y hy => by
        have := (hf (-y) ⟨by linarith [hy.2], by linarith [hy.1]⟩).comp y (hasDerivAt_neg y)
        rw [mul_neg_one] at this
        exact this) (fun y _ => hB y) (fun y hy => by
        have := h (-y) ⟨by linarith [hy.2], by linarith [hy.1]⟩
        rw [abs_neg, abs_of_nonneg hy.1] at this
        rwa [abs_neg])
    rw [abs_of_nonpos hx]
    simpa using this

theorem mvt_bound {f f' : ℝ → ℝ} {C x : ℝ}
    (hf : ∀ y ∈ uIcc 0 x, HasDerivAt f (f' y) y) (h : ∀ y ∈ uIcc 0 x, |f' y| ≤ C) :
    |f x - f 0| ≤ C * |x| := by
  have := mvt_pow 0 hf (fun y hy => by simpa using h y hy)
  simpa using this

theorem mem_uIcc_abs {x y : ℝ} (h : y ∈ uIcc 0 x) : |y| ≤ |x| := by
  rcases le_total 0 x with hx | hx
  · rw [uIcc_of_le hx] at h; rw [abs_of_nonneg h.1, abs_of_nonneg hx]; exact h.2
  · rw [uIcc_of_ge hx] at h; rw [abs_of_nonpos h.2, abs_of_nonpos hx]; linarith [h.1]

/-! ## log 2 -/

/-- `Σ_{i<n} x^(i+1)/(i+1)` as a kernel computation. -/
def logSum (x : ℚ) : ℕ → ℚ
  | 0 => 0
  | n + 1 => logSum x n + x ^ (n + 1) / (n + 1)

theorem logSum_eq (x : ℚ) (n : ℕ) : ((logSum x n : ℚ) : ℝ) = ∑ i ∈ Finset.range n, (x : ℝ) ^ (i + 1) / (i + 1) := by
  induction n with
  | zero => simp [logSum]
  | succ n ih => rw [Finset.sum_range_succ, ← ih, logSum]; push_cast; ring

/-- 40 digits of `log 2`. -/
def ln2Q : ℚ := 0.6931471805599453094172321214581765680755

theorem ln2_near : |Real.log 2 - ln2Q| ≤ 1 / 10 ^ 38 := by
  have h := Real.abs_log_sub_add_sum_range_le (x := ((1 / 2 : ℚ) : ℝ)) (by norm_num [abs_of_pos]) 132
  rw [← logSum_eq] at h
  have e : Real.log (1 - ((1 / 2 : ℚ) : ℝ)) = -Real.log 2 := by
    rw [show (1 - ((1 / 2 : ℚ) : ℝ)) = 2⁻¹ by norm_num, Real.log_inv]
  rw [e] at h
  have hq : |logSum (1 / 2) 132 - ln2Q| ≤ 1 / (2 * 10 ^ 38) := by decide +kernel
  have hr : |(logSum (1 / 2) 132 : ℝ) - (ln2Q : ℝ)| ≤ ((1 / (2 * 10 ^ 38) : ℚ) : ℝ) := by exact_mod_cast hq
  have h2 : |((1 / 2 : ℚ) : ℝ)| ^ (132 + 1) / (1 - |((1 / 2 : ℚ) : ℝ)|) ≤ ((1 / (2 * 10 ^ 38) : ℚ) : ℝ) := by
    norm_num [abs_of_pos]
  have h3 := h.trans h2
  rw [abs_le] at hr h3 ⊢
  push_cast at hr h3
  constructor <;> linarith [hr.1, hr.2, h3.1, h3.2]

/-! ## π -/

/-- `Σ_{k<n} (-1)^k x^(2k+1)/(2k+1)`. -/
def atanSum (x : ℚ) : ℕ → ℚ
  | 0 => 0
  | n + 1 => atanSum x n + (-1) ^ n * x ^ (2 * n + 1) / (2 * n + 1)

noncomputable def atanSumR (x : ℝ) : ℕ → ℝ
  | 0 => 0
  | n + 1 => atanSumR x n + (-1) ^ n * x ^ (2 * n + 1) / (2 * n + 1)

theorem atanSum_cast (x : ℚ) (n : ℕ) : ((atanSum x n : ℚ) : ℝ) = atanSumR x n := by
  induction n with
  | zero => simp [atanSum, atanSumR]
  | succ n ih => rw [atanSum, atanSumR, ← ih]; push_cast; ring

theorem atanSumR_deriv (n : ℕ) (y : ℝ) : HasDerivAt (fun y => atanSumR y n) ((1 - (-1) ^ n * y ^ (2 * n)) / (1 + y ^ 2)) y := by
  induction n with
  | zero => simpa [atanSumR] using hasDerivAt_const y (0 : ℝ)
  | succ n ih =>
    have h1 := (((hasDerivAt_pow (2 * n + 1) y).const_mul ((-1 : ℝ) ^ n)).div_const (2 * (n : ℝ) + 1))
    have h := ih.add h1
    have e : (1 - (-1 : ℝ) ^ (n + 1) * y ^ (2 * (n + 1))) / (1 + y ^ 2) =
        (1 - (-1) ^ n * y ^ (2 * n)) / (1 + y ^ 2) + (-1) ^ n * (((2 * n + 1 : ℕ) : ℝ) * y ^ (2 * n + 1 - 1)) / (2 * n + 1) := by
      have p1 : (2 * (n : ℝ) + 1) ≠ 0 := by positivity
      have p2 : 1 + y ^ 2 ≠ 0 := by positivity
      push_cast
      field_simp
      ring
    rw [e]
    exact h

theorem atanSum_bound (x : ℚ) (n : ℕ) : |Real.arctan x - atanSum x n| ≤ |(x : ℝ)| ^ (2 * n + 1) / (2 * n + 1) := by
  rw [atanSum_cast]
  have h := mvt_pow (f := fun y => Real.arctan y - atanSumR y n) (f' := fun y => 1 / (1 + y ^ 2) - (1 - (-1) ^ n * y ^ (2 * n)) / (1 + y ^ 2))
    (C := 1) (x := x) (2 * n) (fun y _ => (Real.hasDerivAt_arctan y).sub (atanSumR_deriv n y)) (fun y _ => by
      have p2 : 0 < 1 + y ^ 2 := by positivity
      have : 1 / (1 + y ^ 2) - (1 - (-1) ^ n * y ^ (2 * n)) / (1 + y ^ 2) = (-1) ^ n * y ^ (2 * n) / (1 + y ^ 2) := by
        field_simp; ring
      rw [this, abs_div, abs_mul, abs_pow, abs_neg, abs_one, one_pow, one_mul, abs_pow, abs_of_pos p2, one_mul]
      exact div_le_self (by positivity) (by nlinarith [sq_nonneg y]))
  have z : atanSumR 0 n = 0 := by
    clear h
    induction n with
    | zero => rfl
    | succ n ih => rw [atanSumR, ih]; simp
  rw [Real.arctan_zero, z] at h
  simpa using h

/-- 40 digits of `π`. -/
def piQ : ℚ := 3.1415926535897932384626433832795028841972

theorem pi_near : |Real.pi - piQ| ≤ 1 / 10 ^ 38 := by
  have h1 := atanSum_bound (1 / 5) 28
  have h2 := atanSum_bound (1 / 239) 9
  have hM := Real.four_mul_arctan_inv_5_sub_arctan_inv_239
  have e1 : (((1 / 5 : ℚ)) : ℝ) = 5⁻¹ := by norm_num
  have e2 : (((1 / 239 : ℚ)) : ℝ) = 239⁻¹ := by norm_num
  have b1 : |(((1 / 5 : ℚ)) : ℝ)| ^ (2 * 28 + 1) / (2 * ((28 : ℕ) : ℝ) + 1) ≤ ((1 / (100 * 10 ^ 38) : ℚ) : ℝ) := by
    rw [e1]; norm_num [abs_of_pos]
  have b2 : |(((1 / 239 : ℚ)) : ℝ)| ^ (2 * 9 + 1) / (2 * ((9 : ℕ) : ℝ) + 1) ≤ ((1 / (100 * 10 ^ 38) : ℚ) : ℝ) := by
    rw [e2]; norm_num [abs_of_pos]
  have hq : |4 * (4 * atanSum (1 / 5) 28 - atanSum (1 / 239) 9) - piQ| ≤ 1 / (4 * 10 ^ 38) := by decide +kernel
  have hr : |(4 * (4 * (atanSum (1 / 5) 28 : ℝ) - atanSum (1 / 239) 9)) - (piQ : ℝ)| ≤ ((1 / (4 * 10 ^ 38) : ℚ) : ℝ) := by
    exact_mod_cast hq
  have h1' := h1.trans b1
  have h2' := h2.trans b2
  rw [e1] at h1'
  rw [e2] at h2'
  rw [abs_le] at hr h1' h2' ⊢
  push_cast at hr h1' h2'
  constructor <;> linarith [hr.1, hr.2, h1'.1, h1'.2, h2'.1, h2'.2]

end Vdt
