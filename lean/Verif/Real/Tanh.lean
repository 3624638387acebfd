import Verif.Real.Tools
import Mathlib.Analysis.SpecialFunctions.Trigonometric.DerivHyp
import Mathlib.Analysis.SpecialFunctions.Trigonometric.Series
import Mathlib.Analysis.SpecialFunctions.Log.Deriv
import Mathlib.Tactic.Positivity
import Mathlib.Tactic.LinearCombination

/-! # The hyperbolic tangent of real numbers

Duplication, a Lipschitz bound and the area tangent of a Padé approximant. -/

namespace Vdt
open Set

theorem hasDerivAt_tanh (x : ℝ) : HasDerivAt Real.tanh (1 / Real.cosh x ^ 2) x := by
  have h := (Real.hasDerivAt_sinh x).div (Real.hasDerivAt_cosh x) (Real.cosh_pos x).ne'
  have e : (Real.sinh / Real.cosh : ℝ → ℝ) = Real.tanh := by
    funext y; rw [Pi.div_apply, Real.tanh_eq_sinh_div_cosh]
  rw [e] at h
  refine h.congr_deriv ?_
  congr 1
  have := Real.cosh_sq_sub_sinh_sq x
  nlinarith

theorem tanh_double (x : ℝ) : Real.tanh (2 * x) = 2 * Real.tanh x / (Real.tanh x ^ 2 + 1) := by
  have hc := (Real.cosh_pos x).ne'
  rw [Real.tanh_eq_sinh_div_cosh, Real.sinh_two_mul, Real.cosh_two_mul, Real.tanh_eq_sinh_div_cosh]
  have h1 : 0 < Real.cosh x ^ 2 + Real.sinh x ^ 2 := by positivity
  have h2 : (Real.sinh x / Real.cosh x) ^ 2 + 1 = (Real.cosh x ^ 2 + Real.sinh x ^ 2) / Real.cosh x ^ 2 := by
    field_simp; ring
  rw [h2]
  field_simp

theorem tanh_nonneg {x : ℝ} (h : 0 ≤ x) : 0 ≤ Real.tanh x := by
  rw [Real.tanh_eq_sinh_div_cosh]
  exact div_nonneg (Real.sinh_nonneg_iff.2 h) (Real.cosh_pos x).le

/-- The tangent is flat where `cosh` is large. -/
theorem tanh_step {c d : ℝ} (hc : 0 ≤ c) (hd : 0 ≤ d) : |Real.tanh (c + d) - Real.tanh c| ≤ 1 / Real.cosh c ^ 2 * d := by
  have h := mvt_bound (f := fun y => Real.tanh (c + y)) (f' := fun y => 1 / Real.cosh (c + y) ^ 2) (C := 1 / Real.cosh c ^ 2) (x := d)
    (fun y _ => by
      have := (hasDerivAt_tanh (c + y)).comp_const_add c y
      exact this)
    (fun y hy => by
      rw [uIcc_of_le hd] at hy
      have h1 : Real.cosh c ≤ Real.cosh (c + y) := by
        rw [Real.cosh_le_cosh, abs_of_nonneg hc, abs_of_nonneg (by linarith [hy.1])]; linarith [hy.1]
      rw [abs_of_pos (by have := Real.cosh_pos (c + y); positivity)]
      exact one_div_le_one_div_of_le (by have := Real.cosh_pos c; positivity) (pow_le_pow_left₀ (Real.cosh_pos c).le h1 2))
  simp only [add_zero, abs_of_nonneg hd] at h
  exact h

theorem tanh_lip {a b : ℝ} (ha : 0 ≤ a) (hb : 0 ≤ b) : |Real.tanh a - Real.tanh b| ≤ |a - b| := by
  have key : ∀ c d : ℝ, 0 ≤ c → 0 ≤ d → |Real.tanh (c + d) - Real.tanh c| ≤ d := by
    intro c d hc hd
    refine (tanh_step hc hd).trans ?_
    have h1 := Real.one_le_cosh c
    have : 1 / Real.cosh c ^ 2 ≤ 1 := by
      rw [div_le_one (by positivity)]; nlinarith
    nlinarith
  rcases le_total a b with h | h
  · have := key a (b - a) ha (by linarith)
    rw [add_sub_cancel] at this
    rw [abs_sub_comm, abs_sub_comm a b, abs_of_nonneg (by linarith : 0 ≤ b - a)]; exact this
  · have := key b (a - b) hb (by linarith)
    rw [add_sub_cancel] at this
    rw [abs_of_nonneg (by linarith : 0 ≤ a - b)]; exact this

/-- The effect of an error `d ≤ K c^(m+1)` of the argument, relative to the value. -/
theorem tanh_shift {c d E : ℝ} (hc : 0 < c) (hd : 0 ≤ d) (hs : 2 * d ≤ E * Real.sinh (2 * c)) :
    |Real.tanh (c + d) - Real.tanh c| ≤ E * Real.tanh c := by
  refine (tanh_step hc.le hd).trans ?_
  have h1 := Real.cosh_pos c
  rw [Real.sinh_two_mul] at hs
  rw [Real.tanh_eq_sinh_div_cosh, one_div_mul_eq_div, div_le_iff₀ (by positivity)]
  have e : E * (Real.sinh c / Real.cosh c) * Real.cosh c ^ 2 = E * (Real.sinh c * Real.cosh c) := by field_simp
  rw [e]
  linarith

/-- Three terms of the series of `sinh`. -/
theorem sinh_three (m : ℕ) {y : ℝ} (hy : 0 ≤ y) :
    y ^ (2 * m + 1) / (2 * m + 1).factorial + y ^ (2 * m + 3) / (2 * m + 3).factorial + y ^ (2 * m + 5) / (2 * m + 5).factorial ≤ Real.sinh y := by
  have h := sum_le_hasSum ({m, m + 1, m + 2} : Finset ℕ) (fun i _ => by positivity) (Real.hasSum_sinh y)
  rw [Finset.sum_insert (by simp), Finset.sum_insert (by simp), Finset.sum_singleton] at h
  have e1 : 2 * (m + 1) + 1 = 2 * m + 3 := by ring
  have e2 : 2 * (m + 2) + 1 = 2 * m + 5 := by ring
  rw [e1, e2] at h
  linarith

/-- A quotient `p/q` is the tangent of `log ((q+p)/(q-p))/2`. -/
theorem tanh_half_log {A B : ℝ} (hA : 0 < A) (hB : 0 < B) :
    Real.tanh ((Real.log A - Real.log B) / 2) = (A - B) / (A + B) := by
  have e : ∀ x : ℝ, Real.tanh x = (Real.exp (2 * x) - 1) / (Real.exp (2 * x) + 1) := by
    intro x
    rw [Real.tanh_eq, two_mul, Real.exp_add, Real.exp_neg]
    have := Real.exp_pos x
    field_simp
  rw [e]
  have : Real.exp (2 * ((Real.log A - Real.log B) / 2)) = A / B := by
    rw [mul_div_cancel₀ _ (by norm_num : (2 : ℝ) ≠ 0), Real.exp_sub, Real.exp_log hA, Real.exp_log hB]
  rw [this]
  field_simp

/-- The area tangent of a Padé approximant: if `A' B - A B' - 2 A B = 2 w^n` and `A B ≥ D`, then
`log(A/B)/2` exceeds `w` by at most `w^(n+1)/((n+1) D)`. -/
theorem pade_area {A A' B B' : ℝ → ℝ} {W D : ℝ} (n : ℕ) (hW : 0 ≤ W) (hD : 0 < D)
    (dA : ∀ w ∈ Icc 0 W, HasDerivAt A (A' w) w) (dB : ∀ w ∈ Icc 0 W, HasDerivAt B (B' w) w)
    (pA : ∀ w ∈ Icc 0 W, 0 < A w) (pB : ∀ w ∈ Icc 0 W, 0 < B w) (h0 : A 0 = B 0)
    (hid : ∀ w ∈ Icc 0 W, A' w * B w - A w * B' w - 2 * (A w * B w) = 2 * w ^ n)
    (hAB : ∀ w ∈ Icc 0 W, D ≤ A w * B w) :
    0 ≤ (Real.log (A W) - Real.log (B W)) / 2 - W ∧
      (Real.log (A W) - Real.log (B W)) / 2 - W ≤ W ^ (n + 1) / ((n + 1) * D) := by
  obtain ⟨h, hh⟩ : ∃ h : ℝ → ℝ, h = fun w => (Real.log (A w) - Real.log (B w)) / 2 - w := ⟨_, rfl⟩
  have dh : ∀ w ∈ Icc 0 W, HasDerivAt h (w ^ n / (A w * B w)) w := by
    intro w hw
    have a := (pA w hw).ne'
    have b := (pB w hw).ne'
    have := ((((dA w hw).log a).sub ((dB w hw).log b)).div_const 2).sub (hasDerivAt_id w)
    rw [hh]
    refine this.congr_deriv ?_
    have := hid w hw
    field_simp
    linear_combination this
  have hb : ∀ w ∈ Icc 0 W, 0 ≤ w ^ n / (A w * B w) ∧ w ^ n / (A w * B w) ≤ 1 / D * |w| ^ n := by
    intro w hw
    have p : 0 < A w * B w := mul_pos (pA w hw) (pB w hw)
    have := pow_nonneg hw.1 n
    refine ⟨div_nonneg this p.le, ?_⟩
    rw [abs_of_nonneg hw.1, one_div_mul_eq_div]
    exact div_le_div_of_nonneg_left this hD (hAB w hw)
  have h00 : h 0 = 0 := by rw [hh]; simp [h0]
  have up := mvt_pow (f := h) (f' := fun w => w ^ n / (A w * B w)) (C := 1 / D) (x := W) n
    (fun y hy => dh y (by rwa [uIcc_of_le hW] at hy))
    (fun y hy => by
      rw [uIcc_of_le hW] at hy
      rw [abs_of_nonneg (hb y hy).1]; exact (hb y hy).2)
  have lo := mvt_mono (f := fun _ => 0) (f' := fun _ => 0) (B := h) (B' := fun w => w ^ n / (A w * B w)) hW
    (fun y _ => hasDerivAt_const y 0) dh (fun y hy => by rw [abs_zero]; exact (hb y hy).1)
  rw [h00, sub_zero] at up lo
  rw [sub_zero, abs_zero] at lo
  rw [hh] at up lo
  refine ⟨lo, (le_abs_self _).trans (up.trans (le_of_eq ?_))⟩
  rw [abs_of_nonneg hW]
  field_simp

end Vdt
