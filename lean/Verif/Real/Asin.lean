import Verif.Real.Tools
import Verif.Real.Atan
import Mathlib.Analysis.SpecialFunctions.Trigonometric.InverseDeriv

/-! # The arcsine through its Taylor polynomial -/

namespace Vdt

/-- `p(c x)` -/
def pdil (c : ℚ) : List ℚ → List ℚ
  | [] => []
  | a :: p => a :: psmul c (pdil c p)

theorem pev_dil (c : ℚ) (p : List ℚ) (x : ℝ) : pev (pdil c p) x = pev p (c * x) := by
  induction p with
  | nil => rfl
  | cons a p ih => simp only [pdil, pev_cons, pev_smul, ih]; ring

/-- Coefficients of the Taylor polynomial of `1/√(1-s)`. -/
def asinUs : ℕ → ℕ → ℚ → List ℚ
  | 0, _, _ => []
  | k + 1, n, b => b :: asinUs k (n + 1) (b * (2 * n + 1) / (2 * n + 2))

/-- Coefficients of the Taylor polynomial of `arcsin w / w` in `w²`. -/
def asinTs : ℕ → ℕ → ℚ → List ℚ
  | 0, _, _ => []
  | k + 1, n, b => b / (2 * n + 1) :: asinTs k (n + 1) (b * (2 * n + 1) / (2 * n + 2))

def asinU : List ℚ := asinUs 44 0 1
def asinT : List ℚ := asinTs 44 0 1

theorem asinT_der (w : ℝ) : pev (pder (0 :: psq asinT)) w = pev asinU (w * w) := by
  have h : pzeros (psub (pder (0 :: psq asinT)) (psq asinU)) = true := by decide +kernel
  have := pev_zeros h w
  rw [pev_sub, pev_sq] at this
  linarith

theorem asinT_hasDeriv (w : ℝ) : HasDerivAt (fun w => w * pev asinT (w * w)) (pev asinU (w * w)) w := by
  have h := hasDerivAt_pev (0 :: psq asinT) w
  rw [asinT_der] at h
  have e : pev (0 :: psq asinT) = fun w => w * pev asinT (w * w) := by
    funext y; rw [pev_cons, pev_sq]; push_cast; ring
  rwa [e] at h

theorem asinU_sq {s : ℝ} (h0 : 0 ≤ s) (h : s ≤ 25 / 64) : |(1 - s) * pev asinU s ^ 2 - 1| ≤ 2 ^ (-61 : ℤ) := by
  have hr : |s| ≤ ((25 / 64 : ℚ) : ℝ) := by rw [abs_of_nonneg h0]; push_cast; exact h
  have k := pabs_bound (psub (pmul [1, -1] (pmul asinU asinU)) [1]) hr
  have c : pabs (25 / 64) (psub (pmul [1, -1] (pmul asinU asinU)) [1]) ≤ 1 / 2 ^ 61 := by decide +kernel
  have c' := (Rat.cast_le (K := ℝ)).2 c
  simp only [pev_sub, pev_mul, pev_cons, pev_nil] at k
  have e : (1 - s) * pev asinU s ^ 2 - 1 = ((1 : ℚ) + s * (((-1 : ℚ) : ℝ) + s * 0)) * (pev asinU s * pev asinU s) - ((1 : ℚ) + s * 0) := by push_cast; ring
  rw [e]
  refine k.trans (c'.trans ?_)
  norm_num

theorem asinU_nonneg {s : ℝ} (h0 : 0 ≤ s) : 0 ≤ pev asinU s := by
  have : ∀ k n (b : ℚ), 0 ≤ b → 0 ≤ pev (asinUs k n b) s := by
    intro k
    induction k with
    | zero => intro n b _; exact le_rfl
    | succ k ih =>
      intro n b hb
      have := ih (n + 1) (b * (2 * n + 1) / (2 * n + 2)) (by positivity)
      have hb' : (0 : ℝ) ≤ b := by exact_mod_cast hb
      simp only [asinUs, pev_cons]
      positivity
  exact this 44 0 1 (by norm_num)

/-- The Taylor polynomial is within `2^-61` relative error of the arcsine. -/
theorem asin_taylor {x : ℝ} (h0 : 0 ≤ x) (h : x ≤ 5 / 8) : |x * pev asinT (x * x) - Real.arcsin x| ≤ 2 ^ (-61 : ℤ) * Real.arcsin x := by
  have k := mvt_mono (f := fun y => y * pev asinT (y * y) - Real.arcsin y) (f' := fun y => pev asinU (y * y) - 1 / √(1 - y ^ 2))
    (B := fun y => 2 ^ (-61 : ℤ) * Real.arcsin y) (B' := fun y => 2 ^ (-61 : ℤ) * (1 / √(1 - y ^ 2))) h0
    (fun y hy => (asinT_hasDeriv y).sub (Real.hasDerivAt_arcsin (by linarith [hy.1]) (by linarith [hy.2])))
    (fun y hy => (Real.hasDerivAt_arcsin (by linarith [hy.1]) (by linarith [hy.2])).const_mul _)
    (fun y hy => by
      have y0 := hy.1
      have y1 := hy.2.trans h
      have ys : y * y ≤ 25 / 64 := by nlinarith
      have p := asinU_sq (mul_self_nonneg y) ys
      have u0 := asinU_nonneg (mul_self_nonneg y)
      have hv : 0 < 1 - y ^ 2 := by nlinarith
      have v0 := Real.sqrt_pos.2 hv
      have v2 := Real.sq_sqrt hv.le
      set V := √(1 - y ^ 2)
      set U := pev asinU (y * y)
      have e : U - 1 / V = (U * V - 1) / V := by field_simp
      rw [e, abs_div, abs_of_pos v0, mul_one_div]
      refine div_le_div_of_nonneg_right ?_ v0.le
      have e2 : (1 - y * y) * U ^ 2 - 1 = (U * V - 1) * (U * V + 1) := by
        have : 1 - y * y = V ^ 2 := by rw [v2]; ring
        rw [this]; ring
      rw [e2, abs_mul] at p
      have uv : 0 ≤ U * V := mul_nonneg u0 v0.le
      rw [abs_of_nonneg (by linarith : 0 ≤ U * V + 1)] at p
      have := abs_nonneg (U * V - 1)
      nlinarith)
  simpa using k

end Vdt
