import Verif.Real.Poly
import Mathlib.Analysis.Calculus.Deriv.MeanValue
import Mathlib.Analysis.Calculus.Deriv.Inv

/-! # Lower bounds for the slope of rational functions -/

namespace Vdt
open Set

/-- The derivative of `N / D` is at least `c`: a polynomial inequality. -/
def pslope (N D : List ℚ) (c : ℚ) (l : List ℚ) : Bool :=
  pnonnegOn (psub (psub (pmul (pder N) D) (pmul N (pder D))) (psmul c (pmul D D))) l

theorem pslope_sound {N D l : List ℚ} {c a b : ℚ} (h : pslope N D c l = true) (hs : spans l a b = true)
    (hD : ∀ x : ℝ, (a : ℝ) ≤ x → x ≤ b → 0 < pev D x) {x y : ℝ} (h1 : (a : ℝ) ≤ x) (hxy : x ≤ y) (h2 : y ≤ b) :
    c * (y - x) ≤ pev N y / pev D y - pev N x / pev D x := by
  have hd : ∀ t ∈ Icc x y, HasDerivAt (fun t => pev N t / pev D t - c * t)
      ((pev (pder N) t * pev D t - pev N t * pev (pder D) t) / pev D t ^ 2 - c) t := by
    intro t ht
    have hp := hD t (h1.trans ht.1) (ht.2.trans h2)
    have e := ((hasDerivAt_pev N t).div (hasDerivAt_pev D t) hp.ne').sub ((hasDerivAt_id t).const_mul (c : ℝ))
    rw [mul_one] at e
    exact e
  have mono : MonotoneOn (fun t => pev N t / pev D t - c * t) (Icc x y) := by
    refine monotoneOn_of_deriv_nonneg (convex_Icc x y) (fun t ht => (hd t ht).continuousAt.continuousWithinAt)
      (fun t ht => (hd t (interior_subset ht)).differentiableAt.differentiableWithinAt) ?_
    intro t ht
    have ht' := interior_subset ht
    rw [(hd t ht').deriv]
    have hp := hD t (h1.trans ht'.1) (ht'.2.trans h2)
    have g := pnonnegOn_sound h hs (h1.trans ht'.1) (ht'.2.trans h2)
    rw [pev_sub, pev_sub, pev_smul, pev_mul, pev_mul, pev_mul] at g
    rw [sub_nonneg, le_div_iff₀ (by positivity)]
    nlinarith
  have := mono (left_mem_Icc.2 hxy) (right_mem_Icc.2 hxy) hxy
  simp only at this
  linarith

/-- A computed function within `e` of one that grows by at least `2 e` is ordered. -/
theorem order_of_growth {A B GA GB eA eB : ℝ} (hA : |A - GA| ≤ eA) (hB : |B - GB| ≤ eB) (h : eA + eB ≤ GB - GA) : A ≤ B := by
  rw [abs_le] at hA hB; linarith

end Vdt
