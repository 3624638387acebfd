import Verif.Lemmas.BitDist
import Verif.Real.Slope

/-! # The sum of an argument and a small correction preserves the order -/

namespace Vdt
open FP

/-- Two different numbers of a format are at least one unit in the last place of the smaller one apart. -/
theorem fp_gap {f : Fmt} {x y : FP f} (h : x.val < y.val) : f.u * |x.val| ≤ y.val - x.val ∨ f.u * |y.val| ≤ y.val - x.val := by
  have hu : f.u * 2 ^ (f.mb + 1) = 1 := by
    unfold Fmt.u
    rw [← p2_nat, ← p2_add]
    have : (-(f.mb : ℤ) - 1) + ((f.mb + 1 : ℕ) : ℤ) = 0 := by push_cast; ring
    rw [this, p2_eq]; norm_num
  have hup := f.u_pos
  have hu1 : f.u ≤ 1 := by
    have : (1 : ℚ) ≤ 2 ^ (f.mb + 1) := one_le_pow₀ (by norm_num)
    nlinarith
  have step : ∀ {a b : ℕ}, a < b → f.u * magVal f a ≤ magVal f b - magVal f a := by
    intro a b hab
    have h1 := magVal_step f a
    have h2 : magVal f (a + 1) ≤ magVal f b := magVal_le.2 hab
    have h3 := mul_le_mul_of_nonneg_left h1 hup.le
    rw [← mul_assoc, hu, one_mul] at h3
    linarith
  cases hx : x.sign <;> cases hy : y.sign
  · left
    have ex : x.val = magVal f x.mag := by unfold FP.val; rw [hx]; simp
    have ey : y.val = magVal f y.mag := by unfold FP.val; rw [hy]; simp
    rw [ex, ey] at h ⊢
    rw [abs_of_nonneg (magVal_nonneg _ _)]
    exact step (magVal_lt.1 h)
  · left
    have ex : x.val = magVal f x.mag := by unfold FP.val; rw [hx]; simp
    have ey : y.val = -magVal f y.mag := by unfold FP.val; rw [hy]; simp
    have := magVal_nonneg f x.mag
    have := magVal_nonneg f y.mag
    linarith
  · left
    have ex : x.val = -magVal f x.mag := by unfold FP.val; rw [hx]; simp
    have ey : y.val = magVal f y.mag := by unfold FP.val; rw [hy]; simp
    have h1 := magVal_nonneg f x.mag
    have h2 := magVal_nonneg f y.mag
    rw [ex, ey, abs_neg, abs_of_nonneg h1]
    nlinarith
  · right
    have ex : x.val = -magVal f x.mag := by unfold FP.val; rw [hx]; simp
    have ey : y.val = -magVal f y.mag := by unfold FP.val; rw [hy]; simp
    have h1 := magVal_nonneg f y.mag
    rw [ex, ey] at h ⊢
    rw [abs_neg, abs_of_nonneg h1]
    have := step (magVal_lt.1 (neg_lt_neg_iff.1 h))
    linarith

/-- An argument plus a correction that is known up to a fraction of the last place. -/
theorem sum_order {x y T T' u c K g : ℝ} {G : ℝ → ℝ} (h : x < y) (hgap : g * u * |x| ≤ y - x ∨ g * u * |y| ≤ y - x)
    (hG : c * (y - x) ≤ (y + G y) - (x + G x)) (h1 : |T - G x| ≤ K * |x|) (h2 : |T' - G y| ≤ K * |y|)
    (hK0 : 0 ≤ K) (hg : 0 < g * u) (hK : K * (2 + g * u) ≤ c * (g * u)) : T + x ≤ T' + y := by
  have e1 := (abs_le.1 h1).2
  have e2 := (abs_le.1 h2).1
  have d0 : 0 < y - x := by linarith
  have key : K * (|x| + |y|) ≤ c * (y - x) := by
    have hc : ∀ m, 0 ≤ m → g * u * m ≤ y - x → |x| + |y| ≤ 2 * m + (y - x) → K * (|x| + |y|) ≤ c * (y - x) := by
      intro m hm hm1 hm2
      have a1 := mul_le_mul_of_nonneg_left hm2 hK0
      have a2 : K * (2 * m) * (g * u) ≤ K * 2 * (y - x) := by
        have := mul_le_mul_of_nonneg_left hm1 hK0
        nlinarith
      have a3 : K * (2 * m + (y - x)) * (g * u) ≤ c * (y - x) * (g * u) := by
        have := mul_le_mul_of_nonneg_right hK d0.le
        nlinarith
      exact a1.trans (le_of_mul_le_mul_right a3 hg)
    rcases hgap with hgap | hgap
    · refine hc |x| (abs_nonneg _) hgap ?_
      have : |y| ≤ |x| + (y - x) := by
        have := abs_add_le x (y - x)
        rw [abs_of_pos d0] at this
        simpa using this
      linarith
    · refine hc |y| (abs_nonneg _) hgap ?_
      have : |x| ≤ |y| + (y - x) := by
        have := abs_add_le y (x - y)
        rw [abs_sub_comm x y, abs_of_pos d0] at this
        simpa using this
      linarith
  nlinarith

/-- The same for numbers of a format that may coincide. -/
theorem core_order {f : Fmt} {x y : FP f} {T : FP f → ℚ} {c K : ℝ} {G : ℝ → ℝ} (h : x.val ≤ y.val)
    (hG : c * (y.real - x.real) ≤ (y.real + G y.real) - (x.real + G x.real))
    (h1 : |(T x : ℝ) - G x.real| ≤ K * |x.real|) (h2 : |(T y : ℝ) - G y.real| ≤ K * |y.real|)
    (hK0 : 0 ≤ K) (hK : K * (2 + (f.u : ℝ)) ≤ c * (f.u : ℝ)) : T x + x.val ≤ T y + y.val := by
  rcases h.eq_or_lt with he | hl
  · rcases eq_or_ne x.val 0 with h0 | h0
    · have h0' : y.val = 0 := by rw [← he]; exact h0
      have rx : x.real = 0 := by unfold FP.real; rw [h0]; simp
      have ry : y.real = 0 := by unfold FP.real; rw [h0']; simp
      rw [rx, abs_zero, mul_zero] at h1
      rw [ry, abs_zero, mul_zero] at h2
      have e1 := sub_eq_zero.1 (abs_nonpos_iff.1 h1)
      have e2 := sub_eq_zero.1 (abs_nonpos_iff.1 h2)
      have : T x = T y := by
        have : (T x : ℝ) = (T y : ℝ) := by rw [e1, e2]
        exact_mod_cast this
      rw [this, he]
    · rw [eq_of_val_ne h0 he]
  · have hup : (0 : ℝ) < (f.u : ℝ) := by exact_mod_cast f.u_pos
    have lr : x.real < y.real := by unfold FP.real; exact_mod_cast hl
    have k := sum_order (T := (T x : ℝ)) (T' := (T y : ℝ)) (g := 1) (u := (f.u : ℝ)) lr (by
      rw [one_mul]
      unfold FP.real
      rcases fp_gap hl with h3 | h3
      · left; exact_mod_cast h3
      · right; exact_mod_cast h3) hG h1 h2 hK0 (by rw [one_mul]; exact hup) (by rw [one_mul]; exact hK)
    unfold FP.real at k
    exact_mod_cast k

/-- From nonnegative arguments to all arguments, for a function that carries the sign over. -/
theorem odd_order {f : Fmt} {x y : FP f} {P : FP f → ℚ} (h : x.val ≤ y.val) (px : 0 ≤ P (FP.abs x)) (py : 0 ≤ P (FP.abs y))
    (p0 : P (zero false) = 0)
    (ho : ∀ a b : FP f, (a = FP.abs x ∧ b = FP.abs y) ∨ (a = FP.abs y ∧ b = FP.abs x) → a.val ≤ b.val → P a ≤ P b) :
    (if x.sign then -P (FP.abs x) else P (FP.abs x)) ≤ (if y.sign then -P (FP.abs y) else P (FP.abs y)) := by
  have ax : (FP.abs x).val = magVal f x.mag := by unfold FP.abs FP.val; simp
  have ay : (FP.abs y).val = magVal f y.mag := by unfold FP.abs FP.val; simp
  have nx := magVal_nonneg f x.mag
  have ny := magVal_nonneg f y.mag
  cases hx : x.sign <;> cases hy : y.sign
  all_goals simp only [Bool.false_eq_true, if_false, if_true]
  · refine ho _ _ (Or.inl ⟨rfl, rfl⟩) ?_
    unfold FP.val at h
    simp only [hx, hy, Bool.false_eq_true, if_false] at h
    rw [ax, ay]; exact h
  · unfold FP.val at h
    simp only [hx, hy, Bool.false_eq_true, if_false, if_true] at h
    have zx : magVal f x.mag = 0 := by linarith
    have zy : magVal f y.mag = 0 := by linarith
    have ex : FP.abs x = zero false := by
      have : x.mag = 0 := by
        by_contra hc
        have := (magVal_pos (f := f)).2 (Nat.pos_of_ne_zero hc)
        linarith
      unfold FP.abs zero; simp [this]
    have ey : FP.abs y = zero false := by
      have : y.mag = 0 := by
        by_contra hc
        have := (magVal_pos (f := f)).2 (Nat.pos_of_ne_zero hc)
        linarith
      unfold FP.abs zero; simp [this]
    rw [ex, ey, p0]; simp
  · linarith
  · have := ho _ _ (Or.inr ⟨rfl, rfl⟩) (by
      unfold FP.val at h
      simp only [hx, hy, if_true] at h
      rw [ax, ay]; linarith)
    linarith

end Vdt
