import Mathlib.Analysis.Complex.Exponential
import Mathlib.Analysis.SpecialFunctions.Trigonometric.Bounds
import Mathlib.Analysis.SpecialFunctions.Trigonometric.Arctan
import Mathlib.Analysis.SpecialFunctions.Complex.Arg
import Mathlib.Tactic.Linarith
import Mathlib.Tactic.FieldSimp
import Mathlib.Tactic.LinearCombination
import Verif.Lemmas.AtanAcc

/-!
# How an inner error passes through the outer function of a round trip
-/

namespace Vdt
open Real

/-- Exponential of a logarithm. -/
theorem rt_exp {ε κ L l y : ℝ} (hε : 0 ≤ ε) (hκ : κ ≤ 1) (h1 : |l - L| ≤ ε * |L|) (h2 : ε * |L| ≤ κ) (h3 : ε ≤ κ)
    (h4 : |y - exp l| ≤ ε * exp l) : |y - exp L| ≤ ε * (1 + |L| * (1 + 3 * κ)) * exp L := by
  obtain ⟨d, hd⟩ : ∃ d, d = l - L := ⟨_, rfl⟩
  have hl : l = L + d := by rw [hd]; ring
  rw [← hd] at h1
  have d1 : |d| ≤ κ := h1.trans h2
  have E := exp_pos L
  have e1 : |exp d - 1| ≤ |d| * (1 + κ) := by
    have a := abs_exp_sub_one_sub_id_le (d1.trans hκ)
    have b := abs_add_le (exp d - 1 - d) d
    rw [show exp d - 1 - d + d = exp d - 1 by ring] at b
    rw [← sq_abs] at a
    nlinarith [abs_nonneg d]
  rw [hl, exp_add] at h4
  have e2 : exp d ≤ 1 + |exp d - 1| := by linarith [le_abs_self (exp d - 1)]
  have t1 : |y - exp L| ≤ |y - exp L * exp d| + exp L * |exp d - 1| := by
    have := abs_add_le (y - exp L * exp d) (exp L * (exp d - 1))
    rw [abs_mul, abs_of_pos E] at this
    rwa [show y - exp L * exp d + exp L * (exp d - 1) = y - exp L by ring] at this
  generalize exp L = X at *
  have k0 : 0 ≤ κ := hε.trans h3
  have t2 : ε * exp d + |exp d - 1| ≤ ε * (1 + |L| * (1 + 3 * κ)) := by
    have e3 : |exp d - 1| ≤ ε * |L| * (1 + κ) := e1.trans (mul_le_mul_of_nonneg_right h1 (by linarith))
    have e4 : ε * exp d ≤ ε * (1 + |exp d - 1|) := mul_le_mul_of_nonneg_left e2 hε
    have e5 : (1 + ε) * |exp d - 1| ≤ (1 + κ) * (ε * |L| * (1 + κ)) :=
      mul_le_mul (by linarith) e3 (abs_nonneg _) (by linarith)
    have e6 : (1 + κ) * (1 + κ) ≤ 1 + 3 * κ := by nlinarith
    have e7 : 0 ≤ ε * |L| := mul_nonneg hε (abs_nonneg _)
    nlinarith [mul_le_mul_of_nonneg_left e6 e7]
  nlinarith [mul_le_mul_of_nonneg_left t2 E.le]

/-- Logarithm of an exponential. -/
theorem rt_log {ε x y l : ℝ} (hε : 0 ≤ ε) (h8 : ε ≤ 1 / 8) (h1 : |y - exp x| ≤ ε * exp x) (h2 : |l - log y| ≤ ε * |log y|) :
    |l - x| ≤ ε * (|x| + 1 + 3 * ε) := by
  have E := exp_pos x
  obtain ⟨e, he⟩ : ∃ e, e = y / exp x - 1 := ⟨_, rfl⟩
  have hy : y = exp x * (1 + e) := by rw [he]; field_simp; ring
  have e1 : |e| ≤ ε := by
    rw [show e = (y - exp x) / exp x by rw [he]; field_simp, abs_div, abs_of_pos E, div_le_iff₀ E]
    exact h1
  have e2 := abs_le.1 e1
  have hp : 0 < 1 + e := by linarith
  have hl : log y = x + log (1 + e) := by rw [hy, log_mul E.ne' hp.ne', log_exp]
  have g1 := log_le_sub_one_of_pos hp
  have g2 := one_sub_inv_le_log_of_pos hp
  have g3 : 1 - (1 + e)⁻¹ = e / (1 + e) := by field_simp; ring
  rw [g3] at g2
  have g4 : -(ε * (1 + 3 / 2 * ε)) ≤ e / (1 + e) := by
    rw [le_div_iff₀ hp]
    have k1 : 1 ≤ (1 + 3 / 2 * ε) * (1 - ε) := by nlinarith
    have k2 : (1 + 3 / 2 * ε) * (1 - ε) ≤ (1 + 3 / 2 * ε) * (1 + e) := mul_le_mul_of_nonneg_left (by linarith) (by linarith)
    nlinarith [mul_le_mul_of_nonneg_left (k1.trans k2) hε]
  have g5 : |log (1 + e)| ≤ ε * (1 + 3 / 2 * ε) := by
    rw [abs_le]; constructor
    · linarith
    · nlinarith
  rw [hl] at h2
  generalize log (1 + e) = d at *
  have t1 := abs_add_le (l - (x + d)) d
  rw [show l - (x + d) + d = l - x by ring] at t1
  have t2 := abs_add_le x d
  have t3 := mul_le_mul_of_nonneg_left t2 hε
  have t4 : ε * |d| ≤ ε * (ε * (1 + 3 / 2 * ε)) := mul_le_mul_of_nonneg_left g5 hε
  have t5 : ε * (ε * (1 + 3 / 2 * ε)) ≤ ε * (ε * (3 / 2)) :=
    mul_le_mul_of_nonneg_left (mul_le_mul_of_nonneg_left (by linarith) hε) hε
  nlinarith

/-- Tangent of an arctangent. -/
theorem rt_tan {a x δ κ : ℝ} (h1 : |a - arctan x| ≤ δ) (h2 : δ * √(1 + x ^ 2) ≤ κ) (hκ : κ ≤ 1 / 2) :
    |tan a - x| ≤ δ * (1 + x ^ 2) * (1 + 2 * κ) ∧ 0 < cos a := by
  obtain ⟨S, hS⟩ : ∃ S, S = √(1 + x ^ 2) := ⟨_, rfl⟩
  have hp : 0 < 1 + x ^ 2 := by positivity
  have S0 : 0 < S := by rw [hS]; exact sqrt_pos.2 hp
  have S2 : S * S = 1 + x ^ 2 := by rw [hS]; exact mul_self_sqrt hp.le
  have hc : cos (arctan x) = 1 / S := by rw [cos_arctan, hS]
  have c1 := abs_cos_sub_cos_le a (arctan x)
  have s1 : |sin (a - arctan x)| ≤ δ := (abs_sin_le_abs).trans h1
  rw [hc] at c1
  rw [← hS] at h2
  have d0 : 0 ≤ δ := (abs_nonneg _).trans h1
  have c2 : (1 - κ) / S ≤ cos a := by
    have h3 : δ ≤ κ / S := (le_div_iff₀ S0).2 h2
    have h4 := (abs_le.1 (c1.trans h1)).1
    rw [sub_div]
    linarith
  have k1 : 0 < 1 - κ := by linarith
  have c3 : 0 < cos a := lt_of_lt_of_le (div_pos k1 S0) c2
  refine ⟨?_, c3⟩
  have key : tan a - x = sin (a - arctan x) / (cos a * (1 / S)) := by
    have e : tan (arctan x) = x := tan_arctan x
    have hs : sin (arctan x) = x * (1 / S) := by
      rw [← hc]; rw [tan_eq_sin_div_cos] at e
      have : cos (arctan x) ≠ 0 := (cos_arctan_pos x).ne'
      field_simp at e
      linarith
    rw [sin_sub, hc, hs, tan_eq_sin_div_cos]
    field_simp
  have c4 : (1 - κ) / (S * S) ≤ cos a * (1 / S) := by
    rw [show (1 - κ) / (S * S) = (1 - κ) / S * (1 / S) by field_simp]
    exact mul_le_mul_of_nonneg_right c2 (by positivity)
  rw [S2] at c4
  have c5 : 0 < (1 - κ) / (1 + x ^ 2) := div_pos k1 hp
  rw [key, abs_div, abs_of_pos (lt_of_lt_of_le c5 c4)]
  have k0 : 0 ≤ κ := (mul_nonneg d0 S0.le).trans h2
  calc |sin (a - arctan x)| / (cos a * (1 / S)) ≤ δ / ((1 - κ) / (1 + x ^ 2)) := div_le_div₀ d0 s1 c5 c4
    _ = δ * (1 + x ^ 2) * (1 / (1 - κ)) := by field_simp
    _ ≤ δ * (1 + x ^ 2) * (1 + 2 * κ) := by
      refine mul_le_mul_of_nonneg_left ?_ (mul_nonneg d0 hp.le)
      rw [div_le_iff₀ k1]
      nlinarith

/-- An arctangent is not smaller than the sine of the angle. -/
theorem arctan_ge (t : ℝ) : |t| / √(1 + t ^ 2) ≤ |arctan t| := by
  have h := abs_sin_le_abs (x := arctan t)
  rwa [sin_arctan, abs_div, abs_of_nonneg (sqrt_nonneg (1 + t ^ 2))] at h

/-- Arctangent of a tangent. -/
theorem rt_atan {t u ε : ℝ} (e0 : 0 ≤ ε) (h : |u - t| ≤ ε * |t|) (hε : ε ≤ 1 / 2) : |arctan u - arctan t| ≤ 2 * ε * |arctan t| := by
  have h0 : t * t * (1 - ε) ≤ u * t := by
    have h1 := (abs_le.1 (show |(u - t) * t| ≤ ε * (t * t) by
      rw [abs_mul, ← abs_mul_abs_self t, ← mul_assoc]; exact mul_le_mul_of_nonneg_right h (abs_nonneg _))).1
    nlinarith
  have h1 : t * t / 2 ≤ u * t := by nlinarith [mul_self_nonneg t]
  have hp : 0 < 1 + u * t := by nlinarith [mul_self_nonneg t]
  have e : arctan u - arctan t = arctan ((u - t) / (1 + u * t)) := by
    have := arctan_add (x := u) (y := -t) (by nlinarith [mul_self_nonneg t])
    rw [arctan_neg] at this
    rw [sub_eq_add_neg, this]
    congr 1
    rw [mul_neg, sub_neg_eq_add, ← sub_eq_add_neg]
  rw [e]
  have l := arctan_lip ((u - t) / (1 + u * t)) 0
  rw [arctan_zero, sub_zero, sub_zero] at l
  refine l.trans ?_
  have S0 : 0 < √(1 + t ^ 2) := sqrt_pos.2 (by positivity)
  have S1 : √(1 + t ^ 2) ≤ 2 * (1 + u * t) := by
    rw [sqrt_le_iff]
    constructor
    · linarith
    · nlinarith [mul_self_nonneg t]
  rw [abs_div, abs_of_pos hp, div_le_iff₀ hp]
  refine h.trans ?_
  have g := arctan_ge t
  rw [div_le_iff₀ S0] at g
  have g2 : |t| ≤ |arctan t| * (2 * (1 + u * t)) := g.trans (mul_le_mul_of_nonneg_left S1 (abs_nonneg _))
  nlinarith [mul_le_mul_of_nonneg_left g2 e0]

/-- Angle of a point next to the unit circle. -/
theorem rt_arg {t s c δ : ℝ} (hs : |s - sin t| ≤ δ) (hc : |c - cos t| ≤ δ) (hδ : δ ≤ 1 / 16) (ht : |t| < π - 4 * δ) :
    |Complex.arg ⟨c, s⟩ - t| ≤ 4 * δ := by
  have d0 : 0 ≤ δ := (abs_nonneg _).trans hs
  obtain ⟨re, hre⟩ : ∃ re, re = c * cos t + s * sin t := ⟨_, rfl⟩
  obtain ⟨im, him⟩ : ∃ im, im = s * cos t - c * sin t := ⟨_, rfl⟩
  have sc := sin_sq_add_cos_sq t
  have ac := abs_cos_le_one t
  have as := abs_sin_le_one t
  have m1 : |(c - cos t) * cos t| ≤ δ := by
    rw [abs_mul]; nlinarith [abs_nonneg (c - cos t), abs_nonneg (cos t)]
  have m2 : |(s - sin t) * sin t| ≤ δ := by
    rw [abs_mul]; nlinarith [abs_nonneg (s - sin t), abs_nonneg (sin t)]
  have m3 : |(s - sin t) * cos t| ≤ δ := by
    rw [abs_mul]; nlinarith [abs_nonneg (s - sin t), abs_nonneg (cos t)]
  have m4 : |(c - cos t) * sin t| ≤ δ := by
    rw [abs_mul]; nlinarith [abs_nonneg (c - cos t), abs_nonneg (sin t)]
  have r1 : 1 - 2 * δ ≤ re := by
    have : re = 1 + (c - cos t) * cos t + (s - sin t) * sin t := by rw [hre]; nlinarith
    rw [this]
    linarith [(abs_le.1 m1).1, (abs_le.1 m2).1]
  have i1 : |im| ≤ 2 * δ := by
    have : im = (s - sin t) * cos t - (c - cos t) * sin t := by rw [him]; ring
    rw [this]
    linarith [abs_sub ((s - sin t) * cos t) ((c - cos t) * sin t)]
  have re0 : 0 < re := by linarith
  obtain ⟨z, hz⟩ : ∃ z, z = im / re := ⟨_, rfl⟩
  have z1 : |z| ≤ 4 * δ := by
    rw [hz, abs_div, abs_of_pos re0, div_le_iff₀ re0]
    nlinarith
  have f1 : |arctan z| ≤ 4 * δ := by
    have l := arctan_lip z 0
    rw [arctan_zero, sub_zero, sub_zero] at l
    exact l.trans z1
  have hp : 0 < 1 + z ^ 2 := by positivity
  have S0 : 0 < √(1 + z ^ 2) := sqrt_pos.2 hp
  have e1 : re * √(1 + z ^ 2) * cos (arctan z) = re := by
    rw [cos_arctan]; field_simp
  have e2 : re * √(1 + z ^ 2) * sin (arctan z) = im := by
    rw [sin_arctan, hz]; field_simp
  have key : (⟨c, s⟩ : ℂ) = ((re * √(1 + z ^ 2) : ℝ) : ℂ) * (Complex.cos ((arctan z + t : ℝ) : ℂ) + Complex.sin ((arctan z + t : ℝ) : ℂ) * Complex.I) := by
    rw [← Complex.ofReal_cos, ← Complex.ofReal_sin]
    have g1 : c = re * √(1 + z ^ 2) * cos (arctan z + t) := by
      rw [cos_add, mul_sub, ← mul_assoc, ← mul_assoc, e1, e2, hre, him]; linear_combination (-c) * sc
    have g2 : s = re * √(1 + z ^ 2) * sin (arctan z + t) := by
      rw [sin_add, mul_add, ← mul_assoc, ← mul_assoc, e1, e2, hre, him]; linear_combination (-s) * sc
    generalize Real.cos (arctan z + t) = C at g1 ⊢
    generalize Real.sin (arctan z + t) = D at g2 ⊢
    apply Complex.ext
    · simpa using g1
    · simpa using g2
  have b1 := abs_le.1 f1
  have b2 := abs_lt.1 ht
  rw [key, Complex.arg_mul_cos_add_sin_mul_I (mul_pos re0 S0) ⟨by linarith, by linarith⟩, add_sub_cancel_right]
  exact f1

/-- Reciprocal of a reciprocal. -/
theorem rt_inv {x a b ε : ℝ} (hx : x ≠ 0) (h1 : |a - 1 / x| ≤ ε * |1 / x|) (h2 : |b - 1 / a| ≤ ε * |1 / a|) (hε : ε ≤ 1 / 4) :
    |b - x| ≤ (2 * ε + 4 * ε ^ 2) * |x| := by
  have xp := abs_pos.2 hx
  obtain ⟨e, he⟩ : ∃ e, e = a * x - 1 := ⟨_, rfl⟩
  have e1 : |e| ≤ ε := by
    have : e = (a - 1 / x) * x := by rw [he]; field_simp
    rw [this, abs_mul]
    have := mul_le_mul_of_nonneg_right h1 xp.le
    rwa [mul_assoc, ← abs_mul (1 / x), one_div_mul_cancel hx, abs_one, mul_one] at this
  have ha : a = (1 + e) / x := by rw [he]; field_simp; ring
  have e2 := abs_le.1 e1
  have p1 : 0 < 1 + e := by linarith
  have i1 : 1 / a = x / (1 + e) := by rw [ha]; field_simp
  rw [i1] at h2
  have t := abs_add_le (b - x / (1 + e)) (x / (1 + e) - x)
  rw [sub_add_sub_cancel] at t
  have e3 : x / (1 + e) - x = -(x * (e / (1 + e))) := by field_simp; ring
  rw [e3, abs_neg, abs_mul, abs_div e, abs_of_pos p1] at t
  rw [abs_div, abs_of_pos p1] at h2
  have ε0 : 0 ≤ ε := (abs_nonneg _).trans e1
  have q : 1 / (1 + e) ≤ 1 + 2 * ε := by
    rw [div_le_iff₀ p1]; nlinarith
  have r1 : |x| / (1 + e) ≤ |x| * (1 + 2 * ε) := by
    rw [div_eq_mul_one_div]; exact mul_le_mul_of_nonneg_left q xp.le
  have r2 : |e| / (1 + e) ≤ ε * (1 + 2 * ε) := by
    rw [div_eq_mul_one_div]; exact mul_le_mul e1 q (by positivity) ε0
  have r3 := mul_le_mul_of_nonneg_left r1 ε0
  have r4 := mul_le_mul_of_nonneg_left r2 xp.le
  nlinarith

/-- Arcsine of a sine. -/
theorem rt_asin {t s δ : ℝ} (ht : |t| ≤ 1) (hs : |s| ≤ 1) (h : |s - sin t| ≤ δ) : |arcsin s - t| ≤ 9 * δ := by
  have pb := pi_bounds
  have hs' := abs_le.1 hs
  obtain ⟨a, ha⟩ : ∃ a, a = arcsin s := ⟨_, rfl⟩
  have hsa : sin a = s := by rw [ha]; exact sin_arcsin hs'.1 hs'.2
  have a1 := neg_pi_div_two_le_arcsin s
  have a2 := arcsin_le_pi_div_two s
  rw [← ha] at a1 a2 ⊢
  rw [← hsa, sin_sub_sin, abs_mul, abs_mul, abs_two] at h
  have ht' := abs_le.1 ht
  have hm : |(a + t) / 2| ≤ π / 2 - 0.285 := by
    rw [abs_le]; constructor <;> linarith [pb.1, pb.2]
  have c1 : 0.181 ≤ |cos ((a + t) / 2)| := by
    have e : cos ((a + t) / 2) = sin (π / 2 - |(a + t) / 2|) := by rw [sin_pi_div_two_sub, cos_abs]
    have l := mul_le_sin (x := π / 2 - |(a + t) / 2|) (by linarith) (by linarith [abs_nonneg ((a + t) / 2)])
    rw [← e] at l
    refine le_trans ?_ (le_abs_self _)
    refine le_trans ?_ l
    rw [div_mul_eq_mul_div, le_div_iff₀ pi_pos]
    nlinarith
  have s1 : 2 / π * |(a - t) / 2| ≤ |sin ((a - t) / 2)| := by
    refine mul_abs_le_abs_sin ?_
    rw [abs_le]; constructor <;> linarith [pb.1, pb.2]
  have s2 : 0.6366 * |(a - t) / 2| ≤ |sin ((a - t) / 2)| := by
    refine le_trans (mul_le_mul_of_nonneg_right ?_ (abs_nonneg _)) s1
    rw [le_div_iff₀ pi_pos]; linarith [pb.2]
  rw [abs_div, abs_two] at s2
  have s0 := abs_nonneg (sin ((a - t) / 2))
  nlinarith [abs_nonneg (a - t)]

end Vdt
