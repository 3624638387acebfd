import Verif.Float.Analyse1
import Verif.Real.Log1p
import Verif.Lemmas.Reduce
import Verif.Model.Log
import Verif.Props.Helpers

/-! # Accuracy of the logarithm -/

namespace Vdt
open FP details

section generic
variable {f : Fmt} [f.Ok]

/-- Rounding error relative to a bound of the exact value. -/
theorem rnd_real {q : ℚ} {M : ℝ} (h : |(q : ℝ)| ≤ M) (he : (f.eta : ℝ) ≤ f.u * M) (hb : |q| ≤ f.big) :
    |((rnd f q : ℚ) : ℝ) - q| ≤ f.u * M := by
  have h1 := rnd_err_rel f hb
  have h2 : ((|rnd f q - q| : ℚ) : ℝ) ≤ ((max (f.u * |q|) f.eta : ℚ) : ℝ) := by exact_mod_cast h1
  push_cast at h2
  refine h2.trans (max_le ?_ he)
  exact mul_le_mul_of_nonneg_left h (by exact_mod_cast f.u_pos.le)

/-- Bounds of the logarithm on the reduced interval. -/
theorem log1p_range {z : ℝ} (h1 : -0.293 ≤ z) (h2 : z ≤ 0.4143) : |Real.log (1 + z)| ≤ 0.3468 := by
  have hl := ln2_near
  unfold ln2Q at hl
  push_cast at hl
  rw [abs_le] at hl
  have l1 : 2 * Real.log (1 + z) ≤ Real.log 2 + 0.0003 := by
    have e : 2 * Real.log (1 + z) = Real.log 2 + Real.log ((1 + z) ^ 2 / 2) := by
      rw [Real.log_div (by nlinarith) (by norm_num), Real.log_pow]; push_cast; ring
    rw [e]
    have := Real.log_le_sub_one_of_pos (show 0 < (1 + z) ^ 2 / 2 by nlinarith)
    nlinarith
  have l2 : -(Real.log 2 + 0.0004) ≤ 2 * Real.log (1 + z) := by
    have e : 2 * Real.log (1 + z) = -(Real.log 2 + Real.log (1 / (2 * (1 + z) ^ 2))) := by
      rw [Real.log_div (by norm_num) (by nlinarith), Real.log_mul (by norm_num) (by nlinarith), Real.log_pow, Real.log_one]
      push_cast; ring
    rw [e]
    have hp : 0 < 2 * (1 + z) ^ 2 := by nlinarith
    have := Real.log_le_sub_one_of_pos (show 0 < 1 / (2 * (1 + z) ^ 2) by positivity)
    have h3 : 1 / (2 * (1 + z) ^ 2) ≤ 1.0004 := by
      rw [div_le_iff₀ hp]; nlinarith
    linarith
  rw [abs_le]
  norm_num at hl ⊢
  constructor <;> linarith

/-- Rounding error, with the absolute part added. -/
theorem rnd_err_sum {q M : ℚ} (h : |q| ≤ M) (hb : M ≤ f.big) : |rnd f q - q| ≤ f.u * M + f.eta := by
  have h1 := rnd_err_rel f (h.trans hb)
  refine h1.trans (max_le ?_ ?_)
  · have := mul_le_mul_of_nonneg_left h f.u_pos.le
    linarith [f.eta_pos]
  · have := mul_nonneg f.u_pos.le ((abs_nonneg q).trans h)
    linarith

set_option maxHeartbeats 2000000 in
/-- The final sum of the logarithm at the level of values: every intermediate is small and the error is
bounded. -/
theorem log_sum {z t1 F c1 c2 : ℚ} (hz1 : -0.293 ≤ z) (hz2 : z ≤ 0.4143) (ht : |t1| ≤ 0.019)
    (ht2 : |t1 - z ^ 2 / 2| ≤ 0.0684) (ht3 : |z + (t1 - z ^ 2 / 2)| ≤ 0.3472)
    (hF : |F| ≤ 1100) (hc2 : 0 ≤ c2) (hc2' : c2 ≤ 0.000213) (hc1 : 0 ≤ c1) (hc1' : c1 ≤ 0.6934)
    (hbig : 2000 ≤ f.big) (he : f.eta ≤ f.u / 10 ^ 8) (hu : f.u ≤ 1 / 2 ^ 24)
    {a t2 x2 h t3 t4 : ℚ} (da : a = F * c2 ∨ a = rnd f (F * c2)) (d2 : t2 = rnd f (t1 - a)) (dx : x2 = rnd f (z * z))
    (dh : h = 1 / 2 * x2 ∨ h = rnd f (1 / 2 * x2)) (d3 : t3 = rnd f (t2 - h)) (d4 : t4 = rnd f (z + t3)) :
    (|F * c2| ≤ f.big ∧ |F * c1| ≤ f.big ∧ |t1 - a| ≤ f.big ∧ |z * z| ≤ f.big ∧ |1 / 2 * x2| ≤ f.big ∧
      |t2 - h| ≤ f.big ∧ |z + t3| ≤ f.big ∧ |t4 + F * c1| ≤ f.big) ∧
    |rnd f (t4 + F * c1) - (z + (t1 - z ^ 2 / 2) + F * (c1 - c2))| ≤
      (0.6071 + 0.0009 * |F|) * f.u + f.u * |z + (t1 - z ^ 2 / 2) + F * (c1 - c2)| := by
  obtain ⟨u, hu0⟩ : ∃ u, u = f.u := ⟨_, rfl⟩
  obtain ⟨e, he0⟩ : ∃ e, e = f.eta := ⟨_, rfl⟩
  obtain ⟨G, hG0⟩ : ∃ G, G = |F| := ⟨_, rfl⟩
  have hup : 0 < u := hu0 ▸ f.u_pos
  have hep : 0 < e := he0 ▸ f.eta_pos
  have hGp : 0 ≤ G := hG0 ▸ abs_nonneg _
  have hb := fun {q M : ℚ} (h : |q| ≤ M) (hM : M ≤ 2000) => rnd_err_sum (f := f) h (hM.trans hbig)
  rw [← hu0] at he hu hb ⊢
  rw [← he0] at he hb
  rw [← hG0] at hF ⊢
  obtain ⟨w, hw⟩ : ∃ w, w = u * G := ⟨_, rfl⟩
  have hw0 : 0 ≤ w := hw ▸ mul_nonneg hup.le hGp
  have hwG : w ≤ G / 2 ^ 24 := by
    rw [hw]; have := mul_le_mul_of_nonneg_right hu hGp; linarith
  have hwu : w ≤ 1100 * u := by rw [hw, mul_comm]; exact mul_le_mul_of_nonneg_right hF hup.le
  have e2 : u * (0.000213 * G) = 0.000213 * w := by rw [hw]; ring
  have e3 : u * (0.0191 + 0.000214 * G) = 0.0191 * u + 0.000214 * w := by rw [hw]; ring
  have e4 : u * (0.0685 + 0.000215 * G) = 0.0685 * u + 0.000215 * w := by rw [hw]; ring
  have e5 : u * (0.3474 + 0.000216 * G) = 0.3474 * u + 0.000216 * w := by rw [hw]; ring
  have a0 : |F * c2| ≤ 0.000213 * G := by
    rw [abs_mul, abs_of_nonneg hc2, ← hG0, mul_comm]; exact mul_le_mul_of_nonneg_right hc2' hGp
  have b0 : |F * c1| ≤ 0.6934 * G := by
    rw [abs_mul, abs_of_nonneg hc1, ← hG0, mul_comm]; exact mul_le_mul_of_nonneg_right hc1' hGp
  have a1 : |a - F * c2| ≤ u * (0.000213 * G) + e := by
    rcases da with da | da
    · rw [da, sub_self, abs_zero]; positivity
    · exact da ▸ hb a0 (by linarith)
  rw [e2] at a1
  have a2 : |t1 - a| ≤ 0.0191 + 0.000214 * G := by
    rw [abs_le] at a1 a0 ht ⊢; constructor <;> linarith
  have a3 : |t2 - (t1 - a)| ≤ u * (0.0191 + 0.000214 * G) + e := d2 ▸ hb a2 (by linarith)
  rw [e3] at a3
  have y0 : |z * z| ≤ 0.1717 := by
    rw [abs_le]; constructor <;> nlinarith
  have y1 : |x2 - z * z| ≤ u * 0.1717 + e := dx ▸ hb y0 (by norm_num)
  have y2 : |1 / 2 * x2| ≤ 0.0859 := by
    rw [abs_le] at y0 y1 ⊢; constructor <;> linarith
  have y3 : |h - 1 / 2 * x2| ≤ u * 0.0859 + e := by
    rcases dh with dh | dh
    · rw [dh, sub_self, abs_zero]; positivity
    · exact dh ▸ hb y2 (by norm_num)
  have b1 : |t2 - h| ≤ 0.0685 + 0.000215 * G := by
    rw [abs_le] at a0 a1 a3 y1 y3 ht2 ⊢; constructor <;> linarith
  have b2 : |t3 - (t2 - h)| ≤ u * (0.0685 + 0.000215 * G) + e := d3 ▸ hb b1 (by linarith)
  rw [e4] at b2
  have b3 : |z + t3| ≤ 0.3474 + 0.000216 * G := by
    rw [abs_le] at a0 a1 a3 y1 y3 b2 ht3 ⊢; constructor <;> linarith
  have b4 : |t4 - (z + t3)| ≤ u * (0.3474 + 0.000216 * G) + e := d4 ▸ hb b3 (by linarith)
  rw [e5] at b4
  obtain ⟨R, hR⟩ : ∃ R, R = z + (t1 - z ^ 2 / 2) + F * (c1 - c2) := ⟨_, rfl⟩
  have b5 : |t4 + F * c1 - R| ≤ 0.60695 * u + 0.00086 * w + 6 * e := by
    rw [hR]
    have : t4 + F * c1 - (z + (t1 - z ^ 2 / 2) + F * (c1 - c2)) =
      (t4 - (z + t3)) + (t3 - (t2 - h)) + (t2 - (t1 - a)) - (a - F * c2) - (h - 1 / 2 * x2)
        - (x2 - z * z) / 2 := by ring
    rw [this]
    rw [abs_le] at a1 a3 y1 y3 b2 b4 ⊢
    constructor <;> linarith
  have hR1 : |t4 + F * c1| ≤ |R| + (0.60695 * u + 0.00086 * w + 6 * e) := by
    have := abs_add_le (t4 + F * c1 - R) R
    have e : t4 + F * c1 - R + R = t4 + F * c1 := by ring
    rw [e] at this; linarith
  have hR2 : |R| ≤ 0.3472 + 0.7 * G := by
    have : |F * (c1 - c2)| ≤ 0.7 * G := by
      rw [abs_mul, ← hG0, mul_comm]
      refine mul_le_mul_of_nonneg_right ?_ hGp
      rw [abs_le]; constructor <;> linarith
    rw [hR]; exact (abs_add_le _ _).trans (add_le_add ht3 this)
  have hM : |R| + (0.60695 * u + 0.00086 * w + 6 * e) ≤ 2000 := by linarith
  have b6 := hb hR1 hM
  rw [← hR]
  refine ⟨⟨a0.trans ?_, b0.trans ?_, a2.trans ?_, y0.trans ?_, y2.trans ?_, b1.trans ?_, b3.trans ?_,
    hR1.trans (hM.trans hbig)⟩, ?_⟩
  any_goals linarith
  have e6 : u * (|R| + (0.60695 * u + 0.00086 * w + 6 * e)) = u * |R| + u * (0.60695 * u + 0.00086 * w + 6 * e) := by ring
  have e7 : u * (0.60695 * u + 0.00086 * w + 6 * e) ≤ u * 0.00009 := by
    refine mul_le_mul_of_nonneg_left ?_ hup.le
    linarith
  have := abs_add_le (rnd f (t4 + F * c1) - (t4 + F * c1)) (t4 + F * c1 - R)
  have e8 : rnd f (t4 + F * c1) - (t4 + F * c1) + (t4 + F * c1 - R) = rnd f (t4 + F * c1) - R := by ring
  rw [e8] at this
  have e9 : (0.6071 + 0.0009 * G) * u = 0.6071 * u + 0.0009 * w := by rw [hw]; ring
  rw [e9]
  linarith

/-- include/log.h:98-99 and 179-180 are exact: `1 + z = m·2^(k+1-K)`. -/
theorem blend_spec {m fe c one : FP f} {k : ℤ} (hm : m.isFinite = true) (hfe : fe.isFinite = true)
    (h1 : 1 / 2 ≤ m.val) (h2 : m.val < 1) (hk : fe.val = k) (hk2 : |k| ≤ 1090) (hmb : 11 ≤ f.mb)
    (hem : f.emin ≤ -1) (hbig : 2000 ≤ f.big)
    (hc : c.isFinite = true) (hc1 : 0.7070 ≤ c.val) (hc2 : c.val ≤ 0.70715)
    (ho : one.isFinite = true) (ho1 : one.val = 1) :
    let r := if FP.gt m c then (m, fe + one) else (m + m, fe)
    (r.1 - one).isFinite = true ∧ r.2.isFinite = true ∧
    ∃ K : ℤ, r.2.val = K ∧ |K| ≤ 1100 ∧ -0.293 ≤ (r.1 - one).val ∧ (r.1 - one).val ≤ 0.4143 ∧
      m.val * 2 ^ (k + 1) = (1 + (r.1 - one).val) * 2 ^ K ∧
      ((r.1 - one).val = 0 ∨ p2 (-(f.mb + 1)) ≤ |(r.1 - one).val|) := by
  have hma : |m.val| = m.val := abs_of_nonneg (by linarith)
  -- `m` is a multiple of `2^-(mb+1)`
  obtain ⟨N, hN⟩ : ∃ N : ℤ, m.val = N * p2 (-(f.mb + 1)) := by
    obtain ⟨n, j, e1, e2, e3⟩ := rep_of_ge (x := m) (j := -1) (by
      rw [hma]; exact le_trans (by norm_num [p2]) h1)
    obtain ⟨d, hd⟩ : ∃ d : ℕ, (d : ℤ) = j + (f.mb + 1) := ⟨(j + (f.mb + 1)).toNat, by omega⟩
    refine ⟨n * 2 ^ d, ?_⟩
    rw [e1]
    push_cast
    rw [mul_assoc, ← p2_nat, ← p2_add]
    exact congrArg _ (congrArg _ (by omega))
  have hpp := p2_pos (-((f.mb : ℤ) + 1))
  have hone : (1 : ℚ) = ((2 ^ (f.mb + 1) : ℤ) : ℚ) * p2 (-(f.mb + 1)) := by
    push_cast
    rw [← p2_nat, ← p2_add]
    have : ((f.mb + 1 : ℕ) : ℤ) + -((f.mb : ℤ) + 1) = 0 := by push_cast; ring
    rw [this]; simp [p2]
  have hmbe : f.emin - f.mb ≤ -((f.mb : ℤ) + 1) := by omega
  have small : ∀ M : ℤ, |(M : ℚ) * p2 (-(f.mb + 1))| ≤ 1 → Rep f (M * p2 (-(f.mb + 1))) := by
    intro M hM
    refine ⟨M, _, rfl, ?_, hmbe⟩
    rw [abs_mul, abs_of_pos hpp] at hM
    conv at hM => rhs; rw [hone]
    have := le_of_mul_le_mul_right hM hpp
    rw [← Int.cast_abs] at this
    exact_mod_cast this
  have zero_or : ∀ M : ℤ, (M : ℚ) * p2 (-(f.mb + 1)) = 0 ∨ p2 (-(f.mb + 1)) ≤ |(M : ℚ) * p2 (-(f.mb + 1))| := by
    intro M
    by_cases h : M = 0
    · left; rw [h]; simp
    · right
      rw [abs_mul, abs_of_pos hpp]
      have : (1 : ℤ) ≤ |M| := Int.one_le_abs h
      have h2 : (1 : ℚ) ≤ |(M : ℚ)| := by rw [← Int.cast_abs]; exact_mod_cast this
      nlinarith
  intro r
  by_cases hg : c.val < m.val
  · have hr : r = (m, fe + one) := by
      show (if FP.gt m c then _ else _) = _
      rw [gt_fin hm hc]; simp [hg]
    rw [hr]
    have e1 : m.val - one.val = ((N - 2 ^ (f.mb + 1) : ℤ) : ℚ) * p2 (-(f.mb + 1)) := by
      rw [ho1, hN, hone]; push_cast; ring
    have hab : |m.val - one.val| ≤ 1 := by rw [ho1, abs_le]; constructor <;> linarith
    have s1 := sub_exact hm ho (by rw [e1]; apply small; rw [← e1]; exact hab) (hab.trans (by linarith))
    have e2 : fe.val + one.val = ((k + 1 : ℤ) : ℚ) := by rw [hk, ho1]; push_cast; ring
    have hk3 : |k + 1| ≤ 1100 := by rw [abs_le] at *; omega
    have hk4 : |k + 1| ≤ (2 ^ (f.mb + 1) : ℤ) := by
      have : (2 : ℤ) ^ 12 ≤ 2 ^ (f.mb + 1) := pow_le_pow_right₀ (by norm_num) (by omega)
      linarith
    have hk5 : |((k + 1 : ℤ) : ℚ)| ≤ 1100 := by rw [← Int.cast_abs]; exact_mod_cast hk3
    have s2 := add_exact hfe ho (by rw [e2]; exact rep_int f hk4 (by omega)) (by rw [e2]; linarith)
    refine ⟨s1.1, s2.1, k + 1, by rw [s2.2, e2], hk3, ?_, ?_, ?_, ?_⟩
    · show _ ≤ (m - one).val
      rw [s1.2, ho1]; linarith
    · show (m - one).val ≤ _
      rw [s1.2, ho1]; linarith
    · show _ = (1 + (m - one).val) * _
      rw [s1.2, ho1]; ring
    · show (m - one).val = 0 ∨ _ ≤ |(m - one).val|
      rw [s1.2, e1]; exact zero_or _
  · have hr : r = (m + m, fe) := by
      show (if FP.gt m c then _ else _) = _
      rw [gt_fin hm hc]; simp [hg]
    rw [hr]
    push Not at hg
    have hrep : Rep f (m.val + m.val) := by
      obtain ⟨n, j, e1, e2, e3⟩ := val_rep m
      refine ⟨n, j + 1, ?_, e2, by omega⟩
      rw [e1, p2_succ]; ring
    have s0 := add_exact hm hm hrep (by rw [abs_of_nonneg (by linarith)]; linarith)
    have e1 : (m + m).val - one.val = ((2 * N - 2 ^ (f.mb + 1) : ℤ) : ℚ) * p2 (-(f.mb + 1)) := by
      rw [s0.2, ho1, hN, hone]; push_cast; ring
    have hab : |(m + m).val - one.val| ≤ 1 := by rw [s0.2, ho1, abs_le]; constructor <;> linarith
    have s1 := sub_exact s0.1 ho (by rw [e1]; apply small; rw [← e1]; exact hab) (hab.trans (by linarith))
    refine ⟨s1.1, hfe, k, hk, hk2.trans (by norm_num), ?_, ?_, ?_, ?_⟩
    · show _ ≤ (m + m - one).val
      rw [s1.2, s0.2, ho1]; linarith
    · show (m + m - one).val ≤ _
      rw [s1.2, s0.2, ho1]; linarith
    · show _ = (1 + (m + m - one).val) * _
      rw [s1.2, s0.2, ho1, zpow_add₀ (by norm_num)]; ring
    · show (m + m - one).val = 0 ∨ _ ≤ |(m + m - one).val|
      rw [s1.2, e1]; exact zero_or _

end generic

/-- Combination of all the errors when the exponent is not zero. -/
theorem log_final {u G z t1 T F R r l2 c12 : ℝ} (hu : 0 < u) (hu2 : u ≤ 1 / 2 ^ 24)
    (hG : G = |F|) (hG1 : 1 ≤ G) (hGm : G ≤ 1100) (hz1 : -0.293 ≤ z) (hz2 : z ≤ 0.4143)
    (hl : l2 = Real.log 2) (hc : |c12 - l2| ≤ 0.001 * u) (hR : R = z + (t1 - z ^ 2 / 2) + F * c12)
    (hr : |r - R| ≤ (0.6071 + 0.0009 * G) * u + u * |R|) (ht : |t1 - T| ≤ 0.2 * u)
    (ha : |z - z ^ 2 / 2 + T - Real.log (1 + z)| ≤ 0.401 * u * |z|) :
    |r - (Real.log (1 + z) + F * l2)| ≤ 4 * u * |Real.log (1 + z) + F * l2| := by
  have hz := log1p_range hz1 hz2
  obtain ⟨L, hL⟩ : ∃ L, L = Real.log (1 + z) + F * l2 := ⟨_, rfl⟩
  have hl2 : 0.6931 ≤ l2 := by
    have hl' := ln2_near
    unfold ln2Q at hl'
    push_cast at hl'
    rw [abs_le] at hl'
    rw [hl]; norm_num at hl' ⊢; linarith
  have hLb : 0.6931 * G - 0.3468 ≤ |L| := by
    have h1 : |F * l2| ≤ |L| + |Real.log (1 + z)| := by
      have : F * l2 = L - Real.log (1 + z) := by rw [hL]; ring
      rw [this]; exact abs_sub _ _
    rw [abs_mul, ← hG, abs_of_nonneg (by linarith : 0 ≤ l2)] at h1
    nlinarith
  have hza : |z| ≤ 0.4143 := by rw [abs_le]; constructor <;> linarith
  have hRL : |R - L| ≤ 0.3662 * u + 0.001 * (u * G) := by
    have e : R - L = (z - z ^ 2 / 2 + T - Real.log (1 + z)) + (t1 - T) + F * (c12 - l2) := by
      rw [hR, hL]; ring
    have h3 : |F * (c12 - l2)| ≤ 0.001 * (u * G) := by
      rw [abs_mul, ← hG]
      have := mul_le_mul_of_nonneg_left hc (by linarith : 0 ≤ G)
      linarith
    have h4 : 0.401 * u * |z| ≤ 0.1662 * u := by nlinarith
    rw [e]
    refine (abs_add_le _ _).trans ?_
    have := abs_add_le (z - z ^ 2 / 2 + T - Real.log (1 + z)) (t1 - T)
    linarith
  have hRa : |R| ≤ |L| + |R - L| := by
    have := abs_add_le (R - L) L
    rw [sub_add_cancel] at this; linarith
  have hrL : |r - L| ≤ |r - R| + |R - L| := by
    have := abs_add_le (r - R) (R - L)
    rwa [sub_add_sub_cancel] at this
  rw [← hL]
  have h5 : u * |R| ≤ u * |L| + u * (0.3662 * u + 0.001 * (u * G)) := by
    rw [← mul_add]; exact mul_le_mul_of_nonneg_left (hRa.trans (by linarith)) hu.le
  have h6 : u * (0.3662 * u + 0.001 * (u * G)) ≤ u * 0.001 := by
    refine mul_le_mul_of_nonneg_left ?_ hu.le
    nlinarith
  have h7 : u * (0.6931 * G - 0.3468) ≤ u * |L| := mul_le_mul_of_nonneg_left hLb hu.le
  have h8 : u * 1 ≤ u * G := mul_le_mul_of_nonneg_left hG1 hu.le
  linarith

/-- The logarithm is not small on the reduced interval. -/
theorem log1p_lower {z : ℝ} (hz1 : -0.293 ≤ z) (hz2 : z ≤ 0.4143) : 0.828 * |z| ≤ |Real.log (1 + z)| := by
  rcases le_total 0 z with h | h
  · have := Real.le_log_one_add_of_nonneg h
    rw [abs_of_nonneg h]
    have h2 : 0.828 * z ≤ 2 * z / (z + 2) := by
      rw [le_div_iff₀ (by linarith)]; nlinarith
    exact (h2.trans this).trans (le_abs_self _)
  · have := Real.log_le_sub_one_of_pos (show 0 < 1 + z by linarith)
    rw [abs_of_nonpos h]
    refine le_trans ?_ (neg_le_abs _)
    linarith

theorem rnd_rnd {f : Fmt} [f.Ok] {q : ℚ} (h : |rnd f q| ≤ f.big) : rnd f (rnd f q) = rnd f q := by
  apply rnd_exact f _ h
  have := val_rep (ofRat f false q)
  rwa [val_ofRat] at this

/-- The whole error analysis at the level of values, for both precisions. -/
theorem log_core {f : Fmt} [f.Ok] {z t1 c1 c2 : ℚ} {K : ℤ} {T : ℝ} (hz1 : -0.293 ≤ z) (hz2 : z ≤ 0.4143)
    (hz0 : z = 0 ∨ p2 (-(f.mb + 1)) ≤ |z|) (hne : ¬(z = 0 ∧ K = 0)) (hK : |K| ≤ 1100)
    (hc2 : 0 ≤ c2) (hc2' : c2 ≤ 0.000213) (hc1 : 0 ≤ c1) (hc1' : c1 ≤ 0.6934)
    (hc : |((c1 - c2 : ℚ) : ℝ) - Real.log 2| ≤ 0.001 * f.u)
    (hbig : 2000 ≤ f.big) (he : f.eta ≤ f.u / 10 ^ 8) (he2 : 10000 * f.eta ≤ f.u * p2 (-(f.mb + 1))) (hu : f.u ≤ 1 / 2 ^ 24)
    (htT : |(t1 : ℝ) - T| ≤ 0.2 * f.u)
    (hT : |T| ≤ 0.0189 ∧ |T - (z : ℝ) ^ 2 / 2| ≤ 0.0683 ∧ |(z : ℝ) + (T - (z : ℝ) ^ 2 / 2)| ≤ 0.3470)
    (ha : |(z : ℝ) - (z : ℝ) ^ 2 / 2 + T - Real.log (1 + z)| ≤ 0.401 * f.u * |(z : ℝ)|)
    {a t2 x2 h t3 t4 : ℚ} (da : a = K * c2 ∨ a = rnd f (K * c2)) (d2 : t2 = rnd f (t1 - a)) (dx : x2 = rnd f (z * z))
    (dh : h = 1 / 2 * x2 ∨ h = rnd f (1 / 2 * x2)) (d3 : t3 = rnd f (t2 - h)) (d4 : t4 = rnd f (z + t3))
    (hlin : |((rnd f (z + rnd f (rnd f t1 - h)) : ℚ) : ℝ) - ((z : ℝ) + (T - (z : ℝ) ^ 2 / 2))| ≤
      2.5 * f.u * |(z : ℝ)| + 100 * f.eta) :
    (|K * c2| ≤ f.big ∧ |K * c1| ≤ f.big ∧ |t1 - a| ≤ f.big ∧ |z * z| ≤ f.big ∧ |1 / 2 * x2| ≤ f.big ∧
      |t2 - h| ≤ f.big ∧ |z + t3| ≤ f.big ∧ |t4 + K * c1| ≤ f.big) ∧
    |((rnd f (t4 + K * c1) : ℚ) : ℝ) - (Real.log (1 + z) + K * Real.log 2)| ≤
      4 * f.u * |Real.log (1 + z) + K * Real.log 2| := by
  obtain ⟨u, hu0⟩ : ∃ u : ℝ, u = f.u := ⟨_, rfl⟩
  have hup : 0 < u := by rw [hu0]; exact_mod_cast f.u_pos
  have hu2 : u ≤ 1 / 2 ^ 24 := by
    have : ((f.u : ℚ) : ℝ) ≤ ((1 / 2 ^ 24 : ℚ) : ℝ) := by exact_mod_cast hu
    rw [hu0]; push_cast at this; exact this
  have hz1' : -0.293 ≤ (z : ℝ) := by
    have : ((-0.293 : ℚ) : ℝ) ≤ z := by exact_mod_cast hz1
    push_cast at this; linarith
  have hz2' : (z : ℝ) ≤ 0.4143 := by
    have : (z : ℝ) ≤ ((0.4143 : ℚ) : ℝ) := by exact_mod_cast hz2
    push_cast at this; linarith
  rw [← hu0] at htT hc ha hlin ⊢
  have b1 : |t1| ≤ 0.019 := by
    have : |(t1 : ℝ)| ≤ ((0.019 : ℚ) : ℝ) := by
      push_cast
      have := hT.1
      rw [abs_le] at this htT ⊢
      constructor <;> linarith
    exact_mod_cast this
  have b2 : |t1 - z ^ 2 / 2| ≤ 0.0684 := by
    have : |(t1 : ℝ) - (z : ℝ) ^ 2 / 2| ≤ ((0.0684 : ℚ) : ℝ) := by
      push_cast
      have := hT.2.1
      rw [abs_le] at this htT ⊢
      constructor <;> linarith
    exact_mod_cast this
  have b3 : |z + (t1 - z ^ 2 / 2)| ≤ 0.3472 := by
    have : |(z : ℝ) + ((t1 : ℝ) - (z : ℝ) ^ 2 / 2)| ≤ ((0.3472 : ℚ) : ℝ) := by
      push_cast
      have := hT.2.2
      rw [abs_le] at this htT ⊢
      constructor <;> linarith
    exact_mod_cast this
  have hKq : |(K : ℚ)| ≤ 1100 := by rw [← Int.cast_abs]; exact_mod_cast hK
  have S := log_sum hz1 hz2 b1 b2 b3 hKq hc2 hc2' hc1 hc1' hbig he hu da d2 dx dh d3 d4
  refine ⟨S.1, ?_⟩
  by_cases hK0 : K = 0
  · subst hK0
    have r0 : rnd f 0 = 0 := rnd_exact f ⟨0, f.emin - f.mb, by simp, by positivity, le_rfl⟩ (by simpa using f.big_pos.le)
    have ea : a = 0 := by
      rcases da with da | da
      · rw [da]; simp
      · rw [da]; simpa using r0
    have e2 : t2 = rnd f t1 := by rw [d2, ea, sub_zero]
    rw [e2] at d3
    have e5 : rnd f (t4 + ((0 : ℤ) : ℚ) * c1) = rnd f (z + rnd f (rnd f t1 - h)) := by
      have h8 := S.1.2.2.2.2.2.2.2
      rw [show t4 + ((0 : ℤ) : ℚ) * c1 = t4 by simp] at h8 ⊢
      rw [d4, d3] at h8 ⊢
      exact rnd_rnd h8
    rw [e5]
    have hz : z ≠ 0 := fun h => hne ⟨h, rfl⟩
    have hzl : p2 (-(f.mb + 1)) ≤ |z| := hz0.resolve_left hz
    have hz3 : 10000 * (f.eta : ℝ) ≤ u * |(z : ℝ)| := by
      have h1 : 10000 * f.eta ≤ f.u * |z| := he2.trans (mul_le_mul_of_nonneg_left hzl f.u_pos.le)
      have h2 : ((10000 * f.eta : ℚ) : ℝ) ≤ ((f.u * |z| : ℚ) : ℝ) := by exact_mod_cast h1
      push_cast at h2
      rwa [← hu0] at h2
    have hlow := log1p_lower hz1' hz2'
    have e6 : Real.log (1 + (z : ℝ)) + ((0 : ℤ) : ℝ) * Real.log 2 = Real.log (1 + z) := by simp
    rw [e6]
    have h7 := abs_add_le (((rnd f (z + rnd f (rnd f t1 - h)) : ℚ) : ℝ) - ((z : ℝ) + (T - (z : ℝ) ^ 2 / 2)))
      ((z : ℝ) - (z : ℝ) ^ 2 / 2 + T - Real.log (1 + z))
    have e7 : ((rnd f (z + rnd f (rnd f t1 - h)) : ℚ) : ℝ) - ((z : ℝ) + (T - (z : ℝ) ^ 2 / 2)) +
      ((z : ℝ) - (z : ℝ) ^ 2 / 2 + T - Real.log (1 + z)) = ((rnd f (z + rnd f (rnd f t1 - h)) : ℚ) : ℝ) - Real.log (1 + z) := by
      ring
    rw [e7] at h7
    have h8 := mul_le_mul_of_nonneg_left hlow hup.le
    have h9 : 0 ≤ u * |(z : ℝ)| := mul_nonneg hup.le (abs_nonneg _)
    linarith
  · have hG1 : (1 : ℝ) ≤ |(K : ℝ)| := by rw [← Int.cast_abs]; exact_mod_cast Int.one_le_abs hK0
    have hGm : |(K : ℝ)| ≤ 1100 := by rw [← Int.cast_abs]; exact_mod_cast hK
    refine log_final (G := |(K : ℝ)|) (t1 := t1) (T := T) (R := ((z + (t1 - z ^ 2 / 2) + K * (c1 - c2) : ℚ) : ℝ))
      hup hu2 rfl hG1 hGm hz1' hz2' rfl hc (by push_cast; ring) ?_ htT ha
    have h9 : ((|rnd f (t4 + K * c1) - (z + (t1 - z ^ 2 / 2) + K * (c1 - c2))| : ℚ) : ℝ) ≤
      (((0.6071 + 0.0009 * |(K : ℚ)|) * f.u + f.u * |z + (t1 - z ^ 2 / 2) + K * (c1 - c2)| : ℚ) : ℝ) := by
      exact_mod_cast S.2
    push_cast at h9 ⊢
    rw [← hu0] at h9
    exact h9

end Vdt
