import Verif.Lemmas.DirExp
import Verif.Lemmas.FlushLog

/-! # The logarithm in every rounding direction -/

namespace Vdt.Flush
open FP details Ab
variable {f : Fmt} {m : Mode}

set_option maxHeartbeats 2000000 in
/-- The final sum of the logarithm when every operation has an error of at most `U` relative and `e` absolute.  The
propositions `Fa`, … stand for the operands being finite. -/
theorem log_sumD {U e big : ℚ} (hup : 0 < U) (hep : 0 < e) {z t1 F c1 c2 : ℚ} (hz1 : -0.293 ≤ z) (hz2 : z ≤ 0.4143) (ht : |t1| ≤ 0.019)
    (ht2 : |t1 - z ^ 2 / 2| ≤ 0.0684) (ht3 : |z + (t1 - z ^ 2 / 2)| ≤ 0.3472)
    (hF : |F| ≤ 1100) (hc2 : 0 ≤ c2) (hc2' : c2 ≤ 0.000213) (hc1 : 0 ≤ c1) (hc1' : c1 ≤ 0.6934)
    (hbig : 2000 ≤ big) (he : e ≤ U / 10 ^ 8) (hu : U ≤ 1 / 2 ^ 23) {Fa F2 Fx Fh F3 F4 Fb Fr : Prop}
    {a t2 x2 h t3 t4 r : ℚ} (da : |F * c2| ≤ big → Fa ∧ |a - F * c2| ≤ U * |F * c2| + e)
    (d2 : Fa → |t1 - a| ≤ big → F2 ∧ |t2 - (t1 - a)| ≤ U * |t1 - a| + e)
    (dx : |z * z| ≤ big → Fx ∧ |x2 - z * z| ≤ U * |z * z| + e)
    (dh : Fx → |1 / 2 * x2| ≤ big → Fh ∧ |h - 1 / 2 * x2| ≤ U * |1 / 2 * x2| + e)
    (d3 : F2 → Fh → |t2 - h| ≤ big → F3 ∧ |t3 - (t2 - h)| ≤ U * |t2 - h| + e)
    (d4 : F3 → |z + t3| ≤ big → F4 ∧ |t4 - (z + t3)| ≤ U * |z + t3| + e)
    (db : |F * c1| ≤ big → Fb) (dr : F4 → Fb → |t4 + F * c1| ≤ big → Fr ∧ |r - (t4 + F * c1)| ≤ U * |t4 + F * c1| + e) :
    Fr ∧ |r - (z + (t1 - z ^ 2 / 2) + F * (c1 - c2))| ≤
      (0.6071 + 0.0009 * |F|) * U + U * |z + (t1 - z ^ 2 / 2) + F * (c1 - c2)| := by
  obtain ⟨G, hG0⟩ : ∃ G, G = |F| := ⟨_, rfl⟩
  have hGp : 0 ≤ G := hG0 ▸ abs_nonneg _
  have hb : ∀ {P : Prop} {q M w : ℚ}, (|q| ≤ big → P ∧ |w - q| ≤ U * |q| + e) → |q| ≤ M → M ≤ 2000 → P ∧ |w - q| ≤ U * M + e := by
    intro P q M w h hq hM
    have := h (hq.trans (hM.trans hbig))
    refine ⟨this.1, this.2.trans ?_⟩
    have := mul_le_mul_of_nonneg_left hq hup.le
    linarith
  rw [← hG0] at hF ⊢
  obtain ⟨w, hw⟩ : ∃ w, w = U * G := ⟨_, rfl⟩
  have hw0 : 0 ≤ w := hw ▸ mul_nonneg hup.le hGp
  have hwG : w ≤ G / 2 ^ 23 := by
    rw [hw]; have := mul_le_mul_of_nonneg_right hu hGp; linarith
  have hwu : w ≤ 1100 * U := by rw [hw, mul_comm]; exact mul_le_mul_of_nonneg_right hF hup.le
  have e2 : U * (0.000213 * G) = 0.000213 * w := by rw [hw]; ring
  have e3 : U * (0.0191 + 0.000214 * G) = 0.0191 * U + 0.000214 * w := by rw [hw]; ring
  have e4 : U * (0.0685 + 0.000215 * G) = 0.0685 * U + 0.000215 * w := by rw [hw]; ring
  have e5 : U * (0.3474 + 0.000216 * G) = 0.3474 * U + 0.000216 * w := by rw [hw]; ring
  have a0 : |F * c2| ≤ 0.000213 * G := by
    rw [abs_mul, abs_of_nonneg hc2, ← hG0, mul_comm]; exact mul_le_mul_of_nonneg_right hc2' hGp
  have b0 : |F * c1| ≤ 0.6934 * G := by
    rw [abs_mul, abs_of_nonneg hc1, ← hG0, mul_comm]; exact mul_le_mul_of_nonneg_right hc1' hGp
  have fb : Fb := db (b0.trans (le_trans (by linarith) hbig))
  obtain ⟨fa, a1⟩ := hb da a0 (by linarith)
  rw [e2] at a1
  have a2 : |t1 - a| ≤ 0.0191 + 0.000214 * G := by
    rw [abs_le] at a1 a0 ht ⊢; constructor <;> linarith
  obtain ⟨f2, a3⟩ := hb (d2 fa) a2 (by linarith)
  rw [e3] at a3
  have y0 : |z * z| ≤ 0.1717 := by
    rw [abs_le]; constructor <;> nlinarith
  obtain ⟨fx, y1⟩ := hb dx y0 (by norm_num)
  have y2 : |1 / 2 * x2| ≤ 0.0859 := by
    rw [abs_le] at y0 y1 ⊢; constructor <;> linarith
  obtain ⟨fh, y3⟩ := hb (dh fx) y2 (by norm_num)
  have b1 : |t2 - h| ≤ 0.0685 + 0.000215 * G := by
    rw [abs_le] at a0 a1 a3 y1 y3 ht2 ⊢; constructor <;> linarith
  obtain ⟨f3, b2⟩ := hb (d3 f2 fh) b1 (by linarith)
  rw [e4] at b2
  have b3 : |z + t3| ≤ 0.3474 + 0.000216 * G := by
    rw [abs_le] at a0 a1 a3 y1 y3 b2 ht3 ⊢; constructor <;> linarith
  obtain ⟨f4, b4⟩ := hb (d4 f3) b3 (by linarith)
  rw [e5] at b4
  obtain ⟨R, hR⟩ : ∃ R, R = z + (t1 - z ^ 2 / 2) + F * (c1 - c2) := ⟨_, rfl⟩
  have b5 : |t4 + F * c1 - R| ≤ 0.60695 * U + 0.00086 * w + 6 * e := by
    rw [hR]
    have : t4 + F * c1 - (z + (t1 - z ^ 2 / 2) + F * (c1 - c2)) =
      (t4 - (z + t3)) + (t3 - (t2 - h)) + (t2 - (t1 - a)) - (a - F * c2) - (h - 1 / 2 * x2)
        - (x2 - z * z) / 2 := by ring
    rw [this]
    rw [abs_le] at a1 a3 y1 y3 b2 b4 ⊢
    constructor <;> linarith
  have hR1 : |t4 + F * c1| ≤ |R| + (0.60695 * U + 0.00086 * w + 6 * e) := by
    have := abs_add_le (t4 + F * c1 - R) R
    have e : t4 + F * c1 - R + R = t4 + F * c1 := by ring
    rw [e] at this; linarith
  have hR2 : |R| ≤ 0.3472 + 0.7 * G := by
    have : |F * (c1 - c2)| ≤ 0.7 * G := by
      rw [abs_mul, ← hG0, mul_comm]
      refine mul_le_mul_of_nonneg_right ?_ hGp
      rw [abs_le]; constructor <;> linarith
    rw [hR]; exact (abs_add_le _ _).trans (add_le_add ht3 this)
  obtain ⟨fr, b6⟩ := hb (dr f4 fb) hR1 (by linarith)
  rw [← hR]
  refine ⟨fr, ?_⟩
  have e6 : U * (|R| + (0.60695 * U + 0.00086 * w + 6 * e)) = U * |R| + U * (0.60695 * U + 0.00086 * w + 6 * e) := by ring
  have e7 : U * (0.60695 * U + 0.00086 * w + 6 * e) ≤ U * 0.00009 := by
    refine mul_le_mul_of_nonneg_left ?_ hup.le
    linarith
  have := abs_add_le (r - (t4 + F * c1)) (t4 + F * c1 - R)
  have e8 : r - (t4 + F * c1) + (t4 + F * c1 - R) = r - R := by ring
  rw [e8] at this
  have e9 : (0.6071 + 0.0009 * G) * U = 0.6071 * U + 0.0009 * w := by rw [hw]; ring
  rw [e9]
  linarith

/-- Combination of all the errors when the exponent is not zero. -/
theorem log_finalD {u G z t1 T F R r l2 c12 : ℝ} (hu : 0 < u) (hu2 : u ≤ 1 / 2 ^ 23)
    (hG : G = |F|) (hG1 : 1 ≤ G) (hGm : G ≤ 1100) (hz1 : -0.293 ≤ z) (hz2 : z ≤ 0.4143)
    (hl : l2 = Real.log 2) (hc : |c12 - l2| ≤ 0.001 * u) (hR : R = z + (t1 - z ^ 2 / 2) + F * c12)
    (hr : |r - R| ≤ (0.6071 + 0.0009 * G) * u + u * |R|) (ht : |t1 - T| ≤ 0.2 * u)
    (ha : |z - z ^ 2 / 2 + T - Real.log (1 + z)| ≤ 0.401 * u * |z|) :
    |r - (Real.log (1 + z) + F * l2)| ≤ 4 * u * |Real.log (1 + z) + F * l2| := by
  have hz := log1p_range hz1 hz2
  obtain ⟨L, hL⟩ : ∃ L, L = Real.log (1 + z) + F * l2 := ⟨_, rfl⟩
  have hl2 : 0.6931 ≤ l2 := by
    have hl' := ln2_near
    unfold ln2Q at hl'
    push_cast at hl'
    rw [abs_le] at hl'
    rw [hl]; norm_num at hl' ⊢; linarith
  have hLb : 0.6931 * G - 0.3468 ≤ |L| := by
    have h1 : |F * l2| ≤ |L| + |Real.log (1 + z)| := by
      have : F * l2 = L - Real.log (1 + z) := by rw [hL]; ring
      rw [this]; exact abs_sub _ _
    rw [abs_mul, ← hG, abs_of_nonneg (by linarith : 0 ≤ l2)] at h1
    nlinarith
  have hza : |z| ≤ 0.4143 := by rw [abs_le]; constructor <;> linarith
  have hRL : |R - L| ≤ 0.3662 * u + 0.001 * (u * G) := by
    have e : R - L = (z - z ^ 2 / 2 + T - Real.log (1 + z)) + (t1 - T) + F * (c12 - l2) := by
      rw [hR, hL]; ring
    have h3 : |F * (c12 - l2)| ≤ 0.001 * (u * G) := by
      rw [abs_mul, ← hG]
      have := mul_le_mul_of_nonneg_left hc (by linarith : 0 ≤ G)
      linarith
    have h4 : 0.401 * u * |z| ≤ 0.1662 * u := by nlinarith
    rw [e]
    refine (abs_add_le _ _).trans ?_
    have := abs_add_le (z - z ^ 2 / 2 + T - Real.log (1 + z)) (t1 - T)
    linarith
  have hRa : |R| ≤ |L| + |R - L| := by
    have := abs_add_le (R - L) L
    rw [sub_add_cancel] at this; linarith
  have hrL : |r - L| ≤ |r - R| + |R - L| := by
    have := abs_add_le (r - R) (R - L)
    rwa [sub_add_sub_cancel] at this
  rw [← hL]
  have h5 : u * |R| ≤ u * |L| + u * (0.3662 * u + 0.001 * (u * G)) := by
    rw [← mul_add]; exact mul_le_mul_of_nonneg_left (hRa.trans (by linarith)) hu.le
  have h6 : u * (0.3662 * u + 0.001 * (u * G)) ≤ u * 0.001 := by
    refine mul_le_mul_of_nonneg_left ?_ hu.le
    nlinarith
  have h7 : u * (0.6931 * G - 0.3468) ≤ u * |L| := mul_le_mul_of_nonneg_left hLb hu.le
  have h8 : u * 1 ≤ u * G := mul_le_mul_of_nonneg_left hG1 hu.le
  linarith

section exactness
variable [f.Ok] (hm : m.Dir) {a b : Z m f}
include hm

theorem add_exactD (ha : a.v.isFinite = true) (hb : b.v.isFinite = true) (hr : Rep f (a.v.val + b.v.val)) (h : |a.v.val + b.v.val| ≤ f.big) :
    (a + b).v.isFinite = true ∧ (a + b).v.val = a.v.val + b.v.val :=
  have t := add_dir hm ha hb h
  ⟨t.1, t.exactQ hr h⟩

theorem sub_exactD (ha : a.v.isFinite = true) (hb : b.v.isFinite = true) (hr : Rep f (a.v.val - b.v.val)) (h : |a.v.val - b.v.val| ≤ f.big) :
    (a - b).v.isFinite = true ∧ (a - b).v.val = a.v.val - b.v.val :=
  have t := sub_dir hm ha hb h
  ⟨t.1, t.exactQ hr h⟩

theorem mul_exactD (ha : a.v.isFinite = true) (hb : b.v.isFinite = true) (hr : Rep f (a.v.val * b.v.val)) (h : |a.v.val * b.v.val| ≤ f.big) :
    (a * b).v.isFinite = true ∧ (a * b).v.val = a.v.val * b.v.val :=
  have t := mul_dir hm ha hb h
  ⟨t.1, t.exactQ hr h⟩

/-- include/log.h:98-99 and 179-180 are exact: `1 + z = x·2^(k+1-K)`. -/
theorem blend_dir {x fe c one : FP f} {k : ℤ} (hx : x.isFinite = true) (hfe : fe.isFinite = true)
    (h1 : 1 / 2 ≤ x.val) (h2 : x.val < 1) (hk : fe.val = k) (hk2 : |k| ≤ 1090) (hmb : 11 ≤ f.mb)
    (hem : f.emin ≤ -1) (hbig : 2000 ≤ f.big)
    (hc : c.isFinite = true) (hc1 : 0.7070 ≤ c.val) (hc2 : c.val ≤ 0.70715)
    (ho : one.isFinite = true) (ho1 : one.val = 1) :
    ((if m.gt x c then of x else of x + of x : Z m f) - of one).v.isFinite = true ∧
    (if m.gt x c then of fe + of one else of fe : Z m f).v.isFinite = true ∧
    ∃ K : ℤ, (if m.gt x c then of fe + of one else of fe : Z m f).v.val = K ∧ |K| ≤ 1100 ∧
      -0.293 ≤ ((if m.gt x c then of x else of x + of x : Z m f) - of one).v.val ∧
      ((if m.gt x c then of x else of x + of x : Z m f) - of one).v.val ≤ 0.4143 ∧
      x.val * 2 ^ (k + 1) = (1 + ((if m.gt x c then of x else of x + of x : Z m f) - of one).v.val) * 2 ^ K ∧
      (((if m.gt x c then of x else of x + of x : Z m f) - of one).v.val = 0 ∨
        p2 (-(f.mb + 1)) ≤ |((if m.gt x c then of x else of x + of x : Z m f) - of one).v.val|) := by
  have hma : |x.val| = x.val := abs_of_nonneg (by linarith)
  obtain ⟨N, hN⟩ : ∃ N : ℤ, x.val = N * p2 (-(f.mb + 1)) := by
    obtain ⟨n, j, e1, e2, e3⟩ := rep_of_ge (x := x) (j := -1) (by
      rw [hma]; exact le_trans (by norm_num [p2]) h1)
    obtain ⟨d, hd⟩ : ∃ d : ℕ, (d : ℤ) = j + (f.mb + 1) := ⟨(j + (f.mb + 1)).toNat, by omega⟩
    refine ⟨n * 2 ^ d, ?_⟩
    rw [e1]
    push_cast
    rw [mul_assoc, ← p2_nat, ← p2_add]
    exact congrArg _ (congrArg _ (by omega))
  have hpp := p2_pos (-((f.mb : ℤ) + 1))
  have hone : (1 : ℚ) = ((2 ^ (f.mb + 1) : ℤ) : ℚ) * p2 (-(f.mb + 1)) := by
    push_cast
    rw [← p2_nat, ← p2_add]
    have : ((f.mb + 1 : ℕ) : ℤ) + -((f.mb : ℤ) + 1) = 0 := by push_cast; ring
    rw [this]; simp [p2]
  have hmbe : f.emin - f.mb ≤ -((f.mb : ℤ) + 1) := by omega
  have small : ∀ M : ℤ, |(M : ℚ) * p2 (-(f.mb + 1))| ≤ 1 → Rep f (M * p2 (-(f.mb + 1))) := by
    intro M hM
    refine ⟨M, _, rfl, ?_, hmbe⟩
    rw [abs_mul, abs_of_pos hpp] at hM
    conv at hM => rhs; rw [hone]
    have := le_of_mul_le_mul_right hM hpp
    rw [← Int.cast_abs] at this
    exact_mod_cast this
  have zero_or : ∀ M : ℤ, (M : ℚ) * p2 (-(f.mb + 1)) = 0 ∨ p2 (-(f.mb + 1)) ≤ |(M : ℚ) * p2 (-(f.mb + 1))| := by
    intro M
    by_cases h : M = 0
    · left; rw [h]; simp
    · right
      rw [abs_mul, abs_of_pos hpp]
      have : (1 : ℤ) ≤ |M| := Int.one_le_abs h
      have h2 : (1 : ℚ) ≤ |(M : ℚ)| := by rw [← Int.cast_abs]; exact_mod_cast this
      nlinarith
  have g : m.gt x c = FP.gt x c := by unfold Mode.gt; rw [hm.arg, hm.arg]
  rw [g, gt_fin hx hc]
  by_cases hg : c.val < x.val
  · simp only [hg, decide_true, if_true]
    have e1 : x.val - one.val = ((N - 2 ^ (f.mb + 1) : ℤ) : ℚ) * p2 (-(f.mb + 1)) := by
      rw [ho1, hN, hone]; push_cast; ring
    have hab : |x.val - one.val| ≤ 1 := by rw [ho1, abs_le]; constructor <;> linarith
    have s1 := sub_exactD hm (a := of x) (b := of one) hx ho
      (by show Rep f (x.val - one.val); rw [e1]; apply small; rw [← e1]; exact hab) (hab.trans (by linarith))
    have s12 : (of x - of one : Z m f).v.val = x.val - one.val := s1.2
    have e2 : fe.val + one.val = ((k + 1 : ℤ) : ℚ) := by rw [hk, ho1]; push_cast; ring
    have hk3 : |k + 1| ≤ 1100 := by rw [abs_le] at *; omega
    have hk4 : |k + 1| ≤ (2 ^ (f.mb + 1) : ℤ) := by
      have : (2 : ℤ) ^ 12 ≤ 2 ^ (f.mb + 1) := pow_le_pow_right₀ (by norm_num) (by omega)
      linarith
    have hk5 : |((k + 1 : ℤ) : ℚ)| ≤ 1100 := by rw [← Int.cast_abs]; exact_mod_cast hk3
    have s2 := add_exactD hm (a := of fe) (b := of one) hfe ho (by show Rep f (fe.val + one.val); rw [e2]; exact rep_int f hk4 (by omega))
      (by show |fe.val + one.val| ≤ _; rw [e2]; linarith)
    have s22 : (of fe + of one : Z m f).v.val = fe.val + one.val := s2.2
    refine ⟨s1.1, s2.1, k + 1, by rw [s22, e2], hk3, ?_, ?_, ?_, ?_⟩
    · rw [s12, ho1]; linarith
    · rw [s12, ho1]; linarith
    · rw [s12, ho1]; ring
    · rw [s12, e1]; exact zero_or _
  · simp only [hg, decide_false, Bool.false_eq_true, if_false]
    push Not at hg
    have hrep : Rep f (x.val + x.val) := by
      obtain ⟨n, j, e1, e2, e3⟩ := val_rep x
      refine ⟨n, j + 1, ?_, e2, by omega⟩
      rw [e1, p2_succ]; ring
    have s0 := add_exactD hm (a := of x) (b := of x) hx hx hrep (by show |x.val + x.val| ≤ _; rw [abs_of_nonneg (by linarith)]; linarith)
    have s02 : (of x + of x : Z m f).v.val = x.val + x.val := s0.2
    have e1 : (of x + of x : Z m f).v.val - one.val = ((2 * N - 2 ^ (f.mb + 1) : ℤ) : ℚ) * p2 (-(f.mb + 1)) := by
      rw [s02, ho1, hN, hone]; push_cast; ring
    have hab : |(of x + of x : Z m f).v.val - one.val| ≤ 1 := by rw [s02, ho1, abs_le]; constructor <;> linarith
    have s1 := sub_exactD hm (a := of x + of x) (b := of one) s0.1 ho
      (by show Rep f ((of x + of x : Z m f).v.val - one.val); rw [e1]; apply small; rw [← e1]; exact hab) (hab.trans (by linarith))
    have s12 : (of x + of x - of one : Z m f).v.val = (of x + of x : Z m f).v.val - one.val := s1.2
    refine ⟨s1.1, hfe, k, hk, hk2.trans (by norm_num), ?_, ?_, ?_, ?_⟩
    · rw [s12, s02, ho1]; linarith
    · rw [s12, s02, ho1]; linarith
    · rw [s12, s02, ho1, zpow_add₀ (by norm_num)]; ring
    · rw [s12, e1]; exact zero_or _

end exactness

/-- The whole error analysis at the level of values when the exponent is not zero. -/
theorem log_valD {U e big : ℚ} (hup : 0 < U) (hep : 0 < e) {z t1 F c1 c2 : ℚ} {T : ℝ} (hz1 : -0.293 ≤ z) (hz2 : z ≤ 0.4143)
    (hF : |F| ≤ 1100) (hF1 : 1 ≤ |F|) (hc2 : 0 ≤ c2) (hc2' : c2 ≤ 0.000213) (hc1 : 0 ≤ c1) (hc1' : c1 ≤ 0.6934)
    (hc : |((c1 - c2 : ℚ) : ℝ) - Real.log 2| ≤ 0.001 * U)
    (hbig : 2000 ≤ big) (he : e ≤ U / 10 ^ 8) (hu : U ≤ 1 / 2 ^ 23)
    (htT : |(t1 : ℝ) - T| ≤ 0.2 * U)
    (hT : |T| ≤ 0.0189 ∧ |T - (z : ℝ) ^ 2 / 2| ≤ 0.0683 ∧ |(z : ℝ) + (T - (z : ℝ) ^ 2 / 2)| ≤ 0.3470)
    (ha : |(z : ℝ) - (z : ℝ) ^ 2 / 2 + T - Real.log (1 + z)| ≤ 0.401 * U * |(z : ℝ)|) {Fa F2 Fx Fh F3 F4 Fb Fr : Prop}
    {a t2 x2 h t3 t4 r : ℚ} (da : |F * c2| ≤ big → Fa ∧ |a - F * c2| ≤ U * |F * c2| + e)
    (d2 : Fa → |t1 - a| ≤ big → F2 ∧ |t2 - (t1 - a)| ≤ U * |t1 - a| + e)
    (dx : |z * z| ≤ big → Fx ∧ |x2 - z * z| ≤ U * |z * z| + e)
    (dh : Fx → |1 / 2 * x2| ≤ big → Fh ∧ |h - 1 / 2 * x2| ≤ U * |1 / 2 * x2| + e)
    (d3 : F2 → Fh → |t2 - h| ≤ big → F3 ∧ |t3 - (t2 - h)| ≤ U * |t2 - h| + e)
    (d4 : F3 → |z + t3| ≤ big → F4 ∧ |t4 - (z + t3)| ≤ U * |z + t3| + e)
    (db : |F * c1| ≤ big → Fb) (dr : F4 → Fb → |t4 + F * c1| ≤ big → Fr ∧ |r - (t4 + F * c1)| ≤ U * |t4 + F * c1| + e) :
    Fr ∧ |(r : ℝ) - (Real.log (1 + z) + F * Real.log 2)| ≤ 4 * U * |Real.log (1 + z) + F * Real.log 2| := by
  have hupR : (0 : ℝ) < U := by exact_mod_cast hup
  have hu2 : (U : ℝ) ≤ 1 / 2 ^ 23 := by
    have : ((U : ℚ) : ℝ) ≤ ((1 / 2 ^ 23 : ℚ) : ℝ) := by exact_mod_cast hu
    push_cast at this; exact this
  have hz1' : -0.293 ≤ (z : ℝ) := by
    have : ((-0.293 : ℚ) : ℝ) ≤ z := by exact_mod_cast hz1
    push_cast at this; linarith
  have hz2' : (z : ℝ) ≤ 0.4143 := by
    have : (z : ℝ) ≤ ((0.4143 : ℚ) : ℝ) := by exact_mod_cast hz2
    push_cast at this; linarith
  have b1 : |t1| ≤ 0.019 := by
    have : |(t1 : ℝ)| ≤ ((0.019 : ℚ) : ℝ) := by
      push_cast
      have := hT.1
      rw [abs_le] at this htT ⊢
      constructor <;> linarith
    exact_mod_cast this
  have b2 : |t1 - z ^ 2 / 2| ≤ 0.0684 := by
    have : |(t1 : ℝ) - (z : ℝ) ^ 2 / 2| ≤ ((0.0684 : ℚ) : ℝ) := by
      push_cast
      have := hT.2.1
      rw [abs_le] at this htT ⊢
      constructor <;> linarith
    exact_mod_cast this
  have b3 : |z + (t1 - z ^ 2 / 2)| ≤ 0.3472 := by
    have : |(z : ℝ) + ((t1 : ℝ) - (z : ℝ) ^ 2 / 2)| ≤ ((0.3472 : ℚ) : ℝ) := by
      push_cast
      have := hT.2.2
      rw [abs_le] at this htT ⊢
      constructor <;> linarith
    exact_mod_cast this
  have S := log_sumD hup hep hz1 hz2 b1 b2 b3 hF hc2 hc2' hc1 hc1' hbig he hu da d2 dx dh d3 d4 db dr
  refine ⟨S.1, ?_⟩
  have hG1 : (1 : ℝ) ≤ |(F : ℝ)| := by exact_mod_cast hF1
  have hGm : |(F : ℝ)| ≤ 1100 := by exact_mod_cast hF
  refine log_finalD (G := |(F : ℝ)|) (t1 := t1) (T := T) (R := ((z + (t1 - z ^ 2 / 2) + F * (c1 - c2) : ℚ) : ℝ))
    hupR hu2 rfl hG1 hGm hz1' hz2' rfl hc (by push_cast; ring) ?_ htT ha
  have h9 : ((|r - (z + (t1 - z ^ 2 / 2) + F * (c1 - c2))| : ℚ) : ℝ) ≤
    (((0.6071 + 0.0009 * |F|) * U + U * |z + (t1 - z ^ 2 / 2) + F * (c1 - c2)| : ℚ) : ℝ) := by
    exact_mod_cast S.2
  push_cast at h9 ⊢
  exact h9

theorem rep_of_rnd [f.Ok] {q : ℚ} (h : rnd f q = q) : Rep f q := by
  have := val_rep (ofRat f false q)
  rwa [val_ofRat, h] at this

/-- include/log.h:112-117 -/
theorem log_opsD [f.Ok] (hm : m.Dir) {T z fe c1 c2 hf : Z m f} {P : ℝ} {K : ℤ}
    (hT : T.v.isFinite = true) (hz : z.v.isFinite = true) (hfe : fe.v.isFinite = true) (hc1f : c1.v.isFinite = true) (hc2f : c2.v.isFinite = true) (hhf : hf.v.isFinite = true)
    (hz1 : -0.293 ≤ z.v.val) (hz2 : z.v.val ≤ 0.4143) (hK : fe.v.val = K) (hK2 : |K| ≤ 1100) (hK0 : K ≠ 0)
    (hc1 : c1.v.val = 355 / 512) (hh : hf.v.val = (1 / 2)) (hc2 : 0 ≤ c2.v.val) (hc2' : c2.v.val ≤ 0.000213)
    (hc : |((355 / 512 - c2.v.val : ℚ) : ℝ) - Real.log 2| ≤ 0.001 * f.u)
    (hbig : 2000 ≤ f.big) (he : f.eta ≤ f.u / 10 ^ 8) (hu : f.u ≤ 1 / 2 ^ 24) (hmb : 20 ≤ f.mb) (hem : f.emin - f.mb ≤ -9)
    (htT : |T.v.real - P| ≤ 0.4 * f.u)
    (hP : |P| ≤ 0.0189 ∧ |P - z.v.real ^ 2 / 2| ≤ 0.0683 ∧ |z.v.real + (P - z.v.real ^ 2 / 2)| ≤ 0.3470)
    (ha : |z.v.real - z.v.real ^ 2 / 2 + P - Real.log (1 + z.v.real)| ≤ 0.401 * f.u * |z.v.real|) :
    ((z + (T - fe * c2 - hf * (z * z))) + fe * c1).v.isFinite = true ∧ |((z + (T - fe * c2 - hf * (z * z))) + fe * c1).v.real - (Real.log (1 + z.v.real) + K * Real.log 2)| ≤
      8 * f.u * |Real.log (1 + z.v.real) + K * Real.log 2| := by
  have up := f.u_pos
  have upR : (0 : ℝ) < f.u := by exact_mod_cast up
  have ep := f.eta_pos
  have hKq : |fe.v.val| ≤ 1100 := by rw [hK, ← Int.cast_abs]; exact_mod_cast hK2
  have hKq1 : 1 ≤ |fe.v.val| := by rw [hK, ← Int.cast_abs]; exact_mod_cast Int.one_le_abs hK0
  obtain ⟨x1, x2⟩ := mul_exactD hm (a := fe) (b := c1) hfe hc1f (by
      rw [hK, hc1]; exact rep_of_rnd (log_c1_exact _ hK2 hmb hem hbig)) (by
      rw [abs_mul, hc1, show |(355 / 512 : ℚ)| = 355 / 512 by norm_num]; linarith)
  have V := log_valD (U := 2 * f.u) (e := 2 * f.eta) (big := f.big) (z := z.v.val) (t1 := T.v.val) (F := fe.v.val) (c1 := c1.v.val) (c2 := c2.v.val)
    (T := P) (by linarith) (by linarith) hz1 hz2 hKq hKq1 hc2 hc2' (by rw [hc1]; norm_num) (by rw [hc1]; norm_num)
    (by rw [hc1, Rat.cast_mul]; refine hc.trans ?_; push_cast; linarith) hbig (by linarith) (by linarith)
    (by rw [Rat.cast_mul]; refine htT.trans (le_of_eq ?_); push_cast; ring) hP
    (by
      refine ha.trans (mul_le_mul_of_nonneg_right ?_ (abs_nonneg _))
      rw [Rat.cast_mul]; push_cast; linarith)
    (fun h => have w := mul_dir hm hfe hc2f h; ⟨w.1, w.err_add h⟩)
    (fun g h => have w := sub_dir hm hT g h; ⟨w.1, w.err_add h⟩)
    (fun h => have w := mul_dir hm hz hz h; ⟨w.1, w.err_add h⟩)
    (fun g h => by
      rw [← hh] at h ⊢
      exact have w := mul_dir hm hhf g h; ⟨w.1, w.err_add h⟩)
    (fun g g' h => have w := sub_dir hm g g' h; ⟨w.1, w.err_add h⟩)
    (fun g h => have w := add_dir hm hz g h; ⟨w.1, w.err_add h⟩)
    (fun _ => x1)
    (fun g g' h => by
      rw [← x2] at h ⊢
      exact have w := add_dir hm g g' h; ⟨w.1, w.err_add h⟩)
  refine ⟨V.1, ?_⟩
  have V2 := V.2
  rw [hK, Rat.cast_mul] at V2
  push_cast at V2
  refine V2.trans (mul_le_mul_of_nonneg_right ?_ (abs_nonneg _))
  linarith

/-- include/log.h:186-192 -/
theorem log_opsfD [f.Ok] (hm : m.Dir) {T z fe c1 c2 hf : Z m f} {P : ℝ} {K : ℤ}
    (hT : T.v.isFinite = true) (hz : z.v.isFinite = true) (hfe : fe.v.isFinite = true) (hc1f : c1.v.isFinite = true) (hc2f : c2.v.isFinite = true) (hhf : hf.v.isFinite = true)
    (hz1 : -0.293 ≤ z.v.val) (hz2 : z.v.val ≤ 0.4143) (hK : fe.v.val = K) (hK2 : |K| ≤ 1100) (hK0 : K ≠ 0)
    (hc1 : c1.v.val = 355 / 512) (hh : hf.v.val = -(1 / 2)) (hc2 : 0 ≤ -c2.v.val) (hc2' : -c2.v.val ≤ 0.000213)
    (hc : |((355 / 512 + c2.v.val : ℚ) : ℝ) - Real.log 2| ≤ 0.001 * f.u)
    (hbig : 2000 ≤ f.big) (he : f.eta ≤ f.u / 10 ^ 8) (hu : f.u ≤ 1 / 2 ^ 24) (hmb : 20 ≤ f.mb) (hem : f.emin - f.mb ≤ -9)
    (htT : |T.v.real - P| ≤ 0.4 * f.u)
    (hP : |P| ≤ 0.0189 ∧ |P - z.v.real ^ 2 / 2| ≤ 0.0683 ∧ |z.v.real + (P - z.v.real ^ 2 / 2)| ≤ 0.3470)
    (ha : |z.v.real - z.v.real ^ 2 / 2 + P - Real.log (1 + z.v.real)| ≤ 0.401 * f.u * |z.v.real|) :
    ((z + (T + c2 * fe + hf * (z * z))) + c1 * fe).v.isFinite = true ∧ |((z + (T + c2 * fe + hf * (z * z))) + c1 * fe).v.real - (Real.log (1 + z.v.real) + K * Real.log 2)| ≤
      8 * f.u * |Real.log (1 + z.v.real) + K * Real.log 2| := by
  have up := f.u_pos
  have upR : (0 : ℝ) < f.u := by exact_mod_cast up
  have ep := f.eta_pos
  have hKq : |fe.v.val| ≤ 1100 := by rw [hK, ← Int.cast_abs]; exact_mod_cast hK2
  have hKq1 : 1 ≤ |fe.v.val| := by rw [hK, ← Int.cast_abs]; exact_mod_cast Int.one_le_abs hK0
  obtain ⟨x1, x2⟩ := mul_exactD hm (a := c1) (b := fe) hc1f hfe (by
      rw [hK, hc1, mul_comm]; exact rep_of_rnd (log_c1_exact _ hK2 hmb hem hbig)) (by
      rw [abs_mul, hc1, show |(355 / 512 : ℚ)| = 355 / 512 by norm_num]; linarith)
  rw [mul_comm] at x2
  have n1 : ∀ q w B : ℚ, |w - (-q)| ≤ B → |(-w) - q| ≤ B := fun q w B h => by
    have : (-w) - q = -(w - (-q)) := by ring
    rwa [this, abs_neg]
  have V := log_valD (U := 2 * f.u) (e := 2 * f.eta) (big := f.big) (z := z.v.val) (t1 := T.v.val) (F := fe.v.val) (c1 := c1.v.val) (c2 := -c2.v.val)
    (a := -(c2 * fe).v.val) (t2 := (T + c2 * fe).v.val) (h := -(hf * (z * z)).v.val) (t3 := (T + c2 * fe + hf * (z * z)).v.val)
    (T := P) (by linarith) (by linarith) hz1 hz2 hKq hKq1 hc2 hc2' (by rw [hc1]; norm_num) (by rw [hc1]; norm_num)
    (by rw [hc1, Rat.cast_mul, sub_neg_eq_add]; refine hc.trans ?_; push_cast; linarith) hbig (by linarith) (by linarith)
    (by rw [Rat.cast_mul]; refine htT.trans (le_of_eq ?_); push_cast; ring) hP
    (by
      refine ha.trans (mul_le_mul_of_nonneg_right ?_ (abs_nonneg _))
      rw [Rat.cast_mul]; push_cast; linarith)
    (fun h => by
      have e : fe.v.val * -c2.v.val = -(c2.v.val * fe.v.val) := by ring
      rw [e, abs_neg] at h ⊢
      have w := mul_dir hm hc2f hfe h
      have w2 := w.err_add h
      exact ⟨w.1, n1 _ _ _ (by rwa [neg_neg])⟩)
    (fun g h => by
      rw [sub_neg_eq_add] at h ⊢
      exact have w := add_dir hm hT g h; ⟨w.1, w.err_add h⟩)
    (fun h => have w := mul_dir hm hz hz h; ⟨w.1, w.err_add h⟩)
    (fun g h => by
      have e : 1 / 2 * (z * z).v.val = -(hf.v.val * (z * z).v.val) := by rw [hh]; ring
      rw [e, abs_neg] at h ⊢
      have w := mul_dir hm hhf g h
      have w2 := w.err_add h
      exact ⟨w.1, n1 _ _ _ (by rwa [neg_neg])⟩)
    (fun g g' h => by
      rw [sub_neg_eq_add] at h ⊢
      exact have w := add_dir hm g g' h; ⟨w.1, w.err_add h⟩)
    (fun g h => have w := add_dir hm hz g h; ⟨w.1, w.err_add h⟩)
    (fun _ => x1)
    (fun g g' h => by
      rw [← x2] at h ⊢
      exact have w := add_dir hm g g' h; ⟨w.1, w.err_add h⟩)
  refine ⟨V.1, ?_⟩
  have V2 := V.2
  rw [hK, Rat.cast_mul] at V2
  push_cast at V2
  refine V2.trans (mul_le_mul_of_nonneg_right ?_ (abs_nonneg _))
  linarith

/-! ## The exponent zero -/

/-- The third variable is zero. -/
def env0 (a b : ℚ) : ℕ → Option Ab
  | 0 => some ⟨0, a, b, 0, 0⟩
  | 1 => some ⟨1, 1, 1, 0, 0⟩
  | 2 => some ⟨1, 0, 0, 0, 0⟩
  | _ => none

def okLin0 (f : Fmt) (e : E f) (C H : ℚ) (a b : ℚ) : Bool :=
  match anD f (max |a| |b|) (env0 a b) e with
  | some r => r.k == 1 && decide (r.err ≤ C) && decide (r.h ≤ H)
  | none => false

theorem okLin0_sound [f.Ok] [EtaOk f] (hm : m.Dir) {e : E f} {a b C H : ℚ} (h : okLin0 f e C H a b = true) {x y : FP f}
    (hx : x.isFinite = true) (h1 : (a : ℝ) ≤ x.real) (h2 : x.real ≤ b) (hy : y.isFinite = true) (y0 : y.real = 0) :
    (evalZ m (three x y) e).v.isFinite = true ∧ |(evalZ m (three x y) e).v.real - e.evalR (three x.real 0)| ≤ C * |x.real| + H * f.eta := by
  unfold okLin0 at h
  split at h
  · rename_i r hr
    simp only [Bool.and_eq_true, beq_iff_eq, decide_eq_true_eq] at h
    have s : Ab.Sound f x.real r (evalZ m (three x y) e).v (e.evalR (three x.real 0)) := by
      refine anD_sound hm (abs_le_max h1 h2) ?_ e r hr
      intro i s hs
      match i, hs with
      | 0, hs =>
        cases hs
        exact ⟨hx, ⟨x.real, by simp [three], h1, h2⟩, le_rfl, le_rfl, by simp [three]⟩
      | 1, hs =>
        cases hs
        exact ⟨hx, ⟨1, by simp [three], by simp, by simp⟩, le_rfl, le_rfl, by simp [three]⟩
      | 2, hs =>
        cases hs
        exact ⟨hy, ⟨0, by simp [three], by simp, by simp⟩, le_rfl, le_rfl, by simp [three, y0]⟩
    refine ⟨s.fin, s.bound.trans ?_⟩
    rw [h.1.1, pow_one]
    have h3 : (r.err : ℝ) ≤ C := by exact_mod_cast h.1.2
    have h4 : (r.h : ℝ) ≤ H := by exact_mod_cast h.2
    exact add_le_add (mul_le_mul_of_nonneg_right h3 (abs_nonneg _)) (mul_le_mul_of_nonneg_right h4 (etaR_pos f).le)
  · cases h

/-- The real function without the exponent, at a reduced argument. -/
theorem log_zeroD {u z L r T : ℝ} (hu : 0 < u) (hz1 : -0.293 ≤ z) (hz2 : z ≤ 0.4143) {e : ℝ} (he : 10000 * e ≤ u * |z|)
    (hr : |r - (z + (T - z ^ 2 / 2))| ≤ 7.5 * u * |z| + 100 * e) (ha : |z - z ^ 2 / 2 + T - Real.log (1 + z)| ≤ 0.401 * u * |z|)
    (hL : L = Real.log (1 + z)) : |r - L| ≤ 9.7 * u * |L| := by
  have lo := log1p_lower hz1 hz2
  rw [hL]
  have h7 := abs_add_le (r - (z + (T - z ^ 2 / 2))) (z - z ^ 2 / 2 + T - Real.log (1 + z))
  have e7 : r - (z + (T - z ^ 2 / 2)) + (z - z ^ 2 / 2 + T - Real.log (1 + z)) = r - Real.log (1 + z) := by ring
  rw [e7] at h7
  have h8 := mul_le_mul_of_nonneg_left lo hu.le
  have h9 : 0 ≤ u * |z| := mul_nonneg hu.le (abs_nonneg _)
  linarith

/-! ## Double precision -/

theorem logZE_ok0 : covers (okLin0 b64 logZE (7.5 * p2 (-53)) 100) [-293 / 1000, -7 / 32, 3 / 64, 21 / 64, 4143 / 10000] = true := by decide +kernel
theorem logTE_okD : covers (okAbsD b64 logTE (0.4 * p2 (-53))) [-293 / 1000, -1 / 4, -7 / 64, 1 / 4, 3 / 8, 4143 / 10000] = true := by decide +kernel

theorem logZE_real (x k : ℝ) : logZE.evalR (three x k) = x + (x ^ 3 * pev logPl x / pev logQl x -
    k * (lit 2.121944400546905827679e-4 : F64).real - (lit 0.5 : F64).real * (x * x)) + k * (lit 0.693359375 : F64).real := by
  rw [← logTE_real]
  rfl

theorem logZ_dir (hm : m.Dir) {z fe : F64} {K : ℤ} (hz : z.isFinite = true) (hfe : fe.isFinite = true) (hK : fe.val = K)
    (hK2 : |K| ≤ 1100) (h1 : -0.293 ≤ z.val) (h2 : z.val ≤ 0.4143) (h0 : z.val = 0 ∨ p2 (-(b64.mb + 1)) ≤ |z.val|)
    (hne : ¬(z.val = 0 ∧ K = 0)) :
    (logZ (of z) (of fe) : Z m b64).v.isFinite = true ∧
    |(logZ (of z) (of fe) : Z m b64).v.real - (Real.log (1 + z.real) + K * Real.log 2)| ≤
      10 * 2 ^ (-53 : ℤ) * |Real.log (1 + z.real) + K * Real.log 2| := by
  obtain ⟨cf2, cf1, cfh, ch, c20, c2m, c1v, hbig, hu, he, he2, hu2, -⟩ := log_consts
  have r1 : -0.293 ≤ z.real := by have := le_real_iff.2 h1; push_cast at this; linarith
  have r2 : z.real ≤ 0.4143 := by have := real_le_iff.2 h2; push_cast at this; linarith
  have hur : ((b64.u : ℚ) : ℝ) = 2 ^ (-53 : ℤ) := by rw [hu]; norm_num
  have up : (0 : ℝ) < 2 ^ (-53 : ℤ) := by positivity
  have e53 : (1 / 2 ^ 53 : ℝ) = 2 ^ (-53 : ℤ) := by norm_num
  have hA := log_approx r1 r2
  rw [e53] at hA
  by_cases hK0 : K = 0
  · subst hK0
    obtain ⟨s, t, hst, h3, h4⟩ := covers_spans logZE_ok0 (a := -0.293) (b := 0.4143) (by decide +kernel)
      (x := z.real) (by push_cast; linarith) (by push_cast; linarith)
    have r := okLin0_sound hm hst hz h3 h4 hfe (by unfold FP.real; rw [hK]; simp)
    rw [← logZ_Z, logZE_real] at r
    refine ⟨r.1, ?_⟩
    have hzl : p2 (-(b64.mb + 1)) ≤ |z.val| := h0.resolve_left fun h => hne ⟨h, rfl⟩
    have hz3 : 10000 * (b64.eta : ℝ) ≤ 2 ^ (-53 : ℤ) * |z.real| := by
      have h1 : 10000 * b64.eta ≤ b64.u * |z.val| := he2.trans (mul_le_mul_of_nonneg_left hzl b64.u_pos.le)
      have h2 : ((10000 * b64.eta : ℚ) : ℝ) ≤ ((b64.u * |z.val| : ℚ) : ℝ) := by exact_mod_cast h1
      push_cast at h2
      rwa [hur] at h2
    have h5 : (lit 0.5 : F64).real = 1 / 2 := by unfold FP.real; rw [ch]; norm_num
    have rr := r.2
    rw [h5, Rat.cast_mul, p2_real] at rr
    have k := log_zeroD (r := (logZ (of z) (of fe) : Z m b64).v.real) up r1 r2 hz3
      (T := z.real ^ 3 * pev logPl z.real / pev logQl z.real) (L := Real.log (1 + z.real) + ((0 : ℤ) : ℝ) * Real.log 2) (by
        refine (le_of_eq ?_).trans (rr.trans (le_of_eq ?_))
        · exact congrArg _ (by ring)
        · push_cast; ring) hA (by simp)
    refine k.trans (mul_le_mul_of_nonneg_right ?_ (abs_nonneg _))
    linarith
  · obtain ⟨s, t, hst, h3, h4⟩ := covers_spans logTE_okD (a := -0.293) (b := 0.4143) (by decide +kernel)
      (x := z.real) (by push_cast; linarith) (by push_cast; linarith)
    have rT := okAbsD_sound hm hst hz h3 h4
    rw [logTE_real] at rT
    have hS := log_split
    rw [e53, ← hur] at hS
    rw [← hur] at hA
    have V := log_opsD hm (T := evalZ m (fun _ => z) logTE) (z := of z) (fe := of fe) (c1 := of (lit 0.693359375))
      (c2 := of (lit 2.121944400546905827679e-4)) (hf := of (lit 0.5)) rT.1 hz hfe cf1 cf2 cfh h1 h2 hK hK2 hK0 c1v ch c20 c2m hS hbig he hu2
      (by decide) (by decide) (by refine rT.2.trans (le_of_eq ?_); rw [Rat.cast_mul, p2_real, hur]; push_cast; ring) (logT_range r1 r2) hA
    refine ⟨V.1, V.2.trans (mul_le_mul_of_nonneg_right ?_ (abs_nonneg _))⟩
    rw [hur]
    linarith

/-- `fast_log` in every rounding direction. -/
theorem log_dir (hm : m.Dir) {x : F64} (hn : x.Normal) (hs : x.sign = false) (h1 : x.val ≤ 10 ^ 307) (hne : x.val ≠ 1) :
    (fast_log m x).isFinite = true ∧ |(fast_log m x).real - Real.log x.real| ≤ 10 * 2 ^ (-53 : ℤ) * |Real.log x.real| := by
  obtain ⟨m1, m2, m3, m4, m5, k, m6, m7⟩ := C33_getMantExponent_partial x hn hs
  have hxf : x.isFinite = true := hn.1
  obtain ⟨y, hy⟩ : ∃ y, y = (getMantExponent x).1 := ⟨_, rfl⟩
  obtain ⟨fe, hfe⟩ : ∃ fe, fe = (getMantExponent x).2 := ⟨_, rfl⟩
  rw [← hy] at m1 m3 m4 m5 m7
  rw [← hfe] at m2 m6
  have hmp : 0 ≤ y.val := by
    by_contra h; push Not at h
    have := (val_neg_iff.1 h).1
    rw [this, hs] at m5; cases m5
  rw [abs_of_nonneg hmp] at m3 m4
  have hxp : 0 < x.val := by rw [m7]; positivity
  have hu : x.val ≤ LOG_UPPER_LIMIT.val := by
    have h3 := rnd_mono b64 h1
    rw [rnd_exact b64 (val_rep x) (by rw [abs_of_pos hxp]; exact h1.trans (by decide +kernel))] at h3
    exact h3.trans (by decide +kernel)
  have cs : LOG_UPPER_LIMIT.isFinite = true ∧ LOG_UPPER_LIMIT.val < 2 ^ (1024 : ℤ) ∧
    LOG_LOWER_LIMIT.isFinite = true ∧ LOG_LOWER_LIMIT.val = 0 := by decide +kernel
  obtain ⟨c7, c8, c9, c10⟩ := cs
  have hk : |k| ≤ 1090 := by
    have hlo : (2 : ℚ) ^ (-1022 : ℤ) ≤ x.val := by
      have := hn.2
      rw [abs_of_pos hxp] at this
      exact this
    have := exponent_bound m3 m4 m7 hlo (lt_of_le_of_lt hu c8)
    rw [abs_le]; omega
  have g1 : m.gt x LOG_UPPER_LIMIT = false := by unfold Mode.gt; rw [hm.arg, hm.arg, gt_fin hxf c7]; simpa using hu
  have g2 : m.lt x LOG_LOWER_LIMIT = false := by unfold Mode.lt; rw [hm.arg, hm.arg, lt_fin hxf c9, c10]; simpa using hxp.le
  have cs2 : SQRTH.isFinite = true ∧ 0.7070 ≤ SQRTH.val ∧ SQRTH.val ≤ 0.70715 ∧ (lit 1 : F64).isFinite = true ∧
    (lit 1 : F64).val = 1 ∧ 2000 ≤ b64.big ∧ (lit 1.0 : F64) = lit 1 := by decide +kernel
  obtain ⟨d1, d2, d3, d4, d5, d6, d7⟩ := cs2
  have B := blend_dir hm (c := SQRTH) (one := lit 1) m1 m2 m3 m4 m6 hk (by decide) (by decide) d6 d1 d2 d3 d4 d5
  have eq : fast_log m x = (logZ ((if m.gt y SQRTH then of y else of y + of y : Z m b64) - of (lit 1))
      (if m.gt y SQRTH then of fe + of (lit 1) else of fe)).v := by
    unfold fast_log
    simp only [g1, g2, ← hy, ← hfe, d7, Bool.false_eq_true, if_false]
    rfl
  rw [eq]
  generalize ((if m.gt y SQRTH then of y else of y + of y : Z m b64) - of (lit 1)) = z at *
  generalize (if m.gt y SQRTH then of fe + of (lit 1) else of fe : Z m b64) = g at *
  obtain ⟨B1, B2, K, B3, B4, B5, B6, B7, B8⟩ := B
  rw [m7, B7] at hne
  have hlog : Real.log x.real = Real.log (1 + z.v.real) + K * Real.log 2 := by
    have h5 : x.real = (1 + z.v.real) * 2 ^ K := by
      have h7 := congrArg (fun q : ℚ => (q : ℝ)) (m7.trans B7)
      push_cast at h7
      exact h7
    have h6 : 0 < 1 + z.v.real := by
      have : (0 : ℚ) < 1 + z.v.val := by linarith
      unfold FP.real; exact_mod_cast this
    rw [h5, Real.log_mul h6.ne' (by positivity), Real.log_zpow]
  rw [hlog]
  exact logZ_dir hm B1 B2 B3 B4 B5 B6 B8 (by
    rintro ⟨e1, e2⟩
    apply hne
    rw [e1, e2]; norm_num)

/-! ## Single precision -/

/-- include/log.h:182-192 -/
def logfDE : E b32 := ((E.var 1).add ((logfTE.add ((E.const (-lit 2.12194440e-4)).mul (.var 2))).add
  ((E.const (-lit 0.5)).mul ((E.var 1).mul (.var 1))))).add ((E.const (lit 0.693359375)).mul (.var 2))

theorem logfZ_DZ (x fe : F32) : (logfZ (of x) (of fe) : Z m b32) = evalZ m (three x fe) logfDE := (rfl)

theorem logfTE_three (x fe : F32) : evalZ m (three x fe) logfTE = evalZ m (fun _ => x) logfTE := (rfl)

theorem logfDE_Z (x fe : F32) : evalZ m (three x fe) logfDE = (of x + (evalZ m (three x fe) logfTE + of (-lit 2.12194440e-4) * of fe +
    of (-lit 0.5) * (of x * of x))) + of (lit 0.693359375) * of fe := by
  simp only [logfDE, evalZ, three]
  rfl

theorem logfDE_ok0 : covers (okLin0 b32 logfDE (7.5 * p2 (-24)) 100) [-293 / 1000, 4143 / 10000] = true := by decide +kernel
theorem logfTE_okD : covers (okAbsD b32 logfTE (0.4 * p2 (-24))) [-293 / 1000, 4143 / 10000] = true := by decide +kernel

theorem logfDE_real (x k : ℝ) : logfDE.evalR (three x k) = x + (x ^ 3 * pev logfPl x / pev logfQl x +
    (-lit 2.12194440e-4 : F32).real * k + (-lit 0.5 : F32).real * (x * x)) + (lit 0.693359375 : F32).real * k := by
  rw [← logfTE_real]
  rfl

theorem logf_consts_neg : (-lit 2.12194440e-4 : F32).isFinite = true ∧ (-lit 0.5 : F32).isFinite = true ∧ (-lit 0.5 : F32).val = -(1 / 2) ∧
    0 ≤ -(-lit 2.12194440e-4 : F32).val ∧ -(-lit 2.12194440e-4 : F32).val ≤ 0.000213 ∧
    355 / 512 - (lit 2.12194440e-4 : F32).val = 355 / 512 + (-lit 2.12194440e-4 : F32).val := by decide +kernel

theorem logfZ_dir (hm : m.Dir) {z fe : F32} {K : ℤ} (hz : z.isFinite = true) (hfe : fe.isFinite = true) (hK : fe.val = K)
    (hK2 : |K| ≤ 1100) (h1 : -0.293 ≤ z.val) (h2 : z.val ≤ 0.4143) (h0 : z.val = 0 ∨ p2 (-(b32.mb + 1)) ≤ |z.val|)
    (hne : ¬(z.val = 0 ∧ K = 0)) :
    (logfZ (of z) (of fe) : Z m b32).v.isFinite = true ∧
    |(logfZ (of z) (of fe) : Z m b32).v.real - (Real.log (1 + z.real) + K * Real.log 2)| ≤
      10 * 2 ^ (-24 : ℤ) * |Real.log (1 + z.real) + K * Real.log 2| := by
  obtain ⟨cf2', cf1, cfh', ch', c20', c2m', c1v, hbig, hu, he, he2, hu2, -⟩ := logf_consts
  obtain ⟨cf2, cfh, ch, c20, c2m, cv⟩ := logf_consts_neg
  have r1 : -0.293 ≤ z.real := by have := le_real_iff.2 h1; push_cast at this; linarith
  have r2 : z.real ≤ 0.4143 := by have := real_le_iff.2 h2; push_cast at this; linarith
  have hur : ((b32.u : ℚ) : ℝ) = 2 ^ (-24 : ℤ) := by rw [hu]; norm_num
  have up : (0 : ℝ) < 2 ^ (-24 : ℤ) := by positivity
  have e24 : (1 / 2 ^ 24 : ℝ) = 2 ^ (-24 : ℤ) := by norm_num
  have hA := logf_approx r1 r2
  rw [e24] at hA
  by_cases hK0 : K = 0
  · subst hK0
    obtain ⟨s, t, hst, h3, h4⟩ := covers_spans logfDE_ok0 (a := -0.293) (b := 0.4143) (by decide +kernel)
      (x := z.real) (by push_cast; linarith) (by push_cast; linarith)
    have r := okLin0_sound hm hst hz h3 h4 hfe (by unfold FP.real; rw [hK]; simp)
    rw [← logfZ_DZ, logfDE_real] at r
    refine ⟨r.1, ?_⟩
    have hzl : p2 (-(b32.mb + 1)) ≤ |z.val| := h0.resolve_left fun h => hne ⟨h, rfl⟩
    have hz3 : 10000 * (b32.eta : ℝ) ≤ 2 ^ (-24 : ℤ) * |z.real| := by
      have h1 : 10000 * b32.eta ≤ b32.u * |z.val| := he2.trans (mul_le_mul_of_nonneg_left hzl b32.u_pos.le)
      have h2 : ((10000 * b32.eta : ℚ) : ℝ) ≤ ((b32.u * |z.val| : ℚ) : ℝ) := by exact_mod_cast h1
      push_cast at h2
      rwa [hur] at h2
    have h5 : (-lit 0.5 : F32).real = -(1 / 2) := by unfold FP.real; rw [ch]; norm_num
    have rr := r.2
    rw [h5, Rat.cast_mul, p2_real] at rr
    have k := log_zeroD (r := (logfZ (of z) (of fe) : Z m b32).v.real) up r1 r2 hz3
      (T := z.real ^ 3 * pev logfPl z.real / pev logfQl z.real) (L := Real.log (1 + z.real) + ((0 : ℤ) : ℝ) * Real.log 2) (by
        refine (le_of_eq ?_).trans (rr.trans (le_of_eq ?_))
        · exact congrArg _ (by ring)
        · push_cast; ring) hA (by simp)
    refine k.trans (mul_le_mul_of_nonneg_right ?_ (abs_nonneg _))
    linarith
  · obtain ⟨s, t, hst, h3, h4⟩ := covers_spans logfTE_okD (a := -0.293) (b := 0.4143) (by decide +kernel)
      (x := z.real) (by push_cast; linarith) (by push_cast; linarith)
    have rT := okAbsD_sound hm hst hz h3 h4
    rw [logfTE_real] at rT
    have hS := logf_split
    rw [e24, ← hur] at hS
    rw [← hur] at hA
    rw [cv] at hS
    have V := log_opsfD hm (T := evalZ m (fun _ => z) logfTE) (z := of z) (fe := of fe) (c1 := of (lit 0.693359375))
      (c2 := of (-lit 2.12194440e-4)) (hf := of (-lit 0.5)) rT.1 hz hfe cf1 cf2 cfh h1 h2 hK hK2 hK0 c1v ch c20 c2m hS hbig he hu2
      (by decide) (by decide) (by refine rT.2.trans (le_of_eq ?_); rw [Rat.cast_mul, p2_real, hur]; push_cast; ring) (logfT_range r1 r2) hA
    rw [logfZ_DZ, logfDE_Z, logfTE_three]
    refine ⟨V.1, V.2.trans (mul_le_mul_of_nonneg_right ?_ (abs_nonneg _))⟩
    rw [hur]
    linarith

/-- `fast_logf` in every rounding direction. -/
theorem logf_dir (hm : m.Dir) {x : F32} (hn : x.Normal) (hs : x.sign = false) (hne : x.val ≠ 1) :
    (fast_logf m x).isFinite = true ∧ |(fast_logf m x).real - Real.log x.real| ≤ 10 * 2 ^ (-24 : ℤ) * |Real.log x.real| := by
  obtain ⟨m1, m2, m3, m4, m5, k, m6, m7⟩ := C33_getMantExponentf_partial x hn hs
  have hxf : x.isFinite = true := hn.1
  obtain ⟨y, hy⟩ : ∃ y, y = (getMantExponentf x).1 := ⟨_, rfl⟩
  obtain ⟨fe, hfe⟩ : ∃ fe, fe = (getMantExponentf x).2 := ⟨_, rfl⟩
  rw [← hy] at m1 m3 m4 m5 m7
  rw [← hfe] at m2 m6
  have hmp : 0 ≤ y.val := by
    by_contra h; push Not at h
    have := (val_neg_iff.1 h).1
    rw [this, hs] at m5; cases m5
  rw [abs_of_nonneg hmp] at m3 m4
  have hxp : 0 < x.val := by rw [m7]; positivity
  have hu : x.val ≤ LOGF_UPPER_LIMIT.val := by
    have h3 : x.val = magVal b32 x.mag := by unfold FP.val; simp [hs]
    have hb := (normal_iff32 x).1 hn
    rw [h3, show LOGF_UPPER_LIMIT.val = magVal b32 (255 * 2 ^ 23 - 1) by decide +kernel, magVal_le]
    omega
  have cs : LOGF_UPPER_LIMIT.isFinite = true ∧ LOGF_UPPER_LIMIT.val < 2 ^ (128 : ℤ) ∧
    LOGF_LOWER_LIMIT.isFinite = true ∧ LOGF_LOWER_LIMIT.val = 0 := by decide +kernel
  obtain ⟨c7, c8, c9, c10⟩ := cs
  have hk : |k| ≤ 1090 := by
    have hlo : (2 : ℚ) ^ (-126 : ℤ) ≤ x.val := by
      have := hn.2
      rw [abs_of_pos hxp] at this
      exact this
    have := exponent_bound m3 m4 m7 hlo (lt_of_le_of_lt hu c8)
    rw [abs_le]; omega
  have g1 : m.gt x LOGF_UPPER_LIMIT = false := by unfold Mode.gt; rw [hm.arg, hm.arg, gt_fin hxf c7]; simpa using hu
  have g2 : m.lt x LOGF_LOWER_LIMIT = false := by unfold Mode.lt; rw [hm.arg, hm.arg, lt_fin hxf c9, c10]; simpa using hxp.le
  have cs2 : SQRTHF.isFinite = true ∧ 0.7070 ≤ SQRTHF.val ∧ SQRTHF.val ≤ 0.70715 ∧ (lit 1 : F32).isFinite = true ∧
    (lit 1 : F32).val = 1 ∧ 2000 ≤ b32.big ∧ (lit 1.0 : F32) = lit 1 := by decide +kernel
  obtain ⟨d1, d2, d3, d4, d5, d6, d7⟩ := cs2
  have B := blend_dir hm (c := SQRTHF) (one := lit 1) m1 m2 m3 m4 m6 hk (by decide) (by decide) d6 d1 d2 d3 d4 d5
  have eq : fast_logf m x = (logfZ ((if m.gt y SQRTHF then of y else of y + of y : Z m b32) - of (lit 1))
      (if m.gt y SQRTHF then of fe + of (lit 1) else of fe)).v := by
    unfold fast_logf
    simp only [g1, g2, ← hy, ← hfe, d7, Bool.false_eq_true, if_false]
    rfl
  rw [eq]
  generalize ((if m.gt y SQRTHF then of y else of y + of y : Z m b32) - of (lit 1)) = z at *
  generalize (if m.gt y SQRTHF then of fe + of (lit 1) else of fe : Z m b32) = g at *
  obtain ⟨B1, B2, K, B3, B4, B5, B6, B7, B8⟩ := B
  rw [m7, B7] at hne
  have hlog : Real.log x.real = Real.log (1 + z.v.real) + K * Real.log 2 := by
    have h5 : x.real = (1 + z.v.real) * 2 ^ K := by
      have h7 := congrArg (fun q : ℚ => (q : ℝ)) (m7.trans B7)
      push_cast at h7
      exact h7
    have h6 : 0 < 1 + z.v.real := by
      have : (0 : ℚ) < 1 + z.v.val := by linarith
      unfold FP.real; exact_mod_cast this
    rw [h5, Real.log_mul h6.ne' (by positivity), Real.log_zpow]
  rw [hlog]
  exact logfZ_dir hm B1 B2 B3 B4 B5 B6 B8 (by
    rintro ⟨e1, e2⟩
    apply hne
    rw [e1, e2]; norm_num)

end Vdt.Flush
