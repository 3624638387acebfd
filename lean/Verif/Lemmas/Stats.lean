import Verif.Lemmas.Diag
import Mathlib.Algebra.BigOperators.Group.List.Basic
import Mathlib.Algebra.Order.BigOperators.Group.List
import Mathlib.Tactic.FieldSimp

/-! Sums and the variance formula `(Σx² - n·m·m)/(n-1)` in double arithmetic. -/

namespace Vdt.Diag
open Vdt.FP

theorem ofNat_sign (n : ℕ) : (ofNat n).sign = false := by
  unfold ofNat ofRat
  have h : ¬ ((n : ℚ) < 0) := not_lt.2 (by positivity)
  simp [h]

/-- Exact sums of integers. -/
theorem ofNat_add {a b : ℕ} (h : a + b ≤ 2 ^ 53) : ofNat a + ofNat b = ofNat (a + b) := by
  rw [add_def, add_fin (ofNat_fin (by omega)) (ofNat_fin (by omega)), ofNat_sign, ofNat_sign, ofNat_exact (by omega), ofNat_exact (by omega)]
  unfold ofNat
  push_cast
  rfl

theorem u64 : b64.u = 1 / 2 ^ 53 := by decide +kernel
theorem eta64 : b64.eta ≤ 1 / 2 ^ 254 := by decide +kernel

/-- Relative form of the rounding error. -/
theorem rnd_rel {x : ℚ} (hlo : 1 / 2 ^ 180 ≤ x) (hhi : x ≤ 2 ^ 200) :
    rnd b64 x ≤ x * (1 + 1 / 2 ^ 53) ∧ x * (1 - 1 / 2 ^ 53) ≤ rnd b64 x := by
  have h0 : 0 < x := lt_of_lt_of_le (by norm_num) hlo
  have h := rnd_err_rel b64 (q := x) (by rw [abs_of_pos h0]; exact hhi.trans big64_ge)
  have hm : max (b64.u * |x|) b64.eta = 1 / 2 ^ 53 * x := by
    rw [abs_of_pos h0, u64]
    refine max_eq_left (eta64.trans ?_)
    calc (1 : ℚ) / 2 ^ 254 ≤ 1 / 2 ^ 53 * (1 / 2 ^ 180) := by norm_num
      _ ≤ _ := mul_le_mul_of_nonneg_left hlo (by norm_num)
  rw [hm, abs_le] at h
  constructor <;> linarith [h.1, h.2]

theorem pow4_le {u : ℚ} (h0 : 0 ≤ u) (h1 : u ≤ 1 / 1000) : (1 + u) ^ 4 ≤ 1 + 5 * u := by
  have h2 : u ^ 2 ≤ u * (1 / 1000) := by rw [pow_two]; exact mul_le_mul_of_nonneg_left h1 h0
  have h3 : u ^ 3 ≤ u ^ 2 * 1 := by rw [show u ^ 3 = u ^ 2 * u by ring]; exact mul_le_mul_of_nonneg_left (by linarith) (by positivity)
  have h4 : u ^ 4 ≤ u ^ 2 * 1 := by
    rw [show u ^ 4 = u ^ 2 * (u * u) by ring]; exact mul_le_mul_of_nonneg_left (by nlinarith) (by positivity)
  have : (1 + u) ^ 4 = 1 + 4 * u + 6 * u ^ 2 + 4 * u ^ 3 + u ^ 4 := by ring
  linarith

set_option maxHeartbeats 1000000 in
/-- What the formula of `m_calcStats` and `calculate_mean_and_err` computes before the last division,
for `S = Σx > 0`: the product `n·m·m` has relative error below `5·2^-53`. -/
theorem nmm_spec {S n : F64} (hS : S.isFinite = true) (hn : n.isFinite = true) (hS1 : 1 ≤ S.val) (hSb : S.val ≤ 2 ^ 65)
    (hn1 : 1 ≤ n.val) (hnb : n.val ≤ 2 ^ 33) :
    (S / n).isFinite = true ∧ (S / n).val = rnd b64 (S.val / n.val) ∧
    (n * (S / n) * (S / n)).isFinite = true ∧
    |(n * (S / n) * (S / n)).val - S.val ^ 2 / n.val| ≤ 5 / 2 ^ 53 * (S.val ^ 2 / n.val) := by
  obtain ⟨s, hs⟩ : ∃ s, S.val = s := ⟨_, rfl⟩
  obtain ⟨k, hk⟩ : ∃ k, n.val = k := ⟨_, rfl⟩
  rw [hs] at hS1 hSb ⊢
  rw [hk] at hn1 hnb ⊢
  have hs0 : 0 < s := by linarith
  have hk0 : 0 < k := by linarith
  have ha0 : 0 < s / k := div_pos hs0 hk0
  have halo : 1 / 2 ^ 33 ≤ s / k := div_le_div₀ hs0.le hS1 hk0 hnb
  have hahi : s / k ≤ 2 ^ 65 := by rw [div_le_iff₀ hk0]; nlinarith
  have hq := div_spec hS hn (by rw [hk]; exact hk0.ne') (by
    rw [hs, hk, abs_of_pos ha0]; exact hahi.trans (le_trans (by norm_num) big64_ge))
  rw [← div_def, hs, hk] at hq
  obtain ⟨m, hm⟩ : ∃ m, (S / n).val = m := ⟨_, rfl⟩
  have hr1 := rnd_rel (x := s / k) (le_trans (by norm_num) halo) (hahi.trans (by norm_num))
  rw [← hq.2, hm] at hr1
  have hm0 : 1 / 2 ^ 34 ≤ m := le_trans (by rw [show (1 : ℚ) / 2 ^ 34 = 1 / 2 ^ 33 * (1 / 2) by norm_num]; exact mul_le_mul halo (by norm_num) (by norm_num) ha0.le) hr1.2
  have hmb : m ≤ 2 ^ 66 := hr1.1.trans (le_trans (mul_le_mul_of_nonneg_right hahi (by norm_num)) (by norm_num))
  have hkm0 : 1 / 2 ^ 34 ≤ k * m := by nlinarith
  have hkmb : k * m ≤ 2 ^ 99 := by
    calc k * m ≤ 2 ^ 33 * 2 ^ 66 := mul_le_mul hnb hmb (by linarith) (by norm_num)
      _ = _ := by norm_num
  have hp := mul_spec hn hq.1 (by rw [hk, hm, abs_of_pos (by linarith)]; exact hkmb.trans (le_trans (by norm_num) big64_ge))
  rw [← mul_def, hk, hm] at hp
  obtain ⟨p, hpv⟩ : ∃ p, (n * (S / n)).val = p := ⟨_, rfl⟩
  have hr2 := rnd_rel (x := k * m) (le_trans (by norm_num) hkm0) (hkmb.trans (by norm_num))
  rw [← hp.2, hpv] at hr2
  have hp0 : 1 / 2 ^ 35 ≤ p := le_trans (by rw [show (1 : ℚ) / 2 ^ 35 = 1 / 2 ^ 34 * (1 / 2) by norm_num]; exact mul_le_mul hkm0 (by norm_num) (by norm_num) (by linarith)) hr2.2
  have hpb : p ≤ 2 ^ 100 := hr2.1.trans (le_trans (mul_le_mul_of_nonneg_right hkmb (by norm_num)) (by norm_num))
  have hpm0 : 1 / 2 ^ 69 ≤ p * m := by
    calc (1 : ℚ) / 2 ^ 69 = 1 / 2 ^ 35 * (1 / 2 ^ 34) := by norm_num
      _ ≤ _ := mul_le_mul hp0 hm0 (by norm_num) (by linarith)
  have hpmb : p * m ≤ 2 ^ 166 := by
    calc p * m ≤ 2 ^ 100 * 2 ^ 66 := mul_le_mul hpb hmb (by linarith) (by norm_num)
      _ = _ := by norm_num
  have ht := mul_spec hp.1 hq.1 (by rw [hpv, hm, abs_of_pos (by linarith)]; exact hpmb.trans (le_trans (by norm_num) big64_ge))
  rw [← mul_def, hpv, hm] at ht
  have hr3 := rnd_rel (x := p * m) (le_trans (by norm_num) hpm0) (hpmb.trans (by norm_num))
  rw [← ht.2] at hr3
  refine ⟨hq.1, hm ▸ hq.2, ht.1, ?_⟩
  obtain ⟨q, hqv⟩ : ∃ q, (n * (S / n) * (S / n)).val = q := ⟨_, rfl⟩
  rw [hqv] at hr3 ⊢
  obtain ⟨u, hu⟩ : ∃ u : ℚ, u = 1 / 2 ^ 53 := ⟨_, rfl⟩
  have hu0 : 0 < u ∧ u ≤ 1 / 1000 := by rw [hu]; norm_num
  have e5 : (5 : ℚ) / 2 ^ 53 = 5 * u := by rw [hu]; norm_num
  rw [← hu] at hr1 hr2 hr3
  have hV : s ^ 2 / k = k * (s / k) * (s / k) := by field_simp
  rw [e5, hV]
  obtain ⟨a, ha⟩ : ∃ a, s / k = a := ⟨_, rfl⟩
  rw [ha] at hr1 ha0 ⊢
  -- upper chain
  have hW : 0 < k * a * a := by positivity
  have hm00 : 0 < m := by linarith [hm0, (by norm_num : (0 : ℚ) < 1 / 2 ^ 34)]
  have hp00 : 0 < p := by linarith [hp0, (by norm_num : (0 : ℚ) < 1 / 2 ^ 35)]
  have up1 : p ≤ k * a * (1 + u) ^ 2 := by
    calc p ≤ k * m * (1 + u) := hr2.1
      _ ≤ k * (a * (1 + u)) * (1 + u) := by gcongr; exact hr1.1
      _ = _ := by ring
  have up2 : q ≤ k * a * a * (1 + u) ^ 4 := by
    calc q ≤ p * m * (1 + u) := hr3.1
      _ ≤ (k * a * (1 + u) ^ 2) * (a * (1 + u)) * (1 + u) := by gcongr; exact hr1.1
      _ = _ := by ring
  have hu1 : 0 ≤ 1 - u := by linarith
  have lo1 : k * a * (1 - u) ^ 2 ≤ p := by
    calc _ = k * (a * (1 - u)) * (1 - u) := by ring
      _ ≤ k * m * (1 - u) := by gcongr; exact hr1.2
      _ ≤ p := hr2.2
  have lo2 : k * a * a * (1 - u) ^ 4 ≤ q := by
    calc _ = (k * a * (1 - u) ^ 2) * (a * (1 - u)) * (1 - u) := by ring
      _ ≤ p * m * (1 - u) := by gcongr; exact hr1.2
      _ ≤ q := hr3.2
  have g1 : (1 + u) ^ 4 ≤ 1 + 5 * u := pow4_le hu0.1.le hu0.2
  have g2 : 1 - 5 * u ≤ (1 - u) ^ 4 := by
    have := one_add_mul_le_pow (a := -u) (by linarith) 4
    have h' : (1 + -u) ^ 4 = (1 - u) ^ 4 := by ring
    rw [h'] at this; push_cast at this; linarith
  have g3 := mul_le_mul_of_nonneg_left g1 hW.le
  have g4 := mul_le_mul_of_nonneg_left g2 hW.le
  rw [abs_le]
  constructor <;> linarith

set_option maxHeartbeats 1000000 in
/-- The whole formula, `R = fl(fl(T - fl(fl(n·m)·m)) / d)`, against `(T - S²/n)/d`. -/
theorem var_spec {S n T d : F64} (hS : S.isFinite = true) (hn : n.isFinite = true) (hT : T.isFinite = true) (hd : d.isFinite = true)
    (hS1 : 1 ≤ S.val) (hSb : S.val ≤ 2 ^ 65) (hn1 : 1 ≤ n.val) (hnb : n.val ≤ 2 ^ 33) (hT1 : 1 ≤ T.val) (hTb : T.val ≤ 2 ^ 65)
    (hCS : S.val ^ 2 / n.val ≤ T.val) (hd1 : 1 ≤ d.val) (hdb : d.val ≤ 2 ^ 33) :
    ((T - n * (S / n) * (S / n)) / d).isFinite = true ∧
    |((T - n * (S / n) * (S / n)) / d).val - (T.val - S.val ^ 2 / n.val) / d.val| ≤ 1 / 2 ^ 50 * (T.val / d.val) := by
  obtain ⟨-, -, hqf, hq⟩ := nmm_spec hS hn hS1 hSb hn1 hnb
  obtain ⟨q, hqv⟩ : ∃ q, (n * (S / n) * (S / n)).val = q := ⟨_, rfl⟩
  obtain ⟨V, hV⟩ : ∃ V, S.val ^ 2 / n.val = V := ⟨_, rfl⟩
  have hV0 : 0 ≤ V := by rw [← hV]; positivity
  obtain ⟨t, ht⟩ : ∃ t, T.val = t := ⟨_, rfl⟩
  obtain ⟨e, he⟩ : ∃ e, d.val = e := ⟨_, rfl⟩
  rw [hqv, hV] at hq
  rw [hV, ht] at hCS
  rw [ht] at hT1 hTb
  rw [he] at hd1 hdb
  rw [abs_le] at hq
  have hqn : |t - q| ≤ t := by rw [abs_le]; constructor <;> linarith
  have hs := sub_spec hT hqf (by rw [ht, hqv]; exact hqn.trans (hTb.trans (le_trans (by norm_num) big64_ge)))
  rw [← sub_def, ht, hqv] at hs
  obtain ⟨r, hr⟩ : ∃ r, (T - n * (S / n) * (S / n)).val = r := ⟨_, rfl⟩
  rw [hr] at hs
  have hre := rnd_err_add b64 (q := t - q) (hqn.trans (hTb.trans (le_trans (by norm_num) big64_ge)))
  rw [← hs.2, u64] at hre
  have hre2 : |r - (t - q)| ≤ 1.001 / 2 ^ 53 * t := by
    refine hre.trans ?_
    have h1 : 1 / 2 ^ 53 * |t - q| ≤ 1 / 2 ^ 53 * t := mul_le_mul_of_nonneg_left hqn (by norm_num)
    have h2 : b64.eta ≤ 0.001 / 2 ^ 53 * t := by
      refine eta64.trans ?_
      have : (1 : ℚ) / 2 ^ 254 ≤ 0.001 / 2 ^ 53 := by norm_num
      nlinarith
    have h3 : (1.001 : ℚ) / 2 ^ 53 * t = 1 / 2 ^ 53 * t + 0.001 / 2 ^ 53 * t := by ring
    linarith
  rw [abs_le] at hre2
  have hrt : |r - (t - V)| ≤ 6.001 / 2 ^ 53 * t := by
    have h3 : (6.001 : ℚ) / 2 ^ 53 * t = 1.001 / 2 ^ 53 * t + 5 / 2 ^ 53 * t := by ring
    have h4 : 5 / 2 ^ 53 * V ≤ 5 / 2 ^ 53 * t := mul_le_mul_of_nonneg_left hCS (by norm_num)
    rw [abs_le]; constructor <;> linarith
  have hrb : |r| ≤ 1.1 * t := by
    rw [abs_le] at hqn ⊢
    have : (1.001 : ℚ) / 2 ^ 53 * t ≤ 0.1 * t := mul_le_mul_of_nonneg_right (by norm_num) (by linarith)
    constructor <;> linarith
  have he0 : 0 < e := by linarith
  have hrd : |r / e| ≤ 1.1 * (t / e) := by
    rw [abs_div, abs_of_pos he0, ← mul_div_assoc]; gcongr
  have hte : t / e ≤ 2 ^ 65 := by rw [div_le_iff₀ he0]; nlinarith
  have hrdb : |r / e| ≤ b64.big := by
    refine hrd.trans (le_trans ?_ big64_ge); linarith
  have hf := div_spec hs.1 hd (by rw [he]; exact he0.ne') (by rw [hr, he]; exact hrdb)
  rw [← div_def, hr, he] at hf
  refine ⟨hf.1, ?_⟩
  have hfe := rnd_err_add b64 hrdb
  rw [← hf.2, u64] at hfe
  have hte0 : 1 / 2 ^ 33 ≤ t / e := div_le_div₀ (by linarith) hT1 he0 hdb
  have hfe2 : |((T - n * (S / n) * (S / n)) / d).val - r / e| ≤ 1.2 / 2 ^ 53 * (t / e) := by
    refine hfe.trans ?_
    have h1 : 1 / 2 ^ 53 * |r / e| ≤ 1 / 2 ^ 53 * (1.1 * (t / e)) := mul_le_mul_of_nonneg_left hrd (by norm_num)
    have h2 : b64.eta ≤ 0.1 / 2 ^ 53 * (t / e) := by
      refine eta64.trans (le_trans (by norm_num) (mul_le_mul_of_nonneg_left hte0 (by norm_num)))
    have h3 : (1.2 : ℚ) / 2 ^ 53 * (t / e) = 1 / 2 ^ 53 * (1.1 * (t / e)) + 0.1 / 2 ^ 53 * (t / e) := by ring
    linarith
  have hsplit : |r / e - (t - V) / e| ≤ 6.001 / 2 ^ 53 * (t / e) := by
    rw [← sub_div, abs_div, abs_of_pos he0, ← mul_div_assoc]; gcongr
  rw [hV, ht, he]
  have h9 : (1 : ℚ) / 2 ^ 50 * (t / e) = 8 / 2 ^ 53 * (t / e) := by norm_num
  have h10 : 1.2 / 2 ^ 53 * (t / e) + 6.001 / 2 ^ 53 * (t / e) ≤ 8 / 2 ^ 53 * (t / e) := by
    rw [← add_mul]; exact mul_le_mul_of_nonneg_right (by norm_num) (by linarith [hte0, (by norm_num : (0 : ℚ) < 1 / 2 ^ 33)])
  rw [h9]
  refine le_trans ?_ h10
  exact (abs_sub_le _ (r / e) _).trans (add_le_add hfe2 hsplit)

/-! Lists -/

/-- `(Σx)² ≤ n Σx²` -/
theorem cauchy (l : List ℕ) : ((l.sum : ℕ) : ℚ) ^ 2 ≤ l.length * ((l.map fun d => d * d).sum : ℕ) := by
  induction l with
  | nil => simp
  | cons a l ih =>
    simp only [List.sum_cons, List.length_cons, List.map_cons]
    push_cast at ih ⊢
    rcases Nat.eq_zero_or_pos l.length with h0 | h0
    · have : l = [] := List.length_eq_zero_iff.1 h0
      subst this; simp; nlinarith
    · have hk : (0 : ℚ) < l.length := by exact_mod_cast h0
      generalize (l.length : ℚ) = k at *
      generalize ((l.sum : ℕ) : ℚ) = s at *
      generalize (((l.map fun d => d * d).sum : ℕ) : ℚ) = t at *
      generalize (a : ℚ) = a at *
      have h1 : 2 * a * s ≤ k * a ^ 2 + t := by
        have h2 : 0 ≤ (k * a - s) ^ 2 := sq_nonneg _
        have h3 : k * (2 * a * s) ≤ k * (k * a ^ 2 + t) := by nlinarith
        exact le_of_mul_le_mul_left h3 hk
      nlinarith

/-- Sum of the squared deviations from the mean. -/
theorem sum_sq_dev (l : List ℕ) (c : ℚ) : (l.map fun d : ℕ => ((d : ℚ) - c) ^ 2).sum =
    ((l.map fun d => d * d).sum : ℕ) - 2 * c * (l.sum : ℕ) + l.length * c ^ 2 := by
  induction l with
  | nil => simp
  | cons a l ih =>
    simp only [List.sum_cons, List.length_cons, List.map_cons]
    rw [ih]; push_cast; ring

end Vdt.Diag
