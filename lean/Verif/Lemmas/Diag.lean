import Verif.Model.Diag
import Verif.Lemmas.Round
import Verif.Lemmas.Common

/-! Conversions between integers and doubles used by the diagnostics. -/

namespace Vdt.Diag
open Vdt.FP

theorem big64_ge : (2 : ℚ) ^ 200 ≤ b64.big := by decide +kernel

theorem abs_nat_big {n : ℕ} (h : n ≤ 2 ^ 64) : |(n : ℚ)| ≤ b64.big := by
  rw [abs_of_nonneg (by positivity)]
  have : (n : ℚ) ≤ 2 ^ 64 := by exact_mod_cast h
  exact this.trans (le_trans (by norm_num) big64_ge)

theorem rep_nat {n : ℕ} (h : n ≤ 2 ^ 53) : Rep b64 n :=
  ⟨n, 0, by simp [p2_eq], by simpa using by exact_mod_cast h, by decide⟩

theorem ofNat_fin {n : ℕ} (h : n ≤ 2 ^ 64) : (ofNat n).isFinite = true := finite_ofRat _ (abs_nat_big h)

theorem ofNat_val (n : ℕ) : (ofNat n).val = rnd b64 n := val_ofRat _ _

theorem ofNat_exact {n : ℕ} (h : n ≤ 2 ^ 53) : (ofNat n).val = n := by
  rw [ofNat_val, rnd_exact b64 (rep_nat h) (abs_nat_big (h.trans (by norm_num)))]

theorem rep_pow (k : ℕ) (hk : k ≤ 64) : rnd b64 ((2 : ℚ) ^ k) = 2 ^ k := by
  refine rnd_exact b64 ⟨1, k, by rw [p2_nat]; simp, by simp, ?_⟩ ?_
  · have : b64.emin - (b64.mb : ℤ) = -1074 := by decide
    omega
  · rw [abs_of_nonneg (by positivity)]
    exact (pow_le_pow_right₀ (by norm_num) (by omega)).trans big64_ge

theorem toUInt_some {w : Nat} {x : F64} {n : ℕ} (hf : x.isFinite = true) (h1 : (n : ℚ) ≤ x.val) (h2 : x.val < n + 1)
    (hn : n < 2 ^ w) : toUInt w x = some n := by
  have h0 : (0 : ℚ) ≤ x.val := le_trans (by positivity) h1
  have e : truncRat x.val = n := by
    rw [truncRat_nonneg h0, Int.floor_eq_iff]; exact ⟨by exact_mod_cast h1, by exact_mod_cast h2⟩
  unfold toUInt
  rw [if_pos, e]
  · simp
  · refine ⟨hf, by omega, ?_⟩
    rw [e]; exact_mod_cast hn

theorem toUInt_none_of_inf {w : Nat} {x : F64} (h : x.isFinite = false) : toUInt w x = none := by
  unfold toUInt; rw [if_neg]; simp [h]

theorem toUInt_none_of_ge {w : Nat} {x : F64} (h : (2 : ℚ) ^ w ≤ x.val) : toUInt w x = none := by
  unfold toUInt
  rw [if_neg]
  rintro ⟨-, -, h3⟩
  rw [truncRat_nonneg (le_trans (by positivity) h), Int.floor_lt] at h3
  push_cast at h3
  linarith

end Vdt.Diag
