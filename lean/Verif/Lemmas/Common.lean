import Verif.Float.Bits
import Mathlib.Algebra.Order.Round
import Mathlib.Data.Rat.Floor

/-! # Facts about the helpers of `vdtcore_common.h` -/

namespace Vdt
open FP

theorem rep_int (f : Fmt) [h : f.Ok] {n : ℤ} (hn : |n| ≤ 2 ^ (f.mb + 1)) (he : f.emin ≤ f.mb) : Rep f (n : ℚ) := by
  refine ⟨n, 0, ?_, hn, by omega⟩
  rw [p2_eq]; simp

theorem ofInt_spec64 {n : ℤ} (hn : |n| ≤ 2 ^ 53) : (ofInt n : F64).isFinite = true ∧ (ofInt n : F64).val = n := by
  have hb : |(n : ℚ)| ≤ b64.big := by
    have h1 : |(n : ℚ)| ≤ 2 ^ 53 := by exact_mod_cast hn
    refine h1.trans ?_
    unfold Fmt.big
    have : (2 : ℚ) ^ 53 = p2 53 := by rw [p2_eq]; norm_num
    rw [this]; exact p2_le (by decide)
  unfold ofInt
  refine ⟨finite_ofRat _ hb, ?_⟩
  rw [val_ofRat]
  exact rnd_exact b64 (rep_int b64 hn (by decide)) hb

theorem ofInt_spec32 {n : ℤ} (hn : |n| ≤ 2 ^ 24) : (ofInt n : F32).isFinite = true ∧ (ofInt n : F32).val = n := by
  have hb : |(n : ℚ)| ≤ b32.big := by
    have h1 : |(n : ℚ)| ≤ 2 ^ 24 := by exact_mod_cast hn
    refine h1.trans ?_
    unfold Fmt.big; rw [p2_eq]; norm_num [Fmt.emin]
  unfold ofInt
  refine ⟨finite_ofRat _ hb, ?_⟩
  rw [val_ofRat]
  exact rnd_exact b32 (rep_int b32 hn (by decide)) hb

theorem truncRat_nonneg {q : ℚ} (h : 0 ≤ q) : truncRat q = ⌊q⌋ := by
  unfold truncRat
  rw [Rat.floor_def', Int.tdiv_eq_ediv_of_nonneg (Rat.num_nonneg.2 h)]

theorem truncRat_neg (q : ℚ) : truncRat (-q) = -truncRat q := by
  unfold truncRat
  rw [Rat.num_neg_eq_neg_num, Rat.den_neg_eq_den, Int.neg_tdiv]

theorem truncRat_nonpos {q : ℚ} (h : q ≤ 0) : truncRat q = ⌈q⌉ := by
  have := truncRat_nonneg (q := -q) (by linarith)
  rw [truncRat_neg, Int.floor_neg] at this
  omega

theorem truncRat_int (n : ℤ) : truncRat (n : ℚ) = n := by
  unfold truncRat; simp

theorem wrap32_id {n : ℤ} (h1 : -2147483648 ≤ n) (h2 : n < 2147483648) : wrap32 n = n := by
  unfold wrap32
  rw [Int.bmod_def]; omega

/-- The sign bit of the pattern, as the code extracts it. -/
theorem sp_signbit (x : F32) : ((details.sp2uint32 x >>> 31).toNat : ℤ) = if x.sign then 1 else 0 := by
  unfold details.sp2uint32
  rw [BitVec.toNat_ushiftRight, toBits_toNat, Nat.shiftRight_eq_div_pow]
  have hb : x.mag < 2 ^ 31 := x.bound
  have hc : b32.magCount = 2 ^ 31 := by decide
  rw [hc]
  cases x.sign
  · simp only [Bool.false_eq_true, if_false]; omega
  · simp only [if_true]; omega

theorem convert_sign {f g : Fmt} {x : FP f} (h : x.isNaN = false) : (convert g x).sign = x.sign := by
  unfold convert
  rw [h]
  by_cases hi : x.isInf = true
  · simp [hi, inf]
  · simp only [Bool.false_eq_true, if_false, hi]
    unfold ofRat
    simp only
    split
    · rfl
    · rename_i h0
      rcases lt_or_gt_of_ne h0 with a | a
      · rw [(val_neg_iff.1 a).1]; simpa using a
      · rw [(val_pos_iff.1 a).1]; simpa using a.le

/-- Strict conversion to `int32_t`. -/
theorem strict_f2i {f : Fmt} {x : FP f} (hf : x.isFinite = true) (h : inI32 (truncRat x.val) = true) :
    strict.f2i x = some (truncRat x.val) := by
  simp [strict, f2iDefined, hf, h]

theorem strict_f2i_none {f : Fmt} {x : FP f} (h : f2iDefined x = false) : strict.f2i x = none := by
  simp [strict, h]

theorem trunc_bounds {q : ℚ} (h : |q| < 2147483648) : -2147483648 < truncRat q ∧ truncRat q < 2147483648 := by
  rw [abs_lt] at h
  rcases le_total 0 q with h0 | h0
  · rw [truncRat_nonneg h0]
    refine ⟨?_, ?_⟩
    · have : (0 : ℤ) ≤ ⌊q⌋ := Int.floor_nonneg.2 h0
      omega
    · rw [Int.floor_lt]; exact_mod_cast h.2
  · rw [truncRat_nonpos h0]
    refine ⟨?_, ?_⟩
    · rw [Int.lt_ceil]; exact_mod_cast h.1
    · have : ⌈q⌉ ≤ 0 := Int.ceil_le.2 (by exact_mod_cast h0)
      omega

theorem sign_val {f : Fmt} {x : FP f} : (x.sign = false → 0 ≤ x.val) ∧ (x.sign = true → x.val ≤ 0) := by
  have := magVal_nonneg f x.mag
  constructor <;> intro h <;> unfold FP.val <;> simp [h, this]

/-- What `trunc(x) - signbit` is. -/
theorem trunc_sub_sign {f : Fmt} (x : FP f) :
    truncRat x.val - (if x.sign then 1 else 0) =
      if x.sign = true ∧ x.val.isInt = true then ⌊x.val⌋ - 1 else ⌊x.val⌋ := by
  cases hs : x.sign
  · simp [truncRat_nonneg (sign_val.1 hs)]
  · have h0 := sign_val.2 hs
    rw [truncRat_nonpos h0]
    by_cases hi : x.val.isInt = true
    · obtain ⟨n, hn⟩ : ∃ n : ℤ, x.val = n := ⟨x.val.num, (Rat.eq_num_of_isInt hi)⟩
      rw [hn] at *
      simp
      simp [Rat.isInt] 
    · have hne : ¬ ∃ n : ℤ, x.val = n := by
        rintro ⟨n, hn⟩; apply hi; rw [hn]; simp [Rat.isInt]
      simp only [hi, if_true, and_false, if_false]
      have h1 : (⌊x.val⌋ : ℚ) < x.val := lt_of_le_of_ne (Int.floor_le _) (fun h => hne ⟨_, h.symm⟩)
      have : ⌈x.val⌉ = ⌊x.val⌋ + 1 := by
        rw [Int.ceil_eq_iff]
        refine ⟨by push_cast; linarith, by push_cast; exact (Int.lt_floor_add_one _).le⟩
      rw [this]; simp

theorem fpfloor_eq {x : F64} (hf : x.isFinite = true) (h : |x.val| < 2147483648) :
    details.fpfloor strict x = some (ofInt
      (if x.sign = true ∧ x.val.isInt = true then ⌊x.val⌋ - 1 else ⌊x.val⌋)) := by
  have hb := trunc_bounds h
  unfold details.fpfloor
  rw [strict_f2i hf (by simp [inI32]; omega)]
  simp only [Option.pure_def, Option.bind_eq_bind, Option.bind_some]
  rw [sp_signbit, convert_sign (finite_not_nan hf), wrap32_id, trunc_sub_sign]
  · split <;> omega
  · split <;> omega

theorem fpfloorf_eq {x : F32} (hf : x.isFinite = true) (h : |x.val| < 2147483648) :
    details.fpfloorf strict x = some (ofInt
      (if x.sign = true ∧ x.val.isInt = true then ⌊x.val⌋ - 1 else ⌊x.val⌋)) := by
  have hb := trunc_bounds h
  unfold details.fpfloorf
  rw [strict_f2i hf (by simp [inI32]; omega)]
  simp only [Option.pure_def, Option.bind_eq_bind, Option.bind_some]
  rw [sp_signbit, wrap32_id, trunc_sub_sign]
  · split <;> omega
  · split <;> omega

end Vdt
