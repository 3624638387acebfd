import Verif.Lemmas.LogFloat
import Verif.Lemmas.Atan2

/-!
# Logarithm: accuracy (C05, C07) and special arguments (C06)
-/

namespace Vdt
open FP details

/-! ## With fused operations

At 1 every coefficient is multiplied by zero, so that the result does not depend on the choice. -/

theorem mad_zero {f : Fmt} [f.Ok] (b : Bool) {y w c : FP f} (hy : y.isFinite = true) (hw : w.isFinite = true)
    (hw0 : w.val = 0) (hc : c.isFinite = true) (h0 : c.val ≠ 0) : mad b y w c = c := by
  cases b
  · rw [mad_false]
    have m := mulS hy hw (by rw [hw0, mul_zero, abs_zero]; exact f.big_pos.le)
    rw [hw0, mul_zero, rnd_zero f] at m
    rw [add_def, add_fin m.1 hc, m.2, zero_add, ofRat_val_fin hc h0]
  · show fma y w c = c
    rw [fma_fin hy hw hc, hw0, mul_zero, zero_add, ofRat_val_fin hc h0]

theorem logC_one (p : Policy) : fast_logC p (lit 1) = pzero := by
  have z := @mad_zero b64 _
  have zf : (pzero : F64).isFinite = true ∧ (pzero : F64).val = 0 := by decide +kernel
  have e1 : get_log_pxC p pzero = lit 7.70838733755885391666E0 := by
    simp only [get_log_pxC]
    rw [z (p 0) (by decide +kernel) zf.1 zf.2 (by decide +kernel) (by decide +kernel),
      z (p 1) (by decide +kernel) zf.1 zf.2 (by decide +kernel) (by decide +kernel),
      z (p 2) (by decide +kernel) zf.1 zf.2 (by decide +kernel) (by decide +kernel),
      z (p 3) (by decide +kernel) zf.1 zf.2 (by decide +kernel) (by decide +kernel),
      z (p 4) (by decide +kernel) zf.1 zf.2 (by decide +kernel) (by decide +kernel)]
  have e2 : get_log_qxC p pzero = lit 2.31251620126765340583E1 := by
    simp only [get_log_qxC]
    rw [z (p 5) (by decide +kernel) zf.1 zf.2 (by decide +kernel) (by decide +kernel),
      z (p 6) (by decide +kernel) zf.1 zf.2 (by decide +kernel) (by decide +kernel),
      z (p 7) (by decide +kernel) zf.1 zf.2 (by decide +kernel) (by decide +kernel),
      z (p 8) (by decide +kernel) zf.1 zf.2 (by decide +kernel) (by decide +kernel)]
  have e3 : (logBlend (getMantExponent (lit 1)).1 (getMantExponent (lit 1)).2) = (pzero, pzero) := by decide +kernel
  rw [fast_logC_eq p (by decide +kernel) (by decide +kernel), e3]
  unfold logCoreC
  rw [e1, e2]
  have h : ∀ b9 b10 b11 : Bool, madR b11 pzero (lit 0.693359375) (pzero + nmad b10 (lit 0.5) (pzero * pzero)
    (nmad b9 pzero (lit 2.121944400546905827679e-4) (lit 7.70838733755885391666E0 * pzero * (pzero * pzero) /
      lit 2.31251620126765340583E1))) = (pzero : F64) := by decide +kernel
  exact h _ _ _

theorem logfC_one (p : Policy) : fast_logfC p (lit 1) = pzero := by
  have z := @mad_zero b32 _
  have zf : (pzero : F32).isFinite = true ∧ (pzero : F32).val = 0 := by decide +kernel
  have e0 : ∀ b, mad b (pzero : F32) PX1logf PX2logf = PX2logf := by decide +kernel
  have e1 : get_log_polyC p pzero = PX9logf := by
    simp only [get_log_polyC]
    rw [e0,
      z (p 1) (by decide +kernel) zf.1 zf.2 (by decide +kernel) (by decide +kernel),
      z (p 2) (by decide +kernel) zf.1 zf.2 (by decide +kernel) (by decide +kernel),
      z (p 3) (by decide +kernel) zf.1 zf.2 (by decide +kernel) (by decide +kernel),
      z (p 4) (by decide +kernel) zf.1 zf.2 (by decide +kernel) (by decide +kernel),
      z (p 5) (by decide +kernel) zf.1 zf.2 (by decide +kernel) (by decide +kernel),
      z (p 6) (by decide +kernel) zf.1 zf.2 (by decide +kernel) (by decide +kernel),
      z (p 7) (by decide +kernel) zf.1 zf.2 (by decide +kernel) (by decide +kernel)]
  have e3 : (logfBlend (getMantExponentf (lit 1)).1 (getMantExponentf (lit 1)).2) = (pzero, pzero) := by decide +kernel
  rw [fast_logfC_eq p (by decide +kernel) (by decide +kernel), e3]
  unfold logfCoreC
  rw [e1]
  have h : ∀ b8 b9 b10 b11 : Bool, madR b11 (lit 0.693359375) pzero (pzero + madR b10 (-lit 0.5) (pzero * pzero)
    (mad2 b8 b9 PX9logf (pzero * pzero * pzero) (-lit 2.12194440e-4) pzero)) = (pzero : F32) := by decide +kernel
  exact h _ _ _ _

theorem logC_accurate (p : Policy) (x : F64) (hn : x.Normal) (h0 : 0 < x.val) (h1 : x.val ≤ 10 ^ 307) :
    CloseRel (fast_logC p x) (Real.log x.real) (2 ^ (-51 : ℤ)) := by
  have hs : x.sign = false := (val_pos_iff.1 h0).1
  have e : (2 : ℝ) ^ (-51 : ℤ) = 1 / 2 ^ 51 := by norm_num
  by_cases h : x.val = 1
  · have hx : x = lit 1 := eq_of_val_ne h0.ne' (by rw [h]; decide +kernel)
    have h2 := logC_one p
    rw [hx, h2]
    refine ⟨by decide +kernel, ?_⟩
    have h3 : (lit 1 : F64).real = 1 := by
      unfold FP.real; rw [show (lit 1 : F64).val = 1 by decide +kernel]; norm_num
    have h4 : (pzero : F64).real = 0 := by
      unfold FP.real; rw [show (pzero : F64).val = 0 by decide +kernel]; norm_num
    rw [h3, h4]; simp
  · rw [e]; exact logC_acc p hn hs h1 h

theorem logfC_accurate (p : Policy) (x : F32) (hn : x.Normal) (h0 : 0 < x.val) :
    CloseRel (fast_logfC p x) (Real.log x.real) (2 ^ (-22 : ℤ)) := by
  have hs : x.sign = false := (val_pos_iff.1 h0).1
  have e : (2 : ℝ) ^ (-22 : ℤ) = 1 / 2 ^ 22 := by norm_num
  by_cases h : x.val = 1
  · have hx : x = lit 1 := eq_of_val_ne h0.ne' (by rw [h]; decide +kernel)
    have h2 := logfC_one p
    rw [hx, h2]
    refine ⟨by decide +kernel, ?_⟩
    have h3 : (lit 1 : F32).real = 1 := by
      unfold FP.real; rw [show (lit 1 : F32).val = 1 by decide +kernel]; norm_num
    have h4 : (pzero : F32).real = 0 := by
      unfold FP.real; rw [show (pzero : F32).val = 0 by decide +kernel]; norm_num
    rw [h3, h4]; simp
  · rw [e]; exact logfC_acc p hn hs h

/-! ## C05 -/

/-- For every positive normal double up to `10^307` the result is within relative error `2^-51` of the
natural logarithm; at 1 it is exactly `+0`. -/
theorem C05_log_accurate (x : F64) (hn : x.Normal) (h0 : 0 < x.val) (h1 : x.val ≤ 10 ^ 307) :
    CloseRel (fast_log x) (Real.log x.real) (2 ^ (-51 : ℤ)) := by
  rw [← fast_log_plain]
  exact logC_accurate _ x hn h0 h1

theorem C05_log_one : fast_log (lit 1) = pzero := by decide +kernel

/-- Correctly rounded `ln 2` and `ln 1e307`. -/
example : (lit 2 : F64).Normal ∧ 0 < (lit 2 : F64).val ∧ (fast_log (lit 2)).mag = 4604418534313441775 ∧
    (fast_log (lit 1e307)).mag = 4649429117888525577 := by
  rw [normal_iff64]; decide +kernel

/-! ## C07 -/

/-- For every positive normal float the result is within relative error `2^-22` of the natural logarithm. -/
theorem C07_logf_accurate (x : F32) (hn : x.Normal) (h0 : 0 < x.val) :
    CloseRel (fast_logf x) (Real.log x.real) (2 ^ (-22 : ℤ)) := by
  rw [← fast_logf_plain]
  exact logfC_accurate _ x hn h0

theorem C07_logf_one : fast_logf (lit 1) = pzero := by decide +kernel

example : (lit 2 : F32).Normal ∧ 0 < (lit 2 : F32).val ∧ (fast_logf (lit 2)).mag = 1060205080 := by
  rw [normal_iff32]; decide +kernel

/-! ## C06 -/

/-- Full statement of C06. -/
def C06_statement : Prop :=
  (∀ x : F64, (x = inf true ∨ (x.isFinite = true ∧ x.val < 0)) → (fast_log x).isNaN = true) ∧
  (∀ x : F64, x.isNaN = true → (fast_log x).isNaN = true) ∧
  (∀ x : F64, x.isZero = true → fast_log x = inf true) ∧
  fast_log (inf false) = inf false ∧
  (∀ x : F64, x.isFinite = true → 0 < x.val → (fast_log x).isFinite = true)

theorem C06_log_negative (x : F64) (h : x = inf true ∨ (x.isFinite = true ∧ x.val < 0)) : (fast_log x).isNaN = true := by
  rcases h with rfl | ⟨hf, hv⟩
  · decide +kernel
  · have h2 : FP.lt x LOG_LOWER_LIMIT = true := by
      rw [lt_fin hf (by decide +kernel), show LOG_LOWER_LIMIT.val = 0 by decide +kernel]; simpa using hv
    unfold fast_log
    simp only [h2, if_true]
    decide +kernel

theorem C06_logf_negative (x : F32) (h : x = inf true ∨ (x.isFinite = true ∧ x.val < 0)) : (fast_logf x).isNaN = true := by
  rcases h with rfl | ⟨hf, hv⟩
  · decide +kernel
  · have h2 : FP.lt x LOGF_LOWER_LIMIT = true := by
      rw [lt_fin hf (by decide +kernel), show LOGF_LOWER_LIMIT.val = 0 by decide +kernel]; simpa using hv
    unfold fast_logf
    simp only [h2, if_true]
    decide +kernel

example : (lit (-3) : F64).isFinite = true ∧ (lit (-3) : F64).val < 0 ∧ (fast_log (lit (-3))).isNaN = true ∧
    (fast_logf (lit (-3))).isNaN = true := by decide +kernel

theorem C06_log_posinf : fast_log (inf false) = inf false ∧ fast_logf (inf false) = inf false := by decide +kernel

/-- Every finite double above the constant `1e307` gives `+inf`, although its logarithm is below 710. -/
theorem C06_log_huge (x : F64) (hf : x.isFinite = true) (h : (lit 1e307 : F64).val < x.val) : fast_log x = inf false := by
  have c : LOG_UPPER_LIMIT.isFinite = true ∧ LOG_LOWER_LIMIT.isFinite = true ∧ LOG_LOWER_LIMIT.val = 0 ∧
    0 < (lit 1e307 : F64).val := by decide +kernel
  have h1 : FP.gt x LOG_UPPER_LIMIT = true := by
    rw [gt_fin hf c.1]; unfold LOG_UPPER_LIMIT; simpa using h
  have h2 : FP.lt x LOG_LOWER_LIMIT = false := by
    rw [lt_fin hf c.2.1, c.2.2.1]; simpa using (c.2.2.2.trans h).le
  unfold fast_log
  simp only [h1, h2, if_true, Bool.false_eq_true, if_false]

example : (lit 1.5e307 : F64).isFinite = true ∧ (lit 1e307 : F64).val < (lit 1.5e307 : F64).val ∧
    fast_log (lit 1.5e307) = inf false := by decide +kernel

/-- What the code computes for a pattern with clear sign bit, whatever the exponent field. -/
theorem log_raw {x : F64} (hs : x.sign = false) (hm : x.mag / 2 ^ 52 ≠ 1023) (g1 : FP.gt x LOG_UPPER_LIMIT = false)
    (g2 : FP.lt x LOG_LOWER_LIMIT = false) :
    ∃ m : ℝ, 1 / 2 ≤ m ∧ m < 1 ∧
      CloseRel (fast_log x) (Real.log (m * 2 ^ (((x.mag / 2 ^ 52 : ℕ) : ℤ) - 1022))) (1 / 2 ^ 51) := by
  have hq : x.mag < 2 ^ 63 := x.bound
  have hy := mant_val64 (x := ⟨false, 1023 * 2 ^ 52 + x.mag % 2 ^ 52, by
      have h3 : x.mag % 2 ^ 52 < 2 ^ 52 := Nat.mod_lt _ (by norm_num)
      show _ < 2 ^ 63
      omega⟩) (by
    rw [normal_iff64]
    have h3 : x.mag % 2 ^ 52 < 2 ^ 52 := Nat.mod_lt _ (by norm_num)
    show 2 ^ 52 ≤ 1023 * 2 ^ 52 + x.mag % 2 ^ 52 ∧ 1023 * 2 ^ 52 + x.mag % 2 ^ 52 < _
    omega) ⟨false, 1022 * 2 ^ 52 + x.mag % 2 ^ 52, mant_bound64 _⟩ (by
      show 1022 * 2 ^ 52 + x.mag % 2 ^ 52 = 1022 * 2 ^ 52 + (1023 * 2 ^ 52 + x.mag % 2 ^ 52) % 2 ^ 52
      omega) rfl
  obtain ⟨y1, y2, y3, -⟩ := hy
  have hg := getMantExponent_eq x
  rw [hs] at hg
  simp only [Bool.false_eq_true, if_false] at hg
  rw [fast_log_eq g1 g2, hg]
  obtain ⟨m, hmd⟩ : ∃ m : F64, m = ⟨false, 1022 * 2 ^ 52 + x.mag % 2 ^ 52, mant_bound64 _⟩ := ⟨_, rfl⟩
  rw [← hmd] at y1 y2 y3 ⊢
  have hmp : 0 ≤ m.val := by
    by_contra h; push Not at h
    have := (val_neg_iff.1 h).1
    rw [hmd] at this; cases this
  rw [abs_of_nonneg hmp] at y2 y3
  have hE : x.mag / 2 ^ 52 ≤ 2047 := by omega
  generalize hEd : x.mag / 2 ^ 52 = E at *
  have hi := ofInt_spec64 (n := ((E : ℕ) : ℤ) + 0 - 1023) (by rw [abs_le]; omega)
  have h3 : (1 / 2 : ℝ) ≤ m.real := by
    have : ((1 / 2 : ℚ) : ℝ) ≤ (m.val : ℝ) := by exact_mod_cast y2
    push_cast at this; exact this
  have h4 : m.real < 1 := by unfold FP.real; exact_mod_cast y3
  refine ⟨m.real, h3, h4, ?_⟩
  have hk1 : ((E : ℤ) + 0 - 1023) + 1 = (E : ℤ) - 1022 := by ring
  have L := log_of_split y1 hi.1 y2 y3 hi.2 (by rw [abs_le]; omega) (by
    rw [hk1]
    rcases lt_or_gt_of_ne hm with h | h
    · have : (2 : ℚ) ^ ((E : ℤ) - 1022) ≤ 2 ^ (0 : ℤ) := zpow_le_zpow_right₀ (by norm_num) (by omega)
      have hp : (0 : ℚ) < 2 ^ ((E : ℤ) - 1022) := by positivity
      rw [zpow_zero] at this
      nlinarith
    · have : (2 : ℚ) ^ (2 : ℤ) ≤ 2 ^ ((E : ℤ) - 1022) := zpow_le_zpow_right₀ (by norm_num) (by omega)
      have h22 : (2 : ℚ) ^ (2 : ℤ) = 4 := by norm_num
      nlinarith)
  rw [hk1] at L
  exact L

theorem log_two_bounds : 0.6931471 ≤ Real.log 2 ∧ Real.log 2 ≤ 0.6931472 := by
  have hl := ln2_near
  unfold ln2Q at hl
  push_cast at hl
  rw [abs_le] at hl
  norm_num at hl ⊢
  constructor <;> linarith

theorem log_scaled {m : ℝ} {n : ℤ} (h1 : 1 / 2 ≤ m) (h2 : m < 1) :
    (n - 1) * Real.log 2 ≤ Real.log (m * 2 ^ n) ∧ Real.log (m * 2 ^ n) ≤ n * Real.log 2 := by
  have hp : (0 : ℝ) < 2 ^ n := by positivity
  rw [Real.log_mul (by linarith) hp.ne', Real.log_zpow]
  have a := Real.log_le_log (by norm_num) h1
  have b := Real.log_le_log (by linarith) h2.le
  rw [Real.log_one] at b
  rw [one_div, Real.log_inv] at a
  constructor <;> linarith

/-- Every positive subnormal number, and `+0`, gives a finite number between -709.1 and -708.3, so at 0 the
result is not `-inf`, and at `2^-1074` (whose logarithm is below -744) it is wrong by 35. -/
theorem C06_log_subnormal (x : F64) (hs : x.sign = false) (h : x.mag < 2 ^ 52) :
    (fast_log x).isFinite = true ∧ -709.1 ≤ (fast_log x).val ∧ (fast_log x).val ≤ -708.3 := by
  have hf : x.isFinite = true := by
    simp only [isFinite, decide_eq_true_eq]
    have : b64.infMag = 2047 * 2 ^ 52 := by decide
    omega
  have c : LOG_UPPER_LIMIT.isFinite = true ∧ LOG_LOWER_LIMIT.isFinite = true ∧ LOG_LOWER_LIMIT.val = 0 ∧
    magVal b64 (2 ^ 52) < LOG_UPPER_LIMIT.val := by decide +kernel
  have hv : x.val = magVal b64 x.mag := by unfold FP.val; simp [hs]
  have hv2 : x.val < LOG_UPPER_LIMIT.val := by
    rw [hv]; exact (magVal_lt.2 h).trans c.2.2.2
  have hv0 : 0 ≤ x.val := by rw [hv]; exact magVal_nonneg _ _
  have g1 : FP.gt x LOG_UPPER_LIMIT = false := by rw [gt_fin hf c.1]; simpa using hv2.le
  have g2 : FP.lt x LOG_LOWER_LIMIT = false := by rw [lt_fin hf c.2.1, c.2.2.1]; simpa using hv0
  have hE : x.mag / 2 ^ 52 = 0 := by omega
  obtain ⟨m, m1, m2, m3, m4⟩ := log_raw hs (by omega) g1 g2
  rw [hE] at m4
  have hl := log_two_bounds
  have hb := log_scaled (n := ((0 : ℕ) : ℤ) - 1022) m1 m2
  generalize Real.log (m * 2 ^ (((0 : ℕ) : ℤ) - 1022)) = L at *
  push_cast at hb
  have hL1 : -709.09 ≤ L := by linarith
  have hL2 : L ≤ -708.39 := by linarith
  have hLa : |L| ≤ 710 := by rw [abs_le]; constructor <;> linarith
  have h5 : |(fast_log x).real - L| ≤ 0.001 := by
    refine m4.trans ?_
    have : 1 / 2 ^ 51 * |L| ≤ 1 / 2 ^ 51 * 710 := mul_le_mul_of_nonneg_left hLa (by positivity)
    refine this.trans (by norm_num)
  rw [abs_le] at h5
  refine ⟨m3, ?_, ?_⟩
  · have : ((-709.1 : ℚ) : ℝ) ≤ ((fast_log x).val : ℝ) := by
      push_cast; unfold FP.real at h5; linarith
    exact_mod_cast this
  · have : ((fast_log x).val : ℝ) ≤ ((-708.3 : ℚ) : ℝ) := by
      push_cast; unfold FP.real at h5; linarith
    exact_mod_cast this

example : (⟨false, 1, by decide⟩ : F64).val = 2 ^ (-1074 : ℤ) ∧ (fast_log ⟨false, 1, by decide⟩).mag = 4649448433600068449 := by
  decide +kernel

/-- Every NaN with clear sign bit gives a finite number between 709 and 711. -/
theorem C06_log_nan_is_number (x : F64) (hs : x.sign = false) (h : x.isNaN = true) :
    (fast_log x).isFinite = true ∧ 709 ≤ (fast_log x).val ∧ (fast_log x).val ≤ 711 := by
  have g1 : FP.gt x LOG_UPPER_LIMIT = false := by simp [FP.gt, FP.lt, h]
  have g2 : FP.lt x LOG_LOWER_LIMIT = false := by simp [FP.lt, h]
  have hE : x.mag / 2 ^ 52 = 2047 := by
    simp only [isNaN, decide_eq_true_eq] at h
    have : b64.infMag = 2047 * 2 ^ 52 := by decide
    have h2 : x.mag < 2 ^ 63 := x.bound
    omega
  obtain ⟨m, m1, m2, m3, m4⟩ := log_raw hs (by omega) g1 g2
  rw [hE] at m4
  have hl := log_two_bounds
  have hb := log_scaled (n := ((2047 : ℕ) : ℤ) - 1022) m1 m2
  generalize Real.log (m * 2 ^ (((2047 : ℕ) : ℤ) - 1022)) = L at *
  push_cast at hb
  have hL1 : 709.7 ≤ L := by linarith
  have hL2 : L ≤ 710.5 := by linarith
  have hLa : |L| ≤ 711 := by rw [abs_le]; constructor <;> linarith
  have h5 : |(fast_log x).real - L| ≤ 0.001 := by
    refine m4.trans ?_
    have : 1 / 2 ^ 51 * |L| ≤ 1 / 2 ^ 51 * 711 := mul_le_mul_of_nonneg_left hLa (by positivity)
    refine this.trans (by norm_num)
  rw [abs_le] at h5
  refine ⟨m3, ?_, ?_⟩
  · have : ((709 : ℚ) : ℝ) ≤ ((fast_log x).val : ℝ) := by
      push_cast; unfold FP.real at h5; linarith
    exact_mod_cast this
  · have : ((fast_log x).val : ℝ) ≤ ((711 : ℚ) : ℝ) := by
      push_cast; unfold FP.real at h5; linarith
    exact_mod_cast this

example : (nan : F64).sign = false ∧ (nan : F64).isNaN = true ∧ (fast_log nan).mag = 4649458097095954914 := by decide +kernel

/-- The parts of C06 that hold: negative numbers and `-inf`, `+inf`, finiteness up to the constant `1e307`.
Missing: NaN (`C06_log_nan_is_number`), zeros (`C06_log_subnormal`), numbers above (`C06_log_huge`). -/
theorem C06_log_special_partial :
    (∀ x : F64, (x = inf true ∨ (x.isFinite = true ∧ x.val < 0)) → (fast_log x).isNaN = true) ∧
    fast_log (inf false) = inf false ∧
    (∀ x : F64, x.isFinite = true → 0 < x.val → x.val ≤ 10 ^ 307 → (fast_log x).isFinite = true) := by
  refine ⟨C06_log_negative, C06_log_posinf.1, fun x hf h0 h1 => ?_⟩
  have hs : x.sign = false := (val_pos_iff.1 h0).1
  by_cases hn : x.mag < 2 ^ 52
  · exact (C06_log_subnormal x hs hn).1
  · refine (C05_log_accurate x ?_ h0 h1).1
    rw [normal_iff64]
    refine ⟨by omega, ?_⟩
    have : b64.infMag = 2047 * 2 ^ 52 := by decide
    simp only [isFinite, decide_eq_true_eq] at hf
    omega

theorem C06_violated : ¬C06_statement := by
  intro h
  have := h.2.2.1 pzero (by decide +kernel)
  revert this; decide +kernel

/-- The single precision version: NaN and the zeros give numbers too. -/
theorem C06_logf_violations : (fast_logf nan).isNaN = false ∧ (fast_logf pzero).isFinite = true ∧
    (fast_logf nzero).isFinite = true ∧ (fast_logf (-nan)).isNaN = false := by decide +kernel

end Vdt
