import Verif.Lemmas.LogMonoD

/-! # `fast_log` preserves the order of all non-negative numbers -/

namespace Vdt
open FP details

/-- Fraction field of include/log.h:41. -/
abbrev sqrthF : ℕ := 1865452045155277

/-- Numerator of the reduced argument (in units of `2^-53`) of the number with bit pattern `c`. -/
def logN (c : ℕ) : ℤ := if c % 2 ^ 52 ≤ sqrthF then 2 * (c % 2 ^ 52 : ℕ) else (c % 2 ^ 52 : ℕ) - 2 ^ 52

/-- Exponent of the number with bit pattern `c`. -/
def logK (c : ℕ) : ℤ := if c % 2 ^ 52 ≤ sqrthF then (c / 2 ^ 52 : ℕ) - 1023 else (c / 2 ^ 52 : ℕ) - 1022

/-- include/log.h:95-99 on the bit pattern. -/
theorem logBlend_bits {x : F64} (hs : x.sign = false) (hE : x.mag / 2 ^ 52 ≤ 2046) :
    (logBlend (getMantExponent x).1 (getMantExponent x).2).1.isFinite = true ∧
    (logBlend (getMantExponent x).1 (getMantExponent x).2).2.isFinite = true ∧
    (logBlend (getMantExponent x).1 (getMantExponent x).2).1.val = logN x.mag * (1 / 2 ^ 53) ∧
    (logBlend (getMantExponent x).1 (getMantExponent x).2).2.val = logK x.mag := by
  rw [getMantExponent_eq]
  simp only [hs, Bool.false_eq_true, if_false]
  obtain ⟨m, hm⟩ : ∃ m : F64, m = ⟨false, 1022 * 2 ^ 52 + x.mag % 2 ^ 52, mant_bound64 _⟩ := ⟨_, rfl⟩
  rw [← hm]
  have hF := Nat.mod_lt x.mag (show 2 ^ 52 > 0 by norm_num)
  have mv : m.val = (2 ^ 52 + (x.mag % 2 ^ 52 : ℕ)) * (1 / 2 ^ 53) := by
    have e1 : m.val = magVal b64 (1022 * 2 ^ 52 + x.mag % 2 ^ 52) := by rw [hm]; rfl
    have e3 : (1022 * 2 ^ 52 + x.mag % 2 ^ 52) % 2 ^ 52 = x.mag % 2 ^ 52 := by omega
    have e4 : (1022 * 2 ^ 52 + x.mag % 2 ^ 52) / 2 ^ 52 = 1022 := by omega
    rw [e1, magVal_normal b64 (by show 2 ^ 52 ≤ _; omega)]
    show ((2 ^ 52 + (1022 * 2 ^ 52 + x.mag % 2 ^ 52) % 2 ^ 52 : ℕ) : ℚ) * p2 (((1022 * 2 ^ 52 + x.mag % 2 ^ 52) / 2 ^ 52 : ℕ) - 1 + b64.emin - b64.mb) = _
    rw [e3, e4]
    rw [show p2 (((1022 : ℕ) : ℤ) - 1 + b64.emin - b64.mb) = 1 / 2 ^ 53 by decide +kernel, Nat.cast_add, Nat.cast_pow]
    norm_num
  have mf : m.isFinite = true := by
    rw [hm]
    show decide (1022 * 2 ^ 52 + x.mag % 2 ^ 52 < b64.infMag) = true
    have h : b64.infMag = 2047 * 2 ^ 52 := by decide
    rw [h]
    simp only [decide_eq_true_eq]
    omega
  have hk : |((x.mag / 2 ^ 52 : ℕ) : ℤ) + 0 - 1023| ≤ 1024 := by rw [abs_le]; omega
  obtain ⟨f1, f2⟩ := ofInt_spec64 (n := ((x.mag / 2 ^ 52 : ℕ) : ℤ) + 0 - 1023) (hk.trans (by norm_num))
  obtain ⟨fe, hfe⟩ : ∃ fe : F64, fe = ofInt (((x.mag / 2 ^ 52 : ℕ) : ℤ) + 0 - 1023) := ⟨_, rfl⟩
  rw [← hfe] at f1 f2 ⊢
  rw [add_zero] at hk f2
  have cs : SQRTH.isFinite = true ∧ 0.7070 ≤ SQRTH.val ∧ SQRTH.val ≤ 0.70715 ∧ (lit 1 : F64).isFinite = true ∧
    (lit 1 : F64).val = 1 ∧ 2000 ≤ b64.big ∧ SQRTH.val = (2 ^ 52 + 1865452045155277) * (1 / 2 ^ 53) := by decide +kernel
  obtain ⟨c1, c2, c3, c4, c5, c6, c7⟩ := cs
  clear hfe hm
  generalize hq : x.mag % 2 ^ 52 = F at *
  generalize hEd : x.mag / 2 ^ 52 = E at *
  have hFq : (F : ℚ) < 2 ^ 52 := by
    have := (Nat.cast_lt (α := ℚ)).2 hF
    rwa [Nat.cast_pow] at this
  have hF0 : (0 : ℚ) ≤ F := Nat.cast_nonneg F
  have B := blend_spec (c := SQRTH) (one := lit 1) mf f1 (by rw [mv]; norm_num; linarith)
    (by rw [mv]; linarith) f2 (hk.trans (by norm_num)) (by decide) (by decide) c6 c1 c2 c3 c4 c5
  obtain ⟨B1, B2, K, B3, -, -, -, B7, -⟩ := B
  rw [logBlend_eq]
  have hg : FP.gt m SQRTH = decide (sqrthF < F) := by
    rw [gt_fin mf c1]
    apply decide_eq_decide.2
    rw [mv, c7]
    have : ((sqrthF : ℕ) : ℚ) < F ↔ sqrthF < F := Nat.cast_lt
    rw [← this, show ((sqrthF : ℕ) : ℚ) = 1865452045155277 by norm_num [sqrthF]]
    constructor <;> intro h <;> linarith
  have hlogN : logN x.mag = if F ≤ sqrthF then 2 * (F : ℤ) else F - 2 ^ 52 := by unfold logN; rw [hq]
  have hlogK : logK x.mag = if F ≤ sqrthF then (E : ℤ) - 1023 else E - 1022 := by unfold logK; rw [hq, hEd]
  refine ⟨B1, B2, ?_⟩
  rw [hlogN, hlogK]
  by_cases h : sqrthF < F
  · rw [hg] at B3 B7 ⊢
    simp only [h, decide_true, if_true] at B3 B7 ⊢
    rw [if_neg (not_le.2 h), if_neg (not_le.2 h)]
    have s2 := add_exact f1 c4 (by
      rw [f2, c5]
      have := rep_int b64 (n := (E : ℤ) - 1023 + 1) (by
        rw [abs_le] at hk ⊢; constructor <;> norm_num <;> omega) (by decide)
      push_cast at this ⊢; exact this) (by
      rw [f2, c5]
      have : |(((E : ℤ) - 1023 : ℤ) : ℚ)| ≤ 1024 := by exact_mod_cast hk
      rw [abs_le] at this ⊢
      constructor <;> linarith)
    rw [s2.2, f2, c5] at B3
    have hKe : K = (E : ℤ) - 1023 + 1 := by exact_mod_cast B3.symm
    rw [hKe] at B7
    have h2 : (0 : ℚ) < 2 ^ ((E : ℤ) - 1023 + 1) := by positivity
    have := mul_right_cancel₀ h2.ne' B7
    rw [mv] at this
    constructor
    · push_cast
      linarith
    · rw [s2.2, f2, c5]; push_cast; ring
  · rw [hg] at B3 B7 ⊢
    simp only [h, decide_false, Bool.false_eq_true, if_false] at B3 B7 ⊢
    rw [if_pos (not_lt.1 h), if_pos (not_lt.1 h)]
    rw [f2] at B3
    have hKe : K = (E : ℤ) - 1023 := by exact_mod_cast B3.symm
    rw [hKe, zpow_add₀ (by norm_num), zpow_one, mul_comm ((2 : ℚ) ^ ((E : ℤ) - 1023)) 2, ← mul_assoc] at B7
    have h2 : (0 : ℚ) < 2 ^ ((E : ℤ) - 1023) := by positivity
    have := mul_right_cancel₀ h2.ne' B7
    rw [mv] at this
    refine ⟨?_, f2⟩
    push_cast
    linarith

/-- The largest and the smallest reduced argument. -/
def logTop : F64 := ofRat b64 false (1865452045155277 * 2 * (1 / 2 ^ 53))
def logBot : F64 := ofRat b64 false ((1865452045155278 - 2 ^ 52) * (1 / 2 ^ 53))

theorem logTop_spec : logTop.isFinite = true ∧ logTop.val = 1865452045155277 * 2 * (1 / 2 ^ 53) ∧
    (logTC plainP logTop).val = 83685801386019584 * p2 (-62) ∧
    rnd b64 (1 / 2 * rnd b64 (logTop.val * logTop.val)) = 395620114974690944 * p2 (-62) ∧
    logBot.isFinite = true ∧ logBot.val = (1865452045155278 - 2 ^ 52) * (1 / 2 ^ 53) ∧
    (logTC plainP logBot).val = -49746961068794104 * p2 (-62) ∧
    rnd b64 (1 / 2 * rnd b64 (logBot.val * logBot.val)) = 197810057487345152 * p2 (-62) ∧
    (lit 2.121944400546905827679e-4 : F64).val = 978574132388245 * p2 (-62) ∧
    (355 / 512 : ℚ) = 3197555735433052160 * p2 (-62) ∧ p2 10 ≤ b64.big ∧
    1865452045155277 * 2 * (1 / 2 ^ 53) = 1910222894239003648 * p2 (-62) ∧
    (1865452045155278 - 2 ^ 52) * (1 / 2 ^ 53) = -1350731562094191616 * p2 (-62) := by decide +kernel

/-- From one exponent to the next. -/
theorem logV_boundary {K : ℤ} (h1 : -1023 ≤ K) (h2 : K ≤ 1023) : logV logTop K ≤ logV logBot (K + 1) := by
  obtain ⟨-, s2, s3, s4, -, s6, s7, s8, s9, s10, s11, s12, s13⟩ := logTop_spec
  have hp := p2_pos (-62)
  have key := sumsOk_sound log_sums K h1 (by push_cast; omega)
  have q0 : p2 (-62) ≤ 1 / 2 ^ 62 := by decide +kernel
  have small : ∀ q n : ℚ, q = n * p2 (-62) → |n| ≤ 2 ^ 62 → |q| ≤ 1 := by
    intro q n e h
    rw [e, abs_mul, abs_of_pos hp]
    calc |n| * p2 (-62) ≤ 2 ^ 62 * (1 / 2 ^ 62) := mul_le_mul h q0 hp.le (by positivity)
      _ = 1 := by norm_num
  have kb : ∀ J : ℤ, -1023 ≤ J → J ≤ 1024 → |(J : ℚ) * (lit 2.121944400546905827679e-4 : F64).val| ≤ 1 ∧ |(J : ℚ) * (355 / 512)| ≤ 1000 := by
    intro J j1 j2
    have hJ : |(J : ℚ)| ≤ 1024 := by
      rw [abs_le]
      have a1 : ((-1023 : ℤ) : ℚ) ≤ J := by exact_mod_cast j1
      have a2 : (J : ℚ) ≤ ((1024 : ℤ) : ℚ) := by exact_mod_cast j2
      push_cast at a1 a2
      constructor <;> linarith
    constructor
    · rw [abs_mul, abs_of_nonneg log_consts.2.2.2.2.1]
      have := log_consts.2.2.2.2.2.1
      nlinarith [abs_nonneg (J : ℚ)]
    · rw [abs_mul, show |(355 / 512 : ℚ)| = 355 / 512 by norm_num]; linarith
  have e1 : logV logTop K = sumZ 52 3197555735433052160 978574132388245 1910222894239003648 83685801386019584 395620114974690944 K * p2 (-62) := by
    unfold logV
    obtain ⟨k1, k2⟩ := kb K h1 (by omega)
    have c1 := small _ _ s12 (by rw [abs_of_nonneg (by norm_num)]; norm_num)
    have c2 := small _ _ s3 (by rw [abs_of_nonneg (by norm_num)]; norm_num)
    have c3 := small _ _ s4 (by rw [abs_of_nonneg (by norm_num)]; norm_num)
    rw [← s2] at c1 s12
    exact sumQ_scaled b64 62 (by decide) s11 (by decide) (by rw [s10]; norm_num) (by rw [s9]; norm_num) (by rw [s12]; norm_num)
      (by rw [s3]; norm_num) (by rw [s4]; norm_num) c1 c2 c3 k1 k2
  have e2 : logV logBot (K + 1) = sumZ 52 3197555735433052160 978574132388245 (-1350731562094191616) (-49746961068794104) 197810057487345152 (K + 1) * p2 (-62) := by
    unfold logV
    obtain ⟨k1, k2⟩ := kb (K + 1) (by omega) (by omega)
    have c1 := small _ _ s13 (by rw [abs_of_nonpos (by norm_num)]; norm_num)
    have c2 := small _ _ s7 (by rw [abs_of_nonpos (by norm_num)]; norm_num)
    have c3 := small _ _ s8 (by rw [abs_of_nonneg (by norm_num)]; norm_num)
    rw [← s6] at c1 s13
    exact sumQ_scaled b64 62 (by decide) s11 (by decide) (by rw [s10]; norm_num) (by rw [s9]; norm_num) (by rw [s13]; norm_num)
      (by rw [s7]; norm_num) (by rw [s8]; norm_num) c1 c2 c3 k1 k2
  rw [e1, e2]
  exact mul_le_mul_of_nonneg_right (by exact_mod_cast key) hp.le

/-- A reduced argument: an even multiple of `2^-53` if it is positive. -/
def LogArg (z : F64) (N : ℤ) : Prop :=
  z.isFinite = true ∧ z.val = N * (1 / 2 ^ 53) ∧ (0 ≤ N → 2 ∣ N) ∧ -2638147582215218 ≤ N ∧ N ≤ 3730904090310554

theorem logTop_arg : LogArg logTop 3730904090310554 := by
  obtain ⟨s1, s2, -⟩ := logTop_spec
  exact ⟨s1, by rw [s2]; norm_num, fun _ => by norm_num, by norm_num, le_rfl⟩

theorem logBot_arg : LogArg logBot (-2638147582215218) := by
  obtain ⟨-, -, -, -, s1, s2, -⟩ := logTop_spec
  exact ⟨s1, by rw [s2]; norm_num, fun h => absurd h (by norm_num), le_rfl, by norm_num⟩

theorem logV_args {z z' : F64} {N N' K : ℤ} (h : LogArg z N) (h' : LogArg z' N') (hN : N < N') (hK : |K| ≤ 1025) :
    logV z K ≤ logV z' K := by
  obtain ⟨a1, a2, a3, a4, a5⟩ := h
  obtain ⟨b1, b2, b3, b4, b5⟩ := h'
  have hu : b64.u = 1 / 2 ^ 53 := log_consts.2.2.2.2.2.2.2.2.1
  have hup : (0 : ℚ) < 1 / 2 ^ 53 := by positivity
  have q : ∀ m n : ℤ, m ≤ n → (m : ℚ) * (1 / 2 ^ 53) ≤ n * (1 / 2 ^ 53) := fun m n h =>
    mul_le_mul_of_nonneg_right (by exact_mod_cast h) hup.le
  have q' : ∀ m n : ℤ, (m : ℚ) * (1 / 2 ^ 53) ≤ n * (1 / 2 ^ 53) → m ≤ n := fun m n h => by
    have := le_of_mul_le_mul_right h hup
    exact_mod_cast this
  refine logV_order a1 b1 hK ?_ ?_ ?_ ?_ ?_ ?_ ?_
  · rw [a2]
    have := q _ _ a4
    norm_num at this ⊢
    linarith
  · rw [a2, b2]
    exact mul_lt_mul_of_pos_right (by exact_mod_cast hN) hup
  · rw [b2]
    have := q _ _ b5
    norm_num at this ⊢
    linarith
  · intro _
    have := q (N + 1) N' (by omega)
    rw [a2, b2, hu]; push_cast at this; linarith
  · intro h0
    have h1 : 0 ≤ N := q' 0 N (by rw [← a2]; simpa using h0)
    have d1 := a3 h1
    have d2 := b3 (by omega)
    have := q (N + 2) N' (by omega)
    rw [a2, b2, hu]; push_cast at this; linarith
  · intro h0
    have h1 : N < 0 := by
      by_contra hc
      have := q 0 N (by omega)
      rw [← a2] at this; push_cast at this; linarith
    have := q N (-1) (by omega)
    rw [a2, hu]; push_cast at this; linarith
  · intro h0
    have h1 : 0 < N' := by
      by_contra hc
      have := q N' 0 (by omega)
      rw [← b2] at this; push_cast at this; linarith
    have d2 := b3 (by omega)
    have := q 2 N' (by omega)
    rw [b2, hu]; push_cast at this; linarith

theorem logV_le_top {z : F64} {N K : ℤ} (h : LogArg z N) (hK : |K| ≤ 1025) : logV z K ≤ logV logTop K := by
  rcases h.2.2.2.2.lt_or_eq with hl | he
  · exact logV_args h logTop_arg hl hK
  · have e : z.val = logTop.val := by rw [h.2.1, logTop_arg.2.1, he]
    rw [eq_of_val_ne (by rw [h.2.1, he]; norm_num) e]

theorem logV_ge_bot {z : F64} {N K : ℤ} (h : LogArg z N) (hK : |K| ≤ 1025) : logV logBot K ≤ logV z K := by
  rcases h.2.2.2.1.lt_or_eq with hl | he
  · exact logV_args logBot_arg h hl hK
  · have e : logBot.val = z.val := by rw [h.2.1, logBot_arg.2.1, he]
    rw [eq_of_val_ne (by rw [logBot_arg.2.1]; norm_num) e]

theorem logV_chain {K : ℤ} (h1 : -1023 ≤ K) : ∀ n : ℕ, K + n + 1 ≤ 1024 → logV logTop K ≤ logV logBot (K + n + 1)
  | 0, h => by
    have := logV_boundary h1 (by push_cast at h; omega)
    simpa using this
  | n + 1, h => by
    push_cast at h
    have a := logV_chain h1 n (by omega)
    have b := logV_le_top (z := logBot) (K := K + n + 1) logBot_arg (by rw [abs_le]; omega)
    have c := logV_boundary (K := K + n + 1) (by omega) (by omega)
    have e : K + ((n + 1 : ℕ) : ℤ) + 1 = K + n + 1 + 1 := by push_cast; ring
    rw [e]
    exact a.trans (b.trans c)

theorem logN_bounds (c : ℕ) : (0 ≤ logN c → 2 ∣ logN c) ∧ -2638147582215218 ≤ logN c ∧ logN c ≤ 3730904090310554 := by
  have hF := Nat.mod_lt c (show 2 ^ 52 > 0 by norm_num)
  unfold logN sqrthF
  generalize c % 2 ^ 52 = F at *
  split_ifs with h
  · refine ⟨fun _ => ⟨_, rfl⟩, ?_, ?_⟩ <;> omega
  · norm_num at hF ⊢
    refine ⟨fun h2 => absurd h2 ?_, ?_, ?_⟩ <;> omega

theorem logK_bounds {c : ℕ} (h : c / 2 ^ 52 ≤ 2046) : -1023 ≤ logK c ∧ logK c ≤ 1024 := by
  unfold logK; split_ifs <;> omega

/-- The order of the bit patterns is the lexicographic order of exponent and reduced argument. -/
theorem logK_order {c d : ℕ} (h : c < d) : logK c < logK d ∨ (logK c = logK d ∧ logN c < logN d) := by
  have hF := Nat.mod_lt c (show 2 ^ 52 > 0 by norm_num)
  have hG := Nat.mod_lt d (show 2 ^ 52 > 0 by norm_num)
  have e1 := Nat.div_add_mod c (2 ^ 52)
  have e2 := Nat.div_add_mod d (2 ^ 52)
  unfold logK logN
  generalize c % 2 ^ 52 = F at *
  generalize d % 2 ^ 52 = G at *
  generalize c / 2 ^ 52 = E at *
  generalize d / 2 ^ 52 = E' at *
  norm_num at *
  split_ifs <;> omega

/-- The result on the finite numbers up to the limit. -/
theorem fast_log_value {x : F64} (hs : x.sign = false) (hf : x.isFinite = true) (h1 : FP.gt x LOG_UPPER_LIMIT = false) :
    ∃ z, LogArg z (logN x.mag) ∧ (fast_log x).isFinite = true ∧ (fast_log x).val = logV z (logK x.mag) := by
  have hE : x.mag / 2 ^ 52 ≤ 2046 := by
    have h : x.mag < b64.infMag := by simpa [FP.isFinite] using hf
    rw [show b64.infMag = 2047 * 2 ^ 52 by decide] at h
    omega
  have h2 : FP.lt x LOG_LOWER_LIMIT = false := by
    have c : LOG_LOWER_LIMIT.isFinite = true ∧ LOG_LOWER_LIMIT.val = 0 := by decide +kernel
    rw [lt_fin hf c.1, c.2]
    have : ¬ x.val < 0 := fun h => by have := (val_neg_iff.1 h).1; rw [hs] at this; cases this
    simpa using this
  obtain ⟨b1, b2, b3, b4⟩ := logBlend_bits hs hE
  obtain ⟨n1, n2, n3⟩ := logN_bounds x.mag
  obtain ⟨k1, k2⟩ := logK_bounds hE
  have hz : LogArg _ (logN x.mag) := ⟨b1, b3, n1, n2, n3⟩
  refine ⟨_, hz, ?_⟩
  rw [fast_log_eq h1 h2]
  have l : (-0.293 : ℚ) ≤ logN x.mag * (1 / 2 ^ 53) := by
    have : ((-2638147582215218 : ℤ) : ℚ) ≤ logN x.mag := by exact_mod_cast n2
    push_cast at this; norm_num; linarith
  have r : logN x.mag * (1 / 2 ^ 53) ≤ (0.4143 : ℚ) := by
    have : (logN x.mag : ℚ) ≤ ((3730904090310554 : ℤ) : ℚ) := by exact_mod_cast n3
    push_cast at this; norm_num; linarith
  have P := logCore_parts b1 b2 b4 (by rw [abs_le]; omega) (by rw [b3]; exact l) (by rw [b3]; exact r)
  exact ⟨P.1, P.2.1⟩

/-- Two finite arguments. -/
theorem fast_log_order {x y : F64} (hx : x.sign = false) (hy : y.sign = false) (hfy : y.isFinite = true)
    (h1 : FP.gt y LOG_UPPER_LIMIT = false) (h : x.mag ≤ y.mag) : FP.le (fast_log x) (fast_log y) = true := by
  have hfx : x.isFinite = true := by
    have h' : y.mag < b64.infMag := by simpa [FP.isFinite] using hfy
    simpa [FP.isFinite] using lt_of_le_of_lt h h'
  have cu : LOG_UPPER_LIMIT.isFinite = true := by decide +kernel
  have hv : x.val ≤ y.val := by
    unfold FP.val; rw [hx, hy]; simp only [Bool.false_eq_true, if_false]; exact magVal_le.2 h
  have h1' : FP.gt x LOG_UPPER_LIMIT = false := by
    rw [gt_fin hfy cu] at h1
    rw [gt_fin hfx cu]
    simp only [decide_eq_false_iff_not, not_lt] at h1 ⊢
    exact hv.trans h1
  obtain ⟨z, z1, z2, z3⟩ := fast_log_value hx hfx h1'
  obtain ⟨w, w1, w2, w3⟩ := fast_log_value hy hfy h1
  rw [le_fin z2 w2]
  apply decide_eq_true
  rcases h.lt_or_eq with hl | he
  · have B : ∀ c, c ≤ y.mag → c / 2 ^ 52 ≤ 2046 := by
      intro c hc
      have h' : y.mag < b64.infMag := by simpa [FP.isFinite] using hfy
      rw [show b64.infMag = 2047 * 2 ^ 52 by decide] at h'
      omega
    obtain ⟨k1, k2⟩ := logK_bounds (B _ h)
    obtain ⟨j1, j2⟩ := logK_bounds (B _ le_rfl)
    rw [z3, w3]
    rcases logK_order hl with hk | ⟨hk, hn⟩
    · obtain ⟨n, hn⟩ : ∃ n : ℕ, logK y.mag = logK x.mag + n + 1 := ⟨(logK y.mag - logK x.mag - 1).toNat, by omega⟩
      have a := logV_le_top z1 (K := logK x.mag) (by rw [abs_le]; omega)
      have b := logV_chain k1 n (by omega)
      rw [← hn] at b
      exact a.trans (b.trans (logV_ge_bot w1 (by rw [abs_le]; omega)))
    · rw [← hk]
      exact logV_args z1 w1 hn (by rw [abs_le]; omega)
  · have : x = y := by
      cases x; cases y; simp only at hx hy he; subst hx hy he; rfl
    rw [this]

end Vdt
