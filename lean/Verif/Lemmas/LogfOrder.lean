import Verif.Lemmas.LogMonoF

/-! # `fast_logf` preserves the order of all non-negative numbers -/

namespace Vdt
open FP details

/-- Fraction field of include/log.h:167. -/
abbrev sqrthfF : ℕ := 3474675

/-- Numerator of the reduced argument (in units of `2^-24`) of the number with bit pattern `c`. -/
def logfN (c : ℕ) : ℤ := if c % 2 ^ 23 ≤ sqrthfF then 2 * (c % 2 ^ 23 : ℕ) else (c % 2 ^ 23 : ℕ) - 2 ^ 23

/-- Exponent of the number with bit pattern `c`. -/
def logfK (c : ℕ) : ℤ := if c % 2 ^ 23 ≤ sqrthfF then (c / 2 ^ 23 : ℕ) - 127 else (c / 2 ^ 23 : ℕ) - 126

/-- include/log.h:177-180 on the bit pattern. -/
theorem logfBlend_bits {x : F32} (hs : x.sign = false) (hE : x.mag / 2 ^ 23 ≤ 254) :
    (logfBlend (getMantExponentf x).1 (getMantExponentf x).2).1.isFinite = true ∧
    (logfBlend (getMantExponentf x).1 (getMantExponentf x).2).2.isFinite = true ∧
    (logfBlend (getMantExponentf x).1 (getMantExponentf x).2).1.val = logfN x.mag * (1 / 2 ^ 24) ∧
    (logfBlend (getMantExponentf x).1 (getMantExponentf x).2).2.val = logfK x.mag := by
  rw [getMantExponentf_eq]
  simp only [hs, Bool.false_eq_true, if_false]
  obtain ⟨m, hm⟩ : ∃ m : F32, m = ⟨false, 126 * 2 ^ 23 + x.mag % 2 ^ 23, mant_bound32 _⟩ := ⟨_, rfl⟩
  rw [← hm]
  have hF := Nat.mod_lt x.mag (show 2 ^ 23 > 0 by norm_num)
  have mv : m.val = (2 ^ 23 + (x.mag % 2 ^ 23 : ℕ)) * (1 / 2 ^ 24) := by
    have e1 : m.val = magVal b32 (126 * 2 ^ 23 + x.mag % 2 ^ 23) := by rw [hm]; rfl
    have e3 : (126 * 2 ^ 23 + x.mag % 2 ^ 23) % 2 ^ 23 = x.mag % 2 ^ 23 := by omega
    have e4 : (126 * 2 ^ 23 + x.mag % 2 ^ 23) / 2 ^ 23 = 126 := by omega
    rw [e1, magVal_normal b32 (by show 2 ^ 23 ≤ _; omega)]
    show ((2 ^ 23 + (126 * 2 ^ 23 + x.mag % 2 ^ 23) % 2 ^ 23 : ℕ) : ℚ) * p2 (((126 * 2 ^ 23 + x.mag % 2 ^ 23) / 2 ^ 23 : ℕ) - 1 + b32.emin - b32.mb) = _
    rw [e3, e4]
    rw [show p2 (((126 : ℕ) : ℤ) - 1 + b32.emin - b32.mb) = 1 / 2 ^ 24 by decide +kernel, Nat.cast_add, Nat.cast_pow]
    norm_num
  have mf : m.isFinite = true := by
    rw [hm]
    show decide (126 * 2 ^ 23 + x.mag % 2 ^ 23 < b32.infMag) = true
    have h : b32.infMag = 255 * 2 ^ 23 := by decide
    rw [h]
    simp only [decide_eq_true_eq]
    omega
  have hk : |((x.mag / 2 ^ 23 : ℕ) : ℤ) + 0 - 127| ≤ 128 := by rw [abs_le]; omega
  obtain ⟨f1, f2⟩ := ofInt_spec32 (n := ((x.mag / 2 ^ 23 : ℕ) : ℤ) + 0 - 127) (hk.trans (by norm_num))
  obtain ⟨fe, hfe⟩ : ∃ fe : F32, fe = ofInt (((x.mag / 2 ^ 23 : ℕ) : ℤ) + 0 - 127) := ⟨_, rfl⟩
  rw [← hfe] at f1 f2 ⊢
  rw [add_zero] at hk f2
  have cs : SQRTHF.isFinite = true ∧ 0.7070 ≤ SQRTHF.val ∧ SQRTHF.val ≤ 0.70715 ∧ (lit 1 : F32).isFinite = true ∧
    (lit 1 : F32).val = 1 ∧ 2000 ≤ b32.big ∧ SQRTHF.val = (2 ^ 23 + 3474675) * (1 / 2 ^ 24) := by decide +kernel
  obtain ⟨c1, c2, c3, c4, c5, c6, c7⟩ := cs
  clear hfe hm
  generalize hq : x.mag % 2 ^ 23 = F at *
  generalize hEd : x.mag / 2 ^ 23 = E at *
  have hFq : (F : ℚ) < 2 ^ 23 := by
    have := (Nat.cast_lt (α := ℚ)).2 hF
    rwa [Nat.cast_pow] at this
  have hF0 : (0 : ℚ) ≤ F := Nat.cast_nonneg F
  have B := blend_spec (c := SQRTHF) (one := lit 1) mf f1 (by rw [mv]; norm_num; linarith)
    (by rw [mv]; linarith) f2 (hk.trans (by norm_num)) (by decide) (by decide) c6 c1 c2 c3 c4 c5
  obtain ⟨B1, B2, K, B3, -, -, -, B7, -⟩ := B
  rw [logfBlend_eq]
  have hg : FP.gt m SQRTHF = decide (sqrthfF < F) := by
    rw [gt_fin mf c1]
    apply decide_eq_decide.2
    rw [mv, c7]
    have : ((sqrthfF : ℕ) : ℚ) < F ↔ sqrthfF < F := Nat.cast_lt
    rw [← this, show ((sqrthfF : ℕ) : ℚ) = 3474675 by norm_num [sqrthfF]]
    constructor <;> intro h <;> linarith
  have hlogfN : logfN x.mag = if F ≤ sqrthfF then 2 * (F : ℤ) else F - 2 ^ 23 := by unfold logfN; rw [hq]
  have hlogfK : logfK x.mag = if F ≤ sqrthfF then (E : ℤ) - 127 else E - 126 := by unfold logfK; rw [hq, hEd]
  refine ⟨B1, B2, ?_⟩
  rw [hlogfN, hlogfK]
  by_cases h : sqrthfF < F
  · rw [hg] at B3 B7 ⊢
    simp only [h, decide_true, if_true] at B3 B7 ⊢
    rw [if_neg (not_le.2 h), if_neg (not_le.2 h)]
    have s2 := add_exact f1 c4 (by
      rw [f2, c5]
      have := rep_int b32 (n := (E : ℤ) - 127 + 1) (by
        rw [abs_le] at hk ⊢; constructor <;> norm_num <;> omega) (by decide)
      push_cast at this ⊢; exact this) (by
      rw [f2, c5]
      have : |(((E : ℤ) - 127 : ℤ) : ℚ)| ≤ 128 := by exact_mod_cast hk
      rw [abs_le] at this ⊢
      constructor <;> linarith)
    rw [s2.2, f2, c5] at B3
    have hKe : K = (E : ℤ) - 127 + 1 := by exact_mod_cast B3.symm
    rw [hKe] at B7
    have h2 : (0 : ℚ) < 2 ^ ((E : ℤ) - 127 + 1) := by positivity
    have := mul_right_cancel₀ h2.ne' B7
    rw [mv] at this
    constructor
    · push_cast
      linarith
    · rw [s2.2, f2, c5]; push_cast; ring
  · rw [hg] at B3 B7 ⊢
    simp only [h, decide_false, Bool.false_eq_true, if_false] at B3 B7 ⊢
    rw [if_pos (not_lt.1 h), if_pos (not_lt.1 h)]
    rw [f2] at B3
    have hKe : K = (E : ℤ) - 127 := by exact_mod_cast B3.symm
    rw [hKe, zpow_add₀ (by norm_num), zpow_one, mul_comm ((2 : ℚ) ^ ((E : ℤ) - 127)) 2, ← mul_assoc] at B7
    have h2 : (0 : ℚ) < 2 ^ ((E : ℤ) - 127) := by positivity
    have := mul_right_cancel₀ h2.ne' B7
    rw [mv] at this
    refine ⟨?_, f2⟩
    push_cast
    linarith

/-- The largest and the smallest reduced argument. -/
def logfTop : F32 := ofRat b32 false (3474675 * 2 * (1 / 2 ^ 24))
def logfBot : F32 := ofRat b32 false ((3474676 - 2 ^ 23) * (1 / 2 ^ 24))

theorem logfTop_spec : logfTop.isFinite = true ∧ logfTop.val = 3474675 * 2 * (1 / 2 ^ 24) ∧
    (logfTC plainP logfTop).val = 1247015424 * p2 (-36) ∧
    rnd b32 (1 / 2 * rnd b32 (logfTop.val * logfTop.val)) = 5895198208 * p2 (-36) ∧
    logfBot.isFinite = true ∧ logfBot.val = (3474676 - 2 ^ 23) * (1 / 2 ^ 24) ∧
    (logfTC plainP logfBot).val = -741287040 * p2 (-36) ∧
    rnd b32 (1 / 2 * rnd b32 (logfBot.val * logfBot.val)) = 2947598592 * p2 (-36) ∧
    (lit 2.12194440e-4 : F32).val = 14581891 * p2 (-36) ∧
    (355 / 512 : ℚ) = 47647293440 * p2 (-36) ∧ p2 10 ≤ b32.big ∧
    3474675 * 2 * (1 / 2 ^ 24) = 28464537600 * p2 (-36) ∧
    (3474676 - 2 ^ 23) * (1 / 2 ^ 24) = -20127465472 * p2 (-36) := by decide +kernel

theorem logf_sums : sumsOk 23 47647293440 14581891 28464537600 1247015424 5895198208
    (-20127465472) (-741287040) 2947598592 127 255 = true := by decide +kernel

/-- From one exponent to the next. -/
theorem logfV_boundary {K : ℤ} (h1 : -127 ≤ K) (h2 : K ≤ 127) : logfV logfTop K ≤ logfV logfBot (K + 1) := by
  obtain ⟨-, s2, s3, s4, -, s6, s7, s8, s9, s10, s11, s12, s13⟩ := logfTop_spec
  have hp := p2_pos (-36)
  have key := sumsOk_sound logf_sums K h1 (by push_cast; omega)
  have q0 : p2 (-36) ≤ 1 / 2 ^ 36 := by decide +kernel
  have small : ∀ q n : ℚ, q = n * p2 (-36) → |n| ≤ 2 ^ 36 → |q| ≤ 1 := by
    intro q n e h
    rw [e, abs_mul, abs_of_pos hp]
    calc |n| * p2 (-36) ≤ 2 ^ 36 * (1 / 2 ^ 36) := mul_le_mul h q0 hp.le (by positivity)
      _ = 1 := by norm_num
  have kb : ∀ J : ℤ, -127 ≤ J → J ≤ 128 → |(J : ℚ) * (lit 2.12194440e-4 : F32).val| ≤ 1 ∧ |(J : ℚ) * (355 / 512)| ≤ 1000 := by
    intro J j1 j2
    have hJ : |(J : ℚ)| ≤ 128 := by
      rw [abs_le]
      have a1 : ((-127 : ℤ) : ℚ) ≤ J := by exact_mod_cast j1
      have a2 : (J : ℚ) ≤ ((128 : ℤ) : ℚ) := by exact_mod_cast j2
      push_cast at a1 a2
      constructor <;> linarith
    constructor
    · rw [abs_mul, abs_of_nonneg logf_consts.2.2.2.2.1]
      have := logf_consts.2.2.2.2.2.1
      nlinarith [abs_nonneg (J : ℚ)]
    · rw [abs_mul, show |(355 / 512 : ℚ)| = 355 / 512 by norm_num]; linarith
  have e1 : logfV logfTop K = sumZ 23 47647293440 14581891 28464537600 1247015424 5895198208 K * p2 (-36) := by
    unfold logfV
    obtain ⟨k1, k2⟩ := kb K h1 (by omega)
    have c1 := small _ _ s12 (by rw [abs_of_nonneg (by norm_num)]; norm_num)
    have c2 := small _ _ s3 (by rw [abs_of_nonneg (by norm_num)]; norm_num)
    have c3 := small _ _ s4 (by rw [abs_of_nonneg (by norm_num)]; norm_num)
    rw [← s2] at c1 s12
    exact sumQ_scaled b32 36 (by decide) s11 (by decide) (by rw [s10]; norm_num) (by rw [s9]; norm_num) (by rw [s12]; norm_num)
      (by rw [s3]; norm_num) (by rw [s4]; norm_num) c1 c2 c3 k1 k2
  have e2 : logfV logfBot (K + 1) = sumZ 23 47647293440 14581891 (-20127465472) (-741287040) 2947598592 (K + 1) * p2 (-36) := by
    unfold logfV
    obtain ⟨k1, k2⟩ := kb (K + 1) (by omega) (by omega)
    have c1 := small _ _ s13 (by rw [abs_of_nonpos (by norm_num)]; norm_num)
    have c2 := small _ _ s7 (by rw [abs_of_nonpos (by norm_num)]; norm_num)
    have c3 := small _ _ s8 (by rw [abs_of_nonneg (by norm_num)]; norm_num)
    rw [← s6] at c1 s13
    exact sumQ_scaled b32 36 (by decide) s11 (by decide) (by rw [s10]; norm_num) (by rw [s9]; norm_num) (by rw [s13]; norm_num)
      (by rw [s7]; norm_num) (by rw [s8]; norm_num) c1 c2 c3 k1 k2
  rw [e1, e2]
  exact mul_le_mul_of_nonneg_right (by exact_mod_cast key) hp.le

/-- A reduced argument: an even multiple of `2^-24` if it is positive. -/
def LogfArg (z : F32) (N : ℤ) : Prop :=
  z.isFinite = true ∧ z.val = N * (1 / 2 ^ 24) ∧ (0 ≤ N → 2 ∣ N) ∧ -4913932 ≤ N ∧ N ≤ 6949350

theorem logfTop_arg : LogfArg logfTop 6949350 := by
  obtain ⟨s1, s2, -⟩ := logfTop_spec
  exact ⟨s1, by rw [s2]; norm_num, fun _ => by norm_num, by norm_num, le_rfl⟩

theorem logfBot_arg : LogfArg logfBot (-4913932) := by
  obtain ⟨-, -, -, -, s1, s2, -⟩ := logfTop_spec
  exact ⟨s1, by rw [s2]; norm_num, fun h => absurd h (by norm_num), le_rfl, by norm_num⟩

theorem logfV_args {z z' : F32} {N N' K : ℤ} (h : LogfArg z N) (h' : LogfArg z' N') (hN : N < N') (hK : |K| ≤ 1025) :
    logfV z K ≤ logfV z' K := by
  obtain ⟨a1, a2, a3, a4, a5⟩ := h
  obtain ⟨b1, b2, b3, b4, b5⟩ := h'
  have hu : b32.u = 1 / 2 ^ 24 := logf_consts.2.2.2.2.2.2.2.2.1
  have hup : (0 : ℚ) < 1 / 2 ^ 24 := by positivity
  have q : ∀ m n : ℤ, m ≤ n → (m : ℚ) * (1 / 2 ^ 24) ≤ n * (1 / 2 ^ 24) := fun m n h =>
    mul_le_mul_of_nonneg_right (by exact_mod_cast h) hup.le
  have q' : ∀ m n : ℤ, (m : ℚ) * (1 / 2 ^ 24) ≤ n * (1 / 2 ^ 24) → m ≤ n := fun m n h => by
    have := le_of_mul_le_mul_right h hup
    exact_mod_cast this
  refine logfV_order a1 b1 hK ?_ ?_ ?_ ?_ ?_ ?_ ?_
  · rw [a2]
    have := q _ _ a4
    norm_num at this ⊢
    linarith
  · rw [a2, b2]
    exact mul_lt_mul_of_pos_right (by exact_mod_cast hN) hup
  · rw [b2]
    have := q _ _ b5
    norm_num at this ⊢
    linarith
  · intro _
    have := q (N + 1) N' (by omega)
    rw [a2, b2, hu]; push_cast at this; linarith
  · intro h0
    have h1 : 0 ≤ N := q' 0 N (by rw [← a2]; simpa using h0)
    have d1 := a3 h1
    have d2 := b3 (by omega)
    have := q (N + 2) N' (by omega)
    rw [a2, b2, hu]; push_cast at this; linarith
  · intro h0
    have h1 : N < 0 := by
      by_contra hc
      have := q 0 N (by omega)
      rw [← a2] at this; push_cast at this; linarith
    have := q N (-1) (by omega)
    rw [a2, hu]; push_cast at this; linarith
  · intro h0
    have h1 : 0 < N' := by
      by_contra hc
      have := q N' 0 (by omega)
      rw [← b2] at this; push_cast at this; linarith
    have d2 := b3 (by omega)
    have := q 2 N' (by omega)
    rw [b2, hu]; push_cast at this; linarith

theorem logfV_le_top {z : F32} {N K : ℤ} (h : LogfArg z N) (hK : |K| ≤ 1025) : logfV z K ≤ logfV logfTop K := by
  rcases h.2.2.2.2.lt_or_eq with hl | he
  · exact logfV_args h logfTop_arg hl hK
  · have e : z.val = logfTop.val := by rw [h.2.1, logfTop_arg.2.1, he]
    rw [eq_of_val_ne (by rw [h.2.1, he]; norm_num) e]

theorem logfV_ge_bot {z : F32} {N K : ℤ} (h : LogfArg z N) (hK : |K| ≤ 1025) : logfV logfBot K ≤ logfV z K := by
  rcases h.2.2.2.1.lt_or_eq with hl | he
  · exact logfV_args logfBot_arg h hl hK
  · have e : logfBot.val = z.val := by rw [h.2.1, logfBot_arg.2.1, he]
    rw [eq_of_val_ne (by rw [logfBot_arg.2.1]; norm_num) e]

theorem logfV_chain {K : ℤ} (h1 : -127 ≤ K) : ∀ n : ℕ, K + n + 1 ≤ 128 → logfV logfTop K ≤ logfV logfBot (K + n + 1)
  | 0, h => by
    have := logfV_boundary h1 (by push_cast at h; omega)
    simpa using this
  | n + 1, h => by
    push_cast at h
    have a := logfV_chain h1 n (by omega)
    have b := logfV_le_top (z := logfBot) (K := K + n + 1) logfBot_arg (by rw [abs_le]; omega)
    have c := logfV_boundary (K := K + n + 1) (by omega) (by omega)
    have e : K + ((n + 1 : ℕ) : ℤ) + 1 = K + n + 1 + 1 := by push_cast; ring
    rw [e]
    exact a.trans (b.trans c)

theorem logfN_bounds (c : ℕ) : (0 ≤ logfN c → 2 ∣ logfN c) ∧ -4913932 ≤ logfN c ∧ logfN c ≤ 6949350 := by
  have hF := Nat.mod_lt c (show 2 ^ 23 > 0 by norm_num)
  unfold logfN sqrthfF
  generalize c % 2 ^ 23 = F at *
  split_ifs with h
  · refine ⟨fun _ => ⟨_, rfl⟩, ?_, ?_⟩ <;> omega
  · norm_num at hF ⊢
    refine ⟨fun h2 => absurd h2 ?_, ?_, ?_⟩ <;> omega

theorem logfK_bounds {c : ℕ} (h : c / 2 ^ 23 ≤ 254) : -127 ≤ logfK c ∧ logfK c ≤ 128 := by
  unfold logfK; split_ifs <;> omega

/-- The order of the bit patterns is the lexicographic order of exponent and reduced argument. -/
theorem logfK_order {c d : ℕ} (h : c < d) : logfK c < logfK d ∨ (logfK c = logfK d ∧ logfN c < logfN d) := by
  have hF := Nat.mod_lt c (show 2 ^ 23 > 0 by norm_num)
  have hG := Nat.mod_lt d (show 2 ^ 23 > 0 by norm_num)
  have e1 := Nat.div_add_mod c (2 ^ 23)
  have e2 := Nat.div_add_mod d (2 ^ 23)
  unfold logfK logfN
  generalize c % 2 ^ 23 = F at *
  generalize d % 2 ^ 23 = G at *
  generalize c / 2 ^ 23 = E at *
  generalize d / 2 ^ 23 = E' at *
  norm_num at *
  split_ifs <;> omega

/-- The result on the finite numbers up to the limit. -/
theorem fast_logf_value {x : F32} (hs : x.sign = false) (hf : x.isFinite = true) (h1 : FP.gt x LOGF_UPPER_LIMIT = false) :
    ∃ z, LogfArg z (logfN x.mag) ∧ (fast_logf x).isFinite = true ∧ (fast_logf x).val = logfV z (logfK x.mag) := by
  have hE : x.mag / 2 ^ 23 ≤ 254 := by
    have h : x.mag < b32.infMag := by simpa [FP.isFinite] using hf
    rw [show b32.infMag = 255 * 2 ^ 23 by decide] at h
    omega
  have h2 : FP.lt x LOGF_LOWER_LIMIT = false := by
    have c : LOGF_LOWER_LIMIT.isFinite = true ∧ LOGF_LOWER_LIMIT.val = 0 := by decide +kernel
    rw [lt_fin hf c.1, c.2]
    have : ¬ x.val < 0 := fun h => by have := (val_neg_iff.1 h).1; rw [hs] at this; cases this
    simpa using this
  obtain ⟨b1, b2, b3, b4⟩ := logfBlend_bits hs hE
  obtain ⟨n1, n2, n3⟩ := logfN_bounds x.mag
  obtain ⟨k1, k2⟩ := logfK_bounds hE
  have hz : LogfArg _ (logfN x.mag) := ⟨b1, b3, n1, n2, n3⟩
  refine ⟨_, hz, ?_⟩
  rw [fast_logf_eq h1 h2]
  have l : (-0.293 : ℚ) ≤ logfN x.mag * (1 / 2 ^ 24) := by
    have : ((-4913932 : ℤ) : ℚ) ≤ logfN x.mag := by exact_mod_cast n2
    push_cast at this; norm_num; linarith
  have r : logfN x.mag * (1 / 2 ^ 24) ≤ (0.4143 : ℚ) := by
    have : (logfN x.mag : ℚ) ≤ ((6949350 : ℤ) : ℚ) := by exact_mod_cast n3
    push_cast at this; norm_num; linarith
  have P := logfCore_parts b1 b2 b4 (by rw [abs_le]; omega) (by rw [b3]; exact l) (by rw [b3]; exact r)
  exact ⟨P.1, P.2.1⟩

/-- Two finite arguments. -/
theorem fast_logf_order {x y : F32} (hx : x.sign = false) (hy : y.sign = false) (hfy : y.isFinite = true)
    (h1 : FP.gt y LOGF_UPPER_LIMIT = false) (h : x.mag ≤ y.mag) : FP.le (fast_logf x) (fast_logf y) = true := by
  have hfx : x.isFinite = true := by
    have h' : y.mag < b32.infMag := by simpa [FP.isFinite] using hfy
    simpa [FP.isFinite] using lt_of_le_of_lt h h'
  have cu : LOGF_UPPER_LIMIT.isFinite = true := by decide +kernel
  have hv : x.val ≤ y.val := by
    unfold FP.val; rw [hx, hy]; simp only [Bool.false_eq_true, if_false]; exact magVal_le.2 h
  have h1' : FP.gt x LOGF_UPPER_LIMIT = false := by
    rw [gt_fin hfy cu] at h1
    rw [gt_fin hfx cu]
    simp only [decide_eq_false_iff_not, not_lt] at h1 ⊢
    exact hv.trans h1
  obtain ⟨z, z1, z2, z3⟩ := fast_logf_value hx hfx h1'
  obtain ⟨w, w1, w2, w3⟩ := fast_logf_value hy hfy h1
  rw [le_fin z2 w2]
  apply decide_eq_true
  rcases h.lt_or_eq with hl | he
  · have B : ∀ c, c ≤ y.mag → c / 2 ^ 23 ≤ 254 := by
      intro c hc
      have h' : y.mag < b32.infMag := by simpa [FP.isFinite] using hfy
      rw [show b32.infMag = 255 * 2 ^ 23 by decide] at h'
      omega
    obtain ⟨k1, k2⟩ := logfK_bounds (B _ h)
    obtain ⟨j1, j2⟩ := logfK_bounds (B _ le_rfl)
    rw [z3, w3]
    rcases logfK_order hl with hk | ⟨hk, hn⟩
    · obtain ⟨n, hn⟩ : ∃ n : ℕ, logfK y.mag = logfK x.mag + n + 1 := ⟨(logfK y.mag - logfK x.mag - 1).toNat, by omega⟩
      have a := logfV_le_top z1 (K := logfK x.mag) (by rw [abs_le]; omega)
      have b := logfV_chain k1 n (by omega)
      rw [← hn] at b
      exact a.trans (b.trans (logfV_ge_bot w1 (by rw [abs_le]; omega)))
    · rw [← hk]
      exact logfV_args z1 w1 hn (by rw [abs_le]; omega)
  · have : x = y := by
      cases x; cases y; simp only at hx hy he; subst hx hy he; rfl
    rw [this]

end Vdt
