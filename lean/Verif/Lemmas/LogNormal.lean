import Verif.Lemmas.LogDouble

/-! # `fast_log` on the positive normal numbers -/

namespace Vdt
open FP details

/-- Size of the exponent of a number between `2^-1022` and `2^1024`. -/
theorem exponent_bound {m x : ℚ} {k : ℤ} {A B : ℤ} (h1 : 1 / 2 ≤ m) (h2 : m < 1) (h : x = m * 2 ^ (k + 1))
    (ha : (2 : ℚ) ^ A ≤ x) (hb : x < 2 ^ B) : A ≤ k ∧ k < B := by
  have hp : (0 : ℚ) < 2 ^ (k + 1) := by positivity
  constructor
  · have : (2 : ℚ) ^ A < 2 ^ (k + 1) := by nlinarith
    have := (zpow_lt_zpow_iff_right₀ (by norm_num : (1 : ℚ) < 2)).1 this
    omega
  · have e : (2 : ℚ) ^ (k + 1) = 2 * 2 ^ k := by rw [zpow_add₀ (by norm_num)]; ring
    have : (2 : ℚ) ^ k < 2 ^ B := by rw [e] at h; nlinarith [show (0 : ℚ) < 2 ^ k by positivity]
    exact (zpow_lt_zpow_iff_right₀ (by norm_num : (1 : ℚ) < 2)).1 this

/-- Without the limits. -/
theorem fast_log_eq {x : F64} (h1 : FP.gt x LOG_UPPER_LIMIT = false) (h2 : FP.lt x LOG_LOWER_LIMIT = false) :
    fast_log x = logCore (logBlend (getMantExponent x).1 (getMantExponent x).2).1
      (logBlend (getMantExponent x).1 (getMantExponent x).2).2 := by
  unfold fast_log
  simp only [h1, h2, Bool.false_eq_true, if_false]

theorem fast_logC_eq (p : Policy) {x : F64} (h1 : FP.gt x LOG_UPPER_LIMIT = false) (h2 : FP.lt x LOG_LOWER_LIMIT = false) :
    fast_logC p x = logCoreC p (logBlend (getMantExponent x).1 (getMantExponent x).2).1
      (logBlend (getMantExponent x).1 (getMantExponent x).2).2 := by
  unfold fast_logC
  simp only [h1, h2, Bool.false_eq_true, if_false]

theorem logCore_plain (z fe : F64) : logCoreC (fun _ => false) z fe = logCore z fe := by
  plain [logCoreC, get_log_pxC, get_log_qxC, logCore, get_log_px, get_log_qx]

theorem logBlend_eq (m fe : F64) : logBlend m fe =
    ((if FP.gt m SQRTH then (m, fe + lit 1) else (m + m, fe)).1 - lit 1,
      (if FP.gt m SQRTH then (m, fe + lit 1) else (m + m, fe)).2) := by
  unfold logBlend
  rw [show (lit 1.0 : F64) = lit 1 by decide +kernel]

/-- The result for a mantissa and an exponent. -/
theorem logC_of_split (p : Policy) {m fe : F64} {k : ℤ} (m1 : m.isFinite = true) (m2 : fe.isFinite = true) (m3 : 1 / 2 ≤ m.val)
    (m4 : m.val < 1) (m6 : fe.val = k) (hk : |k| ≤ 1090) (hne : m.val * 2 ^ (k + 1) ≠ 1) :
    (logCoreC p (logBlend m fe).1 (logBlend m fe).2).isFinite = true ∧
    |(logCoreC p (logBlend m fe).1 (logBlend m fe).2).real - Real.log (m.real * 2 ^ (k + 1))| ≤
      1 / 2 ^ 51 * |Real.log (m.real * 2 ^ (k + 1))| := by
  have cs : SQRTH.isFinite = true ∧ 0.7070 ≤ SQRTH.val ∧ SQRTH.val ≤ 0.70715 ∧ (lit 1 : F64).isFinite = true ∧
    (lit 1 : F64).val = 1 ∧ 2000 ≤ b64.big ∧ b64.u = 1 / 2 ^ 53 := by decide +kernel
  obtain ⟨c1, c2, c3, c4, c5, c6, c11⟩ := cs
  have B := blend_spec (c := SQRTH) (one := lit 1) m1 m2 m3 m4 m6 hk (by decide) (by decide) c6 c1 c2 c3 c4 c5
  obtain ⟨B1, B2, K, B3, B4, B5, B6, B7, B8⟩ := B
  rw [logBlend_eq]
  obtain ⟨r, hr⟩ : ∃ r, r = if FP.gt m SQRTH then (m, fe + lit 1) else (m + m, fe) := ⟨_, rfl⟩
  rw [← hr] at B1 B2 B3 B5 B6 B7 B8 ⊢
  show (logCoreC p (r.1 - lit 1) r.2).isFinite = true ∧ |(logCoreC p (r.1 - lit 1) r.2).real - _| ≤ _
  clear hr
  generalize r.1 - lit 1 = z at *
  rw [B7] at hne
  have hlog : Real.log (m.real * 2 ^ (k + 1)) = Real.log (1 + z.real) + K * Real.log 2 := by
    have h5 : m.real * 2 ^ (k + 1) = (1 + z.real) * 2 ^ K := by
      have h7 := congrArg (fun q : ℚ => (q : ℝ)) B7
      push_cast at h7
      exact h7
    have h6 : 0 < 1 + z.real := by
      have : (0 : ℚ) < 1 + z.val := by linarith
      unfold FP.real; exact_mod_cast this
    rw [h5, Real.log_mul h6.ne' (by positivity), Real.log_zpow]
  have F := logCoreC_acc p B1 B2 B3 B4 B5 B6 B8 (by
    rintro ⟨e1, e2⟩
    apply hne
    rw [e1, e2]; norm_num)
  refine ⟨F.1, ?_⟩
  rw [hlog]
  refine F.2.trans (le_of_eq ?_)
  rw [c11]; push_cast
  exact congrArg (· * _) (by norm_num)

/-- The same without fused operations. -/
theorem log_of_split {m fe : F64} {k : ℤ} (m1 : m.isFinite = true) (m2 : fe.isFinite = true) (m3 : 1 / 2 ≤ m.val)
    (m4 : m.val < 1) (m6 : fe.val = k) (hk : |k| ≤ 1090) (hne : m.val * 2 ^ (k + 1) ≠ 1) :
    (logCore (logBlend m fe).1 (logBlend m fe).2).isFinite = true ∧
    |(logCore (logBlend m fe).1 (logBlend m fe).2).real - Real.log (m.real * 2 ^ (k + 1))| ≤
      1 / 2 ^ 51 * |Real.log (m.real * 2 ^ (k + 1))| := by
  rw [← logCore_plain]
  exact logC_of_split _ m1 m2 m3 m4 m6 hk hne

/-- fast_log on positive normal numbers other than one. -/
theorem logC_acc (p : Policy) {x : F64} (hn : x.Normal) (hs : x.sign = false) (h1 : x.val ≤ 10 ^ 307) (hne : x.val ≠ 1) :
    (fast_logC p x).isFinite = true ∧ |(fast_logC p x).real - Real.log x.real| ≤ 1 / 2 ^ 51 * |Real.log x.real| := by
  obtain ⟨m1, m2, m3, m4, m5, k, m6, m7⟩ := C33_getMantExponent_partial x hn hs
  have hb := (normal_iff64 x).1 hn
  have hxf : x.isFinite = true := hn.1
  obtain ⟨m, hm⟩ : ∃ m, m = (getMantExponent x).1 := ⟨_, rfl⟩
  obtain ⟨fe, hfe⟩ : ∃ fe, fe = (getMantExponent x).2 := ⟨_, rfl⟩
  rw [← hm] at m1 m3 m4 m5 m7
  rw [← hfe] at m2 m6
  have hmp : 0 ≤ m.val := by
    by_contra h; push Not at h
    have := (val_neg_iff.1 h).1
    rw [this, hs] at m5; cases m5
  rw [abs_of_nonneg hmp] at m3 m4
  have hxp : 0 < x.val := by rw [m7]; positivity
  have hu : x.val ≤ LOG_UPPER_LIMIT.val := by
    have h3 := rnd_mono b64 h1
    rw [rnd_exact b64 (val_rep x) (by rw [abs_of_pos hxp]; exact h1.trans (by decide +kernel))] at h3
    exact h3.trans (by decide +kernel)
  have cs : LOG_UPPER_LIMIT.isFinite = true ∧ LOG_UPPER_LIMIT.val < 2 ^ (1024 : ℤ) ∧
    LOG_LOWER_LIMIT.isFinite = true ∧ LOG_LOWER_LIMIT.val = 0 := by decide +kernel
  obtain ⟨c7, c8, c9, c10⟩ := cs
  have hk : |k| ≤ 1090 := by
    have hlo : (2 : ℚ) ^ (-1022 : ℤ) ≤ x.val := by
      have := hn.2
      rw [abs_of_pos hxp] at this
      exact this
    have := exponent_bound m3 m4 m7 hlo (lt_of_le_of_lt hu c8)
    rw [abs_le]; omega
  have g1 : FP.gt x LOG_UPPER_LIMIT = false := by rw [gt_fin hxf c7]; simpa using hu
  have g2 : FP.lt x LOG_LOWER_LIMIT = false := by rw [lt_fin hxf c9, c10]; simpa using hxp.le
  rw [fast_logC_eq p g1 g2, ← hm, ← hfe]
  have e : x.real = m.real * 2 ^ (k + 1) := by unfold FP.real; rw [m7]; push_cast; rfl
  rw [e]
  exact logC_of_split p m1 m2 m3 m4 m6 hk (by rw [← m7]; exact hne)

end Vdt
