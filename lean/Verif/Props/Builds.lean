import Verif.Props.Contract
import Verif.Props.BitBound
import Mathlib.Analysis.Real.Pi.Irrational

/-!
# C89: two builds of the library

A policy says which products and sums the compiler fuses.  Two builds, for processors with and without fused operations for
instance, use different policies.  Their results have bit patterns at most a few steps apart.
-/

namespace Vdt
open FP details
open Compare (log_ne arcsin_ne arctan_low tanh_low gap_real rel_of_abs)
open Diag (patDist)

theorem real_ne {f : Fmt} {x : FP f} (h : x.val ≠ 0) : x.real ≠ 0 := by unfold FP.real; exact_mod_cast h

theorem sin_ne_zero {f : Fmt} {x : FP f} (h : x.val ≠ 0) : Real.sin x.real ≠ 0 := by
  intro h0
  obtain ⟨n, hn⟩ := Real.sin_eq_zero_iff.1 h0
  have n0 : n ≠ 0 := by
    rintro rfl
    rw [Int.cast_zero, zero_mul] at hn
    exact real_ne h hn.symm
  exact (irrational_pi.intCast_mul n0).ne_rat x.val hn

theorem cos_ne_zero {f : Fmt} (x : FP f) : Real.cos x.real ≠ 0 := by
  intro h0
  obtain ⟨n, hn⟩ := Real.cos_eq_zero_iff.1 h0
  have n0 : (2 * n + 1 : ℤ) ≠ 0 := by omega
  refine (irrational_pi.intCast_mul n0).ne_rat (2 * x.val) ?_
  push_cast
  have : (x.val : ℝ) = x.real := rfl
  rw [this, hn]
  ring

theorem tan_ne_zero {f : Fmt} {x : FP f} (h : x.val ≠ 0) : Real.tan x.real ≠ 0 := by
  rw [Real.tan_eq_sin_div_cos]
  exact div_ne_zero (sin_ne_zero h) (cos_ne_zero x)

/-- Results of a function that need not be defined, at most `m` steps apart. -/
def Within {f : Fmt} (m : ℕ) (a b : Option (FP f)) : Prop := ∃ y z, a = some y ∧ b = some z ∧ patDist y z ≤ m

/-- **C89**, exponential and logarithm. -/
theorem C89_exp (p q : Policy) (x : F64) (hx : x.isFinite = true) (h : |x.val| ≤ 708) : Within 8 (fast_expC p x) (fast_expC q x) := by
  obtain ⟨y, e, -, c⟩ := C75_exp p x hx h
  obtain ⟨z, e', -, c'⟩ := C75_exp q x hx h
  exact ⟨y, z, e, e', patDist_le c c' (Real.exp_pos _).ne' (γ := 2 ^ (-51 : ℤ)) le_rfl le_rfl (by norm_num) (by norm_num)⟩

theorem C89_expf (p q : Policy) (x : F32) (hx : x.isFinite = true) (h1 : -87.25 ≤ x.val) (h2 : x.val ≤ 88.35) :
    Within 8 (fast_expfC p x) (fast_expfC q x) := by
  obtain ⟨y, e, -, c⟩ := C75_expf p x hx h1 h2
  obtain ⟨z, e', -, c'⟩ := C75_expf q x hx h1 h2
  exact ⟨y, z, e, e', patDist_le c c' (Real.exp_pos _).ne' (γ := 2 ^ (-22 : ℤ)) le_rfl le_rfl (by norm_num) (by norm_num)⟩

theorem C89_log (p q : Policy) (x : F64) (hn : x.Normal) (h0 : 0 < x.val) (h1 : x.val ≤ 10 ^ 307) : patDist (fast_logC p x) (fast_logC q x) ≤ 8 := by
  by_cases h : x.val = 1
  · have e : x = lit 1 := eq_of_val_ne (by rw [h]; norm_num) (by rw [h]; decide +kernel)
    rw [e, (C75_log p x hn h0 h1).2, (C75_log q x hn h0 h1).2, patDist_self]; omega
  · exact patDist_le (C75_log p x hn h0 h1).1 (C75_log q x hn h0 h1).1 (log_ne h0 h) (γ := 2 ^ (-51 : ℤ)) le_rfl le_rfl (by norm_num) (by norm_num)

theorem C89_logf (p q : Policy) (x : F32) (hn : x.Normal) (h0 : 0 < x.val) : patDist (fast_logfC p x) (fast_logfC q x) ≤ 8 := by
  by_cases h : x.val = 1
  · have e : x = lit 1 := eq_of_val_ne (by rw [h]; norm_num) (by rw [h]; decide +kernel)
    rw [e, (C75_logf p x hn h0).2, (C75_logf q x hn h0).2, patDist_self]; omega
  · exact patDist_le (C75_logf p x hn h0).1 (C75_logf q x hn h0).1 (log_ne h0 h) (γ := 2 ^ (-22 : ℤ)) le_rfl le_rfl (by norm_num) (by norm_num)

/-- Sine, cosine and tangent: steps for small arguments, and an absolute difference for large ones, which includes the neighbourhoods of the zeros. -/
theorem C89_sincos (p q : Policy) (x : F64) (hx : x.isFinite = true) :
    (|x.val| ≤ 2 ^ 27 → ∃ s c s' c', fast_sincosC p x = some (s, c) ∧ fast_sincosC q x = some (s', c') ∧
      |s.real - s'.real| ≤ 2 ^ (-50 : ℤ) ∧ |c.real - c'.real| ≤ 2 ^ (-50 : ℤ)) ∧
    (|x.val| ≤ 32 → ∃ s c s' c', fast_sincosC p x = some (s, c) ∧ fast_sincosC q x = some (s', c') ∧
      (x.val ≠ 0 → patDist s s' ≤ 64) ∧ patDist c c' ≤ 64) := by
  constructor
  · intro h
    obtain ⟨s, c, e, a, b, -⟩ := C76_sincos p x hx h
    obtain ⟨s', c', e', a', b', -⟩ := C76_sincos q x hx h
    refine ⟨s, c, s', c', e, e', ?_, ?_⟩
    · have := abs_sub_le s.real (Real.sin x.real) s'.real
      have h1 := a.2
      have h2 := a'.2
      rw [abs_sub_comm] at h2
      refine this.trans ((add_le_add h1 h2).trans ?_); norm_num
    · have := abs_sub_le c.real (Real.cos x.real) c'.real
      have h1 := b.2
      have h2 := b'.2
      rw [abs_sub_comm] at h2
      refine this.trans ((add_le_add h1 h2).trans ?_); norm_num
  · intro h
    obtain ⟨s, c, e, a, b⟩ := C76_sincos_to_32 p x hx h
    obtain ⟨s', c', e', a', b'⟩ := C76_sincos_to_32 q x hx h
    exact ⟨s, c, s', c', e, e', fun x0 => patDist_le a a' (sin_ne_zero x0) (γ := 2 ^ (-48 : ℤ)) le_rfl le_rfl (by norm_num) (by norm_num),
      patDist_le b b' (cos_ne_zero x) (γ := 2 ^ (-48 : ℤ)) le_rfl le_rfl (by norm_num) (by norm_num)⟩

theorem C89_sincosf (p q : Policy) (x : F32) (hx : x.isFinite = true) (h : |x.val| ≤ 8192) :
    ∃ s c s' c', fast_sincosfC p x = some (s, c) ∧ fast_sincosfC q x = some (s', c') ∧
      |s.real - s'.real| ≤ 2 ^ (-21 : ℤ) ∧ |c.real - c'.real| ≤ 2 ^ (-21 : ℤ) ∧ (x.val ≠ 0 → patDist s s' ≤ 32800) ∧ patDist c c' ≤ 32800 := by
  obtain ⟨s, c, e, a, b, u, v, -⟩ := C76_sincosf p x hx h
  obtain ⟨s', c', e', a', b', u', v', -⟩ := C76_sincosf q x hx h
  refine ⟨s, c, s', c', e, e', ?_, ?_, fun x0 => patDist_le u u' (sin_ne_zero x0) (γ := 2 ^ (-10 : ℤ)) le_rfl le_rfl (by norm_num) (by norm_num),
    patDist_le v v' (cos_ne_zero x) (γ := 2 ^ (-10 : ℤ)) le_rfl le_rfl (by norm_num) (by norm_num)⟩
  · have := abs_sub_le s.real (Real.sin x.real) s'.real
    have h1 := a.2
    have h2 := a'.2
    rw [abs_sub_comm] at h2
    refine this.trans ((add_le_add h1 h2).trans ?_); norm_num
  · have := abs_sub_le c.real (Real.cos x.real) c'.real
    have h1 := b.2
    have h2 := b'.2
    rw [abs_sub_comm] at h2
    refine this.trans ((add_le_add h1 h2).trans ?_); norm_num

theorem C89_tan (p q : Policy) (x : F64) (hx : x.isFinite = true) (h0 : 2 ^ (-1024 : ℤ) < |x.val|) (h : |x.val| ≤ 32) :
    Within 256 (fast_tanC p x) (fast_tanC q x) := by
  have h8 : |x.val| ≤ 8192 := h.trans (by norm_num)
  have x0 : x.val ≠ 0 := abs_pos.1 (lt_trans (by positivity) h0)
  obtain ⟨y, e, -, b⟩ := C76_tan_relative p x hx h0 h8
  obtain ⟨z, e', -, b'⟩ := C76_tan_relative q x hx h0 h8
  exact ⟨y, z, e, e', patDist_le (b h) (b' h) (tan_ne_zero x0) (γ := 2 ^ (-46 : ℤ)) le_rfl le_rfl (by norm_num) (by norm_num)⟩

theorem C89_tanf (p q : Policy) (x : F32) (hx : x.isFinite = true) (h0 : 2 ^ (-128 : ℤ) < |x.val|) (h : |x.val| ≤ 128) :
    Within 2048 (fast_tanfC p x) (fast_tanfC q x) := by
  have h8 : |x.val| ≤ 8192 := h.trans (by norm_num)
  have x0 : x.val ≠ 0 := abs_pos.1 (lt_trans (by positivity) h0)
  obtain ⟨y, e, -, -, -, b⟩ := C76_tanf p x hx h0 h8
  obtain ⟨z, e', -, -, -, b'⟩ := C76_tanf q x hx h0 h8
  exact ⟨y, z, e, e', patDist_le (b h) (b' h) (tan_ne_zero x0) (γ := 2 ^ (-14 : ℤ)) le_rfl le_rfl (by norm_num) (by norm_num)⟩

/-- Inverse circular functions. -/
theorem C89_asin (p q : Policy) (x : F64) (hx : x.isFinite = true) (h : |x.val| ≤ 1) (x0 : x.val ≠ 0) : patDist (fast_asinC p x) (fast_asinC q x) ≤ 7 := by
  have a := C77_asin p x hx h
  have b := C77_asin q x hx h
  exact patDist_le ⟨a.1, a.2.2.1⟩ ⟨b.1, b.2.2.1⟩ (arcsin_ne x0) (γ := 3.6 * 2 ^ (-53 : ℤ)) le_rfl le_rfl (by norm_num) (by norm_num)

theorem C89_asinf (p q : Policy) (x : F32) (hx : x.isFinite = true) (h : |x.val| ≤ 1) (x0 : x.val ≠ 0) : patDist (fast_asinfC p x) (fast_asinfC q x) ≤ 18 := by
  have a := C77_asinf p x hx h
  have b := C77_asinf q x hx h
  exact patDist_le ⟨a.1, a.2.2.1⟩ ⟨b.1, b.2.2.1⟩ (arcsin_ne x0) (γ := 9.1 * 2 ^ (-24 : ℤ)) le_rfl le_rfl (by norm_num) (by norm_num)

theorem C89_acos (p q : Policy) (x : F64) (hx : x.isFinite = true) (h : |x.val| ≤ 1) : |(fast_acosC p x).real - (fast_acosC q x).real| ≤ 2 ^ (-49 : ℤ) := by
  have h1 := (C77_acos p x hx h).1.2
  have h2 := (C77_acos q x hx h).1.2
  rw [abs_sub_comm] at h2
  refine (abs_sub_le _ (Real.arccos x.real) _).trans ((add_le_add h1 h2).trans ?_); norm_num

theorem C89_acosf (p q : Policy) (x : F32) (hx : x.isFinite = true) (h : |x.val| ≤ 1) : |(fast_acosfC p x).real - (fast_acosfC q x).real| ≤ 2 ^ (-19 : ℤ) := by
  have h1 := (C77_acosf p x hx h).1.2
  have h2 := (C77_acosf q x hx h).1.2
  rw [abs_sub_comm] at h2
  refine (abs_sub_le _ (Real.arccos x.real) _).trans ((add_le_add h1 h2).trans ?_); norm_num

theorem small_part : (2 : ℝ) ^ (-1073 : ℤ) * 2 ^ 65 ≤ 2 ^ (-100 : ℤ) ∧ (2 : ℝ) ^ (-148 : ℤ) * 2 ^ 65 ≤ 2 ^ (-80 : ℤ) ∧ (2 : ℝ) ^ (-145 : ℤ) * 2 ^ 65 ≤ 2 ^ (-80 : ℤ) := by
  refine ⟨?_, by norm_num, by norm_num⟩
  have : (2 : ℝ) ^ (-1073 : ℤ) ≤ 2 ^ (-165 : ℤ) := zpow_le_zpow_right₀ (by norm_num) (by norm_num)
  refine (mul_le_mul_of_nonneg_right this (by positivity)).trans ?_
  norm_num

theorem weaken {f : Fmt} {x : FP f} {r E H K : ℝ} (hf : x.isFinite = true) (h : |x.real - r| ≤ E * |r| + H) (hr : (2 : ℝ)⁻¹ ^ 65 ≤ |r|) (hH : 0 ≤ H)
    (hK : H * 2 ^ 65 ≤ K) : x.CloseRel r (E + K) :=
  ⟨hf, (rel_of_abs h hr hH).trans (mul_le_mul_of_nonneg_right (by linarith) (abs_nonneg _))⟩

theorem C89_atan (p q : Policy) (x : F64) (hx : x.isFinite = true) (h : 2⁻¹ ^ 64 ≤ |x.val|) : patDist (fast_atanC p x) (fast_atanC q x) ≤ 8 := by
  have l := arctan_low (gap_real h)
  have a := C77_atan p x hx
  have b := C77_atan q x hx
  exact patDist_le (weaken a.1 a.2.2 l (by positivity) small_part.1) (weaken b.1 b.2.2 l (by positivity) small_part.1)
    (abs_pos.1 (lt_of_lt_of_le (by positivity) l)) (γ := 2 ^ (-51 : ℤ) + 2 ^ (-100 : ℤ)) le_rfl le_rfl (by norm_num) (by norm_num)

theorem C89_atanf (p q : Policy) (x : F32) (hx : x.isFinite = true) (h : 2⁻¹ ^ 64 ≤ |x.val|) : patDist (fast_atanfC p x) (fast_atanfC q x) ≤ 16 := by
  have l := arctan_low (gap_real h)
  have a := C77_atanf p x hx
  have b := C77_atanf q x hx
  exact patDist_le (weaken a.1 a.2.2 l (by positivity) small_part.2.1) (weaken b.1 b.2.2 l (by positivity) small_part.2.1)
    (abs_pos.1 (lt_of_lt_of_le (by positivity) l)) (γ := 2 ^ (-21 : ℤ) + 2 ^ (-80 : ℤ)) le_rfl le_rfl (by norm_num) (by norm_num)

theorem C89_atan2 (p q : Policy) (y x : F64) (hy : y.isFinite = true) (hx : x.isFinite = true) (h : x.val ≠ 0 ∨ y.val ≠ 0) :
    |(fast_atan2C p y x).real - (fast_atan2C q y x).real| ≤ 2 ^ (-49 : ℤ) ∧ (fast_atan2C p y x).sign = (fast_atan2C q y x).sign := by
  have a := C77_atan2 p y x hy hx h
  have b := C77_atan2 q y x hy hx h
  have h1 := a.2.1
  have h2 := b.2.1
  rw [abs_sub_comm] at h2
  refine ⟨(abs_sub_le _ (Complex.arg ⟨x.real, y.real⟩) _).trans ((add_le_add h1 h2).trans ?_), a.2.2.2.2.1.trans b.2.2.2.2.1.symm⟩
  norm_num

theorem C89_atan2f (p q : Policy) (y x : F32) (hy : y.isFinite = true) (hx : x.isFinite = true) (h : x.val ≠ 0 ∨ y.val ≠ 0) :
    |(fast_atan2fC p y x).real - (fast_atan2fC q y x).real| ≤ 2 ^ (-19 : ℤ) ∧ (fast_atan2fC p y x).sign = (fast_atan2fC q y x).sign := by
  have a := C77_atan2f p y x hy hx h
  have b := C77_atan2f q y x hy hx h
  have h1 := a.2.1
  have h2 := b.2.1
  rw [abs_sub_comm] at h2
  refine ⟨(abs_sub_le _ (Complex.arg ⟨x.real, y.real⟩) _).trans ((add_le_add h1 h2).trans ?_), a.2.2.2.2.1.trans b.2.2.2.2.1.symm⟩
  norm_num

/-- Hyperbolic tangent. -/
theorem C89_tanh (p q : Policy) (x : F64) (hx : x.isFinite = true) (h : 2 ^ (-1000 : ℤ) ≤ |x.val|) : patDist (fast_tanhC p x) (fast_tanhC q x) ≤ 31 := by
  have x0 : x.val ≠ 0 := abs_pos.1 (lt_of_lt_of_le (by positivity) h)
  have a := ((C78_tanh p x).2.2 hx).2 h
  have b := ((C78_tanh q x).2.2 hx).2 h
  have t0 : Real.tanh x.real ≠ 0 := by
    rw [Real.tanh_eq_sinh_div_cosh]
    exact div_ne_zero (fun e => real_ne x0 (Real.sinh_eq_zero.1 e)) (Real.cosh_pos _).ne'
  exact patDist_le a b t0 (γ := 15.7 * 2 ^ (-53 : ℤ)) le_rfl le_rfl (by norm_num) (by norm_num)

theorem C89_tanhf (p q : Policy) (x : F32) (hx : x.isFinite = true) (h : 2⁻¹ ^ 64 ≤ |x.val|) : patDist (fast_tanhfC p x) (fast_tanhfC q x) ≤ 32 := by
  have l := tanh_low (gap_real h)
  have fn : ∀ p, (fast_tanhfC p x).isFinite = true := fun p => ((C78_tanhf p x).2.1 (finite_not_nan hx)).1
  exact patDist_le (weaken (fn p) ((C78_tanhf p x).2.2 hx) l (by positivity) small_part.2.2) (weaken (fn q) ((C78_tanhf q x).2.2 hx) l (by positivity) small_part.2.2)
    (abs_pos.1 (lt_of_lt_of_le (by positivity) l)) (γ := 2 ^ (-20 : ℤ) + 2 ^ (-80 : ℤ)) le_rfl le_rfl (by norm_num) (by norm_num)

/-- Reciprocal square root and reciprocal. -/
theorem C89_isqrt (p q : Policy) (x : F64) (hx : x.Normal) (h0 : 0 < x.val) :
    patDist (fast_isqrt_generalC p x 4) (fast_isqrt_generalC q x 4) ≤ 16 ∧ patDist (fast_isqrt_generalC p x 3) (fast_isqrt_generalC q x 3) ≤ 2 ^ 20 := by
  have a := C79_isqrt p x hx h0
  have b := C79_isqrt q x hx h0
  have r0 : 1 / Real.sqrt x.real ≠ 0 := by
    have : 0 < x.real := by unfold FP.real; exact_mod_cast h0
    positivity
  exact ⟨patDist_le a.1 b.1 r0 (γ := (2 : ℝ)⁻¹ ^ 50) le_rfl le_rfl (by norm_num) (by norm_num),
    patDist_le a.2 b.2 r0 (γ := (2 : ℝ)⁻¹ ^ 34) le_rfl le_rfl (by norm_num) (by norm_num)⟩

theorem C89_isqrtf (p q : Policy) (x : F32) (hx : x.Normal) (h0 : 0 < x.val) :
    patDist (fast_isqrtf_generalC p x 2) (fast_isqrtf_generalC q x 2) ≤ 256 ∧ patDist (fast_isqrtf_generalC p x 1) (fast_isqrtf_generalC q x 1) ≤ 66000 := by
  have a := C79_isqrtf p x hx h0
  have b := C79_isqrtf q x hx h0
  have r0 : 1 / Real.sqrt x.real ≠ 0 := by
    have : 0 < x.real := by unfold FP.real; exact_mod_cast h0
    positivity
  exact ⟨patDist_le a.1 b.1 r0 (γ := (2 : ℝ)⁻¹ ^ 17) le_rfl le_rfl (by norm_num) (by norm_num),
    patDist_le a.2 b.2 r0 (γ := (2 : ℝ)⁻¹ ^ 9) le_rfl le_rfl (by norm_num) (by norm_num)⟩

theorem C89_inv (p q : Policy) (x : F64) (hx : x.Normal) (hr : (2 : ℚ) ^ (-1022 : ℤ) ≤ |x.val|⁻¹) :
    patDist (fast_inv_generalC p x 4) (fast_inv_generalC q x 4) ≤ 32 ∧ patDist (fast_inv_generalC p x 3) (fast_inv_generalC q x 3) ≤ 2 ^ 21 := by
  have a := C79_inv p x hx hr
  have b := C79_inv q x hx hr
  have r0 : 1 / x.real ≠ 0 := one_div_ne_zero (real_ne (abs_pos.1 (lt_of_lt_of_le (by positivity) hx.2)))
  exact ⟨patDist_le a.1.1 b.1.1 r0 (γ := (2 : ℝ)⁻¹ ^ 49) le_rfl le_rfl (by norm_num) (by norm_num),
    patDist_le a.2.1 b.2.1 r0 (γ := (2 : ℝ)⁻¹ ^ 33) le_rfl le_rfl (by norm_num) (by norm_num)⟩

theorem C89_invf (p q : Policy) (x : F32) (hx : x.Normal) (hr : (2 : ℚ) ^ (-126 : ℤ) ≤ |x.val|⁻¹) :
    patDist (fast_invf_generalC p x 2) (fast_invf_generalC q x 2) ≤ 512 ∧ patDist (fast_invf_generalC p x 1) (fast_invf_generalC q x 1) ≤ 132000 := by
  have a := C79_invf p x hx hr
  have b := C79_invf q x hx hr
  have r0 : 1 / x.real ≠ 0 := one_div_ne_zero (real_ne (abs_pos.1 (lt_of_lt_of_le (by positivity) hx.2)))
  exact ⟨patDist_le a.1.1 b.1.1 r0 (γ := (2 : ℝ)⁻¹ ^ 16) le_rfl le_rfl (by norm_num) (by norm_num),
    patDist_le a.2.1 b.2.1 r0 (γ := (2 : ℝ)⁻¹ ^ 8) le_rfl le_rfl (by norm_num) (by norm_num)⟩

/-- Builds do differ: one step for `exp(382/3)`, `tanh(31/37)` and `sin(427/3)` between no fused operation and all of them. -/
example : |(lit (382 / 3) : F64).val| ≤ 708 ∧ (lit (382 / 3) : F64).isFinite = true ∧ fast_expC (fun _ => true) (lit (382 / 3)) ≠ fast_expC (fun _ => false) (lit (382 / 3)) ∧
    p2 (-1000) ≤ |(lit (31 / 37) : F64).val| ∧ patDist (fast_tanhC (fun _ => true) (lit (31 / 37))) (fast_tanhC (fun _ => false) (lit (31 / 37))) = 1 ∧
    |(lit (427 / 3) : F64).val| ≤ 2 ^ 27 ∧ fast_sincosC (fun _ => true) (lit (427 / 3)) ≠ fast_sincosC (fun _ => false) (lit (427 / 3)) := by decide +kernel

end Vdt
