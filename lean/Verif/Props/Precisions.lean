import Verif.Props.Contract

/-!
# The float functions and the double functions agree (C94)

A float argument is handed to the single precision function and, converted to a double, to the double precision function.
`p` and `q` say which products and sums are fused in the two.
-/

namespace Vdt
open FP details

/-- The conversion of a float to a double is exact. -/
theorem widen {x : F32} (hx : x.isFinite = true) :
    (convert b64 x).isFinite = true ∧ (convert b64 x).val = x.val ∧ (convert b64 x).real = x.real := by
  have hlt : |x.val| < p2 128 := by
    rw [abs_val]
    simp only [isFinite, decide_eq_true_eq] at hx
    exact lt_of_lt_of_le (magVal_lt.2 hx) (by decide +kernel)
  have h : |x.val| ≤ b64.big := hlt.le.trans (by decide +kernel)
  have hr : Rep b64 x.val := by
    obtain ⟨n, k, h1, h2, h3⟩ := val_rep x
    exact ⟨n, k, h1, h2.trans (by norm_num), le_trans (by decide) h3⟩
  have hv : (convert b64 x).val = x.val := by
    unfold convert
    rw [if_neg (by simp [finite_not_nan hx]), if_neg (by simp [finite_not_inf hx]), val_ofRat, rnd_exact b64 hr h]
  refine ⟨?_, hv, by unfold FP.real; rw [hv]⟩
  unfold convert
  rw [if_neg (by simp [finite_not_nan hx]), if_neg (by simp [finite_not_inf hx])]
  exact finite_ofRat _ h

/-- A normal float is a normal double, with a normal reciprocal. -/
theorem widen_normal {x : F32} (hx : x.Normal) : (convert b64 x).Normal ∧ (2 : ℚ) ^ (-1022 : ℤ) ≤ |(convert b64 x).val|⁻¹ ∧
    (convert b64 x).val ≤ 10 ^ 307 := by
  obtain ⟨f, v, -⟩ := widen hx.1
  have hlt : |x.val| ≤ p2 128 := by
    have h := hx.1
    rw [abs_val]
    simp only [isFinite, decide_eq_true_eq] at h
    exact (magVal_le.2 h.le).trans (by decide +kernel)
  have h0 : 0 < |x.val| := lt_of_lt_of_le (by positivity) hx.2
  refine ⟨⟨f, by rw [v]; exact le_trans (by decide +kernel) hx.2⟩, ?_, ?_⟩
  · rw [v, le_inv_comm₀ (by positivity) h0]
    exact hlt.trans (by decide +kernel)
  · rw [v]; exact ((le_abs_self _).trans hlt).trans (by decide +kernel)

theorem agree_rel {f g : Fmt} {y : FP f} {z : FP g} {r ε δ : ℝ} (hy : CloseRel y r ε) (hz : CloseRel z r δ) (h0 : 0 ≤ ε) (h1 : 0 ≤ δ)
    (h2 : ε + 2 * δ ≤ 1) : CloseRel y z.real (ε + 2 * δ) := by
  refine ⟨hy.1, ?_⟩
  have a := hy.2
  have b := hz.2
  have t := abs_add_le (y.real - r) (r - z.real)
  rw [sub_add_sub_cancel, abs_sub_comm r] at t
  have t2 := abs_add_le (r - z.real) z.real
  rw [sub_add_cancel, abs_sub_comm r] at t2
  have k : |r| * (1 - δ) ≤ |z.real| := by linarith
  have k2 : (ε + δ) * |r| ≤ (ε + 2 * δ) * (|r| * (1 - δ)) := by nlinarith [mul_nonneg h1 (abs_nonneg r)]
  have k3 := mul_le_mul_of_nonneg_left k (by linarith : 0 ≤ ε + 2 * δ)
  linarith

theorem agree_abs {f g : Fmt} {y : FP f} {z : FP g} {r ε δ : ℝ} (hy : CloseAbs y r ε) (hz : CloseAbs z r δ) : CloseAbs y z.real (ε + δ) := by
  refine ⟨hy.1, ?_⟩
  have t := abs_add_le (y.real - r) (r - z.real)
  rw [sub_add_sub_cancel, abs_sub_comm r] at t
  linarith [hy.2, hz.2]

theorem agree_mixed {f g : Fmt} {y : FP f} {z : FP g} {r ε δ a b : ℝ} (hy : |y.real - r| ≤ ε * |r| + a) (hz : |z.real - r| ≤ δ * |r| + b)
    (h0 : 0 ≤ ε) (h1 : 0 ≤ δ) (hb : 0 ≤ b) (h2 : ε + 2 * δ ≤ 1) : |y.real - z.real| ≤ (ε + 2 * δ) * |z.real| + (a + 2 * b) := by
  have t := abs_add_le (y.real - r) (r - z.real)
  rw [sub_add_sub_cancel, abs_sub_comm r] at t
  have t2 := abs_add_le (r - z.real) z.real
  rw [sub_add_cancel, abs_sub_comm r] at t2
  have k : |r| * (1 - δ) ≤ |z.real| + b := by linarith
  have k2 : (ε + δ) * |r| ≤ (ε + 2 * δ) * (|r| * (1 - δ)) := by nlinarith [mul_nonneg h1 (abs_nonneg r)]
  have k3 := mul_le_mul_of_nonneg_left k (by linarith : 0 ≤ ε + 2 * δ)
  nlinarith [mul_le_mul_of_nonneg_right h2 hb]

/-- Exponentials: relative distance `2^-22 + 2^-50`. -/
theorem C94_exp (p q : Policy) (x : F32) (hx : x.isFinite = true) (h1 : -87.25 ≤ x.val) (h2 : x.val ≤ 88.35) :
    ∃ y z, fast_expfC p x = some y ∧ fast_expC q (convert b64 x) = some z ∧ CloseRel y z.real (2 ^ (-22 : ℤ) + 2 ^ (-50 : ℤ)) := by
  obtain ⟨wf, wv, wr⟩ := widen hx
  obtain ⟨y, e1, -, Y⟩ := C75_expf p x hx h1 h2
  obtain ⟨z, e2, -, Z⟩ := C75_exp q (convert b64 x) wf (by rw [wv, abs_le]; constructor <;> linarith)
  rw [wr] at Z
  have k := agree_rel Y Z (by positivity) (by positivity) (by norm_num)
  refine ⟨y, z, e1, e2, k.1, k.2.trans (mul_le_mul_of_nonneg_right (by norm_num) (abs_nonneg _))⟩

/-- Logarithms. -/
theorem C94_log (p q : Policy) (x : F32) (hn : x.Normal) (h0 : 0 < x.val) :
    CloseRel (fast_logfC p x) (fast_logC q (convert b64 x)).real (2 ^ (-22 : ℤ) + 2 ^ (-50 : ℤ)) := by
  obtain ⟨-, wv, wr⟩ := widen hn.1
  obtain ⟨w1, -, w3⟩ := widen_normal hn
  obtain ⟨Y, -⟩ := C75_logf p x hn h0
  obtain ⟨Z, -⟩ := C75_log q (convert b64 x) w1 (by rw [wv]; exact h0) w3
  rw [wr] at Z
  have k := agree_rel Y Z (by positivity) (by positivity) (by norm_num)
  exact ⟨k.1, k.2.trans (mul_le_mul_of_nonneg_right (by norm_num) (abs_nonneg _))⟩

/-- Sines and cosines up to 8192. -/
theorem C94_sincos (p q : Policy) (x : F32) (hx : x.isFinite = true) (h : |x.val| ≤ 8192) :
    ∃ s c s' c', fast_sincosfC p x = some (s, c) ∧ fast_sincosC q (convert b64 x) = some (s', c') ∧
      CloseAbs s s'.real (2 ^ (-22 : ℤ) + 2 ^ (-51 : ℤ)) ∧ CloseAbs c c'.real (2 ^ (-22 : ℤ) + 2 ^ (-51 : ℤ)) := by
  obtain ⟨wf, wv, wr⟩ := widen hx
  obtain ⟨s, c, e1, S, C, -⟩ := C76_sincosf p x hx h
  obtain ⟨s', c', e2, S', C', -⟩ := C76_sincos q (convert b64 x) wf (by rw [wv]; exact h.trans (by norm_num))
  rw [wr] at S' C'
  exact ⟨s, c, s', c', e1, e2, agree_abs S S', agree_abs C C'⟩

/-- Tangents up to 8192, and with `2^-14` up to 128. -/
theorem C94_tan (p q : Policy) (x : F32) (hx : x.isFinite = true) (h0 : 2 ^ (-128 : ℤ) < |x.val|) (h : |x.val| ≤ 8192) :
    ∃ y z, fast_tanfC p x = some y ∧ fast_tanC q (convert b64 x) = some z ∧ CloseRel y z.real (2 ^ (-9 : ℤ) + 2 ^ (-36 : ℤ)) ∧
      (|x.val| ≤ 128 → CloseRel y z.real (2 ^ (-14 : ℤ) + 2 ^ (-36 : ℤ))) := by
  obtain ⟨wf, wv, wr⟩ := widen hx
  obtain ⟨y, e1, f1, -, Y, Y'⟩ := C76_tanf p x hx h0 h
  obtain ⟨z, e2, Z, -⟩ := C76_tan_relative q (convert b64 x) wf (by rw [wv]; exact lt_of_le_of_lt (by decide +kernel) h0) (by rw [wv]; exact h)
  rw [wr] at Z
  have k := agree_rel ⟨f1, Y⟩ Z (by positivity) (by positivity) (by norm_num)
  refine ⟨y, z, e1, e2, ⟨k.1, k.2.trans (mul_le_mul_of_nonneg_right (by norm_num) (abs_nonneg _))⟩, fun g => ?_⟩
  have k := agree_rel (Y' g) Z (by positivity) (by positivity) (by norm_num)
  exact ⟨k.1, k.2.trans (mul_le_mul_of_nonneg_right (by norm_num) (abs_nonneg _))⟩

/-- Hyperbolic tangents of all finite floats. -/
theorem C94_tanh (p q : Policy) (x : F32) (hx : x.isFinite = true) :
    |(fast_tanhfC p x).real - (fast_tanhC q (convert b64 x)).real| ≤
      (2 ^ (-20 : ℤ) + 2 ^ (-48 : ℤ)) * |(fast_tanhC q (convert b64 x)).real| + 2 ^ (-144 : ℤ) := by
  obtain ⟨wf, -, wr⟩ := widen hx
  have Y := (C78_tanhf p x).2.2 hx
  have Z := ((C78_tanh q (convert b64 x)).2.2 wf).1
  rw [wr] at Z
  have hb : (2 : ℝ) ^ (-1070 : ℤ) ≤ 2 ^ (-146 : ℤ) := zpow_le_zpow_right₀ (by norm_num) (by norm_num)
  refine (agree_mixed Y Z (by positivity) (by positivity) (by positivity) (by norm_num)).trans (add_le_add (mul_le_mul_of_nonneg_right (by norm_num) (abs_nonneg _)) ?_)
  generalize (2 : ℝ) ^ (-1070 : ℤ) = e at *
  norm_num at hb ⊢
  linarith

/-- Arcsines and arccosines. -/
theorem C94_asin_acos (p q : Policy) (x : F32) (hx : x.isFinite = true) (h : |x.val| ≤ 1) :
    CloseRel (fast_asinfC p x) (fast_asinC q (convert b64 x)).real (2 ^ (-20 : ℤ)) ∧
    CloseAbs (fast_acosfC p x) (fast_acosC q (convert b64 x)).real (2 ^ (-20 : ℤ) + 2 ^ (-50 : ℤ)) := by
  obtain ⟨wf, wv, wr⟩ := widen hx
  have hw : |(convert b64 x).val| ≤ 1 := by rw [wv]; exact h
  obtain ⟨f1, -, Y, -⟩ := C77_asinf p x hx h
  obtain ⟨f2, -, Z, -⟩ := C77_asin q (convert b64 x) wf hw
  rw [wr] at Z
  have k := agree_rel ⟨f1, Y⟩ ⟨f2, Z⟩ (by norm_num) (by norm_num) (by norm_num)
  refine ⟨⟨k.1, k.2.trans (mul_le_mul_of_nonneg_right (by norm_num) (abs_nonneg _))⟩, ?_⟩
  obtain ⟨Y, -⟩ := C77_acosf p x hx h
  obtain ⟨Z, -⟩ := C77_acos q (convert b64 x) wf hw
  rw [wr] at Z
  exact agree_abs Y Z

/-- Arctangents of all finite floats. -/
theorem C94_atan (p q : Policy) (x : F32) (hx : x.isFinite = true) :
    |(fast_atanfC p x).real - (fast_atanC q (convert b64 x)).real| ≤
      (2 ^ (-21 : ℤ) + 2 ^ (-50 : ℤ)) * |(fast_atanC q (convert b64 x)).real| + 2 ^ (-147 : ℤ) := by
  obtain ⟨wf, -, wr⟩ := widen hx
  have Y := (C77_atanf p x hx).2.2
  have Z := (C77_atan q (convert b64 x) wf).2.2
  rw [wr] at Z
  have hb : (2 : ℝ) ^ (-1073 : ℤ) ≤ 2 ^ (-149 : ℤ) := zpow_le_zpow_right₀ (by norm_num) (by norm_num)
  refine (agree_mixed Y Z (by positivity) (by positivity) (by positivity) (by norm_num)).trans (add_le_add (mul_le_mul_of_nonneg_right (by norm_num) (abs_nonneg _)) ?_)
  generalize (2 : ℝ) ^ (-1073 : ℤ) = e at *
  norm_num at hb ⊢
  linarith

/-- Arctangents of two arguments, which are not both zero. -/
theorem C94_atan2 (p q : Policy) (y x : F32) (hy : y.isFinite = true) (hx : x.isFinite = true) (h : x.val ≠ 0 ∨ y.val ≠ 0) :
    CloseAbs (fast_atan2fC p y x) (fast_atan2C q (convert b64 y) (convert b64 x)).real (2 ^ (-20 : ℤ) + 2 ^ (-50 : ℤ)) := by
  obtain ⟨wf, wv, wr⟩ := widen hx
  obtain ⟨uf, uv, ur⟩ := widen hy
  obtain ⟨f1, Y, -⟩ := C77_atan2f p y x hy hx h
  obtain ⟨f2, Z, -⟩ := C77_atan2 q (convert b64 y) (convert b64 x) uf wf (by rw [wv, uv]; exact h)
  rw [wr, ur] at Z
  exact agree_abs ⟨f1, Y⟩ ⟨f2, Z⟩

/-- Inverse square roots. -/
theorem C94_isqrt (p q : Policy) (x : F32) (hn : x.Normal) (h0 : 0 < x.val) :
    CloseRel (fast_isqrtf_generalC p x 2) (fast_isqrt_generalC q (convert b64 x) 4).real (2 ^ (-17 : ℤ) + 2 ^ (-49 : ℤ)) ∧
    CloseRel (fast_isqrtf_generalC p x 1) (fast_isqrt_generalC q (convert b64 x) 3).real (2 ^ (-9 : ℤ) + 2 ^ (-33 : ℤ)) := by
  obtain ⟨-, wv, wr⟩ := widen hn.1
  obtain ⟨w1, -⟩ := widen_normal hn
  obtain ⟨Y, Y'⟩ := C79_isqrtf p x hn h0
  obtain ⟨Z, Z'⟩ := C79_isqrt q (convert b64 x) w1 (by rw [wv]; exact h0)
  rw [wr] at Z Z'
  have k := agree_rel Y Z (by positivity) (by positivity) (by norm_num)
  have k' := agree_rel Y' Z' (by positivity) (by positivity) (by norm_num)
  exact ⟨⟨k.1, k.2.trans (mul_le_mul_of_nonneg_right (by norm_num) (abs_nonneg _))⟩,
    k'.1, k'.2.trans (mul_le_mul_of_nonneg_right (by norm_num) (abs_nonneg _))⟩

/-- Reciprocals. -/
theorem C94_inv (p q : Policy) (x : F32) (hn : x.Normal) (hr : (2 : ℚ) ^ (-126 : ℤ) ≤ |x.val|⁻¹) :
    CloseRel (fast_invf_generalC p x 2) (fast_inv_generalC q (convert b64 x) 4).real (2 ^ (-16 : ℤ) + 2 ^ (-48 : ℤ)) ∧
    CloseRel (fast_invf_generalC p x 1) (fast_inv_generalC q (convert b64 x) 3).real (2 ^ (-8 : ℤ) + 2 ^ (-32 : ℤ)) := by
  obtain ⟨-, wv, wr⟩ := widen hn.1
  obtain ⟨w1, w2, -⟩ := widen_normal hn
  obtain ⟨⟨Y, -⟩, Y', -⟩ := C79_invf p x hn hr
  obtain ⟨⟨Z, -⟩, Z', -⟩ := C79_inv q (convert b64 x) w1 w2
  rw [wr] at Z Z'
  have k := agree_rel Y Z (by positivity) (by positivity) (by norm_num)
  have k' := agree_rel Y' Z' (by positivity) (by positivity) (by norm_num)
  exact ⟨⟨k.1, k.2.trans (mul_le_mul_of_nonneg_right (by norm_num) (abs_nonneg _))⟩,
    k'.1, k'.2.trans (mul_le_mul_of_nonneg_right (by norm_num) (abs_nonneg _))⟩

/-- 3 meets the hypotheses; `1/3` as a float stays what it is as a double. -/
example : (lit 3 : F32).Normal ∧ 0 < (lit 3 : F32).val ∧ (2 : ℚ) ^ (-126 : ℤ) ≤ |(lit 3 : F32).val|⁻¹ ∧ |(lit 3 : F32).val| ≤ 128 ∧
    |(lit (1 / 3) : F32).val| ≤ 1 ∧ (convert b64 (lit (1 / 3) : F32) : F64).val = 11184811 / 33554432 ∧
    (fast_logf (lit 3)).toBits = 1066180436#32 ∧ (convert b32 (fast_log (lit 3)) : F32).toBits = 1066180436#32 ∧
    (fast_invf (lit 3)).toBits = 1051372179#32 ∧ (convert b32 (fast_inv (lit 3)) : F32).toBits = 1051372203#32 := by
  rw [normal_iff32]; decide +kernel

end Vdt
