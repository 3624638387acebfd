import Verif.Real.Identities
import Verif.Props.Contract
import Verif.Props.Builds

/-! # Functional equations between the functions

Each theorem evaluates the functions of include/*.h separately, each with its own policy of fused operations, and bounds
the amount by which the functional equation of the real functions fails.  The products and sums of results are those of
the real numbers the results stand for. -/

namespace Vdt
open FP

private theorem val_add_real {f : Fmt} {x y z : FP f} (h : z.val = x.val + y.val) : z.real = x.real + y.real := by
  unfold FP.real; rw [h]; push_cast; rfl

private theorem val_mul_real {f : Fmt} {x y z : FP f} (h : z.val = x.val * y.val) : z.real = x.real * y.real := by
  unfold FP.real; rw [h]; push_cast; rfl

private theorem real_pos_of_val {f : Fmt} {x : FP f} (h : 0 < x.val) : 0 < x.real := by
  unfold FP.real; exact_mod_cast h

theorem arg_add_swap {x y : ℝ} (hx : 0 < x) (hy : 0 < y) : Complex.arg ⟨x, y⟩ + Complex.arg ⟨y, x⟩ = Real.pi / 2 := by
  obtain ⟨r, hr, e1, e2⟩ := octant_polar (n := y) hx
  have a0 := Real.arctan_nonneg.2 (div_nonneg hy.le hx.le)
  have a1 := Real.arctan_lt_pi_div_two (y / x)
  have pp := Real.pi_pos
  rw [arg_of_polar hr e1 e2 (by linarith) (by linarith),
    arg_of_polar (θ := Real.pi / 2 - Real.arctan (y / x)) hr (by rw [Real.cos_pi_div_two_sub]; exact e2)
      (by rw [Real.sin_pi_div_two_sub]; exact e1) (by linarith) (by linarith)]
  ring

/-- `exp x * exp y = exp (x + y)` up to the relative error `2^-49`. -/
theorem C96_exp (p q r : Policy) (x y z : F64) (hx : x.isFinite = true) (hy : y.isFinite = true) (hz : z.isFinite = true)
    (h1 : |x.val| ≤ 708) (h2 : |y.val| ≤ 708) (h3 : |z.val| ≤ 708) (h : z.val = x.val + y.val) :
    ∃ a b c, fast_expC p x = some a ∧ fast_expC q y = some b ∧ fast_expC r z = some c ∧
      |a.real * b.real - c.real| ≤ 2 ^ (-49 : ℤ) * c.real := by
  obtain ⟨a, ea, _, ha⟩ := C75_exp p x hx h1
  obtain ⟨b, eb, _, hb⟩ := C75_exp q y hy h2
  obtain ⟨c, ec, c0, hc⟩ := C75_exp r z hz h3
  refine ⟨a, b, c, ea, eb, ec, ?_⟩
  have hc2 := hc.2
  rw [val_add_real h] at hc2
  have k := id_exp ha.2 hb.2 hc2 (by norm_num) (by norm_num)
  rw [abs_of_pos (real_pos_of_val c0)] at k
  exact k.trans (mul_le_mul_of_nonneg_right (by norm_num) (real_pos_of_val c0).le)

/-- The same in single precision, up to `2^-20`. -/
theorem C96_expf (p q r : Policy) (x y z : F32) (hx : x.isFinite = true) (hy : y.isFinite = true) (hz : z.isFinite = true)
    (h1 : |x.val| ≤ 87.25) (h2 : |y.val| ≤ 87.25) (h3 : |z.val| ≤ 87.25) (h : z.val = x.val + y.val) :
    ∃ a b c, fast_expfC p x = some a ∧ fast_expfC q y = some b ∧ fast_expfC r z = some c ∧
      |a.real * b.real - c.real| ≤ 2 ^ (-20 : ℤ) * c.real := by
  obtain ⟨a, ea, _, ha⟩ := C75_expf p x hx (abs_le.1 h1).1 ((abs_le.1 h1).2.trans (by norm_num))
  obtain ⟨b, eb, _, hb⟩ := C75_expf q y hy (abs_le.1 h2).1 ((abs_le.1 h2).2.trans (by norm_num))
  obtain ⟨c, ec, c0, hc⟩ := C75_expf r z hz (abs_le.1 h3).1 ((abs_le.1 h3).2.trans (by norm_num))
  refine ⟨a, b, c, ea, eb, ec, ?_⟩
  have hc2 := hc.2
  rw [val_add_real h] at hc2
  have k := id_exp ha.2 hb.2 hc2 (by norm_num) (by norm_num)
  rw [abs_of_pos (real_pos_of_val c0)] at k
  exact k.trans (mul_le_mul_of_nonneg_right (by norm_num) (real_pos_of_val c0).le)

/-- `1.25 + 2.5 = 3.75`: the product of the exponentials of the left side differs from that of the right side, but by less than `2^-49`. -/
example : (lit (15 / 4) : F64).val = (lit (5 / 4) : F64).val + (lit (5 / 2) : F64).val ∧ (lit (15 / 4) : F32).val = (lit (5 / 4) : F32).val + (lit (5 / 2) : F32).val ∧
    (∀ a ∈ fast_exp (lit (5 / 4)), ∀ b ∈ fast_exp (lit (5 / 2)), ∀ c ∈ fast_exp (lit (15 / 4)), a.val * b.val ≠ c.val ∧ |a.val * b.val - c.val| ≤ 2 ^ (-49 : ℤ) * c.val) := by decide +kernel

/-- `log x + log y = log (x * y)`, up to `2^-51` of the logarithms. -/
theorem C96_log (p q r : Policy) (x y z : F64) (hx : x.Normal) (hy : y.Normal) (hz : z.Normal)
    (x0 : 0 < x.val) (y0 : 0 < y.val) (z0 : 0 < z.val)
    (x1 : x.val ≤ 10 ^ 307) (y1 : y.val ≤ 10 ^ 307) (z1 : z.val ≤ 10 ^ 307) (h : z.val = x.val * y.val) :
    |(fast_logC p x).real + (fast_logC q y).real - (fast_logC r z).real| ≤
      2 ^ (-51 : ℤ) * (|Real.log x.real| + |Real.log y.real| + |Real.log z.real|) := by
  have hc := (C75_log r z hz z0 z1).1.2
  rw [val_mul_real h] at hc ⊢
  exact id_log (real_pos_of_val x0) (real_pos_of_val y0) (C75_log p x hx x0 x1).1.2 (C75_log q y hy y0 y1).1.2 hc

theorem C96_logf (p q r : Policy) (x y z : F32) (hx : x.Normal) (hy : y.Normal) (hz : z.Normal)
    (x0 : 0 < x.val) (y0 : 0 < y.val) (z0 : 0 < z.val) (h : z.val = x.val * y.val) :
    |(fast_logfC p x).real + (fast_logfC q y).real - (fast_logfC r z).real| ≤
      2 ^ (-22 : ℤ) * (|Real.log x.real| + |Real.log y.real| + |Real.log z.real|) := by
  have hc := (C75_logf r z hz z0).1.2
  rw [val_mul_real h] at hc ⊢
  exact id_log (real_pos_of_val x0) (real_pos_of_val y0) (C75_logf p x hx x0).1.2 (C75_logf q y hy y0).1.2 hc

example : (lit 15 : F64).Normal ∧ (lit 3 : F64).Normal ∧ (lit 15 : F64).val = (lit 3 : F64).val * (lit 5 : F64).val ∧
    (fast_log (lit 3)).val + (fast_log (lit 5)).val ≠ (fast_log (lit 15)).val ∧
    (lit 15 : F32).Normal ∧ (lit 15 : F32).val = (lit 3 : F32).val * (lit 5 : F32).val := by
  simp only [normal_iff64, normal_iff32]; decide +kernel

/-- The addition theorems of sine and cosine, up to `2^-48`. -/
theorem C96_sincos (p q r : Policy) (x y z : F64) (hx : x.isFinite = true) (hy : y.isFinite = true) (hz : z.isFinite = true)
    (h1 : |x.val| ≤ 2 ^ 27) (h2 : |y.val| ≤ 2 ^ 27) (h3 : |z.val| ≤ 2 ^ 27) (h : z.val = x.val + y.val) :
    ∃ s c s' c' S C, fast_sincosC p x = some (s, c) ∧ fast_sincosC q y = some (s', c') ∧ fast_sincosC r z = some (S, C) ∧
      |s.real * c'.real + c.real * s'.real - S.real| ≤ 2 ^ (-48 : ℤ) ∧
      |c.real * c'.real - s.real * s'.real - C.real| ≤ 2 ^ (-48 : ℤ) := by
  obtain ⟨s, c, e, a1, a2, -⟩ := C76_sincos p x hx h1
  obtain ⟨s', c', e', b1, b2, -⟩ := C76_sincos q y hy h2
  obtain ⟨S, C, E, d1, d2, -⟩ := C76_sincos r z hz h3
  have d1' := d1.2
  have d2' := d2.2
  rw [val_add_real h] at d1' d2'
  obtain ⟨k1, k2⟩ := id_sincos a1.2 a2.2 b1.2 b2.2 d1' d2'
  exact ⟨s, c, s', c', S, C, e, e', E, k1.trans (by norm_num), k2.trans (by norm_num)⟩

theorem C96_sincosf (p q r : Policy) (x y z : F32) (hx : x.isFinite = true) (hy : y.isFinite = true) (hz : z.isFinite = true)
    (h1 : |x.val| ≤ 8192) (h2 : |y.val| ≤ 8192) (h3 : |z.val| ≤ 8192) (h : z.val = x.val + y.val) :
    ∃ s c s' c' S C, fast_sincosfC p x = some (s, c) ∧ fast_sincosfC q y = some (s', c') ∧ fast_sincosfC r z = some (S, C) ∧
      |s.real * c'.real + c.real * s'.real - S.real| ≤ 2 ^ (-19 : ℤ) ∧
      |c.real * c'.real - s.real * s'.real - C.real| ≤ 2 ^ (-19 : ℤ) := by
  obtain ⟨s, c, e, a1, a2, -⟩ := C76_sincosf p x hx h1
  obtain ⟨s', c', e', b1, b2, -⟩ := C76_sincosf q y hy h2
  obtain ⟨S, C, E, d1, d2, -⟩ := C76_sincosf r z hz h3
  have d1' := d1.2
  have d2' := d2.2
  rw [val_add_real h] at d1' d2'
  obtain ⟨k1, k2⟩ := id_sincos a1.2 a2.2 b1.2 b2.2 d1' d2'
  exact ⟨s, c, s', c', S, C, e, e', E, k1.trans (by norm_num), k2.trans (by norm_num)⟩

example : (lit 100001 : F64).val = (lit 100000 : F64).val + (lit 1 : F64).val ∧ |(lit 100001 : F64).val| ≤ 2 ^ 27 ∧
    (lit (8191 / 2) : F32).val = (lit 4095 : F32).val + (lit (1 / 2) : F32).val ∧ |(lit (8191 / 2) : F32).val| ≤ 8192 := by decide +kernel

/-- `tan x * cos x = sin x`, up to the relative error `2^-45` for arguments to 32 and `2^-20` for arguments to `2^27`. -/
theorem C96_tan (p q : Policy) (x : F64) (hx : x.isFinite = true) (h0 : 2 ^ (-1024 : ℤ) < |x.val|) (h : |x.val| ≤ 2 ^ 27) :
    ∃ t s c, fast_tanC p x = some t ∧ fast_sincosC q x = some (s, c) ∧
      |t.real * c.real - s.real| ≤ 2 ^ (-20 : ℤ) * |s.real| ∧
      (|x.val| ≤ 32 → |t.real * c.real - s.real| ≤ 2 ^ (-45 : ℤ) * |s.real|) := by
  obtain ⟨t, et, -, -, ht⟩ := C76_tan p x hx h0 h
  obtain ⟨s, c, e, -, -, hs, hc, -⟩ := C76_sincos q x hx h
  refine ⟨t, s, c, et, e, ?_, fun g => ?_⟩
  · have k := id_tan (cos_ne_zero x) ht hs.2 hc.2 (by norm_num) (by norm_num) (by norm_num)
    exact k.trans (mul_le_mul_of_nonneg_right (by norm_num) (abs_nonneg _))
  · obtain ⟨t', et', -, ht'⟩ := C76_tan_relative p x hx h0 (g.trans (by norm_num))
    obtain ⟨s', c', e', hs', hc'⟩ := C76_sincos_to_32 q x hx g
    rw [et] at et'
    rw [e] at e'
    obtain rfl := Option.some.inj et'
    obtain ⟨rfl, rfl⟩ := Prod.mk.inj (Option.some.inj e')
    have k := id_tan (cos_ne_zero x) (ht' g).2 hs'.2 hc'.2 (by norm_num) (by norm_num) (by norm_num)
    exact k.trans (mul_le_mul_of_nonneg_right (by norm_num) (abs_nonneg _))

theorem C96_tanf (p q : Policy) (x : F32) (hx : x.isFinite = true) (h0 : 2 ^ (-128 : ℤ) < |x.val|) (h : |x.val| ≤ 8192) :
    ∃ t s c, fast_tanfC p x = some t ∧ fast_sincosfC q x = some (s, c) ∧
      |t.real * c.real - s.real| ≤ 2 ^ (-7 : ℤ) * |s.real| := by
  obtain ⟨t, et, -, -, ht, -⟩ := C76_tanf p x hx h0 h
  obtain ⟨s, c, e, -, -, hs, hc, -⟩ := C76_sincosf q x hx h
  refine ⟨t, s, c, et, e, ?_⟩
  have k := id_tan (cos_ne_zero x) ht hs.2 hc.2 (by norm_num) (by norm_num) (by norm_num)
  exact k.trans (mul_le_mul_of_nonneg_right (by norm_num) (abs_nonneg _))

example : 2 ^ (-1024 : ℤ) < |(lit 30 : F64).val| ∧ |(lit 30 : F64).val| ≤ 32 ∧
    (∀ t ∈ fast_tan (lit 30), ∀ y ∈ fast_sincos (lit 30), t.val * y.2.val ≠ y.1.val ∧ |t.val * y.2.val - y.1.val| ≤ 2 ^ (-45 : ℤ) * |y.1.val|) ∧
    2 ^ (-128 : ℤ) < |(lit 5000 : F32).val| ∧ |(lit 5000 : F32).val| ≤ 8192 := by decide +kernel

/-- `tanh x * (exp 2x + 1) = exp 2x - 1`, up to `2^-48` of `exp 2x + 1`. -/
theorem C96_tanh (p q : Policy) (x z : F64) (hx : x.isFinite = true) (hz : z.isFinite = true) (h : |z.val| ≤ 708) (h2 : z.val = x.val + x.val) :
    ∃ a, fast_expC q z = some a ∧ |(fast_tanhC p x).real * (a.real + 1) - (a.real - 1)| ≤ 2 ^ (-48 : ℤ) * (a.real + 1) := by
  obtain ⟨a, ea, a0, ha⟩ := C75_exp q z hz h
  have ht := ((C78_tanh p x).2.2 hx).1
  refine ⟨a, ea, ?_⟩
  have ha2 := ha.2
  rw [val_add_real h2] at ha2
  have e : (2 : ℝ) ^ (-1070 : ℤ) ≤ 2 ^ (-60 : ℤ) := zpow_le_zpow_right₀ (by norm_num) (by norm_num)
  have k := id_tanh (ht.trans (add_le_add_right e _)) ha2 (by norm_num) (by norm_num) (by norm_num) (by norm_num)
  have := real_pos_of_val a0
  exact k.trans (mul_le_mul_of_nonneg_right (by norm_num) (by linarith))

theorem C96_tanhf (p q : Policy) (x z : F32) (hx : x.isFinite = true) (hz : z.isFinite = true) (h : |z.val| ≤ 87.25) (h2 : z.val = x.val + x.val) :
    ∃ a, fast_expfC q z = some a ∧ |(fast_tanhfC p x).real * (a.real + 1) - (a.real - 1)| ≤ 2 ^ (-19 : ℤ) * (a.real + 1) := by
  obtain ⟨a, ea, a0, ha⟩ := C75_expf q z hz (abs_le.1 h).1 ((abs_le.1 h).2.trans (by norm_num))
  have ht := (C78_tanhf p x).2.2 hx
  refine ⟨a, ea, ?_⟩
  have ha2 := ha.2
  rw [val_add_real h2] at ha2
  have k := id_tanh ht ha2 (by norm_num) (by norm_num) (by norm_num) (by norm_num)
  have := real_pos_of_val a0
  exact k.trans (mul_le_mul_of_nonneg_right (by norm_num) (by linarith))

example : (lit (3 / 4) : F64).val = (lit (3 / 8) : F64).val + (lit (3 / 8) : F64).val ∧ (lit (3 / 4) : F32).val = (lit (3 / 8) : F32).val + (lit (3 / 8) : F32).val ∧
    |(lit (3 / 4) : F32).val| ≤ 87.25 := by decide +kernel

/-- `asin x + acos x = π / 2`. -/
theorem C96_asin_acos (p q : Policy) (x : F64) (hx : x.isFinite = true) (h : |x.val| ≤ 1) :
    |(fast_asinC p x).real + (fast_acosC q x).real - Real.pi / 2| ≤ 1.35 * 2 ^ (-50 : ℤ) := by
  have a := (C77_asin p x hx h).2.2.2
  have b := (C77_acos q x hx h).1.2
  have e : (fast_asinC p x).real + (fast_acosC q x).real - Real.pi / 2 =
      ((fast_asinC p x).real - Real.arcsin x.real) + ((fast_acosC q x).real - Real.arccos x.real) := by
    rw [Real.arccos]; ring
  rw [e]
  exact (abs_add_le _ _).trans ((add_le_add a b).trans (by norm_num))

theorem C96_asinf_acosf (p q : Policy) (x : F32) (hx : x.isFinite = true) (h : |x.val| ≤ 1) :
    |(fast_asinfC p x).real + (fast_acosfC q x).real - Real.pi / 2| ≤ 1.3 * 2 ^ (-20 : ℤ) := by
  have a := (C77_asinf p x hx h).2.2.2
  have b := (C77_acosf q x hx h).1.2
  have e : (fast_asinfC p x).real + (fast_acosfC q x).real - Real.pi / 2 =
      ((fast_asinfC p x).real - Real.arcsin x.real) + ((fast_acosfC q x).real - Real.arccos x.real) := by
    rw [Real.arccos]; ring
  rw [e]
  exact (abs_add_le _ _).trans ((add_le_add a b).trans (by norm_num))

example : |(lit (2 / 3) : F64).val| ≤ 1 ∧ |(lit (-2 / 3) : F32).val| ≤ 1 ∧
    (fast_asin (lit (2 / 3))).val + (fast_acos (lit (2 / 3))).val = 1.5707963267948965579989817342720925807952880859375 := by decide +kernel

/-- `atan2 y x + atan2 x y = π / 2` in the first quadrant. -/
theorem C96_atan2 (p q : Policy) (x y : F64) (hx : x.isFinite = true) (hy : y.isFinite = true) (x0 : 0 < x.val) (y0 : 0 < y.val) :
    |(fast_atan2C p y x).real + (fast_atan2C q x y).real - Real.pi / 2| ≤ 2 ^ (-49 : ℤ) := by
  have a := (C77_atan2 p y x hy hx (Or.inl x0.ne')).2.1
  have b := (C77_atan2 q x y hx hy (Or.inl y0.ne')).2.1
  rw [← arg_add_swap (real_pos_of_val x0) (real_pos_of_val y0), add_sub_add_comm]
  exact (abs_add_le _ _).trans ((add_le_add a b).trans (by norm_num))

theorem C96_atan2f (p q : Policy) (x y : F32) (hx : x.isFinite = true) (hy : y.isFinite = true) (x0 : 0 < x.val) (y0 : 0 < y.val) :
    |(fast_atan2fC p y x).real + (fast_atan2fC q x y).real - Real.pi / 2| ≤ 2 ^ (-19 : ℤ) := by
  have a := (C77_atan2f p y x hy hx (Or.inl x0.ne')).2.1
  have b := (C77_atan2f q x y hx hy (Or.inl y0.ne')).2.1
  rw [← arg_add_swap (real_pos_of_val x0) (real_pos_of_val y0), add_sub_add_comm]
  exact (abs_add_le _ _).trans ((add_le_add a b).trans (by norm_num))

/-- `atan2 y x = atan z` in the right half plane when `z` is exactly `y / x`. -/
theorem C96_atan (p q : Policy) (x y z : F64) (hx : x.isFinite = true) (hy : y.isFinite = true) (hz : z.isFinite = true)
    (x0 : 0 < x.val) (h : z.val * x.val = y.val) :
    |(fast_atan2C p y x).real - (fast_atanC q z).real| ≤ 2 ^ (-49 : ℤ) := by
  have a := (C77_atan2 p y x hy hx (Or.inl x0.ne')).2.1
  have b := (C77_atan q z hz).2.2
  have xr := real_pos_of_val x0
  have e : Complex.arg ⟨x.real, y.real⟩ = Real.arctan z.real := by
    obtain ⟨r, hr, e1, e2⟩ := octant_polar (n := y.real) xr
    have a0 := Real.neg_pi_div_two_lt_arctan (y.real / x.real)
    have a1 := Real.arctan_lt_pi_div_two (y.real / x.real)
    have pp := Real.pi_pos
    rw [arg_of_polar hr e1 e2 (by linarith) (by linarith), val_mul_real h.symm, mul_div_assoc, div_self xr.ne', mul_one]
  rw [e] at a
  have t : |Real.arctan z.real| ≤ 1.6 := by
    have a0 := Real.neg_pi_div_two_lt_arctan z.real
    have a1 := Real.arctan_lt_pi_div_two z.real
    have := pi_bounds.2
    rw [abs_le]; constructor <;> linarith
  have g : (2 : ℝ) ^ (-1073 : ℤ) ≤ 2 ^ (-60 : ℤ) := zpow_le_zpow_right₀ (by norm_num) (by norm_num)
  have b' : |(fast_atanC q z).real - Real.arctan z.real| ≤ 2 ^ (-51 : ℤ) * 1.6 + 2 ^ (-60 : ℤ) :=
    b.trans (add_le_add (mul_le_mul_of_nonneg_left t (by norm_num)) g)
  have k := abs_sub_le (fast_atan2C p y x).real (Real.arctan z.real) (fast_atanC q z).real
  rw [abs_sub_comm (Real.arctan z.real)] at k
  refine k.trans ((add_le_add a b').trans (by norm_num))

example : (lit (7 / 4) : F64).val * (lit 4 : F64).val = (lit 7 : F64).val ∧ 0 < (lit 4 : F64).val ∧ 0 < (lit (1 / 3) : F32).val := by decide +kernel

/-- `isqrt(x)² * x = 1` and `inv(x) * x = 1`. -/
theorem C96_isqrt (p : Policy) (x : F64) (hx : x.Normal) (hpos : 0 < x.val) :
    |(fast_isqrt_generalC p x 4).real * (fast_isqrt_generalC p x 4).real * x.real - 1| ≤ 2 ^ (-48 : ℤ) ∧
    |(fast_isqrt_generalC p x 3).real * (fast_isqrt_generalC p x 3).real * x.real - 1| ≤ 2 ^ (-32 : ℤ) :=
  ⟨(id_isqrt (real_pos_of_val hpos) (C79_isqrt p x hx hpos).1.2).trans (by norm_num),
   (id_isqrt (real_pos_of_val hpos) (C79_isqrt p x hx hpos).2.2).trans (by norm_num)⟩

theorem C96_isqrtf (p : Policy) (x : F32) (hx : x.Normal) (hpos : 0 < x.val) :
    |(fast_isqrtf_generalC p x 2).real * (fast_isqrtf_generalC p x 2).real * x.real - 1| ≤ 2 ^ (-15 : ℤ) ∧
    |(fast_isqrtf_generalC p x 1).real * (fast_isqrtf_generalC p x 1).real * x.real - 1| ≤ 2 ^ (-7 : ℤ) :=
  ⟨(id_isqrt (real_pos_of_val hpos) (C79_isqrtf p x hx hpos).1.2).trans (by norm_num),
   (id_isqrt (real_pos_of_val hpos) (C79_isqrtf p x hx hpos).2.2).trans (by norm_num)⟩

private theorem real_ne_of_inv {f : Fmt} {x : FP f} {e : ℤ} (hr : (2 : ℚ) ^ e ≤ |x.val|⁻¹) : x.real ≠ 0 := by
  intro h
  have : x.val = 0 := by unfold FP.real at h; exact_mod_cast h
  rw [this, abs_zero, inv_zero] at hr
  exact absurd hr (not_le.2 (zpow_pos (by norm_num) _))

theorem C96_inv (p : Policy) (x : F64) (hx : x.Normal) (hr : (2 : ℚ) ^ (-1022 : ℤ) ≤ |x.val|⁻¹) :
    |(fast_inv_generalC p x 4).real * x.real - 1| ≤ 2 ^ (-49 : ℤ) ∧ |(fast_inv_generalC p x 3).real * x.real - 1| ≤ 2 ^ (-33 : ℤ) :=
  ⟨(id_inv (real_ne_of_inv hr) (C79_inv p x hx hr).1.1.2).trans (by norm_num),
   (id_inv (real_ne_of_inv hr) (C79_inv p x hx hr).2.1.2).trans (by norm_num)⟩

theorem C96_invf (p : Policy) (x : F32) (hx : x.Normal) (hr : (2 : ℚ) ^ (-126 : ℤ) ≤ |x.val|⁻¹) :
    |(fast_invf_generalC p x 2).real * x.real - 1| ≤ 2 ^ (-16 : ℤ) ∧ |(fast_invf_generalC p x 1).real * x.real - 1| ≤ 2 ^ (-8 : ℤ) :=
  ⟨(id_inv (real_ne_of_inv hr) (C79_invf p x hx hr).1.1.2).trans (by norm_num),
   (id_inv (real_ne_of_inv hr) (C79_invf p x hx hr).2.1.2).trans (by norm_num)⟩

example : (lit (58 / 3) : F64).Normal ∧ 0 < (lit (58 / 3) : F64).val ∧ (2 : ℚ) ^ (-1022 : ℤ) ≤ |(lit (58 / 3) : F64).val|⁻¹ ∧
    (fast_inv_general (lit (58 / 3)) 3).val * (lit (58 / 3) : F64).val ≠ 1 ∧
    (lit (58 / 3) : F32).Normal ∧ 0 < (lit (58 / 3) : F32).val ∧ (2 : ℚ) ^ (-126 : ℤ) ≤ |(lit (58 / 3) : F32).val|⁻¹ := by
  simp only [normal_iff64, normal_iff32]; decide +kernel

end Vdt
