import Verif.Props.Contract
import Verif.Real.RoundTrip

/-!
# Round trips: a function followed by its inverse (C93)

All for any two choices `p`, `q` of the products and sums that are fused in the two functions.
-/

namespace Vdt
open FP details

/-! ### Double precision -/

theorem val_le_max64 {x : F64} (hx : x.isFinite = true) : x.val ≤ (2 : ℚ) ^ (1024 : ℤ) := by
  have h := hx
  simp only [isFinite, decide_eq_true_eq] at h
  have e : |x.val| = magVal b64 x.mag := abs_val x
  have e2 : magVal b64 b64.infMag ≤ (2 : ℚ) ^ (1024 : ℤ) := by decide +kernel
  exact (le_abs_self _).trans (e.le.trans ((magVal_le.2 h.le).trans e2))

theorem logB {x : ℝ} {m n : ℤ} (h1 : (2 : ℝ) ^ m ≤ x) (h2 : x ≤ (2 : ℝ) ^ n) :
    m * Real.log 2 ≤ Real.log x ∧ Real.log x ≤ n * Real.log 2 := by
  have h0 : (0 : ℝ) < 2 ^ m := by positivity
  constructor
  · rw [← Real.log_zpow]; exact Real.log_le_log h0 h1
  · rw [← Real.log_zpow]; exact Real.log_le_log (h0.trans_le h1) h2

theorem real_ge_zpow {f : Fmt} {x : FP f} {m : ℤ} (h : (2 : ℚ) ^ m ≤ x.val) : (2 : ℝ) ^ m ≤ x.real := by
  have : (((2 : ℚ) ^ m : ℚ) : ℝ) ≤ x.real := by unfold FP.real; exact Rat.cast_le.2 h
  rwa [Rat.cast_zpow, Rat.cast_ofNat] at this

theorem real_le_zpow {f : Fmt} {x : FP f} {m : ℤ} (h : x.val ≤ (2 : ℚ) ^ m) : x.real ≤ (2 : ℝ) ^ m := by
  have : x.real ≤ (((2 : ℚ) ^ m : ℚ) : ℝ) := by unfold FP.real; exact Rat.cast_le.2 h
  rwa [Rat.cast_zpow, Rat.cast_ofNat] at this

/-- `fast_exp(fast_log(x))` is `x` up to the errors of the two functions; that of the logarithm counts `|log x|` times. -/
theorem C93_exp_log (p q : Policy) (x : F64) (hx : x.isFinite = true) (h1 : (2 : ℚ) ^ (-1020 : ℤ) ≤ x.val) (h2 : x.val ≤ (2 : ℚ) ^ (1019 : ℤ)) :
    ∃ y, fast_expC q (fast_logC p x) = some y ∧
      CloseRel y x.real (2 ^ (-51 : ℤ) * (1 + |Real.log x.real| * (1 + 2 ^ (-39 : ℤ)))) := by
  have x0 : 0 < x.val := lt_of_lt_of_le (by positivity) h1
  have hn : x.Normal := ⟨hx, by rw [abs_of_pos x0]; exact le_trans (by decide +kernel) h1⟩
  obtain ⟨⟨f1, L1⟩, -⟩ := C75_log p x hn x0 (h2.trans (by decide +kernel))
  obtain ⟨b1, b2⟩ := logB (real_ge_zpow h1) (real_le_zpow h2)
  have l2 := log_two_bounds
  have xr : 0 < x.real := by unfold FP.real; exact_mod_cast x0
  have hL : |Real.log x.real| ≤ 707.5 := by
    push_cast at b1 b2
    rw [abs_le]; constructor <;> linarith
  generalize hl : fast_logC p x = l at *
  have c : (2 : ℝ) ^ (-51 : ℤ) = 1 / 2 ^ 51 := by norm_num
  have hl708 : |l.val| ≤ 708 := by
    apply real_val_bound
    have := abs_add_le (l.real - Real.log x.real) (Real.log x.real)
    rw [sub_add_cancel] at this
    rw [c] at L1
    push_cast
    linarith
  obtain ⟨y, e, -, f2, E1⟩ := C75_exp q l f1 hl708
  refine ⟨y, e, f2, ?_⟩
  have k := rt_exp (ε := 2 ^ (-51 : ℤ)) (κ := 1 / 2 ^ 41) (L := Real.log x.real) (by positivity) (by norm_num) L1 (by rw [c]; linarith) (by rw [c]; norm_num)
    (by rwa [abs_of_pos (Real.exp_pos _)] at E1)
  rw [Real.exp_log xr] at k
  rw [abs_of_pos xr]
  refine k.trans (mul_le_mul_of_nonneg_right (mul_le_mul_of_nonneg_left ?_ (by positivity)) xr.le)
  have : 1 + 3 * (1 / 2 ^ 41) ≤ 1 + (2 : ℝ) ^ (-39 : ℤ) := by norm_num
  linarith [mul_le_mul_of_nonneg_left this (abs_nonneg (Real.log x.real))]

/-- `fast_sin(fast_asin(x))` is `x` up to `2^-50`, relatively up to `2^-47`. -/
theorem C93_sin_asin (p q : Policy) (x : F64) (hx : x.isFinite = true) (h : |x.val| ≤ 1) :
    ∃ s c, fast_sincosC q (fast_asinC p x) = some (s, c) ∧ CloseAbs s x.real (2 ^ (-50 : ℤ)) ∧ CloseRel s x.real (2 ^ (-47 : ℤ)) := by
  obtain ⟨f1, b, A1, A2⟩ := C77_asin p x hx h
  generalize fast_asinC p x = a at *
  obtain ⟨s, c, e, ⟨f2, S1⟩, -⟩ := C76_sincos q a f1 (b.trans (by norm_num))
  obtain ⟨s', c', e', ⟨-, S2⟩, -⟩ := C76_sincos_to_32 q a f1 (b.trans (by norm_num))
  rw [e] at e'
  obtain ⟨rfl, rfl⟩ := Prod.mk.inj (Option.some.inj e')
  have hxr := real_le_of_val h
  push_cast at hxr
  have l := Real.abs_sin_sub_sin_le a.real (Real.arcsin x.real)
  rw [Real.sin_arcsin hxr.1 hxr.2] at l
  have t := abs_add_le (s.real - Real.sin a.real) (Real.sin a.real - x.real)
  rw [sub_add_sub_cancel] at t
  refine ⟨s, c, e, ⟨f2, ?_⟩, f2, ?_⟩
  · norm_num at S1 A2 ⊢
    linarith
  · have hA : |Real.arcsin x.real| ≤ 1.571 * |x.real| := by
      have pb := pi_bounds
      have m := Real.mul_abs_le_abs_sin (x := Real.arcsin x.real) (abs_le.2 ⟨Real.neg_pi_div_two_le_arcsin _, Real.arcsin_le_pi_div_two _⟩)
      rw [Real.sin_arcsin hxr.1 hxr.2, div_mul_eq_mul_div, div_le_iff₀ Real.pi_pos] at m
      nlinarith [abs_nonneg x.real]
    have t2 : |Real.sin a.real| ≤ |x.real| + |Real.sin a.real - x.real| := by
      have := abs_add_le x.real (Real.sin a.real - x.real)
      rwa [add_sub_cancel] at this
    norm_num at S2 A1 ⊢
    linarith [abs_nonneg x.real]

/-- `fast_cos(fast_acos(x))` is `x` up to `1.5 * 2^-50`. -/
theorem C93_cos_acos (p q : Policy) (x : F64) (hx : x.isFinite = true) (h : |x.val| ≤ 1) :
    ∃ s c, fast_sincosC q (fast_acosC p x) = some (s, c) ∧ CloseAbs c x.real (1.5 * 2 ^ (-50 : ℤ)) := by
  obtain ⟨⟨f1, A1⟩, b1, b2⟩ := C77_acos p x hx h
  generalize fast_acosC p x = a at *
  have ha : |a.val| ≤ 4 := real_val_bound (by rw [abs_of_nonneg b1]; push_cast; linarith [pi_bounds.2])
  obtain ⟨s, c, e, -, ⟨f2, S1⟩, -⟩ := C76_sincos q a f1 (ha.trans (by norm_num))
  have hxr := real_le_of_val h
  push_cast at hxr
  have l := Real.abs_cos_sub_cos_le a.real (Real.arccos x.real)
  rw [Real.cos_arccos hxr.1 hxr.2] at l
  have t := abs_add_le (c.real - Real.cos a.real) (Real.cos a.real - x.real)
  rw [sub_add_sub_cancel] at t
  refine ⟨s, c, e, f2, ?_⟩
  norm_num at S1 A1 ⊢
  linarith

/-- `fast_asin(fast_sin(x))` is `x` up to `2^-47` for arguments between -1 and 1. -/
theorem C93_asin_sin (p q : Policy) (x : F64) (hx : x.isFinite = true) (h : |x.val| ≤ 1) :
    ∃ s c, fast_sincosC p x = some (s, c) ∧ CloseAbs (fast_asinC q s) x.real (2 ^ (-47 : ℤ)) := by
  obtain ⟨s, c, e, ⟨f1, S1⟩, -⟩ := C76_sincos p x hx (h.trans (by norm_num))
  have hxr : |x.real| ≤ 1 := by have := real_le_of_val h; push_cast at this; exact abs_le.2 this
  have hs : |s.val| ≤ 1 := by
    apply real_val_bound
    have l : |Real.sin x.real| ≤ Real.sin 1 := by
      have := abs_le.1 hxr
      have pb := pi_bounds
      rw [abs_le]
      constructor
      · rw [← Real.sin_neg]; exact Real.sin_le_sin_of_le_of_le_pi_div_two (by linarith) (by linarith) (by linarith)
      · exact Real.sin_le_sin_of_le_of_le_pi_div_two (by linarith) (by linarith) (by linarith)
    have l1 : Real.sin 1 < 1 - 1 / 100 := by
      have := Real.sin_bound (x := 1) (by norm_num)
      rw [abs_le] at this
      norm_num at this
      linarith [this.2]
    have t := abs_add_le (s.real - Real.sin x.real) (Real.sin x.real)
    rw [sub_add_cancel] at t
    norm_num at S1
    push_cast
    linarith
  obtain ⟨f2, -, -, A2⟩ := C77_asin q s f1 hs
  have k := rt_asin hxr (by have := real_le_of_val hs; push_cast at this; exact abs_le.2 this) S1
  refine ⟨s, c, e, f2, ?_⟩
  have t := abs_add_le ((fast_asinC q s).real - Real.arcsin s.real) (Real.arcsin s.real - x.real)
  rw [sub_add_sub_cancel] at t
  norm_num at A2 k ⊢
  linarith

/-- `fast_atan2` of the sine and the cosine of an angle is the angle, up to `3 * 2^-50`, all around the circle. -/
theorem C93_atan2_sincos (p q : Policy) (x : F64) (hx : x.isFinite = true) (h : |x.val| ≤ 3.14159265358) :
    ∃ s c, fast_sincosC p x = some (s, c) ∧ CloseAbs (fast_atan2C q s c) x.real (3 * 2 ^ (-50 : ℤ)) := by
  obtain ⟨s, c, e, ⟨f1, S1⟩, ⟨f2, S2⟩, -, -, S3⟩ := C76_sincos p x hx (h.trans (by norm_num))
  have hxr : |x.real| ≤ 3.14159265358 := by have := real_le_of_val h; push_cast at this; exact abs_le.2 this
  have hne : c.val ≠ 0 ∨ s.val ≠ 0 := by
    by_contra hc
    push Not at hc
    rw [show s.real = 0 by unfold FP.real; rw [hc.2]; simp, show c.real = 0 by unfold FP.real; rw [hc.1]; simp] at S3
    norm_num at S3
  obtain ⟨f3, A1, -⟩ := C77_atan2 q s c f1 f2 hne
  have k := rt_arg S1 S2 (by norm_num) (by norm_num; linarith [pi_bounds.1])
  refine ⟨s, c, e, f3, ?_⟩
  have t := abs_add_le ((fast_atan2C q s c).real - Complex.arg ⟨c.real, s.real⟩) (Complex.arg ⟨c.real, s.real⟩ - x.real)
  rw [sub_add_sub_cancel] at t
  norm_num at A1 k ⊢
  linarith

/-- `fast_inv(fast_inv(x))` is `x` up to the errors of the two reciprocals. -/
theorem C93_inv_inv (p q : Policy) (x : F64) (hx : x.isFinite = true) (h1 : (2 : ℚ) ^ (-1021 : ℤ) ≤ |x.val|) (h2 : |x.val| ≤ (2 : ℚ) ^ (1021 : ℤ)) :
    CloseRel (fast_inv_generalC q (fast_inv_generalC p x 4) 4) x.real (2 ^ (-48 : ℤ) * (1 + 2 ^ (-48 : ℤ))) ∧
    (fast_inv_generalC q (fast_inv_generalC p x 4) 4).sign = x.sign := by
  have hp : 0 < |x.val| := lt_of_lt_of_le (by positivity) h1
  have x0 : x.real ≠ 0 := by unfold FP.real; exact_mod_cast abs_pos.1 hp
  obtain ⟨⟨⟨f1, A1⟩, s1⟩, -⟩ := C79_inv p x ⟨hx, le_trans (by decide +kernel) h1⟩ (by
    rw [le_inv_comm₀ (by positivity) hp]; exact h2.trans (by decide +kernel))
  generalize fast_inv_generalC p x 4 = a at *
  -- the size of the reciprocal
  have i1 : |1 / x.real| = ((|x.val|⁻¹ : ℚ) : ℝ) := by unfold FP.real; rw [abs_div, abs_one]; push_cast; ring
  have u1 : |a.val| ≤ 2 * |x.val|⁻¹ := by
    apply real_val_bound
    have t := abs_add_le (a.real - 1 / x.real) (1 / x.real)
    rw [sub_add_cancel] at t
    rw [Rat.cast_mul, ← i1, Rat.cast_ofNat]
    norm_num at A1 ⊢
    norm_num at t
    linarith [inv_nonneg.2 (abs_nonneg x.real)]
  have u2 : 1 / 2 * |x.val|⁻¹ ≤ |a.val| := by
    have t := abs_add_le (1 / x.real - a.real) a.real
    rw [sub_add_cancel, abs_sub_comm] at t
    have : ((1 / 2 * |x.val|⁻¹ : ℚ) : ℝ) ≤ ((|a.val| : ℚ) : ℝ) := by
      rw [← real_abs, Rat.cast_mul, ← i1]
      push_cast
      norm_num at A1 ⊢
      norm_num at t
      linarith [inv_nonneg.2 (abs_nonneg x.real)]
    exact_mod_cast this
  have hi1 : (2 : ℚ) ^ (-1021 : ℤ) ≤ |x.val|⁻¹ := by
    rw [le_inv_comm₀ (by positivity) hp]; refine h2.trans (by decide +kernel)
  have hi2 : |x.val|⁻¹ ≤ (2 : ℚ) ^ (1021 : ℤ) := by
    rw [inv_le_comm₀ hp (by positivity)]; refine le_trans (by decide +kernel) h1
  have ap : 0 < |a.val| := lt_of_lt_of_le (by positivity) u2
  obtain ⟨⟨⟨f2, B1⟩, s2⟩, -⟩ := C79_inv q a ⟨f1, le_trans (by
      refine le_trans ?_ (mul_le_mul_of_nonneg_left hi1 (by norm_num)); decide +kernel) u2⟩ (by
    rw [le_inv_comm₀ (by positivity) ap]
    refine (u1.trans (mul_le_mul_of_nonneg_left hi2 (by norm_num))).trans (by decide +kernel))
  refine ⟨⟨f2, ?_⟩, s2.trans s1⟩
  refine (rt_inv x0 A1 B1 (by norm_num)).trans (mul_le_mul_of_nonneg_right (by norm_num) (abs_nonneg _))

/-- `fast_inv(fast_isqrt(x))` is the square root. -/
theorem C93_inv_isqrt (p q : Policy) (x : F64) (hn : x.Normal) (h0 : 0 < x.val) :
    CloseRel (fast_inv_generalC q (fast_isqrt_generalC p x 4) 4) (Real.sqrt x.real) (2 ^ (-48 : ℤ) * (1 + 2 ^ (-48 : ℤ))) := by
  obtain ⟨⟨f1, A1⟩, -⟩ := C79_isqrt p x hn h0
  generalize fast_isqrt_generalC p x 4 = a at *
  have xr : 0 < x.real := by unfold FP.real; exact_mod_cast h0
  have S0 : 0 < Real.sqrt x.real := Real.sqrt_pos.2 xr
  have r1 : (2 : ℝ) ^ (-511 : ℤ) ≤ Real.sqrt x.real := by
    refine Real.le_sqrt_of_sq_le ?_
    have : (2 : ℝ) ^ (-1022 : ℤ) ≤ x.real := real_ge_zpow (by have := hn.2; rwa [abs_of_pos h0] at this)
    refine le_trans (le_of_eq ?_) this
    rw [← zpow_natCast, ← zpow_mul]; norm_num
  have r2 : Real.sqrt x.real ≤ (2 : ℝ) ^ (512 : ℤ) := by
    refine Real.sqrt_le_iff.2 ⟨by positivity, ?_⟩
    have : x.real ≤ (2 : ℝ) ^ (1024 : ℤ) := real_le_zpow (by
      exact val_le_max64 hn.1)
    refine this.trans (le_of_eq ?_)
    rw [← zpow_natCast, ← zpow_mul]; norm_num
  have ip : |1 / Real.sqrt x.real| = 1 / Real.sqrt x.real := abs_of_pos (by positivity)
  have v1 : (1 : ℝ) / 2 ^ (512 : ℤ) ≤ 1 / Real.sqrt x.real := one_div_le_one_div_of_le S0 r2
  have v2 : 1 / Real.sqrt x.real ≤ 1 / 2 ^ (-511 : ℤ) := one_div_le_one_div_of_le (by positivity) r1
  have B := A1
  rw [ip] at B
  have t1 := abs_le.1 B
  have c : (2 : ℝ)⁻¹ ^ 50 ≤ 1 / 2 := by norm_num
  have w1 : 1 / 2 * (1 / Real.sqrt x.real) ≤ a.real := by
    nlinarith [t1.1, one_div_pos.2 S0]
  have w2 : a.real ≤ 2 * (1 / Real.sqrt x.real) := by
    nlinarith [t1.2, one_div_pos.2 S0]
  have a1 : (2 : ℚ) ^ (-513 : ℤ) ≤ a.val := by
    have : (((2 : ℚ) ^ (-513 : ℤ) : ℚ) : ℝ) ≤ (a.val : ℝ) := by
      rw [Rat.cast_zpow, Rat.cast_ofNat]
      refine le_trans (le_of_eq ?_) ((mul_le_mul_of_nonneg_left v1 (by norm_num)).trans w1)
      rw [show (-513 : ℤ) = -(1 + 512) by norm_num, zpow_neg, zpow_add₀ (by norm_num), mul_inv]
      norm_num
    exact Rat.cast_le.1 this
  have a2 : a.val ≤ (2 : ℚ) ^ (512 : ℤ) := by
    have : (a.val : ℝ) ≤ (((2 : ℚ) ^ (512 : ℤ) : ℚ) : ℝ) := by
      rw [Rat.cast_zpow, Rat.cast_ofNat]
      refine (w2.trans (mul_le_mul_of_nonneg_left v2 (by norm_num))).trans (le_of_eq ?_)
      rw [zpow_neg, one_div, inv_inv, show (512 : ℤ) = 1 + 511 by norm_num, zpow_add₀ (by norm_num)]
      norm_num
    exact Rat.cast_le.1 this
  have ap : 0 < a.val := lt_of_lt_of_le (by positivity) a1
  obtain ⟨⟨⟨f2, B1⟩, -⟩, -⟩ := C79_inv q a ⟨f1, by rw [abs_of_pos ap]; exact le_trans (by decide +kernel) a1⟩ (by
    rw [abs_of_pos ap, le_inv_comm₀ (by positivity) ap]; exact a2.trans (by decide +kernel))
  refine ⟨f2, ?_⟩
  refine (rt_inv S0.ne' (A1.trans (mul_le_mul_of_nonneg_right ?_ (abs_nonneg _))) B1 (by norm_num)).trans
    (mul_le_mul_of_nonneg_right (by norm_num) (abs_nonneg _))
  exact pow_le_pow_of_le_one (by norm_num) (by norm_num) (by norm_num)

theorem arctan_low' {x m : ℝ} (hm : m ≤ 1) (h : m ≤ |x|) : m / 2 ≤ |Real.arctan x| := by
  refine le_trans ?_ (arctan_ge x)
  have S0 : 0 < Real.sqrt (1 + x ^ 2) := Real.sqrt_pos.2 (by positivity)
  rw [le_div_iff₀ S0]
  have e := sq_abs x
  rcases le_total |x| 1 with h1 | h1
  · have : Real.sqrt (1 + x ^ 2) ≤ 2 := Real.sqrt_le_iff.2 ⟨by norm_num, by nlinarith [abs_nonneg x]⟩
    rcases le_total 0 m with h0 | h0
    · nlinarith
    · nlinarith [abs_nonneg x]
  · have : Real.sqrt (1 + x ^ 2) ≤ 2 * |x| := Real.sqrt_le_iff.2 ⟨by linarith, by nlinarith [abs_nonneg x]⟩
    nlinarith

theorem tiny_le_one : (2 : ℝ) ^ (-900 : ℤ) ≤ 1 := zpow_le_one_of_nonpos₀ (by norm_num) (by norm_num)

/-- For arguments clear of the subnormal numbers the error of the arctangent is a relative one. -/
theorem atan_rel (p : Policy) (x : F64) (hx : x.isFinite = true) {r : ℝ} (hr : r = x.real) (h1 : (2 : ℝ) ^ (-900 : ℤ) ≤ |r|) :
    |(fast_atanC p x).real - Real.arctan r| ≤ 2 ^ (-51 : ℤ) * (1 + 2 ^ (-20 : ℤ)) * |Real.arctan r| := by
  obtain ⟨-, -, A⟩ := C77_atan p x hx
  rw [← hr] at A
  have l := arctan_low' tiny_le_one h1
  have e : (2 : ℝ) ^ (-1073 : ℤ) ≤ 2 ^ (-71 : ℤ) * (2 ^ (-900 : ℤ) * 2 ^ (-1 : ℤ)) := by
    rw [← zpow_add₀ (by norm_num), ← zpow_add₀ (by norm_num)]
    exact zpow_le_zpow_right₀ (by norm_num) (by norm_num)
  refine A.trans ?_
  generalize (2 : ℝ) ^ (-1073 : ℤ) = e1 at *
  generalize (2 : ℝ) ^ (-900 : ℤ) = e2 at *
  norm_num at e ⊢
  linarith

/-- `fast_tan(fast_atan(x))`: relative error `2^-45`, and the error of the angle is magnified by `1 + x^2`. -/
theorem C93_tan_atan (p q : Policy) (x : F64) (hx : x.isFinite = true) (h1 : (2 : ℚ) ^ (-900 : ℤ) ≤ |x.val|) (h2 : |x.val| ≤ 2 ^ 20) :
    ∃ y, fast_tanC q (fast_atanC p x) = some y ∧ y.isFinite = true ∧
      |y.real - x.real| ≤ 2 ^ (-45 : ℤ) * |x.real| + 2 ^ (-50 : ℤ) * x.real ^ 2 := by
  have h1r : (2 : ℝ) ^ (-900 : ℤ) ≤ |x.real| := by
    rw [real_abs]
    have : (((2 : ℚ) ^ (-900 : ℤ) : ℚ) : ℝ) ≤ ((|x.val| : ℚ) : ℝ) := Rat.cast_le.2 h1
    rwa [Rat.cast_zpow, Rat.cast_ofNat] at this
  have h2r : |x.real| ≤ 2 ^ 20 := by
    rw [real_abs]; exact_mod_cast h2
  obtain ⟨f1, b, -⟩ := C77_atan p x hx
  have A := atan_rel p x hx rfl h1r
  generalize fast_atanC p x = a at *
  have hlow := arctan_low' tiny_le_one h1r
  have hA1 : |Real.arctan x.real| ≤ |x.real| := by
    have l := arctan_lip x.real 0
    rwa [Real.arctan_zero, sub_zero, sub_zero] at l
  have hA2 : |Real.arctan x.real| ≤ 1.571 := by
    have := pi_bounds
    rw [abs_le]; constructor <;> linarith [Real.neg_pi_div_two_lt_arctan x.real, Real.arctan_lt_pi_div_two x.real]
  have ha : (2 : ℚ) ^ (-1024 : ℤ) < |a.val| := by
    have e : (((2 : ℚ) ^ (-1024 : ℤ) : ℚ) : ℝ) < 2 ^ (-900 : ℤ) * 2 ^ (-2 : ℤ) := by
      rw [Rat.cast_zpow, Rat.cast_ofNat, ← zpow_add₀ (by norm_num)]
      exact zpow_lt_zpow_right₀ (by norm_num) (by norm_num)
    have t := abs_add_le (Real.arctan x.real - a.real) a.real
    rw [sub_add_cancel, abs_sub_comm] at t
    have : (((2 : ℚ) ^ (-1024 : ℤ) : ℚ) : ℝ) < ((|a.val| : ℚ) : ℝ) := by
      rw [← real_abs]
      refine e.trans_le ?_
      generalize (2 : ℝ) ^ (-900 : ℤ) = e2 at *
      norm_num at A ⊢
      linarith [abs_nonneg (Real.arctan x.real)]
    exact Rat.cast_lt.1 this
  obtain ⟨y, e, -, T⟩ := C76_tan_relative q a f1 ha (b.trans (by norm_num))
  obtain ⟨f2, T⟩ := T (b.trans (by norm_num))
  refine ⟨y, e, f2, ?_⟩
  have e3 := sq_abs x.real
  have hS : Real.sqrt (1 + x.real ^ 2) ≤ 1 + |x.real| :=
    Real.sqrt_le_iff.2 ⟨by linarith [abs_nonneg x.real], by nlinarith [abs_nonneg x.real]⟩
  have S0 := Real.sqrt_nonneg (1 + x.real ^ 2)
  have k := (rt_tan (κ := 1 / 2 ^ 20) A (by
    have m : 2 ^ (-51 : ℤ) * (1 + 2 ^ (-20 : ℤ)) * |Real.arctan x.real| ≤ 2 ^ (-51 : ℤ) * (1 + 2 ^ (-20 : ℤ)) * 1.571 :=
      mul_le_mul_of_nonneg_left hA2 (by positivity)
    refine (mul_le_mul m hS S0 (by positivity)).trans ?_
    norm_num at h2r ⊢
    linarith) (by norm_num)).1
  generalize Real.arctan x.real = A0 at *
  have t := abs_add_le (y.real - Real.tan a.real) (Real.tan a.real - x.real)
  rw [sub_add_sub_cancel] at t
  have t2 : |Real.tan a.real| ≤ |x.real| + |Real.tan a.real - x.real| := by
    have := abs_add_le x.real (Real.tan a.real - x.real)
    rwa [add_sub_cancel] at this
  have m : |A0| * (1 + x.real ^ 2) ≤ |x.real| + 1.571 * x.real ^ 2 := by nlinarith [sq_nonneg x.real]
  rw [mul_assoc (2 ^ (-51 : ℤ) * (1 + 2 ^ (-20 : ℤ)) : ℝ)] at k
  generalize |A0| * (1 + x.real ^ 2) = W at *
  norm_num at T k ⊢
  linarith [abs_nonneg x.real, sq_nonneg x.real]

/-- `fast_atan(fast_tan(x))` is `x` up to `2^-44`, for angles up to 1.57. -/
theorem C93_atan_tan (p q : Policy) (x : F64) (hx : x.isFinite = true) (h1 : (2 : ℚ) ^ (-899 : ℤ) ≤ |x.val|) (h2 : |x.val| ≤ 1.57) :
    ∃ y, fast_tanC p x = some y ∧ CloseRel (fast_atanC q y) x.real (2 ^ (-44 : ℤ)) := by
  obtain ⟨y, e, -, T⟩ := C76_tan_relative p x hx (lt_of_lt_of_le (by decide +kernel) h1) (h2.trans (by norm_num))
  obtain ⟨f1, T⟩ := T (h2.trans (by norm_num))
  have h1r : (2 : ℝ) ^ (-899 : ℤ) ≤ |x.real| := by
    rw [real_abs]
    have : (((2 : ℚ) ^ (-899 : ℤ) : ℚ) : ℝ) ≤ ((|x.val| : ℚ) : ℝ) := Rat.cast_le.2 h1
    rwa [Rat.cast_zpow, Rat.cast_ofNat] at this
  have h2r := real_le_of_val h2
  push_cast at h2r
  have pb := pi_bounds
  have at1 : Real.arctan (Real.tan x.real) = x.real := Real.arctan_tan (by linarith) (by linarith)
  have k := rt_atan (by positivity) T (by norm_num)
  rw [at1] at k
  have tl : |x.real| ≤ |Real.tan x.real| := by
    have l := arctan_lip (Real.tan x.real) 0
    rwa [Real.arctan_zero, sub_zero, sub_zero, at1] at l
  have yl : (2 : ℝ) ^ (-900 : ℤ) ≤ |y.real| := by
    have t := abs_add_le (Real.tan x.real - y.real) y.real
    rw [sub_add_cancel, abs_sub_comm] at t
    have e : (2 : ℝ) ^ (-900 : ℤ) = 2 ^ (-899 : ℤ) * 2 ^ (-1 : ℤ) := by
      rw [← zpow_add₀ (by norm_num)]; norm_num
    rw [e]
    generalize (2 : ℝ) ^ (-899 : ℤ) = e2 at *
    norm_num at T ⊢
    linarith [abs_nonneg (Real.tan x.real)]
  have A := atan_rel q y f1 rfl yl
  refine ⟨y, e, (C77_atan q y f1).1, ?_⟩
  have t := abs_add_le ((fast_atanC q y).real - Real.arctan y.real) (Real.arctan y.real - x.real)
  rw [sub_add_sub_cancel] at t
  have t2 : |Real.arctan y.real| ≤ |x.real| + |Real.arctan y.real - x.real| := by
    have := abs_add_le x.real (Real.arctan y.real - x.real)
    rwa [add_sub_cancel] at this
  norm_num at A k ⊢
  linarith [abs_nonneg x.real]

/-- Concrete round trips: `exp(log 3)`, `sin(asin(1/3))`, `cos(acos(1/3))`, `tan(atan 1000)`, `1/(1/3)`, and an angle from its sine and
cosine. -/
example : (2 : ℚ) ^ (-1020 : ℤ) ≤ (lit 3 : F64).val ∧ (lit 3 : F64).val ≤ (2 : ℚ) ^ (1019 : ℤ) ∧
    (fast_exp (fast_log (lit 3))).map toBits = some 4613937818241073151#64 ∧ (lit 3 : F64).toBits = 4613937818241073152#64 ∧
    (fast_sincos (fast_asin (lit (1 / 3)))).map (·.1) = some (lit (1 / 3)) ∧
    (fast_sincos (fast_acos (lit (1 / 3)))).map (·.2.toBits) = some 4599676419421066580#64 ∧
    (2 : ℚ) ^ (-900 : ℤ) ≤ |(lit 1000 : F64).val| ∧ |(lit 1000 : F64).val| ≤ 2 ^ 20 ∧
    (fast_tan (fast_atan (lit 1000))).map toBits = some 4652007308841187903#64 ∧ (lit 1000 : F64).toBits = 4652007308841189376#64 ∧
    (fast_inv (fast_inv (lit 3))).toBits = 4613937818241073153#64 ∧
    |(lit 3 : F64).val| ≤ 3.14159265358 ∧ (fast_sincos (lit 3)).map (fun r => fast_atan2 r.1 r.2) = some (lit 3) := by decide +kernel

/-! ### Single precision -/

theorem C93_expf_logf (p q : Policy) (x : F32) (hx : x.isFinite = true) (h1 : (2 : ℚ) ^ (-125 : ℤ) ≤ x.val) (h2 : x.val ≤ (2 : ℚ) ^ (127 : ℤ)) :
    ∃ y, fast_expfC q (fast_logfC p x) = some y ∧
      CloseRel y x.real (2 ^ (-22 : ℤ) * (1 + |Real.log x.real| * (1 + 2 ^ (-13 : ℤ)))) := by
  have x0 : 0 < x.val := lt_of_lt_of_le (by positivity) h1
  have hn : x.Normal := ⟨hx, by rw [abs_of_pos x0]; exact le_trans (by decide +kernel) h1⟩
  obtain ⟨⟨f1, L1⟩, -⟩ := C75_logf p x hn x0
  obtain ⟨b1, b2⟩ := logB (real_ge_zpow h1) (real_le_zpow h2)
  have l2 := log_two_bounds
  have xr : 0 < x.real := by unfold FP.real; exact_mod_cast x0
  push_cast at b1 b2
  have hL : |Real.log x.real| ≤ 88.1 := by
    rw [abs_le]; constructor <;> linarith
  generalize fast_logfC p x = l at *
  have c : (2 : ℝ) ^ (-22 : ℤ) = 1 / 2 ^ 22 := by norm_num
  have t := abs_le.1 L1
  have u1 : -87.25 ≤ l.val := by
    have : ((-87.25 : ℚ) : ℝ) ≤ (l.val : ℝ) := by
      have := t.1
      rw [c] at this
      unfold FP.real at *
      push_cast
      linarith
    exact_mod_cast this
  have u2 : l.val ≤ 88.35 := by
    have : (l.val : ℝ) ≤ ((88.35 : ℚ) : ℝ) := by
      have := t.2
      rw [c] at this
      unfold FP.real at *
      push_cast
      linarith
    exact_mod_cast this
  obtain ⟨y, e, -, f2, E1⟩ := C75_expf q l f1 u1 u2
  refine ⟨y, e, f2, ?_⟩
  have k := rt_exp (ε := 2 ^ (-22 : ℤ)) (κ := 1 / 2 ^ 15) (L := Real.log x.real) (by positivity) (by norm_num) L1 (by rw [c]; linarith) (by rw [c]; norm_num)
    (by rwa [abs_of_pos (Real.exp_pos _)] at E1)
  rw [Real.exp_log xr] at k
  rw [abs_of_pos xr]
  refine k.trans (mul_le_mul_of_nonneg_right (mul_le_mul_of_nonneg_left ?_ (by positivity)) xr.le)
  have : 1 + 3 * (1 / 2 ^ 15) ≤ 1 + (2 : ℝ) ^ (-13 : ℤ) := by norm_num
  linarith [mul_le_mul_of_nonneg_left this (abs_nonneg (Real.log x.real))]

/-- The single precision counterpart of C36. -/
theorem C93_logf_expf (p q : Policy) (x : F32) (hx : x.isFinite = true) (h : |x.val| ≤ 85) :
    ∃ y, fast_expfC p x = some y ∧ CloseAbs (fast_logfC q y) x.real (2 ^ (-22 : ℤ) * (|x.real| + 1 + 2 ^ (-20 : ℤ))) := by
  have hv := abs_le.1 h
  obtain ⟨y, e, y0, f1, E1⟩ := C75_expf p x hx (by linarith) (by linarith)
  have hxr := real_le_of_val h
  push_cast at hxr
  have E := Real.exp_pos x.real
  rw [abs_of_pos E] at E1
  have l2 := log_two_bounds
  have el : (2 : ℝ) ^ (-124 : ℤ) ≤ Real.exp x.real := by
    rw [← Real.log_le_iff_le_exp (by positivity), Real.log_zpow]
    push_cast
    linarith
  have hn : y.Normal := by
    refine ⟨f1, ?_⟩
    rw [abs_of_pos y0]
    have : (((2 : ℚ) ^ (-126 : ℤ) : ℚ) : ℝ) ≤ (y.val : ℝ) := by
      have := (abs_le.1 E1).1
      unfold FP.real at *
      norm_num at this el ⊢
      linarith
    exact Rat.cast_le.1 this
  obtain ⟨⟨f2, L1⟩, -⟩ := C75_logf q y hn y0
  refine ⟨y, e, f2, (rt_log (by positivity) (by norm_num) E1 L1).trans (mul_le_mul_of_nonneg_left ?_ (by positivity))⟩
  norm_num

theorem C93_sinf_asinf (p q : Policy) (x : F32) (hx : x.isFinite = true) (h : |x.val| ≤ 1) :
    ∃ s c, fast_sincosfC q (fast_asinfC p x) = some (s, c) ∧ CloseAbs s x.real (1.1 * 2 ^ (-21 : ℤ)) := by
  obtain ⟨f1, b, A1, A2⟩ := C77_asinf p x hx h
  generalize fast_asinfC p x = a at *
  obtain ⟨s, c, e, ⟨f2, S1⟩, -⟩ := C76_sincosf q a f1 (b.trans (by norm_num))
  have hxr := real_le_of_val h
  push_cast at hxr
  have l := Real.abs_sin_sub_sin_le a.real (Real.arcsin x.real)
  rw [Real.sin_arcsin hxr.1 hxr.2] at l
  have t := abs_add_le (s.real - Real.sin a.real) (Real.sin a.real - x.real)
  rw [sub_add_sub_cancel] at t
  refine ⟨s, c, e, f2, ?_⟩
  norm_num at S1 A2 ⊢
  linarith

theorem C93_cosf_acosf (p q : Policy) (x : F32) (hx : x.isFinite = true) (h : |x.val| ≤ 1) :
    ∃ s c, fast_sincosfC q (fast_acosfC p x) = some (s, c) ∧ CloseAbs c x.real (1.25 * 2 ^ (-20 : ℤ)) := by
  obtain ⟨⟨f1, A1⟩, b1, b2⟩ := C77_acosf p x hx h
  generalize fast_acosfC p x = a at *
  have ha : |a.val| ≤ 8192 := by rw [abs_of_nonneg b1]; exact b2.trans (by norm_num)
  obtain ⟨s, c, e, -, ⟨f2, S1⟩, -⟩ := C76_sincosf q a f1 ha
  have hxr := real_le_of_val h
  push_cast at hxr
  have l := Real.abs_cos_sub_cos_le a.real (Real.arccos x.real)
  rw [Real.cos_arccos hxr.1 hxr.2] at l
  have t := abs_add_le (c.real - Real.cos a.real) (Real.cos a.real - x.real)
  rw [sub_add_sub_cancel] at t
  refine ⟨s, c, e, f2, ?_⟩
  norm_num at S1 A1 ⊢
  linarith

theorem C93_atan2f_sincosf (p q : Policy) (x : F32) (hx : x.isFinite = true) (h : |x.val| ≤ 3.1415) :
    ∃ s c, fast_sincosfC p x = some (s, c) ∧ CloseAbs (fast_atan2fC q s c) x.real (2 ^ (-19 : ℤ)) := by
  obtain ⟨s, c, e, ⟨f1, S1⟩, ⟨f2, S2⟩, -, -, S3⟩ := C76_sincosf p x hx (h.trans (by norm_num))
  have hxr : |x.real| ≤ 3.1415 := by have := real_le_of_val h; push_cast at this; exact abs_le.2 this
  have hne : c.val ≠ 0 ∨ s.val ≠ 0 := by
    by_contra hc
    push Not at hc
    rw [show s.real = 0 by unfold FP.real; rw [hc.2]; simp, show c.real = 0 by unfold FP.real; rw [hc.1]; simp] at S3
    norm_num at S3
  obtain ⟨f3, A1, -⟩ := C77_atan2f q s c f1 f2 hne
  have k := rt_arg S1 S2 (by norm_num) (by norm_num; linarith [pi_bounds.1])
  refine ⟨s, c, e, f3, ?_⟩
  have t := abs_add_le ((fast_atan2fC q s c).real - Complex.arg ⟨c.real, s.real⟩) (Complex.arg ⟨c.real, s.real⟩ - x.real)
  rw [sub_add_sub_cancel] at t
  norm_num at A1 k ⊢
  linarith

theorem C93_invf_invf (p q : Policy) (x : F32) (hx : x.isFinite = true) (h1 : (2 : ℚ) ^ (-125 : ℤ) ≤ |x.val|) (h2 : |x.val| ≤ (2 : ℚ) ^ (125 : ℤ)) :
    CloseRel (fast_invf_generalC q (fast_invf_generalC p x 2) 2) x.real (2 ^ (-15 : ℤ) * (1 + 2 ^ (-15 : ℤ))) ∧
    (fast_invf_generalC q (fast_invf_generalC p x 2) 2).sign = x.sign := by
  have hp : 0 < |x.val| := lt_of_lt_of_le (by positivity) h1
  have x0 : x.real ≠ 0 := by unfold FP.real; exact_mod_cast abs_pos.1 hp
  obtain ⟨⟨⟨f1, A1⟩, s1⟩, -⟩ := C79_invf p x ⟨hx, le_trans (by decide +kernel) h1⟩ (by
    rw [le_inv_comm₀ (by positivity) hp]; exact h2.trans (by decide +kernel))
  generalize fast_invf_generalC p x 2 = a at *
  have i1 : |1 / x.real| = ((|x.val|⁻¹ : ℚ) : ℝ) := by unfold FP.real; rw [abs_div, abs_one]; push_cast; ring
  have u1 : |a.val| ≤ 2 * |x.val|⁻¹ := by
    apply real_val_bound
    have t := abs_add_le (a.real - 1 / x.real) (1 / x.real)
    rw [sub_add_cancel] at t
    rw [Rat.cast_mul, ← i1, Rat.cast_ofNat]
    norm_num at A1 ⊢
    norm_num at t
    linarith [inv_nonneg.2 (abs_nonneg x.real)]
  have u2 : 1 / 2 * |x.val|⁻¹ ≤ |a.val| := by
    have t := abs_add_le (1 / x.real - a.real) a.real
    rw [sub_add_cancel, abs_sub_comm] at t
    have : ((1 / 2 * |x.val|⁻¹ : ℚ) : ℝ) ≤ ((|a.val| : ℚ) : ℝ) := by
      rw [← real_abs, Rat.cast_mul, ← i1]
      push_cast
      norm_num at A1 ⊢
      norm_num at t
      linarith [inv_nonneg.2 (abs_nonneg x.real)]
    exact_mod_cast this
  have hi1 : (2 : ℚ) ^ (-125 : ℤ) ≤ |x.val|⁻¹ := by
    rw [le_inv_comm₀ (by positivity) hp]; refine h2.trans (by decide +kernel)
  have hi2 : |x.val|⁻¹ ≤ (2 : ℚ) ^ (125 : ℤ) := by
    rw [inv_le_comm₀ hp (by positivity)]; refine le_trans (by decide +kernel) h1
  have ap : 0 < |a.val| := lt_of_lt_of_le (by positivity) u2
  obtain ⟨⟨⟨f2, B1⟩, s2⟩, -⟩ := C79_invf q a ⟨f1, le_trans (by
      refine le_trans ?_ (mul_le_mul_of_nonneg_left hi1 (by norm_num)); decide +kernel) u2⟩ (by
    rw [le_inv_comm₀ (by positivity) ap]
    refine (u1.trans (mul_le_mul_of_nonneg_left hi2 (by norm_num))).trans (by decide +kernel))
  refine ⟨⟨f2, ?_⟩, s2.trans s1⟩
  refine (rt_inv x0 A1 B1 (by norm_num)).trans (mul_le_mul_of_nonneg_right (by norm_num) (abs_nonneg _))

example : (2 : ℚ) ^ (-125 : ℤ) ≤ (lit 3 : F32).val ∧ (lit 3 : F32).val ≤ (2 : ℚ) ^ (127 : ℤ) ∧
    (fast_expf (fast_logf (lit 3))) = some (lit 3) ∧ (fast_expf (lit 3)).map fast_logf = some (lit 3) ∧
    (fast_sincosf (fast_asinf (lit (1 / 3)))).map (·.1) = some (lit (1 / 3)) ∧
    (fast_sincosf (fast_acosf (lit (1 / 3)))).map (·.2) = some (lit (1 / 3)) ∧
    |(lit 3 : F32).val| ≤ 3.1415 ∧ (fast_sincosf (lit 3)).map (fun r => fast_atan2f r.1 r.2) = some (lit 3) ∧
    (fast_invf (fast_invf (lit 3))).toBits = 1077936141#32 ∧ (lit 3 : F32).toBits = 1077936128#32 := by decide +kernel

end Vdt
