import Verif.Lemmas.ReducefMid
import Verif.Lemmas.TanFinish

/-! # The tangent, single precision, beyond 8192: the reduced argument may leave the interval the polynomial is made for -/

namespace Vdt
open FP details Ab

theorem cos_lower08 {x : ℝ} (h : |x| ≤ 0.8) : 0.696 ≤ Real.cos x := by
  have t := (taylor_one (h.trans (by norm_num))).2
  have w0 : ((0 : ℚ) : ℝ) ≤ x * x := by push_cast; exact mul_self_nonneg x
  have w1 : x * x ≤ ((0.64 : ℚ) : ℝ) := by
    push_cast; rw [← abs_mul_abs_self]
    exact (mul_self_le_mul_self (abs_nonneg _) h).trans (by norm_num)
  have p := plower_sound (p := cosTl) (c := 0.6965) (l := grid 0 0.64 24) (a := 0) (b := 0.64)
    (by decide +kernel) (by decide +kernel) w0 w1
  push_cast at p
  rw [abs_le] at t
  have h2 : (2 : ℝ) ^ (-50 : ℤ) ≤ 0.0001 := by norm_num
  generalize (2 : ℝ) ^ (-50 : ℤ) = k at *
  norm_num at p h2 ⊢
  linarith [t.1]

theorem tan_lip08 {a b : ℝ} (ha : |a| ≤ 0.8) (hb : |b| ≤ 0.8) : |Real.tan a - Real.tan b| ≤ 2.07 * |a - b| := by
  have ca := cos_lower08 ha
  have cb := cos_lower08 hb
  have e : Real.tan a - Real.tan b = Real.sin (a - b) / (Real.cos a * Real.cos b) := by
    rw [Real.tan_eq_sin_div_cos, Real.tan_eq_sin_div_cos, Real.sin_sub]
    have h1 : Real.cos a ≠ 0 := by linarith
    have h2 : Real.cos b ≠ 0 := by linarith
    field_simp
  rw [e, abs_div, abs_of_pos (by nlinarith : 0 < Real.cos a * Real.cos b), div_le_iff₀ (by nlinarith)]
  have h1 : |Real.sin (a - b)| ≤ |a - b| := Real.abs_sin_le_abs
  have h2 : (0.696 : ℝ) * 0.696 ≤ Real.cos a * Real.cos b := mul_le_mul ca cb (by norm_num) (by linarith)
  have h4 : |a - b| * (0.696 * 0.696) ≤ |a - b| * (Real.cos a * Real.cos b) := mul_le_mul_of_nonneg_left h2 (abs_nonneg _)
  nlinarith [abs_nonneg (a - b)]

theorem tan_le08 {a : ℝ} (ha : |a| ≤ 0.8) : |Real.tan a| ≤ 1.656 := by
  have h := tan_lip08 ha (b := 0) (by norm_num)
  rw [Real.tan_zero, sub_zero, sub_zero] at h
  linarith

/-- The polynomial beyond 0.787. -/
theorem tanf_approx08 {x : ℝ} (h0 : 0.786 ≤ |x|) (h : |x| ≤ 0.8) : |x * (pev tanfPl (x * x) / 1) - Real.tan x| ≤ 2.5 * 2 ^ (-24 : ℤ) := by
  obtain ⟨t1, t2⟩ := taylor_one (h.trans (by norm_num))
  have w0 : ((0.617 : ℚ) : ℝ) ≤ x * x := by
    push_cast; rw [← abs_mul_abs_self]
    exact le_trans (by norm_num) (mul_self_le_mul_self (by norm_num) h0)
  have w1 : x * x ≤ ((0.64 : ℚ) : ℝ) := by
    push_cast; rw [← abs_mul_abs_self]
    exact (mul_self_le_mul_self (abs_nonneg _) h).trans (by norm_num)
  have p := pratio_sound (n := psub (pmul tanfPl cosTl) sinTl) (d := [1]) (C := 2.1 * 2 ^ (-24 : ℤ)) (l := [0.617, 0.622, 0.626, 0.63, 0.635, 0.64])
    (a := 0.617) (b := 0.64) (by decide +kernel) (by decide +kernel) w0 w1
  have p2 := pratio_sound (n := tanfPl) (d := [1]) (C := 2) (l := [0.617, 0.64]) (a := 0.617) (b := 0.64)
    (by decide +kernel) (by decide +kernel) w0 w1
  have d1 : pev [1] (x * x) = 1 := by simp [pev_cons, pev_nil]
  rw [pev_sub, pev_mul, d1, mul_one] at p
  rw [d1, mul_one] at p2
  push_cast at p2
  rw [div_one]
  have ca := cos_lower08 h
  have e : x * pev tanfPl (x * x) - Real.tan x = (x * (pev tanfPl (x * x) * pev cosTl (x * x) - pev sinTl (x * x)) +
      (x * pev tanfPl (x * x) * (Real.cos x - pev cosTl (x * x)) - (Real.sin x - x * pev sinTl (x * x)))) / Real.cos x := by
    have hc0 : Real.cos x ≠ 0 := by linarith
    rw [Real.tan_eq_sin_div_cos]; field_simp; ring
  rw [e, abs_div, abs_of_pos (by linarith : 0 < Real.cos x), div_le_iff₀ (by linarith)]
  have a1 : |x * (pev tanfPl (x * x) * pev cosTl (x * x) - pev sinTl (x * x))| ≤ 0.8 * (2.1 * 2 ^ (-24 : ℤ)) := by
    rw [abs_mul]
    refine mul_le_mul h (p.trans (le_of_eq ?_)) (abs_nonneg _) (by norm_num)
    push_cast; norm_num
  have a3 : |x * pev tanfPl (x * x) * (Real.cos x - pev cosTl (x * x))| ≤ 0.8 * 2 * 2 ^ (-50 : ℤ) := by
    rw [abs_mul, abs_mul]
    exact mul_le_mul (mul_le_mul h p2 (abs_nonneg _) (by norm_num)) t2 (abs_nonneg _) (by norm_num)
  have b := (abs_add_le _ _).trans (add_le_add a1 ((abs_sub _ _).trans (add_le_add a3 t1)))
  refine b.trans ?_
  have k : (2.5 : ℝ) * 2 ^ (-24 : ℤ) * 0.696 ≤ 2.5 * 2 ^ (-24 : ℤ) * Real.cos x := mul_le_mul_of_nonneg_left ca (by norm_num)
  refine le_trans ?_ k
  norm_num

theorem tanfE_ok08 : covers (okAbs b32 tanfE (2.4 * 2 ^ (-24 : ℤ))) [-0.8, -0.786] = true ∧
    covers (okAbs b32 tanfE (2.4 * 2 ^ (-24 : ℤ))) [0.786, 0.8] = true := by decide +kernel

/-- Single precision, also where the reduction leaves the interval of the polynomial. -/
theorem tanf_core08 (p : Policy) {z : F32} (hz : z.isFinite = true) (h : |z.val| ≤ 0.8) :
    (tanfCoreC p z).isFinite = true ∧ |(tanfCoreC p z).real - Real.tan z.real| ≤ 5 * 2 ^ (-24 : ℤ) := by
  have hr : |z.real| ≤ 0.8 := by
    have := (Rat.cast_le (K := ℝ)).2 h
    rw [real_abs]; push_cast at this ⊢; exact this
  rcases le_total |z.real| 0.787 with h1 | h1
  · obtain ⟨a, b⟩ := tanf_core p hz h1
    refine ⟨a, b.trans ?_⟩
    have : (3.25 : ℝ) * 2 ^ (-24 : ℤ) * |z.real| ≤ 3.25 * 2 ^ (-24 : ℤ) * 0.787 := mul_le_mul_of_nonneg_left h1 (by norm_num)
    refine this.trans ?_
    norm_num
  have hg : FP.gt (z * z) (lit 1.0e-14 : F32) = true := by
    have hq : 0.787 ≤ |z.val| := by
      have : ((0.787 : ℚ) : ℝ) ≤ ((|z.val| : ℚ) : ℝ) := by rw [← real_abs]; push_cast; exact h1
      exact_mod_cast this
    have s1 : (0.6 : ℚ) ≤ z.val * z.val := by
      rw [← abs_mul_abs_self]; exact le_trans (by norm_num) (mul_self_le_mul_self (by norm_num) hq)
    have s2 : |z.val * z.val| ≤ 1 := by rw [abs_mul]; nlinarith [abs_nonneg z.val]
    have hb : (1 : ℚ) ≤ b32.big := by decide +kernel
    have s := mul_spec hz hz (s2.trans hb)
    have e := rnd_err_add b32 (s2.trans hb)
    have l : (lit 1.0e-14 : F32).isFinite = true ∧ (lit 1.0e-14 : F32).val ≤ 0.1 := by decide +kernel
    have hu : b32.u ≤ 0.1 ∧ b32.eta ≤ 0.1 := by decide +kernel
    rw [mul_def, gt_fin s.1 l.1, s.2, decide_eq_true_eq]
    have h3 : b32.u * |z.val * z.val| ≤ 0.1 * 1 := mul_le_mul hu.1 s2 (abs_nonneg _) (by norm_num)
    rw [abs_le] at e
    have := hu.2
    have := l.2
    norm_num at *
    linarith [e.1]
  rw [tanfCoreC_eq, hg, if_pos rfl]
  have a := tanf_approx08 (le_trans (by norm_num) h1) hr
  have key : (tanfPolyC p z).isFinite = true ∧ |(tanfPolyC p z).real - tanfE.evalR fun _ => z.real| ≤ ((2.4 * 2 ^ (-24 : ℤ) : ℚ) : ℝ) := by
    rw [abs_le] at hr
    rcases le_total 0 z.real with h0 | h0
    · rw [abs_of_nonneg h0] at h1
      obtain ⟨s, t, hst, h1, h2⟩ := covers_spans tanfE_ok08.2 (a := 0.786) (b := 0.8) (by decide +kernel)
        (x := z.real) (by push_cast; linarith) (by push_cast; linarith)
      exact okAbs_con hst hz h1 h2 (tanfE_con p z)
    · rw [abs_of_nonpos h0] at h1
      obtain ⟨s, t, hst, h1, h2⟩ := covers_spans tanfE_ok08.1 (a := -0.8) (b := -0.786) (by decide +kernel)
        (x := z.real) (by push_cast; linarith) (by push_cast; linarith)
      exact okAbs_con hst hz h1 h2 (tanfE_con p z)
  refine ⟨key.1, ?_⟩
  have k := key.2
  rw [tanfE_real] at k
  refine (abs_sub_le _ _ _).trans ((add_le_add k a).trans ?_)
  push_cast; norm_num

/-- The change of the tangent with its argument, near a point. -/
theorem tan_near {a b : ℝ} (ha : |a| ≤ 0.8) (hb : |b| ≤ 0.8) (hd : |a - b| ≤ 0.00001) :
    |Real.tan a - Real.tan b| ≤ 1.0001 * |a - b| * (1 + Real.tan b ^ 2) := by
  have ca := cos_lower08 ha
  have cb := cos_lower08 hb
  have h1 : Real.cos a ≠ 0 := by linarith
  have h2 : Real.cos b ≠ 0 := by linarith
  have e : Real.tan a - Real.tan b = Real.sin (a - b) / (Real.cos a * Real.cos b) := by
    rw [Real.tan_eq_sin_div_cos, Real.tan_eq_sin_div_cos, Real.sin_sub]
    field_simp
  have e2 : 1 + Real.tan b ^ 2 = 1 / (Real.cos b * Real.cos b) := by
    rw [Real.tan_eq_sin_div_cos]
    have := Real.sin_sq_add_cos_sq b
    field_simp
    linarith
  have l : Real.cos b ≤ 1.0001 * Real.cos a := by
    have := Real.abs_cos_sub_cos_le b a
    rw [abs_sub_comm b a] at this
    have := (abs_le.1 this).2
    norm_num at hd ca ⊢
    linarith
  have pa : 0 < Real.cos a := by linarith
  have pb : 0 < Real.cos b := by linarith
  rw [e, e2, abs_div, abs_of_pos (mul_pos pa pb), mul_one_div, div_le_div_iff₀ (mul_pos pa pb) (mul_pos pb pb)]
  have h3 : |Real.sin (a - b)| ≤ |a - b| := Real.abs_sin_le_abs
  have h4 := mul_le_mul_of_nonneg_right h3 (mul_pos pb pb).le
  have h5 := mul_le_mul_of_nonneg_left l (mul_nonneg (abs_nonneg (a - b)) pb.le)
  linarith

/-- The selection of the quadrant when the tangent of the reduced argument has the error `F*(1 + τ^2)`. -/
theorem tan_select {t τ F u y : ℝ} {odd : Prop} [Decidable odd] (hτ : 2 ^ (-12 : ℤ) ≤ |τ|) (hτ2 : |τ| ≤ 1.656) (hE : |t - τ| ≤ F * (1 + τ ^ 2))
    (hF0 : 0 ≤ F) (hF : F ≤ 4.5e-6) (hu : 0 ≤ u) (hy : if odd then |y - -1 / t| ≤ u / |t| else y = t) :
    0.98 * |τ| ≤ |t| ∧ |y - (if odd then -1 / τ else τ)| ≤ 1.021 * (F + 0.5 * u) * (1 + |if odd then -1 / τ else τ| ^ 2) := by
  have hτp : 0 < |τ| := lt_of_lt_of_le (by positivity) hτ
  have h12 : (2 : ℝ) ^ (-12 : ℤ) = 1 / 4096 := by norm_num
  rw [h12] at hτ
  have hk : 1 + τ ^ 2 ≤ 4098 * |τ| := by
    rw [← sq_abs]; nlinarith
  have ht : 0.98 * |τ| ≤ |t| := by
    have := abs_sub_abs_le_abs_sub τ t
    rw [abs_sub_comm τ t] at this
    have h1 : F * (1 + τ ^ 2) ≤ 4.5e-6 * (4098 * |τ|) := mul_le_mul hF hk (by positivity) (by norm_num)
    norm_num at h1 ⊢
    linarith
  refine ⟨ht, ?_⟩
  split_ifs at hy ⊢ with ho
  · have htp : 0 < |t| := by nlinarith
    have ht0 : t ≠ 0 := abs_pos.1 htp
    have hτ0 : τ ≠ 0 := abs_pos.1 hτp
    have e : -1 / t - -1 / τ = (t - τ) / (t * τ) := by field_simp; ring
    have h1 : |-1 / t - -1 / τ| ≤ F * (1 + τ ^ 2) / (|t| * |τ|) := by
      rw [e, abs_div, abs_mul]
      exact div_le_div_of_nonneg_right hE (by positivity)
    have h2 := (abs_sub_le y (-1 / t) (-1 / τ)).trans (add_le_add hy h1)
    refine h2.trans ?_
    rw [abs_div, abs_neg, abs_one]
    have i1 : 1 / |t| ≤ 1.021 * (1 / |τ|) := by
      rw [mul_one_div, div_le_div_iff₀ htp hτp]; norm_num at ht ⊢; linarith
    have e1 : u / |t| = u * (1 / |t|) := by ring
    have e2 : F * (1 + τ ^ 2) / (|t| * |τ|) = F * ((1 / |τ|) + |τ|) * (1 / |t|) := by rw [← sq_abs τ]; field_simp
    rw [e1, e2]
    have hs : 0 < 1 / |τ| := by positivity
    have hss : (1 / |τ|) * |τ| = 1 := by field_simp
    generalize 1 / |τ| = s at *
    generalize 1 / |t| = r at *
    have b1 := mul_le_mul_of_nonneg_left i1 hu
    have b2 := mul_le_mul_of_nonneg_left i1 (mul_nonneg hF0 (add_nonneg hs.le hτp.le))
    have b3 : 2 * s ≤ 1 + s ^ 2 := by nlinarith [sq_nonneg (s - 1)]
    have b4 := mul_le_mul_of_nonneg_left b3 hu
    have e3 : F * (s + |τ|) * (1.021 * s) = 1.021 * F * (1 + s ^ 2) := by
      have : F * (s + |τ|) * (1.021 * s) = 1.021 * F * (s * |τ| + s ^ 2) := by ring
      rw [this, hss]
    rw [e3] at b2
    linarith
  · rw [hy]
    refine hE.trans ?_
    rw [sq_abs]
    apply mul_le_mul_of_nonneg_right _ (by positivity)
    linarith

/-- Everything together. -/
theorem tanfC_mid (pol : Policy) {x : F32} {Z : ℝ} (hx : x.isFinite = true) (hx0 : x.val ≠ 0) (M : Mid pol x Z) (hZ : Z ≤ 67.1 * 2 ^ (-24 : ℤ))
    (t0 : 2 ^ (-12 : ℤ) ≤ |Real.tan x.real|) (t1 : |Real.tan x.real| ≤ 2 ^ 12) :
    ∃ y, fast_tanfC pol x = some y ∧ y.isFinite = true ∧
      |y.real - Real.tan x.real| ≤ 1.021 * (5 * 2 ^ (-24 : ℤ) + 1.0001 * Z + 0.5 * 2 ^ (-24 : ℤ)) * (1 + Real.tan x.real ^ 2) := by
  obtain ⟨m, q0, hq, hq2, hm, zf, zb, ζb, zζ⟩ := M
  have e : fast_tanfC pol x = some (tanFinishC pol (fun r => spXORuint32 r (getSignMaskf x)) x
      (tanfCoreC pol (reduceC pol (FP.abs x) (ofInt (2 * m)) DP1F DP2F DP3F)) (2 * m)) := by
    unfold fast_tanfC
    rw [fast_tanfCM_eq, hq]
    simp only [Option.bind_eq_bind, Option.bind_some, Option.pure_def, hq2]
  refine ⟨_, e, ?_⟩
  clear e
  generalize reduceC pol (FP.abs x) (ofInt (2 * m)) DP1F DP2F DP3F = z at *
  obtain ⟨rf, core⟩ := tanf_core08 pol zf zb
  generalize tanfCoreC pol z = res at *
  obtain ⟨ζ, hζe⟩ : ∃ ζ, ζ = |x.real| - m * (Real.pi / 2) := ⟨_, rfl⟩
  rw [← hζe] at ζb zζ
  have zb' : |z.real| ≤ 0.8 := by
    have := (Rat.cast_le (K := ℝ)).2 zb
    rw [real_abs]; push_cast at this ⊢; exact this
  have Z0 : 0 ≤ Z := (abs_nonneg _).trans zζ
  obtain ⟨F, hFe⟩ : ∃ F : ℝ, F = 5 * 2 ^ (-24 : ℤ) + 1.0001 * Z := ⟨_, rfl⟩
  have hF0 : 0 ≤ F := by rw [hFe]; positivity
  have hF : F ≤ 4.5e-6 := by rw [hFe]; norm_num at hZ ⊢; linarith
  have hE : |res.real - Real.tan ζ| ≤ F * (1 + Real.tan ζ ^ 2) := by
    have := (abs_sub_le res.real (Real.tan z.real) (Real.tan ζ)).trans (add_le_add core (tan_near zb' ζb (zζ.trans (hZ.trans (by norm_num)))))
    refine this.trans ?_
    have s0 : 0 ≤ Real.tan ζ ^ 2 := sq_nonneg _
    have b1 : 1.0001 * |z.real - ζ| * (1 + Real.tan ζ ^ 2) ≤ 1.0001 * Z * (1 + Real.tan ζ ^ 2) :=
      mul_le_mul_of_nonneg_right (by linarith) (by linarith)
    have b2 : 0 ≤ (5 : ℝ) * 2 ^ (-24 : ℤ) * Real.tan ζ ^ 2 := by positivity
    rw [hFe]
    linarith
  rw [← hFe]
  have hq := quadrant_tan (t := ζ) m
  rw [show ζ + m * (Real.pi / 2) = |x.real| by rw [hζe]; ring] at hq
  have htx : Real.tan x.real = (if x.val < 0 then -1 else 1) * Real.tan |x.real| := by
    split_ifs with h
    · have : x.real < 0 := by unfold FP.real; exact_mod_cast h
      rw [abs_of_neg this, Real.tan_neg]; ring
    · have : 0 ≤ x.real := by unfold FP.real; exact_mod_cast not_lt.1 h
      rw [abs_of_nonneg this, one_mul]
  have hta : |Real.tan x.real| = |Real.tan (|x.real|)| := by
    rw [htx, abs_mul]; split_ifs <;> simp
  rw [hta, hq] at t0 t1
  have τ0 : (2 : ℝ) ^ (-12 : ℤ) ≤ |Real.tan ζ| := by
    split_ifs at t0 t1 with ho
    · rw [abs_div, abs_neg, abs_one] at t0 t1
      have hp : 0 < |Real.tan ζ| := by
        by_contra hc
        have : |Real.tan ζ| = 0 := le_antisymm (not_lt.1 hc) (abs_nonneg _)
        rw [this] at t0; norm_num at t0
      rw [div_le_iff₀ hp] at t1
      norm_num at t1 ⊢
      linarith
    · exact t0
  have hτu := tan_le08 ζb
  have sel := fun y => tan_select (u := 2 ^ (-24 : ℤ)) (y := y) (odd := m % 2 = 1) τ0 hτu hE hF0 hF (by positivity)
  have h12 : (2 : ℝ) ^ (-12 : ℤ) = 1 / 4096 := by norm_num
  have hres : 1 / 5000 ≤ |res.real| := by
    have := (tan_select (u := 0) (y := res.real) (odd := False) τ0 hτu hE hF0 hF le_rfl (by simp)).1
    rw [h12] at τ0
    norm_num at this ⊢
    linarith
  have hresu : |res.real| ≤ 2 := by
    have := abs_add_le (Real.tan ζ) (res.real - Real.tan ζ); rw [add_sub_cancel] at this
    have h3 : F * (1 + Real.tan ζ ^ 2) ≤ 4.5e-6 * (1 + 1.656 ^ 2) := by
      apply mul_le_mul hF _ (by positivity) (by norm_num)
      rw [← sq_abs]
      have := pow_le_pow_left₀ (abs_nonneg _) hτu 2
      linarith
    norm_num at h3 hτu ⊢
    linarith
  have hresQ : 1 / 5000 ≤ |res.val| ∧ |res.val| ≤ 2 := by
    rw [real_abs] at hres hresu
    constructor
    · have : ((1 / 5000 : ℚ) : ℝ) ≤ ((|res.val| : ℚ) : ℝ) := by push_cast at hres ⊢; exact hres
      exact_mod_cast this
    · have : ((|res.val| : ℚ) : ℝ) ≤ ((2 : ℚ) : ℝ) := by push_cast at hresu ⊢; exact hresu
      exact_mod_cast this
  have hpos : 0 < |res.val| := by linarith [hresQ.1]
  have hr0 : res.val ≠ 0 := abs_pos.1 hpos
  have hbig : (2 : ℚ) ^ 20 ≤ b32.big := by decide +kernel
  have hinv : 1 / |res.val| ≤ 5000 := by rw [div_le_iff₀ hpos]; linarith [hresQ.1]
  have hqe : |-1 / res.val| = 1 / |res.val| := by rw [abs_div, abs_neg, abs_one]
  have hrn : |rnd b32 (-1 / res.val) - -1 / res.val| ≤ b32.u * (1 / |res.val|) := by
    have e := rnd_err_rel b32 (q := -1 / res.val) (by rw [hqe]; exact hinv.trans (le_trans (by norm_num) hbig))
    rw [hqe] at e
    refine e.trans (max_le le_rfl ?_)
    have h2 : 1 / 2 ≤ 1 / |res.val| := by
      rw [div_le_div_iff₀ (by norm_num) hpos]; linarith [hresQ.2]
    have := mul_le_mul_of_nonneg_left h2 b32.u_pos.le
    have h3 : b32.eta ≤ b32.u * (1 / 2) := by decide +kernel
    linarith
  have C := tanC32
  have v := tanFinish_val C pol hx hx0 hm rf hr0 (hresQ.2.trans (le_trans (by norm_num) hbig)) (by
    split_ifs with ho
    · refine ⟨hinv.trans (le_trans (by norm_num) hbig), ?_⟩
      have h3 := abs_add_le (-1 / res.val) (rnd b32 (-1 / res.val) - -1 / res.val)
      rw [add_sub_cancel, hqe] at h3
      have h4 : b32.u * (1 / |res.val|) ≤ 1 * (1 / |res.val|) := mul_le_mul_of_nonneg_right (by decide +kernel) (by positivity)
      norm_num at hbig
      linarith
    · have a := add_spec rf C.i0_f (by rw [C.i0_v, add_zero]; exact hresQ.2.trans (le_trans (by norm_num) hbig))
      rw [C.i0_v, add_zero, rnd_val (hresQ.2.trans (le_trans (by norm_num) hbig))] at a
      exact (div_spec (by simpa using C.one_f) a.1 (by rw [a.2]; exact hr0) (by
        rw [val_neg, C.one_v, a.2, abs_div, abs_neg, abs_one]; exact hinv.trans (le_trans (by norm_num) hbig))).1)
    (xor := fun r => spXORuint32 r (getSignMaskf x)) (fun y => spXOR_signMask y x)
  refine ⟨v.1, ?_⟩
  have hu : ((b32.u : ℚ) : ℝ) = 2 ^ (-24 : ℤ) := by
    have : b32.u = 2 ^ (-24 : ℤ) := by decide +kernel
    rw [this]; push_cast; rfl
  have c := (sel (if m % 2 = 1 then ((rnd b32 (-1 / res.val) : ℚ) : ℝ) else res.real) (by
      split_ifs with ho
      · have h2 : ((|rnd b32 (-1 / res.val) - -1 / res.val| : ℚ) : ℝ) ≤ ((b32.u * (1 / |res.val|) : ℚ) : ℝ) := by exact_mod_cast hrn
        rw [real_abs]
        unfold FP.real
        push_cast at h2 ⊢
        rw [hu] at h2
        rw [div_eq_mul_one_div ((2 : ℝ) ^ (-24 : ℤ))]
        exact h2
      · rfl)).2
  rw [← hq] at c
  have hy : (tanFinishC pol (fun r => spXORuint32 r (getSignMaskf x)) x res (2 * m)).real = (if x.val < 0 then -1 else 1) *
      (if m % 2 = 1 then ((rnd b32 (-1 / res.val) : ℚ) : ℝ) else res.real) := by
    unfold FP.real
    rw [v.2]
    split_ifs <;> push_cast <;> ring
  rw [← sq_abs (Real.tan x.real), hta, hy, htx, ← mul_sub, abs_mul]
  refine le_trans (le_of_eq ?_) c
  split_ifs <;> simp

end Vdt
