import Verif.Lemmas.AsinAcc

/-! # The arcsine of a nonnegative double -/

namespace Vdt
open FP details
variable {f : Fmt}

/-- `1 - x` is a multiple of the last place of one half. -/
theorem one_sub_grid [f.Ok] {x : FP f} (h1 : 1 / 2 ≤ x.val) (h2 : x.val ≤ 1) :
    ∃ n : ℤ, 1 - x.val = n * p2 (-1 - f.mb) ∧ |n| ≤ 2 ^ (f.mb + 1) := by
  have hp : p2 (-1) ≤ |x.val| := by
    rw [abs_of_nonneg (by linarith)]
    refine le_trans (le_of_eq ?_) h1
    rw [p2_eq]; norm_num
  obtain ⟨n, k, hv, -, hk⟩ := rep_of_ge hp
  have e1 : p2 k = ((2 ^ (k + 1 + f.mb).toNat : ℤ) : ℚ) * p2 (-1 - f.mb) := by
    rw [Int.cast_pow, Int.cast_ofNat, ← p2_nat, ← p2_add]; congr 1; omega
  have e2 : (1 : ℚ) = ((2 ^ (f.mb + 1) : ℤ) : ℚ) * p2 (-1 - f.mb) := by
    rw [Int.cast_pow, Int.cast_ofNat, ← p2_nat, ← p2_add, p2_eq]
    have : ((f.mb + 1 : ℕ) : ℤ) + (-1 - f.mb) = 0 := by push_cast; ring
    rw [this]; norm_num
  have e3 : 1 - x.val = ((2 ^ (f.mb + 1) - n * 2 ^ (k + 1 + f.mb).toNat : ℤ) : ℚ) * p2 (-1 - f.mb) := by
    rw [Int.cast_sub, sub_mul, ← e2, hv, e1]
    push_cast; ring
  refine ⟨_, e3, ?_⟩
  have h3 : |1 - x.val| ≤ 1 := by rw [abs_le]; constructor <;> linarith
  rw [e3, abs_mul, abs_of_pos (p2_pos _)] at h3
  have := le_of_mul_le_mul_right (h3.trans_eq e2) (p2_pos _)
  exact_mod_cast this

theorem rep_one_sub [f.Ok] (hE : f.emin ≤ -(f.mb : ℤ) - 2) {x : FP f} (h1 : 1 / 2 ≤ x.val) (h2 : x.val ≤ 1) : Rep f (1 - x.val) := by
  obtain ⟨n, e, hn⟩ := one_sub_grid h1 h2
  exact ⟨n, _, e, hn, by omega⟩

theorem rep_one_sub_half [f.Ok] (hE : f.emin ≤ -(f.mb : ℤ) - 2) {x : FP f} (h1 : 1 / 2 ≤ x.val) (h2 : x.val ≤ 1) : Rep f (1 / 2 * (1 - x.val)) := by
  obtain ⟨n, e, hn⟩ := one_sub_grid h1 h2
  refine ⟨n, -2 - f.mb, ?_, hn, by omega⟩
  rw [e, show (-1 - (f.mb : ℤ)) = -2 - f.mb + 1 by ring, p2_succ]; ring

theorem ofRat_sign_nonneg {q : ℚ} (h : 0 ≤ q) : (ofRat f false q).sign = false := by
  unfold ofRat
  simp only
  split <;> simp_all

theorem sub_sign_nonneg {x y : FP f} (hx : x.isFinite = true) (hy : y.isFinite = true) (hs : x.sign = false) (h : y.val ≤ x.val) : (x - y).sign = false := by
  rw [sub_def, sub_fin hx hy, hs, Bool.false_and]
  exact ofRat_sign_nonneg (by linarith)

theorem add_sign_nonneg {x y : FP f} (hx : x.isFinite = true) (hy : y.isFinite = true) (hs : x.sign = false) (h : 0 ≤ x.val + y.val) : (x + y).sign = false := by
  rw [add_def, add_fin hx hy, hs, Bool.false_and]
  exact ofRat_sign_nonneg h

theorem add_finite_left {a b : FP f} [f.Ok] (h : (a + b).isFinite = true) (hb : b.isFinite = true) : a.isFinite = true := by
  rcases trichotomy a with hc | hc | hc
  · rw [add_def, add_nan_left hc] at h
    have := (finite_iff.1 h).1
    rw [nan_isNaN] at this; cases this
  · rw [add_def] at h
    have e : add a b = a := by
      unfold add
      have hn : a.isNaN = false := by
        cases ha : a.isNaN
        · rfl
        · simp [isNaN, isInf] at ha hc; omega
      simp [finite_not_nan hb, finite_not_inf hb, hn, hc]
    rw [e] at h
    have := finite_not_inf h
    rw [hc] at this; cases this
  · exact hc

/-! ## Reals -/

theorem le_arcsin_self {x : ℝ} (h0 : 0 ≤ x) (h1 : x ≤ 1) : x ≤ Real.arcsin x := by
  have := Real.sin_le (Real.arcsin_nonneg.2 h0)
  rwa [Real.sin_arcsin (by linarith) h1] at this

/-- Tiny arguments. -/
theorem arcsin_small {x : ℝ} (h0 : 0 ≤ x) (h1 : x ≤ 5 / 8) : |x - Real.arcsin x| ≤ x * (x * x) * 0.3 + 2 ^ (-61 : ℤ) * Real.arcsin x := by
  have tay := asin_taylor h0 h1
  have e : pev asinT (x * x) = 1 + x * x * pev asinT.tail (x * x) := by
    have : asinT = 1 :: asinT.tail := by decide +kernel
    rw [this, pev_cons]; push_cast; rfl
  have c : pabs 0.390625 asinT.tail ≤ 0.3 := by decide +kernel
  have k := pabs_bound asinT.tail (r := 0.390625) (t := x * x) (by rw [abs_of_nonneg (mul_self_nonneg x)]; push_cast; nlinarith)
  have c' := (Rat.cast_le (K := ℝ)).2 c
  push_cast at c'
  have k' := k.trans c'
  rw [e] at tay
  have : |x - x * (1 + x * x * pev asinT.tail (x * x))| ≤ x * (x * x) * 0.3 := by
    rw [show x - x * (1 + x * x * pev asinT.tail (x * x)) = -(x * (x * x) * pev asinT.tail (x * x)) by ring, abs_neg, abs_mul, abs_of_nonneg (by positivity)]
    exact mul_le_mul_of_nonneg_left k' (by positivity)
  exact (abs_sub_le _ _ _).trans (add_le_add this tay)

theorem arcsin_tiny {x : ℝ} (h0 : 0 ≤ x) (h1 : x ≤ 1 / 10 ^ 7) : |x - Real.arcsin x| ≤ (x * x * 0.3 + 2 ^ (-61 : ℤ)) * Real.arcsin x := by
  have a := arcsin_small h0 (h1.trans (by norm_num))
  have b := le_arcsin_self h0 (h1.trans (by norm_num))
  refine a.trans ?_
  have := mul_le_mul_of_nonneg_left b (show 0 ≤ x * x * 0.3 by positivity)
  nlinarith

/-! ## The branch above 0.625 -/

theorem pi2_const2 : |(2 * PIO4.real + MOREBITS.real) - Real.pi / 2| ≤ 1 / 10 ^ 30 := by
  have h := pi2_const
  have e : PIO2.val = 2 * PIO4.val := by decide +kernel
  have : PIO2.real = 2 * PIO4.real := by unfold FP.real; rw [e]; push_cast; ring
  rwa [this] at h

theorem asinLargeE_real (z σ : ℝ) : asinLargeE.evalR (pick z σ) =
    PIO4.real - σ - (σ * (z * pev asinRl z / pev asinSl z) - MOREBITS.real) + PIO4.real := by
  have : asinLargeE.evalR (pick z σ) = PIO4.real - σ - (σ * (z * (asinRE (.var 0)).evalR (pick z σ) / (asinSE (.var 0)).evalR (pick z σ)) - MOREBITS.real) + PIO4.real := rfl
  rw [this, asinRE_real, asinSE_real]; rfl

theorem asin_large_real {a : ℝ} (h1 : 0.625 ≤ a) (h2 : a ≤ 1) :
    |asinLargeE.evalR (pick (1 - a) √(2 * (1 - a))) - Real.arcsin a| ≤ 0.37 * 2 ^ (-53 : ℤ) := by
  rw [asinLargeE_real, arcsin_half (by linarith) h2]
  have hz0 : 0 ≤ 1 - a := by linarith
  have hz1 : 1 - a ≤ 0.375 := by norm_num at *; linarith
  set z := 1 - a
  have ap := asin_large_approx hz0 hz1
  have w0 := Real.sqrt_nonneg (z / 2)
  have w2 : √(z / 2) * √(z / 2) = z / 2 := Real.mul_self_sqrt (by linarith)
  have es : √(2 * z) = 2 * √(z / 2) := by
    rw [show 2 * z = 2 ^ 2 * (z / 2) by ring, Real.sqrt_mul (by norm_num), Real.sqrt_sq (by norm_num)]
  rw [es]
  set w := √(z / 2)
  have w1 : w ≤ 0.43302 := by
    by_contra hc
    push Not at hc
    norm_num at *
    nlinarith
  have tay := asin_taylor w0 (w1.trans (by norm_num))
  rw [w2] at tay
  have pc := pi2_const2
  have ub : Real.arcsin w ≤ 1.6 := by
    have := Real.arcsin_le_pi_div_two w
    have := pi_bounds.2
    norm_num at *; linarith
  generalize pev asinT (z / 2) = T at *
  generalize z * pev asinRl z / pev asinSl z = p at *
  generalize Real.arcsin w = A at *
  have k1 : |2 * w * (1 + p - T)| ≤ 0.86604 * (0.4 * 2 ^ (-53 : ℤ)) := by
    rw [abs_mul, abs_of_nonneg (by linarith)]
    exact mul_le_mul (by norm_num at *; linarith) ap (abs_nonneg _) (by norm_num)
  have k2 : |w * T - A| ≤ 2 ^ (-61 : ℤ) * 1.6 := tay.trans (mul_le_mul_of_nonneg_left ub (by positivity))
  rw [show PIO4.real - 2 * w - (2 * w * p - MOREBITS.real) + PIO4.real - (Real.pi / 2 - 2 * A) =
    ((2 * PIO4.real + MOREBITS.real) - Real.pi / 2) - 2 * w * (1 + p - T) - 2 * (w * T - A) by ring]
  rw [abs_le] at *
  norm_num at *
  constructor <;> linarith [pc.1, pc.2, k1.1, k1.2, k2.1, k2.2]

theorem lit1_64 : (lit 1.0 : F64).isFinite = true ∧ (lit 1.0 : F64).val = 1 ∧ (lit 1.0 : F64).sign = false := by decide +kernel

theorem emin64 : b64.emin ≤ -(b64.mb : ℤ) - 2 := by decide
theorem emin32 : b32.emin ≤ -(b32.mb : ℤ) - 2 := by decide

/-- The difference and the square root of the large branch. -/
theorem asin_root {a : F64} (ha : a.isFinite = true) (h1 : 1 / 2 ≤ a.val) (h2 : a.val ≤ 1) :
    (lit 1.0 - a).isFinite = true ∧ (lit 1.0 - a).real = 1 - a.real ∧ (FP.sqrt ((lit 1.0 - a) + (lit 1.0 - a))).isFinite = true ∧
    (FP.sqrt ((lit 1.0 - a) + (lit 1.0 - a))).sign = false ∧
    |(FP.sqrt ((lit 1.0 - a) + (lit 1.0 - a))).real - √(2 * (1 - a.real))| ≤ (b64.u : ℝ) * √(2 * (1 - a.real)) := by
  have l := lit1_64
  have b1 : (1 : ℚ) ≤ b64.big := by decide +kernel
  have d := sub_exact (x := lit 1.0) (y := a) l.1 ha (by rw [l.2.1]; exact rep_one_sub emin64 h1 h2)
    (by rw [l.2.1, abs_of_nonneg (by linarith)]; linarith)
  have ds : (lit 1.0 - a).sign = false := sub_sign_nonneg l.1 ha l.2.2 (by rw [l.2.1]; exact h2)
  rw [l.2.1] at d
  generalize lit 1.0 - a = D at *
  have e := add_exact d.1 d.1 (by rw [d.2, ← two_mul]; exact rep_two_mul (rep_one_sub emin64 h1 h2))
    (by rw [d.2, abs_of_nonneg (by linarith)]; linarith)
  have es : (D + D).sign = false := add_sign_nonneg d.1 d.1 ds (by rw [d.2]; linarith)
  have r := sqrt_nonneg_err emin64 e.1 es
  have er : (D + D).real = 2 * (1 - a.real) := by
    unfold FP.real; rw [e.2, d.2]; push_cast; ring
  rw [er] at r
  exact ⟨d.1, by unfold FP.real; rw [d.2]; push_cast; ring, r⟩

theorem asin_large_acc (p : Policy) {a : F64} (ha : a.isFinite = true) (h1 : 0.625 ≤ a.val) (h2 : a.val ≤ 1) :
    (asinLargeC p a).isFinite = true ∧ |(asinLargeC p a).real - Real.arcsin a.real| ≤ 2.8 * 2 ^ (-53 : ℤ) ∧
    |(asinLargeC p a).real - Real.arcsin a.real| ≤ 3.2 * 2 ^ (-53 : ℤ) * Real.arcsin a.real ∧ 0.65 ≤ Real.arcsin a.real := by
  have r1 := le_real_iff.2 h1
  have r2 := real_le_iff.2 h2
  push_cast at r1 r2
  obtain ⟨d1, d2, s1, -, s2⟩ := asin_root ha (le_trans (by norm_num) h1) h2
  have ar := asin_large_real r1 r2
  have z0 : 0 ≤ 2 * (1 - a.real) := by linarith
  have q0 := Real.sqrt_nonneg (2 * (1 - a.real))
  have q2 := Real.mul_self_sqrt z0
  have q1 : √(2 * (1 - a.real)) ≤ 0.8661 := by
    by_contra hc
    push Not at hc
    norm_num at *
    nlinarith
  rw [asinLargeC_eq]
  set σ := √(2 * (1 - a.real))
  obtain ⟨s, t, hst, g1, g2⟩ := covers_spans asinLargeE_ok (a := 0) (b := 0.8661) (by decide +kernel) (x := σ) (by push_cast; exact q0) (by push_cast; exact q1)
  have k := okRelS_con hst d1 s1 (σ := σ) (by rw [d2, q2]; push_cast; ring) s2 g1 g2 (asinLarge_con p _ _)
  rw [d2] at k
  generalize ((PIO4 - FP.sqrt ((lit 1.0 - a) + (lit 1.0 - a))) - asinCorrC p (lit 1.0 - a) (FP.sqrt ((lit 1.0 - a) + (lit 1.0 - a)))) + PIO4 = F at *
  generalize asinLargeE.evalR _ = R at *
  generalize Real.arcsin a.real = A at *
  obtain ⟨k1, k2, k3, k4⟩ := k
  have a65 : 0.65 ≤ A := by
    rw [abs_le] at ar
    norm_num at *; linarith [ar.1, ar.2]
  refine ⟨k1, ?_, ?_, a65⟩
  · have := (abs_sub_le F.real R A)
    refine this.trans ((add_le_add k2 ar).trans ?_)
    push_cast; norm_num
  · have c1 : ((2.6 * 2 ^ (-53 : ℤ) : ℚ) : ℝ) = 2.6 * 2 ^ (-53 : ℤ) := by norm_num
    rw [c1] at k4
    have := rel_chain (D := 0.6 * 2 ^ (-53 : ℤ)) k4 ar (by positivity) (by norm_num at *; linarith)
    refine this.trans (le_of_eq ?_)
    norm_num

/-- The large branch does not exceed the double nearest to `π/2`. -/
theorem asin_large_le (p : Policy) {a : F64} (ha : a.isFinite = true) (h1 : 0.625 ≤ a.val) (h2 : a.val ≤ 1) : (asinLargeC p a).val ≤ PIO2.val := by
  have r1 := le_real_iff.2 h1
  have r2 := real_le_iff.2 h2
  push_cast at r1 r2
  obtain ⟨d1, d2, s1, s3, s2⟩ := asin_root ha (le_trans (by norm_num) h1) h2
  have z0 : 0 ≤ 2 * (1 - a.real) := by linarith
  have q0 := Real.sqrt_nonneg (2 * (1 - a.real))
  have q2 := Real.mul_self_sqrt z0
  have q1 : √(2 * (1 - a.real)) ≤ 0.8661 := by
    by_contra hc
    push Not at hc
    norm_num at *
    nlinarith
  rw [asinLargeC_eq]
  set σ := √(2 * (1 - a.real))
  obtain ⟨s, t, hst, g1, g2⟩ := covers_spans asinCorrE_ok (a := 0) (b := 0.8661) (by decide +kernel) (x := σ) (by push_cast; exact q0) (by push_cast; exact q1)
  have k := okAbsS_con hst d1 s1 (σ := σ) (by rw [d2, q2]; push_cast; ring) s2 g1 g2 (asinCorr_con p _ _)
  obtain ⟨s, t, hst, g1, g2⟩ := covers_spans asinLargeE_ok (a := 0) (b := 0.8661) (by decide +kernel) (x := σ) (by push_cast; exact q0) (by push_cast; exact q1)
  have kl := (okRelS_con hst d1 s1 (σ := σ) (by rw [d2, q2]; push_cast; ring) s2 g1 g2 (asinLarge_con p _ _)).1
  have sv := val_nonneg_of_sign s3
  have k1 := k.1
  have cv : -16 / 10 ^ 17 ≤ (asinCorrC p (lit 1.0 - a) (FP.sqrt ((lit 1.0 - a) + (lit 1.0 - a)))).val := by
    apply le_real_iff.1
    have k2 := (abs_le.1 k.2.1).1
    have k3 := k.2.2
    push_cast at *
    norm_num at *
    linarith
  have sb : (FP.sqrt ((lit 1.0 - a) + (lit 1.0 - a))).val ≤ 1 := by
    apply real_le_iff.1
    have := (abs_le.1 s2).2
    have u1 : (b64.u : ℝ) ≤ 0.001 := by
      have : b64.u ≤ 0.001 := by decide +kernel
      have := (Rat.cast_le (K := ℝ)).2 this
      push_cast at this; exact this
    push_cast
    norm_num at *
    nlinarith
  have ub : (asinCorrC p (lit 1.0 - a) (FP.sqrt ((lit 1.0 - a) + (lit 1.0 - a)))).isFinite = true := k1
  generalize asinCorrC p (lit 1.0 - a) (FP.sqrt ((lit 1.0 - a) + (lit 1.0 - a))) = c at *
  generalize FP.sqrt ((lit 1.0 - a) + (lit 1.0 - a)) = s at *
  have P : PIO4.isFinite = true ∧ 0 ≤ PIO4.val ∧ PIO4.val ≤ 1 ∧ 4 ≤ b64.big ∧ rnd b64 (rnd b64 (PIO4.val + 16 / 10 ^ 17) + PIO4.val) = PIO2.val := by decide +kernel
  obtain ⟨p1, p2, p3, p4, p5⟩ := P
  have t1 := sub_spec p1 s1 (by rw [abs_le]; constructor <;> linarith)
  have v1 : (PIO4 - s).val ≤ PIO4.val := by
    rw [sub_def, t1.2]
    refine (rnd_mono b64 (by linarith : PIO4.val - s.val ≤ PIO4.val)).trans (le_of_eq ?_)
    exact rnd_fin p1
  have t1f : (PIO4 - s).isFinite = true := t1.1
  generalize PIO4 - s = z at *
  have zf := add_finite_left kl p1
  have v2 : (z - c).val ≤ rnd b64 (PIO4.val + 16 / 10 ^ 17) := by
    rw [sub_def, sub_fin t1f ub, val_ofRat]
    exact rnd_mono b64 (by linarith)
  rw [add_def, add_fin zf p1, val_ofRat, ← p5]
  exact rnd_mono b64 (by linarith)

/-! ## The branch below 0.625 -/

theorem asinSmallE_real (x : ℝ) : (asinSmallE (.var 0) (.var 1)).evalR (fun _ => x) = x * (1 + x * x * pev asinPl (x * x) / pev asinQl (x * x)) := by
  have : (asinSmallE (.var 0) (.var 1)).evalR (fun _ => x) =
      x * (x * x * (asinPE ((E.var 0).mul (.var 0))).evalR (fun _ => x) / (asinQE ((E.var 0).mul (.var 0))).evalR (fun _ => x)) + x := rfl
  rw [this, asinPE_real, asinQE_real]
  have e : ((E.var 0).mul (.var 0) : E b64).evalR (fun _ => x) = x * x := rfl
  rw [e]; ring

theorem arcsin_upper {x : ℝ} (h0 : 0 ≤ x) (h1 : x ≤ 5 / 8) : Real.arcsin x ≤ 1.12 * x := by
  have a := abs_le.1 (arcsin_small h0 h1)
  have h2 : x * x ≤ 25 / 64 := by nlinarith
  have h3 : x * (x * x) ≤ x * (25 / 64) := mul_le_mul_of_nonneg_left h2 h0
  norm_num at *
  linarith [a.1]

theorem asin_small_acc (p : Policy) {x : F64} (hx : x.isFinite = true) (h1 : 1 / 10 ^ 9 ≤ x.real) (h2 : x.real ≤ 5 / 8) :
    (asinSmallC p x).isFinite = true ∧ |(asinSmallC p x).real - Real.arcsin x.real| ≤ 3.6 * 2 ^ (-53 : ℤ) * Real.arcsin x.real := by
  have x0 : 0 ≤ x.real := le_trans (by norm_num) h1
  obtain ⟨s, t, hst, g1, g2⟩ := covers_spans asinSmallE_ok (a := 0) (b := 0.625) (by decide +kernel) (x := x.real) (by push_cast; exact x0)
    (by push_cast; norm_num; exact h2)
  have rn := okRel1_con (by norm_num) hst hx g1 g2 (asinSmall_con p x)
  rw [asinSmallE_real] at rn
  have sq : x.real * x.real ≤ 0.390625 := by norm_num; nlinarith
  have ap := asin_small_approx (mul_self_nonneg x.real) sq
  have tay := asin_taylor x0 h2
  have lo := le_arcsin_self x0 (h2.trans (by norm_num))
  have hR : |x.real * (1 + x.real * x.real * pev asinPl (x.real * x.real) / pev asinQl (x.real * x.real)) - Real.arcsin x.real| ≤ 0.31 * 2 ^ (-53 : ℤ) * Real.arcsin x.real := by
    have : |x.real * (1 + x.real * x.real * pev asinPl (x.real * x.real) / pev asinQl (x.real * x.real)) - x.real * pev asinT (x.real * x.real)| ≤ x.real * (0.3 * 2 ^ (-53 : ℤ)) := by
      rw [← mul_sub, abs_mul, abs_of_nonneg x0]
      exact mul_le_mul_of_nonneg_left ap x0
    refine (abs_sub_le _ _ _).trans ((add_le_add this tay).trans ?_)
    norm_num at *
    linarith
  have c1 : ((3.2 * 2 ^ (-53 : ℤ) : ℚ) : ℝ) = 3.2 * 2 ^ (-53 : ℤ) := by norm_num
  have c2 : ((4 : ℚ) : ℝ) = 4 := by norm_num
  rw [c1, c2] at rn
  refine ⟨rn.1, ?_⟩
  have k := rel_chain_abs (D := 0.35 * 2 ^ (-53 : ℤ)) rn.2 hR (by linarith) (by positivity) (by
    generalize Real.arcsin x.real = A at *
    norm_num at *; nlinarith)
  refine k.trans ?_
  have et := eta64_le
  generalize (b64.eta : ℝ) = η at *
  generalize Real.arcsin x.real = A at *
  norm_num at *
  linarith

/-! ## All together -/

theorem asinPosC_acc (p : Policy) {x : F64} (hx : x.isFinite = true) (hs : x.sign = false) (h : x.val ≤ 1) :
    (asinPosC p x).isFinite = true ∧ (asinPosC p x).sign = false ∧ (asinPosC p x).val ≤ PIO2.val ∧
    |(asinPosC p x).real - Real.arcsin x.real| ≤ 3.6 * 2 ^ (-53 : ℤ) * Real.arcsin x.real ∧
    |(asinPosC p x).real - Real.arcsin x.real| ≤ 2.8 * 2 ^ (-53 : ℤ) := by
  have x0 := real_nonneg hs
  have L : (lit 0.625 : F64).isFinite = true ∧ (lit 0.625 : F64).val = 0.625 ∧ (lit 1e-8 : F64).isFinite = true ∧ 1 / 10 ^ 9 ≤ (lit 1e-8 : F64).val ∧
      (lit 1e-8 : F64).val ≤ 1.01 / 10 ^ 8 ∧ 1 ≤ PIO2.val := by decide +kernel
  obtain ⟨l1, l2, l3, l4, l5, l6⟩ := L
  rcases lt_or_ge x.val (lit 1e-8 : F64).val with c | c
  · have e : asinPosC p x = x := by
      unfold asinPosC; simp only; rw [lt_fin hx l3]; simp [c]
    have r := real_le_iff.2 (c.le.trans l5)
    push_cast at r
    rw [e]
    have t := arcsin_tiny x0 (r.trans (by norm_num))
    have u := arcsin_upper x0 (r.trans (by norm_num))
    have lo := le_arcsin_self x0 (r.trans (by norm_num))
    have sq : x.real * x.real ≤ (1.01 / 10 ^ 8) * (1.01 / 10 ^ 8) := mul_self_le_mul_self x0 r
    refine ⟨hx, hs, h.trans l6, t.trans (mul_le_mul_of_nonneg_right (by norm_num at *; linarith) (by linarith)), t.trans ?_⟩
    generalize Real.arcsin x.real = A at *
    norm_num at *
    nlinarith
  · rcases lt_or_ge x.val 0.625 with d | d
    · have e : asinPosC p x = asinSmallC p x := by
        unfold asinPosC; simp only; rw [lt_fin hx l3, lt_fin hx l1, l2]; simp [d, not_lt.2 c]
      have r1 := le_real_iff.2 (l4.trans c)
      have r2 := real_le_iff.2 d.le
      push_cast at r1 r2
      have r2' : x.real ≤ 5 / 8 := r2.trans (by norm_num)
      obtain ⟨a1, a2⟩ := asin_small_acc p hx r1 r2'
      have u := arcsin_upper x0 r2'
      have lo := le_arcsin_self x0 (r2'.trans (by norm_num))
      rw [e]
      generalize Real.arcsin x.real = A at *
      have p : 0 < (asinSmallC p x).real := pos_of_acc a2 (by norm_num at *; linarith) (by norm_num)
      refine ⟨a1, ?_, ?_, a2, a2.trans ?_⟩
      · apply sign_of_pos
        unfold FP.real at p; exact_mod_cast p
      · refine le_trans ?_ l6
        apply real_le_iff.1
        have := (abs_le.1 a2).2
        push_cast
        norm_num at *
        linarith
      · norm_num at *
        linarith
    · have e : asinPosC p x = asinLargeC p x := by
        unfold asinPosC; simp only; rw [lt_fin hx l3, lt_fin hx l1, l2]; simp [not_lt.2 d, not_lt.2 c]
      obtain ⟨a1, a2, a3, a4⟩ := asin_large_acc p hx d h
      rw [e]
      refine ⟨a1, ?_, asin_large_le p hx d h, a3.trans (mul_le_mul_of_nonneg_right (by norm_num) (by linarith)), a2⟩
      have p : 0 < (asinLargeC p x).real := pos_of_acc a3 (by linarith) (by norm_num)
      apply sign_of_pos
      unfold FP.real at p; exact_mod_cast p

theorem asinPos_plain (x : F64) : asinPosC (fun _ => false) x = asinPos x := by
  plain [asinPosC, asinPos, asinSmallC, asinLargeC, getRXC, getSXC, getPXC, getQXC, asinSmall, asinLarge, getRX, getSX, getPX, getQX]

theorem asinPos_acc {x : F64} (hx : x.isFinite = true) (hs : x.sign = false) (h : x.val ≤ 1) :
    (asinPos x).isFinite = true ∧ (asinPos x).sign = false ∧ (asinPos x).val ≤ PIO2.val ∧
    |(asinPos x).real - Real.arcsin x.real| ≤ 3.6 * 2 ^ (-53 : ℤ) * Real.arcsin x.real ∧
    |(asinPos x).real - Real.arcsin x.real| ≤ 2.8 * 2 ^ (-53 : ℤ) := by
  rw [← asinPos_plain]
  exact asinPosC_acc _ hx hs h

end Vdt
