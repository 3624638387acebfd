import Verif.Lemmas.AtanAcc
import Verif.Lemmas.TanFinish

/-! # The arctangent of a nonnegative double -/

namespace Vdt
open FP details
variable {f : Fmt}

theorem rel_chain_abs {F R A C δ D h : ℝ} (h1 : |F - R| ≤ C * |R| + h) (h2 : |R - A| ≤ δ) (hA : 0 ≤ A) (hC : 0 ≤ C) (hd : C * δ + δ ≤ D * A) :
    |F - A| ≤ (C + D) * A + h := by
  have r : |R| ≤ A + δ := by
    have := abs_le.1 h2
    rw [abs_le]; constructor <;> linarith [(abs_nonneg (R - A)).trans h2]
  rw [abs_le] at h1 h2 ⊢
  have : C * |R| ≤ C * (A + δ) := mul_le_mul_of_nonneg_left r hC
  constructor <;> nlinarith

/-- Adding a positive zero to a number with a cleared sign bit changes nothing. -/
theorem add_pzero {a z : FP f} [f.Ok] (ha : a.isFinite = true) (hb : |a.val| ≤ f.big) (hs : a.sign = false) (hz : z = zero false) : a + z = a := by
  subst hz
  have zf : (zero false : FP f).isFinite = true := zero_finite false
  have e := add_fin ha zf
  rw [val_zero, add_zero, hs] at e
  rw [add_def, e]
  rcases eq_or_ne a.val 0 with h0 | h0
  · rw [h0]
    have := eq_zero' (zero_of_val h0)
    rw [hs] at this
    rw [this]
    exact ofRat_zero
  · refine eq_of_val ?_ ?_
    · rw [ofRat_sign_ne h0, hs, decide_eq_false_iff_not, not_lt]
      exact val_nonneg_of_sign hs
    · rw [val_ofRat]; exact rnd_val hb

theorem val_ge_two_sub {x : FP f} (hs : x.sign = false) (h : 2 ≤ x.mag) : 4 * f.eta ≤ x.val := by
  have h1 : magVal f 2 ≤ magVal f x.mag := magVal_le.2 h
  have h2 := magVal_code f (e := f.emin) (k := 2) le_rfl (by have := Nat.one_le_two_pow (n := f.mb); rw [pow_succ]; omega) (.inr rfl)
  simp only [sub_self, Int.toNat_zero, zero_mul, zero_add] at h2
  rw [h2] at h1
  have h3 : f.eta * 2 = p2 (f.emin - f.mb) := by
    unfold Fmt.eta
    rw [show f.emin - (f.mb : ℤ) = f.emin - f.mb - 1 + 1 by ring, p2_succ]; ring_nf
  have h4 : x.val = magVal f x.mag := by rw [← abs_val, abs_of_nonneg (val_nonneg_of_sign hs)]
  rw [h4]
  push_cast at h1
  linarith

theorem real_nonneg {x : FP f} (hs : x.sign = false) : 0 ≤ x.real := by
  unfold FP.real; exact_mod_cast val_nonneg_of_sign hs

/-! ## The small interval -/

theorem atanCoreC_acc (p : Policy) {x : F64} (hx : x.isFinite = true) (hs : x.sign = false) (h : x.real ≤ 0.6601) :
    (atanCoreC p x).isFinite = true ∧ |(atanCoreC p x).real - Real.arctan x.real| ≤ 2.63 * 2 ^ (-53 : ℤ) * Real.arctan x.real + 2.36 * (b64.eta : ℝ) := by
  have x0 := real_nonneg hs
  obtain ⟨s, t, hst, h1, h2⟩ := covers_spans atanSmallE_ok (a := 0) (b := 0.6601) (by decide +kernel) (x := x.real) (by push_cast; exact x0)
    (by push_cast; exact h)
  have rn := okRel1_con (by norm_num) hst hx h1 h2 (atanCore_con p x)
  rw [atanCoreE_real (.var 0) (.var 1) _ rfl, show (E.var 1 : E b64).evalR (fun _ => x.real) = x.real from rfl] at rn
  have c1 : ((2.48 * 2 ^ (-53 : ℤ) : ℚ) : ℝ) = 2.48 * 2 ^ (-53 : ℤ) := by norm_num
  have c2 : ((2.36 : ℚ) : ℝ) = 2.36 := by norm_num
  rw [c1, c2] at rn
  refine ⟨rn.1, ?_⟩
  have ap := atan_approx (z := x.real) (by rw [abs_of_nonneg x0]; exact h)
  rw [abs_of_nonneg x0] at ap
  have lo := arctan_lower x0 h
  have k := rel_chain_abs (D := 0.15 * 2 ^ (-53 : ℤ)) rn.2 ap (by linarith) (by positivity) (by norm_num; nlinarith)
  refine k.trans (add_le_add (le_of_eq ?_) le_rfl)
  norm_num

/-- At zero and at the smallest subnormal number no choice of the compiler matters. -/
theorem atanCoreC_tiny (p : Policy) (x : F64) (h : x = ⟨false, 0, by decide⟩ ∨ x = ⟨false, 1, by decide⟩) : (atanCoreC p x).sign = false := by
  have key : ∀ b0 b1 b2 b3 b4 b5 b6 b7 b8 b9 : Bool, ∀ x ∈ [(⟨false, 0, by decide⟩ : F64), ⟨false, 1, by decide⟩],
      (mad b9 (x * (x * x)) (mad b3 (mad b2 (mad b1 (mad b0 (-lit 8.750608600031904122785E-1) (x * x) (-lit 1.615753718733365076637E1)) (x * x) (-lit 7.500855792314704667340E1)) (x * x) (-lit 1.228866684490136173410E2)) (x * x) (-lit 6.485021904942025371773E1) /
        mad b8 (mad b7 (mad b6 (mad b5 (mad b4 x x (lit 2.485846490142306297962E1)) (x * x) (lit 1.650270098316988542046E2)) (x * x) (lit 4.328810604912902668951E2)) (x * x) (lit 4.853903996359136964868E2)) (x * x) (lit 1.945506571482613964425E2)) x).sign = false := by
    decide +kernel
  rcases h with rfl | rfl <;> exact key _ _ _ _ _ _ _ _ _ _ _ (by simp)

/-- Its sign bit is clear and it is at most one. -/
theorem atanCoreC_sign (p : Policy) {x : F64} (hx : x.isFinite = true) (hs : x.sign = false) (h : x.real ≤ 0.6601) :
    (atanCoreC p x).sign = false ∧ |(atanCoreC p x).val| ≤ 1 := by
  have acc := atanCoreC_acc p hx hs h
  have x0 := real_nonneg hs
  have lo := arctan_lower x0 h
  have up := arctan_abs_le x.real
  have a0 : 0 ≤ Real.arctan x.real := by linarith
  rw [abs_of_nonneg a0, abs_of_nonneg x0] at up
  have eta0 : (0 : ℝ) < b64.eta := by exact_mod_cast b64.eta_pos
  have eta1 : (b64.eta : ℝ) ≤ 0.001 := by
    have : b64.eta ≤ 0.001 := by decide +kernel
    have := (Rat.cast_le (K := ℝ)).2 this
    push_cast at this
    exact this
  have a := abs_le.1 acc.2
  constructor
  · rcases lt_or_ge x.mag 2 with hm | hm
    · have : x = ⟨false, 0, by decide⟩ ∨ x = ⟨false, 1, by decide⟩ := by
        rcases (show x.mag = 0 ∨ x.mag = 1 by omega) with e | e
        · left; ext <;> simp [hs, e]
        · right; ext <;> simp [hs, e]
      rcases this with rfl | rfl
      · exact atanCoreC_tiny p _ (Or.inl rfl)
      · exact atanCoreC_tiny p _ (Or.inr rfl)
    · have v : (4 : ℝ) * b64.eta ≤ x.real := by
        have := val_ge_two_sub hs hm
        unfold FP.real; exact_mod_cast this
      have p : 0 < (atanCoreC p x).real := by
        have := a.1
        norm_num at this
        generalize (b64.eta : ℝ) = η at *
        nlinarith
      apply sign_of_pos
      unfold FP.real at p; exact_mod_cast p
  · have r : |(atanCoreC p x).real| ≤ 1 := by
      have a1 := a.1
      have a2 := a.2
      norm_num at a1 a2 h
      generalize (b64.eta : ℝ) = η at *
      rw [abs_le]; constructor <;> nlinarith
    have e : |(atanCoreC p x).real| = ((|(atanCoreC p x).val| : ℚ) : ℝ) := by unfold FP.real; push_cast; rfl
    rw [e] at r; exact_mod_cast r

/-! ## The three intervals -/

theorem lit66 : (lit 0.66 : F64).val ≤ 0.6601 ∧ 0.659 ≤ (lit 0.66 : F64).val ∧ (lit 0.66 : F64).isFinite = true ∧
    T3PO8.val ≤ 2.415 ∧ 2.414 ≤ T3PO8.val ∧ T3PO8.isFinite = true := by decide +kernel

theorem real_le_iff {x : FP f} {q : ℚ} : x.real ≤ (q : ℝ) ↔ x.val ≤ q := by unfold FP.real; exact Rat.cast_le
theorem le_real_iff {x : FP f} {q : ℚ} : (q : ℝ) ≤ x.real ↔ q ≤ x.val := by unfold FP.real; exact Rat.cast_le

theorem z_mid {x : ℝ} (h1 : 0.414 ≤ x) (h2 : x ≤ 2.415) : |(x - 1) / (x + 1)| ≤ 0.41443 ∧ (0.659 ≤ x → -0.2056 ≤ (x - 1) / (x + 1)) := by
  have h3 : 0 < x + 1 := by linarith
  constructor
  · rw [abs_le, le_div_iff₀ h3, div_le_iff₀ h3]; norm_num at *; constructor <;> linarith
  · intro h; rw [le_div_iff₀ h3]; norm_num at *; linarith

theorem z_big {x : ℝ} (h1 : 2.414 ≤ x) : |-1 / x| ≤ 0.41443 := by
  rw [abs_div, abs_neg, abs_one, abs_of_pos (by linarith), div_le_iff₀ (by linarith)]
  norm_num at *; linarith

theorem pos_of_acc {F A C : ℝ} (h : |F - A| ≤ C * A) (hA : 0 < A) (hC : C < 1) : 0 < F := by
  have := (abs_le.1 h).1
  nlinarith

theorem atan_mid64 (p : Policy) {x : F64} (hx : x.isFinite = true) (h1 : 0.659 ≤ x.val) (h2 : x.val ≤ 2.415) :
    (atanMidC p x).isFinite = true ∧
    |(atanMidC p x).real - Real.arctan x.real| ≤ 3.2 * 2 ^ (-53 : ℤ) * Real.arctan x.real ∧
    0.57 ≤ Real.arctan x.real ∧ Real.arctan x.real ≤ 1.2 := by
  have r1 := le_real_iff.2 h1
  have r2 := real_le_iff.2 h2
  obtain ⟨s, t, hst, g1, g2⟩ := covers_spans atanMidE_ok (a := 0.659) (b := 2.415) (by decide +kernel) (x := x.real) r1 r2
  have rn := okRel_con (by norm_num) hst hx g1 g2 (atanMid_con p x)
  push_cast at r1 r2
  have l1 : (lit 1.0 : F64).real = 1 := by
    have : (lit 1.0 : F64).val = 1 := by decide +kernel
    unfold FP.real; rw [this]; norm_num
  have ez : atanMidR.evalR (fun _ => x.real) = (x.real - 1) / (x.real + 1) := by
    have : atanMidR.evalR (fun _ => x.real) = (x.real - (lit 1.0 : F64).real) / (x.real + (lit 1.0 : F64).real) := rfl
    rw [this, l1]
  have eR : atanMidE.evalR (fun _ => x.real) = ((atanCoreE atanMidR atanMidR).evalR (fun _ => x.real) + PIO4.real) + MOREBITSO2.real := rfl
  rw [atanCoreE_real _ _ _ rfl, ez] at eR
  have zb := z_mid (le_trans (by norm_num) r1) r2
  have ap := atan_approx (z := (x.real - 1) / (x.real + 1)) (zb.1.trans (by norm_num))
  have am := arctan_mid (x := x.real) (by linarith)
  have pc := pi4_const
  have al := arctan_abs_le ((x.real - 1) / (x.real + 1))
  have ag : (x.real - 1) / (x.real + 1) - |(x.real - 1) / (x.real + 1)| ≤ 0 := by linarith [le_abs_self ((x.real - 1) / (x.real + 1))]
  have al2 : -0.2056 ≤ Real.arctan ((x.real - 1) / (x.real + 1)) := by
    rcases le_total 0 ((x.real - 1) / (x.real + 1)) with hz | hz
    · have := Real.arctan_nonneg.2 hz
      linarith
    · rw [abs_of_nonpos hz] at al
      have := zb.2 r1
      linarith [(abs_le.1 al).1]
  have pb := pi_bounds
  generalize hzz : (x.real - 1) / (x.real + 1) = z at *
  have hA1 : 0.57 ≤ Real.arctan x.real := by
    rw [am]; norm_num at *; linarith [pb.1]
  have hA2 : Real.arctan x.real ≤ 1.2 := by
    rw [am]; have := (abs_le.1 al).2; have := zb.1; norm_num at *; linarith [pb.2]
  have hδ : |atanMidE.evalR (fun _ => x.real) - Real.arctan x.real| ≤ 0.052 * 2 ^ (-53 : ℤ) := by
    rw [eR, am]
    have e : z * (pev atanNl (z * z) / pev atanQl (z * z)) + PIO4.real + MOREBITSO2.real - (Real.pi / 4 + Real.arctan z) =
        (z * (pev atanNl (z * z) / pev atanQl (z * z)) - Real.arctan z) + (PIO4.real + MOREBITSO2.real - Real.pi / 4) := by ring
    rw [e]
    refine (abs_add_le _ _).trans ((add_le_add ap pc).trans ?_)
    have := mul_le_mul_of_nonneg_left zb.1 (show (0 : ℝ) ≤ 0.125 * 2 ^ (-53 : ℤ) by positivity)
    refine (add_le_add this le_rfl).trans ?_
    norm_num
  have c1 : ((3.1 * 2 ^ (-53 : ℤ) : ℚ) : ℝ) = 3.1 * 2 ^ (-53 : ℤ) := by norm_num
  rw [c1] at rn
  refine ⟨rn.1, ?_, hA1, hA2⟩
  have k := rel_chain (D := 0.1 * 2 ^ (-53 : ℤ)) rn.2 hδ (by positivity) (by norm_num at hA1 ⊢; linarith)
  refine k.trans (le_of_eq ?_)
  norm_num

theorem atan_big64 (p : Policy) {x : F64} (hx : x.isFinite = true) (h1 : 2.414 ≤ x.val) :
    (atanBigC p x).isFinite = true ∧
    |(atanBigC p x).real - Real.arctan x.real| ≤ 2.5 * 2 ^ (-53 : ℤ) * Real.arctan x.real ∧ 1.15 ≤ Real.arctan x.real := by
  have r1 := le_real_iff.2 h1
  have hm : x.val ≤ p2 1024 := by
    have h := hx
    simp only [isFinite, decide_eq_true_eq] at h
    have e : |x.val| = magVal b64 x.mag := abs_val x
    have e2 : magVal b64 b64.infMag ≤ p2 1024 := by decide +kernel
    exact (le_abs_self _).trans (e.le.trans ((magVal_le.2 h.le).trans e2))
  have r2 := real_le_iff.2 hm
  obtain ⟨s, t, hst, g1, g2⟩ := covers_spans atanBigE_ok (a := 2.414) (b := p2 1024) (by decide +kernel) (x := x.real) r1 r2
  have rn := okRel_con (by norm_num) hst hx g1 g2 (atanBig_con p x)
  push_cast at r1
  have l1 : (-lit 1.0 : F64).real = -1 := by
    have : (-lit 1.0 : F64).val = -1 := by decide +kernel
    unfold FP.real; rw [this]; norm_num
  have ez : atanBigR.evalR (fun _ => x.real) = -1 / x.real := by
    have : atanBigR.evalR (fun _ => x.real) = (-lit 1.0 : F64).real / x.real := rfl
    rw [this, l1]
  have eR : atanBigE.evalR (fun _ => x.real) = ((atanCoreE atanBigR atanBigR).evalR (fun _ => x.real) + PIO2.real) + MOREBITS.real := rfl
  rw [atanCoreE_real _ _ _ rfl, ez] at eR
  have zb := z_big r1
  have ap := atan_approx (z := -1 / x.real) (zb.trans (by norm_num))
  have am := arctan_big (x := x.real) (by linarith)
  have pc := pi2_const
  have al := (arctan_abs_le (-1 / x.real)).trans zb
  have pb := pi_bounds
  generalize hzz : -1 / x.real = z at *
  have hA1 : 1.15 ≤ Real.arctan x.real := by
    rw [am]; have := (abs_le.1 al).1; norm_num at *; linarith [pb.1]
  have hδ : |atanBigE.evalR (fun _ => x.real) - Real.arctan x.real| ≤ 0.052 * 2 ^ (-53 : ℤ) := by
    rw [eR, am]
    have e : z * (pev atanNl (z * z) / pev atanQl (z * z)) + PIO2.real + MOREBITS.real - (Real.pi / 2 + Real.arctan z) =
        (z * (pev atanNl (z * z) / pev atanQl (z * z)) - Real.arctan z) + (PIO2.real + MOREBITS.real - Real.pi / 2) := by ring
    rw [e]
    refine (abs_add_le _ _).trans ((add_le_add ap pc).trans ?_)
    have := mul_le_mul_of_nonneg_left zb (show (0 : ℝ) ≤ 0.125 * 2 ^ (-53 : ℤ) by positivity)
    refine (add_le_add this le_rfl).trans ?_
    norm_num
  have c1 : ((2.4 * 2 ^ (-53 : ℤ) : ℚ) : ℝ) = 2.4 * 2 ^ (-53 : ℤ) := by norm_num
  rw [c1] at rn
  refine ⟨rn.1, ?_, hA1⟩
  have k := rel_chain (D := 0.1 * 2 ^ (-53 : ℤ)) rn.2 hδ (by positivity) (by norm_num at hA1 ⊢; linarith)
  refine k.trans (le_of_eq ?_)
  norm_num

theorem atanNegE_ok : covers (okRel1 b64 (atanCoreE (.var 0) (.var 1)) (2 * 2 ^ (-53 : ℤ)) 2.36) [-829 / 2000, -5 / 16, -7 / 32, -5 / 64, 0] = true := by decide +kernel

/-- The large branch never exceeds the rounded `π/2`. -/
theorem atan_big_le (p : Policy) {x : F64} (hx : x.isFinite = true) (h1 : 2.414 ≤ x.val) : (atanBigC p x).val ≤ PIO2.val := by
  have x0 : 0 < x.val := by linarith
  have l1 : (-lit 1.0 : F64).val = -1 ∧ (-lit 1.0 : F64).isFinite = true := by decide +kernel
  have hm : x.val ≤ p2 1024 := by
    have h := hx
    simp only [isFinite, decide_eq_true_eq] at h
    have e : |x.val| = magVal b64 x.mag := abs_val x
    have e2 : magVal b64 b64.infMag ≤ p2 1024 := by decide +kernel
    exact (le_abs_self _).trans (e.le.trans ((magVal_le.2 h.le).trans e2))
  have q1 : -0.41443 ≤ -1 / x.val := by rw [le_div_iff₀ x0]; norm_num at *; linarith
  have q2 : -1 / x.val ≤ -p2 (-1024) := by
    have e : p2 (-1024) * p2 1024 = 1 := by decide +kernel
    have p := p2_pos (-1024)
    rw [div_le_iff₀ x0]
    nlinarith
  have qa : |-1 / x.val| ≤ b64.big := by
    have : (1 : ℚ) ≤ b64.big := by decide +kernel
    have p := p2_pos (-1024)
    rw [abs_le]; constructor <;> linarith
  have d := div_spec (x := (-lit 1.0 : F64)) (y := x) l1.2 hx x0.ne' (by rw [l1.1]; exact qa)
  rw [l1.1] at d
  have w1 : -0.4145 ≤ (div (-lit 1.0) x).val := by
    rw [d.2]
    have := rnd_mono b64 q1
    have e : -0.4145 ≤ rnd b64 (-0.41443) := by decide +kernel
    linarith
  have w2 : (div (-lit 1.0) x).val ≤ -p2 (-1024) := by
    rw [d.2]
    have := rnd_mono b64 q2
    have e : rnd b64 (-p2 (-1024)) = -p2 (-1024) := by decide +kernel
    linarith
  unfold atanBigC
  rw [div_def]
  generalize div (-lit 1.0) x = w at *
  have p0 := p2_pos (-1024)
  have wr1 := le_real_iff.2 w1
  have wr2 : w.real ≤ ((0 : ℚ) : ℝ) := real_le_iff.2 (by linarith)
  obtain ⟨s, t, hst, g1, g2⟩ := covers_spans atanNegE_ok (a := -0.4145) (b := 0) (by decide +kernel) (x := w.real) wr1 wr2
  have rn := okRel1_con (by norm_num) hst d.1 g1 g2 (atanCore_con p w)
  rw [atanCoreE_real (.var 0) (.var 1) _ rfl, show (E.var 1 : E b64).evalR (fun _ => w.real) = w.real from rfl] at rn
  push_cast at wr1 wr2
  have aw : |w.real| ≤ 0.4145 := by rw [abs_le]; constructor <;> linarith
  have ap := atan_approx (z := w.real) (aw.trans (by norm_num))
  have lo := arctan_lower (x := -w.real) (by linarith) (by linarith)
  rw [Real.arctan_neg] at lo
  have al := arctan_abs_le w.real
  have wη : 100 * (b64.eta : ℝ) ≤ -w.real := by
    have c : 100 * b64.eta ≤ p2 (-1024) := by decide +kernel
    have := (Rat.cast_le (K := ℝ)).2 (c.trans (by linarith : p2 (-1024) ≤ -w.val))
    push_cast at this
    exact this
  have eta0 : (0 : ℝ) < b64.eta := by exact_mod_cast b64.eta_pos
  have cneg : (atanCoreC p w).real ≤ 0 ∧ -1 ≤ (atanCoreC p w).real := by
    have b := rn.2
    rw [abs_of_nonpos wr2] at ap al aw
    generalize w.real * (pev atanNl (w.real * w.real) / pev atanQl (w.real * w.real)) = R at *
    have r1 : R ≤ 0 := by
      have := (abs_le.1 ap).2
      norm_num at this lo; nlinarith
    rw [abs_of_nonpos r1] at b
    have a1 := abs_le.1 ap
    have a2 := abs_le.1 al
    have b1 := abs_le.1 b
    clear b ap al rn
    norm_num at a1 b1 lo
    generalize (b64.eta : ℝ) = η at *
    constructor <;> nlinarith
  have v0 : (atanCoreC p w).val ≤ 0 := by
    have := cneg.1; unfold FP.real at this; exact_mod_cast this
  have v1 : -1 ≤ (atanCoreC p w).val := by
    have := cneg.2; unfold FP.real at this; exact_mod_cast this
  have cf := rn.1
  have pf : PIO2.isFinite = true ∧ MOREBITS.isFinite = true ∧ 1.5 ≤ PIO2.val ∧ PIO2.val ≤ 1.6 ∧ 0 ≤ MOREBITS.val ∧ MOREBITS.val ≤ 0.1 ∧ 2 ≤ b64.big ∧
      rnd b64 PIO2.val = PIO2.val ∧ rnd b64 (PIO2.val + MOREBITS.val) = PIO2.val ∧ rnd b64 0 = 0 := by decide +kernel
  obtain ⟨f1, f2, n1, n2, n3, n4, n5, e1, e2, e3⟩ := pf
  have s1 := add_spec (x := atanCoreC p w) (y := PIO2) cf f1 (by rw [abs_le]; constructor <;> linarith)
  have u1 : rnd b64 ((atanCoreC p w).val + PIO2.val) ≤ PIO2.val := by
    have := rnd_mono b64 (show (atanCoreC p w).val + PIO2.val ≤ PIO2.val by linarith)
    rwa [e1] at this
  have u2 : 0 ≤ rnd b64 ((atanCoreC p w).val + PIO2.val) := by
    have := rnd_mono b64 (show 0 ≤ (atanCoreC p w).val + PIO2.val by linarith)
    rwa [e3] at this
  rw [← s1.2] at u1 u2
  have s2 := add_spec (x := add (atanCoreC p w) PIO2) (y := MOREBITS) s1.1 f2 (by rw [abs_le]; constructor <;> linarith)
  rw [add_def, add_def, s2.2]
  have := rnd_mono b64 (show (add (atanCoreC p w) PIO2).val + MOREBITS.val ≤ PIO2.val + MOREBITS.val by linarith)
  rwa [e2] at this

/-- The arctangent of a nonnegative finite double. -/
theorem atanPosC_acc (p : Policy) {x : F64} (hx : x.isFinite = true) (hs : x.sign = false) :
    (atanPosC p x).isFinite = true ∧ (atanPosC p x).sign = false ∧ (atanPosC p x).val ≤ PIO2.val ∧
    |(atanPosC p x).real - Real.arctan x.real| ≤ 3.2 * 2 ^ (-53 : ℤ) * Real.arctan x.real + 2.36 * (b64.eta : ℝ) := by
  obtain ⟨l1, l2, l3, l4, l5, l6⟩ := lit66
  have eta0 : (0 : ℝ) ≤ 2.36 * b64.eta := mul_nonneg (by norm_num) (by exact_mod_cast b64.eta_pos.le)
  have pv : 1.5 ≤ PIO2.val := by decide +kernel
  rcases le_or_gt x.val (lit 0.66 : F64).val with h | h
  · have c1 : FP.gt x T3PO8 = false := by rw [gt_fin hx l6]; exact decide_eq_false (by linarith)
    have c2 : FP.le x (lit 0.66) = true := by rw [le_fin hx l3]; exact decide_eq_true h
    have hr : x.real ≤ 0.6601 := by
      have := real_le_iff.2 (h.trans l1); push_cast at this; exact this
    have a := atanCoreC_acc p hx hs hr
    have b := atanCoreC_sign p hx hs hr
    have bb : |(atanCoreC p x).val| ≤ b64.big := b.2.trans (by decide +kernel)
    have z0 : (lit 0 : F64) = zero false := by decide +kernel
    have e : atanPosC p x = atanCoreC p x := by
      rw [atanPosC_small p c1 c2, add_pzero a.1 bb b.1 z0, add_pzero a.1 bb b.1 z0]
    rw [e]
    refine ⟨a.1, b.1, ?_, a.2.trans (add_le_add (mul_le_mul_of_nonneg_right (by norm_num) ?_) le_rfl)⟩
    · have := (abs_le.1 b.2).2; linarith
    · exact Real.arctan_nonneg.2 (real_nonneg hs)
  · have c2 : FP.le x (lit 0.66) = false := by rw [le_fin hx l3]; exact decide_eq_false (not_le.2 h)
    rcases le_or_gt x.val T3PO8.val with h2 | h2
    · have c1 : FP.gt x T3PO8 = false := by rw [gt_fin hx l6]; exact decide_eq_false (not_lt.2 h2)
      obtain ⟨a1, a2, a3, a4⟩ := atan_mid64 p hx (l2.trans h.le) (h2.trans l4)
      rw [atanPosC_mid p c1 c2]
      refine ⟨a1, ?_, ?_, a2.trans (by linarith)⟩
      · apply sign_of_pos
        have := pos_of_acc a2 (by linarith) (by norm_num)
        unfold FP.real at this; exact_mod_cast this
      · refine le_trans ((real_le_iff (q := 1.5)).1 ?_) pv
        have := (abs_le.1 a2).2
        norm_num at this a4 ⊢
        linarith
    · have c1 : FP.gt x T3PO8 = true := by rw [gt_fin hx l6]; exact decide_eq_true h2
      obtain ⟨a1, a2, a3⟩ := atan_big64 p hx (l5.trans h2.le)
      have le := atan_big_le p hx (l5.trans h2.le)
      rw [atanPosC_big p c1 c2]
      have a0 : 0 ≤ Real.arctan x.real := by linarith
      refine ⟨a1, ?_, le, a2.trans ?_⟩
      · apply sign_of_pos
        have := pos_of_acc a2 (by linarith) (by norm_num)
        unfold FP.real at this; exact_mod_cast this
      · have : (2.5 : ℝ) * 2 ^ (-53 : ℤ) * Real.arctan x.real ≤ 3.2 * 2 ^ (-53 : ℤ) * Real.arctan x.real :=
          mul_le_mul_of_nonneg_right (by norm_num) a0
        linarith

theorem atanPos_acc {x : F64} (hx : x.isFinite = true) (hs : x.sign = false) :
    (atanPos x).isFinite = true ∧ (atanPos x).sign = false ∧ (atanPos x).val ≤ PIO2.val ∧
    |(atanPos x).real - Real.arctan x.real| ≤ 3.2 * 2 ^ (-53 : ℤ) * Real.arctan x.real + 2.36 * (b64.eta : ℝ) := by
  rw [← atanPos_plain]
  exact atanPosC_acc _ hx hs

end Vdt
