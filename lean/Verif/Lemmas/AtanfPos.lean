import Verif.Lemmas.AtanPos

/-! # The arctangent of a nonnegative float -/

namespace Vdt
open FP details
variable {f : Fmt}

/-- include/atan.h:150-154 -/
def atanfPolyE (x2 z : E b32) : E b32 :=
  ((((((((E.const (lit 8.05374449538e-2)).mul x2).sub (.const (lit 1.38776856032E-1))).mul x2).add (.const (lit 1.99777106478E-1))).mul x2).sub
    (.const (lit 3.33329491539E-1))).mul x2).mul z
def atanfCoreE (v z : E b32) : E b32 := (atanfPolyE (v.mul v) z).add z
/-- include/atan.h:139 and 143 -/
def atanfMidR : E b32 := ((E.var 0).sub (.const (lit 1))).div ((E.var 0).add (.const (lit 1)))
def atanfBigR : E b32 := ((E.const (lit 1)).div (.var 0)).neg
def atanfMidE : E b32 := (E.const PIO4F).add (atanfCoreE atanfMidR atanfMidR)
def atanfBigE : E b32 := (E.const PIO2F).add (atanfCoreE atanfBigR atanfBigR)

/-- include/atan.h:137-154 on the middle and the large interval -/
def atanfMidC (p : Policy) (x : F32) : F32 := PIO4F + atanfCoreC p ((x - lit 1) / (x + lit 1))
def atanfBigC (p : Policy) (x : F32) : F32 := PIO2F + atanfCoreC p (-(lit 1 / x))

theorem atanfCore_con (p : Policy) (x : F32) : (atanfCoreE (.var 0) (.var 1)).Con (fun _ => x) (atanfCoreC p x) := by
  unfold atanfCoreE atanfPolyE atanfCoreC; con
theorem atanfMid_con (p : Policy) (x : F32) : atanfMidE.Con (fun _ => x) (atanfMidC p x) := by
  unfold atanfMidE atanfMidR atanfCoreE atanfPolyE atanfMidC atanfCoreC; con
theorem atanfBig_con (p : Policy) (x : F32) : atanfBigE.Con (fun _ => x) (atanfBigC p x) := by
  unfold atanfBigE atanfBigR atanfCoreE atanfPolyE atanfBigC atanfCoreC; con

/-- The polynomial of the code with the linear term. -/
def atanfCore (x : F32) : F32 := atanfPoly x (x * x) + x
theorem atanfCore_plain (x : F32) : atanfCoreC (fun _ => false) x = atanfCore x := by
  plain [atanfCoreC, atanfCore, atanfPoly]
theorem atanfPos_plain (x : F32) : atanfPosC (fun _ => false) x = atanfPos x := by
  plain [atanfPosC, atanfPos, atanfCoreC, atanfPoly]
theorem atanfPos_small {x : F32} (h1 : FP.gt x (lit 0.4142135623730950) = false) (h2 : FP.gt x (lit 2.414213562373095) = false) :
    atanfPos x = lit 0 + atanfCore x := by
  unfold atanfPos atanfReduce; simp only [h1, h2]; rfl
theorem atanfPosC_small (p : Policy) {x : F32} (h1 : FP.gt x (lit 0.4142135623730950) = false) (h2 : FP.gt x (lit 2.414213562373095) = false) :
    atanfPosC p x = lit 0 + atanfCoreC p x := by
  unfold atanfPosC atanfReduce; simp only [h1, h2]; rfl
theorem atanfPosC_mid (p : Policy) {x : F32} (h1 : FP.gt x (lit 0.4142135623730950) = true) (h2 : FP.gt x (lit 2.414213562373095) = false) :
    atanfPosC p x = atanfMidC p x := by
  unfold atanfPosC atanfReduce; simp only [h1, h2]; rfl
theorem atanfPosC_big (p : Policy) {x : F32} (h1 : FP.gt x (lit 0.4142135623730950) = true) (h2 : FP.gt x (lit 2.414213562373095) = true) :
    atanfPosC p x = atanfBigC p x := by
  unfold atanfPosC atanfReduce; simp only [h1, h2]; rfl

def atanfNl : List ℚ := [1, -(lit 3.33329491539E-1 : F32).val, (lit 1.99777106478E-1 : F32).val, -(lit 1.38776856032E-1 : F32).val, (lit 8.05374449538e-2 : F32).val]

theorem atanfCoreE_real (v z : E b32) (env : ℕ → ℝ) (h : v.evalR env = z.evalR env) :
    (atanfCoreE v z).evalR env = z.evalR env * (pev atanfNl (z.evalR env * z.evalR env) / pev [1] (z.evalR env * z.evalR env)) := by
  simp only [atanfCoreE, atanfPolyE, E.evalR, atanfNl, pev_cons, pev_nil, FP.real, h]
  push_cast
  simp only [mul_zero, add_zero, div_one]
  ring

theorem atanf_approx {z : ℝ} (h : |z| ≤ 0.4145) : |z * (pev atanfNl (z * z) / pev [1] (z * z)) - Real.arctan z| ≤ 0.36 * 2 ^ (-24 : ℤ) * |z| := by
  have hz : z * z ≤ ((0.17181025 : ℚ) : ℝ) := by
    rw [← abs_mul_abs_self]; push_cast; nlinarith [abs_nonneg z]
  have k := atan_ratio (N := atanfNl) (Q := [1]) (C := 0.355 * 2 ^ (-24 : ℤ)) (L := [0, 7 / 1024, 11 / 1024, 15 / 1024, 21 / 1024, 45 / 1024, 53 / 1024, 61 / 1024, 69 / 1024, 23 / 256, 107 / 1024, 15 / 128, 67 / 512, 19 / 128, 39 / 256, 5 / 32, 163 / 1024, 169 / 1024, 0.17181025]) (B := 0.17181025) (by decide +kernel) (by decide +kernel) (by norm_num) hz
    (by simp)
  refine k.trans (mul_le_mul_of_nonneg_right ?_ (abs_nonneg z))
  push_cast; norm_num

theorem atanfSmallE_ok : covers (okRel1 b32 (atanfCoreE (.var 0) (.var 1)) (1.22 * 2 ^ (-24 : ℤ)) 2.01) [0, 23 / 64, 829 / 2000] = true := by decide +kernel
theorem atanfMidE_ok : covers (okRel b32 atanfMidE (4.25 * 2 ^ (-24 : ℤ))) [207 / 500, 1 / 2, 63 / 64, 127 / 64, 483 / 200] = true := by decide +kernel
theorem atanfBigE_ok : covers (okRel b32 atanfBigE (1.4 * 2 ^ (-24 : ℤ))) (bigCells (p2 128)) = true := by decide +kernel
theorem atanfNegE_ok : covers (okRel1 b32 (atanfCoreE (.var 0) (.var 1)) (2 * 2 ^ (-24 : ℤ)) 2.01) [-829 / 2000, 0] = true := by decide +kernel

theorem pi4f_const : |PIO4F.real - Real.pi / 4| ≤ 0.37 * 2 ^ (-24 : ℤ) := by
  have h := pi_near
  have c : |PIO4F.val - piQ / 4| ≤ 0.369 * 2 ^ (-24 : ℤ) := by decide +kernel
  unfold FP.real
  generalize PIO4F.val = a at *
  generalize piQ = π' at *
  have c' := (Rat.cast_le (K := ℝ)).2 c
  push_cast at c'
  rw [abs_le] at *
  norm_num at h c' ⊢
  constructor <;> linarith [h.1, h.2, c'.1, c'.2]

theorem pi2f_const : |PIO2F.real - Real.pi / 2| ≤ 0.74 * 2 ^ (-24 : ℤ) := by
  have h := pi_near
  have c : |PIO2F.val - piQ / 2| ≤ 0.739 * 2 ^ (-24 : ℤ) := by decide +kernel
  unfold FP.real
  generalize PIO2F.val = a at *
  generalize piQ = π' at *
  have c' := (Rat.cast_le (K := ℝ)).2 c
  push_cast at c'
  rw [abs_le] at *
  norm_num at h c' ⊢
  constructor <;> linarith [h.1, h.2, c'.1, c'.2]

theorem add_pzero' {a z : FP f} [f.Ok] (ha : a.isFinite = true) (hb : |a.val| ≤ f.big) (hs : a.sign = false) (hz : z = zero false) : z + a = a := by
  subst hz
  have zf : (zero false : FP f).isFinite = true := zero_finite false
  have e := add_fin zf ha
  rw [val_zero, zero_add, hs] at e
  rw [add_def, e]
  rcases eq_or_ne a.val 0 with h0 | h0
  · rw [h0]
    have := eq_zero' (zero_of_val h0)
    rw [hs] at this
    rw [this]
    exact ofRat_zero
  · refine eq_of_val ?_ ?_
    · rw [ofRat_sign_ne h0, hs, decide_eq_false_iff_not, not_lt]
      exact val_nonneg_of_sign hs
    · rw [val_ofRat]; exact rnd_val hb

theorem real_le_max32 {x : F32} (hx : x.isFinite = true) : x.val ≤ p2 128 := by
  have h := hx
  simp only [isFinite, decide_eq_true_eq] at h
  have e : |x.val| = magVal b32 x.mag := abs_val x
  have e2 : magVal b32 b32.infMag ≤ p2 128 := by decide +kernel
  exact (le_abs_self _).trans (e.le.trans ((magVal_le.2 h.le).trans e2))

/-! ## The small interval -/

theorem atanfCoreC_acc (p : Policy) {x : F32} (hx : x.isFinite = true) (hs : x.sign = false) (h : x.real ≤ 0.4145) :
    (atanfCoreC p x).isFinite = true ∧ |(atanfCoreC p x).real - Real.arctan x.real| ≤ 1.65 * 2 ^ (-24 : ℤ) * Real.arctan x.real + 2.01 * (b32.eta : ℝ) := by
  have x0 := real_nonneg hs
  obtain ⟨s, t, hst, h1, h2⟩ := covers_spans atanfSmallE_ok (a := 0) (b := 0.4145) (by decide +kernel) (x := x.real) (by push_cast; exact x0)
    (by push_cast; exact h)
  have rn := okRel1_con (by norm_num) hst hx h1 h2 (atanfCore_con p x)
  rw [atanfCoreE_real (.var 0) (.var 1) _ rfl, show (E.var 1 : E b32).evalR (fun _ => x.real) = x.real from rfl] at rn
  have c1 : ((1.22 * 2 ^ (-24 : ℤ) : ℚ) : ℝ) = 1.22 * 2 ^ (-24 : ℤ) := by norm_num
  have c2 : ((2.01 : ℚ) : ℝ) = 2.01 := by norm_num
  rw [c1, c2] at rn
  refine ⟨rn.1, ?_⟩
  have ap := atanf_approx (z := x.real) (by rw [abs_of_nonneg x0]; exact h)
  rw [abs_of_nonneg x0] at ap
  have lo := arctan_lower x0 (h.trans (by norm_num))
  have k := rel_chain_abs (D := 0.43 * 2 ^ (-24 : ℤ)) rn.2 ap (by linarith) (by positivity) (by norm_num; nlinarith)
  refine k.trans (add_le_add (le_of_eq ?_) le_rfl)
  norm_num

/-- At zero and at the smallest subnormal number no choice of the compiler matters. -/
theorem atanfCoreC_tiny (p : Policy) (x : F32) (h : x = ⟨false, 0, by decide⟩ ∨ x = ⟨false, 1, by decide⟩) : (atanfCoreC p x).sign = false := by
  have key : ∀ b0 b1 b2 b3 : Bool, ∀ x ∈ [(⟨false, 0, by decide⟩ : F32), ⟨false, 1, by decide⟩],
      (mad b3 (msub b2 (mad b1 (msub b0 (lit 8.05374449538e-2) (x * x) (lit 1.38776856032E-1)) (x * x) (lit 1.99777106478E-1)) (x * x) (lit 3.33329491539E-1) * (x * x)) x x).sign = false := by
    decide +kernel
  rcases h with rfl | rfl <;> exact key _ _ _ _ _ (by simp)

/-- Its sign bit is clear and it is at most one. -/
theorem atanfCoreC_sign (p : Policy) {x : F32} (hx : x.isFinite = true) (hs : x.sign = false) (h : x.real ≤ 0.4145) :
    (atanfCoreC p x).sign = false ∧ |(atanfCoreC p x).val| ≤ 1 := by
  have acc := atanfCoreC_acc p hx hs h
  have x0 := real_nonneg hs
  have lo := arctan_lower x0 (h.trans (by norm_num))
  have up := arctan_abs_le x.real
  have a0 : 0 ≤ Real.arctan x.real := by linarith
  rw [abs_of_nonneg a0, abs_of_nonneg x0] at up
  have eta0 : (0 : ℝ) < b32.eta := by exact_mod_cast b32.eta_pos
  have eta1 : (b32.eta : ℝ) ≤ 0.001 := by
    have : b32.eta ≤ 0.001 := by decide +kernel
    have := (Rat.cast_le (K := ℝ)).2 this
    push_cast at this
    exact this
  have a := abs_le.1 acc.2
  constructor
  · rcases lt_or_ge x.mag 2 with hm | hm
    · have : x = ⟨false, 0, by decide⟩ ∨ x = ⟨false, 1, by decide⟩ := by
        rcases (show x.mag = 0 ∨ x.mag = 1 by omega) with e | e
        · left; ext <;> simp [hs, e]
        · right; ext <;> simp [hs, e]
      rcases this with rfl | rfl
      · exact atanfCoreC_tiny p _ (Or.inl rfl)
      · exact atanfCoreC_tiny p _ (Or.inr rfl)
    · have v : (4 : ℝ) * b32.eta ≤ x.real := by
        have := val_ge_two_sub hs hm
        unfold FP.real; exact_mod_cast this
      have p : 0 < (atanfCoreC p x).real := by
        have := a.1
        norm_num at this
        generalize (b32.eta : ℝ) = η at *
        nlinarith
      apply sign_of_pos
      unfold FP.real at p; exact_mod_cast p
  · have r : |(atanfCoreC p x).real| ≤ 1 := by
      have a1 := a.1
      have a2 := a.2
      norm_num at a1 a2 h
      generalize (b32.eta : ℝ) = η at *
      rw [abs_le]; constructor <;> nlinarith
    have e : |(atanfCoreC p x).real| = ((|(atanfCoreC p x).val| : ℚ) : ℝ) := by unfold FP.real; push_cast; rfl
    rw [e] at r; exact_mod_cast r

/-! ## The three intervals -/

theorem litf_bounds : (lit 0.4142135623730950 : F32).val ≤ 0.4145 ∧ 0.414 ≤ (lit 0.4142135623730950 : F32).val ∧ (lit 0.4142135623730950 : F32).isFinite = true ∧
    (lit 2.414213562373095 : F32).val ≤ 2.415 ∧ 2.414 ≤ (lit 2.414213562373095 : F32).val ∧ (lit 2.414213562373095 : F32).isFinite = true := by decide +kernel

theorem atan_mid32 (p : Policy) {x : F32} (hx : x.isFinite = true) (h1 : 0.414 ≤ x.val) (h2 : x.val ≤ 2.415) :
    (atanfMidC p x).isFinite = true ∧
    |(atanfMidC p x).real - Real.arctan x.real| ≤ 5.75 * 2 ^ (-24 : ℤ) * Real.arctan x.real ∧
    0.36 ≤ Real.arctan x.real ∧ Real.arctan x.real ≤ 1.2 := by
  have r1 := le_real_iff.2 h1
  have r2 := real_le_iff.2 h2
  obtain ⟨s, t, hst, g1, g2⟩ := covers_spans atanfMidE_ok (a := 0.414) (b := 2.415) (by decide +kernel) (x := x.real) r1 r2
  have rn := okRel_con (by norm_num) hst hx g1 g2 (atanfMid_con p x)
  push_cast at r1 r2
  have l1 : (lit 1 : F32).real = 1 := by
    have : (lit 1 : F32).val = 1 := by decide +kernel
    unfold FP.real; rw [this]; norm_num
  have ez : atanfMidR.evalR (fun _ => x.real) = (x.real - 1) / (x.real + 1) := by
    have : atanfMidR.evalR (fun _ => x.real) = (x.real - (lit 1 : F32).real) / (x.real + (lit 1 : F32).real) := rfl
    rw [this, l1]
  have eR : atanfMidE.evalR (fun _ => x.real) = PIO4F.real + (atanfCoreE atanfMidR atanfMidR).evalR (fun _ => x.real) := rfl
  rw [atanfCoreE_real _ _ _ rfl, ez] at eR
  have zb := (z_mid r1 r2).1
  have ap := atanf_approx (z := (x.real - 1) / (x.real + 1)) (zb.trans (by norm_num))
  have am := arctan_mid (x := x.real) (by linarith)
  have pc := pi4f_const
  have al := (arctan_abs_le ((x.real - 1) / (x.real + 1))).trans zb
  have pb := pi_bounds
  generalize hzz : (x.real - 1) / (x.real + 1) = z at *
  have hA1 : 0.36 ≤ Real.arctan x.real := by
    rw [am]; have := (abs_le.1 al).1; norm_num at *; linarith [pb.1]
  have hA2 : Real.arctan x.real ≤ 1.2 := by
    rw [am]; have := (abs_le.1 al).2; norm_num at *; linarith [pb.2]
  have hδ : |atanfMidE.evalR (fun _ => x.real) - Real.arctan x.real| ≤ 0.53 * 2 ^ (-24 : ℤ) := by
    rw [eR, am]
    have e : PIO4F.real + z * (pev atanfNl (z * z) / pev [1] (z * z)) - (Real.pi / 4 + Real.arctan z) =
        (z * (pev atanfNl (z * z) / pev [1] (z * z)) - Real.arctan z) + (PIO4F.real - Real.pi / 4) := by ring
    rw [e]
    refine (abs_add_le _ _).trans ((add_le_add ap pc).trans ?_)
    have := mul_le_mul_of_nonneg_left zb (show (0 : ℝ) ≤ 0.36 * 2 ^ (-24 : ℤ) by positivity)
    refine (add_le_add this le_rfl).trans ?_
    norm_num
  have c1 : ((4.25 * 2 ^ (-24 : ℤ) : ℚ) : ℝ) = 4.25 * 2 ^ (-24 : ℤ) := by norm_num
  rw [c1] at rn
  refine ⟨rn.1, ?_, hA1, hA2⟩
  have k := rel_chain (D := 1.5 * 2 ^ (-24 : ℤ)) rn.2 hδ (by positivity) (by norm_num at hA1 ⊢; linarith)
  refine k.trans (le_of_eq ?_)
  norm_num

theorem atan_big32 (p : Policy) {x : F32} (hx : x.isFinite = true) (h1 : 2.414 ≤ x.val) :
    (atanfBigC p x).isFinite = true ∧
    |(atanfBigC p x).real - Real.arctan x.real| ≤ 2.3 * 2 ^ (-24 : ℤ) * Real.arctan x.real ∧ 1.15 ≤ Real.arctan x.real := by
  have r1 := le_real_iff.2 h1
  have r2 := real_le_iff.2 (real_le_max32 hx)
  obtain ⟨s, t, hst, g1, g2⟩ := covers_spans atanfBigE_ok (a := 2.414) (b := p2 128) (by decide +kernel) (x := x.real) r1 r2
  have rn := okRel_con (by norm_num) hst hx g1 g2 (atanfBig_con p x)
  push_cast at r1
  have l1 : (lit 1 : F32).real = 1 := by
    have : (lit 1 : F32).val = 1 := by decide +kernel
    unfold FP.real; rw [this]; norm_num
  have ez : atanfBigR.evalR (fun _ => x.real) = -1 / x.real := by
    have : atanfBigR.evalR (fun _ => x.real) = -((lit 1 : F32).real / x.real) := rfl
    rw [this, l1, neg_div]
  have eR : atanfBigE.evalR (fun _ => x.real) = PIO2F.real + (atanfCoreE atanfBigR atanfBigR).evalR (fun _ => x.real) := rfl
  rw [atanfCoreE_real _ _ _ rfl, ez] at eR
  have zb := z_big r1
  have ap := atanf_approx (z := -1 / x.real) (zb.trans (by norm_num))
  have am := arctan_big (x := x.real) (by linarith)
  have pc := pi2f_const
  have al := (arctan_abs_le (-1 / x.real)).trans zb
  have pb := pi_bounds
  generalize hzz : -1 / x.real = z at *
  have hA1 : 1.15 ≤ Real.arctan x.real := by
    rw [am]; have := (abs_le.1 al).1; norm_num at *; linarith [pb.1]
  have hδ : |atanfBigE.evalR (fun _ => x.real) - Real.arctan x.real| ≤ 0.9 * 2 ^ (-24 : ℤ) := by
    rw [eR, am]
    have e : PIO2F.real + z * (pev atanfNl (z * z) / pev [1] (z * z)) - (Real.pi / 2 + Real.arctan z) =
        (z * (pev atanfNl (z * z) / pev [1] (z * z)) - Real.arctan z) + (PIO2F.real - Real.pi / 2) := by ring
    rw [e]
    refine (abs_add_le _ _).trans ((add_le_add ap pc).trans ?_)
    have := mul_le_mul_of_nonneg_left zb (show (0 : ℝ) ≤ 0.36 * 2 ^ (-24 : ℤ) by positivity)
    refine (add_le_add this le_rfl).trans ?_
    norm_num
  have c1 : ((1.4 * 2 ^ (-24 : ℤ) : ℚ) : ℝ) = 1.4 * 2 ^ (-24 : ℤ) := by norm_num
  rw [c1] at rn
  refine ⟨rn.1, ?_, hA1⟩
  have k := rel_chain (D := 0.9 * 2 ^ (-24 : ℤ)) rn.2 hδ (by positivity) (by norm_num at hA1 ⊢; linarith)
  refine k.trans (le_of_eq ?_)
  norm_num

/-- The large branch never exceeds the rounded `π/2`. -/
theorem atanf_big_le (p : Policy) {x : F32} (hx : x.isFinite = true) (h1 : 2.414 ≤ x.val) : (atanfBigC p x).val ≤ PIO2F.val := by
  have x0 : 0 < x.val := by linarith
  have l1 : (lit 1 : F32).val = 1 ∧ (lit 1 : F32).isFinite = true := by decide +kernel
  have hm := real_le_max32 hx
  have q1 : 1 / x.val ≤ 0.41443 := by rw [div_le_iff₀ x0]; norm_num at *; linarith
  have q2 : p2 (-128) ≤ 1 / x.val := by
    have e : p2 (-128) * p2 128 = 1 := by decide +kernel
    have p := p2_pos (-128)
    rw [le_div_iff₀ x0]
    nlinarith
  have qa : |1 / x.val| ≤ b32.big := by
    have : (1 : ℚ) ≤ b32.big := by decide +kernel
    have p := p2_pos (-128)
    rw [abs_le]; constructor <;> linarith
  have d := div_spec (x := (lit 1 : F32)) (y := x) l1.2 hx x0.ne' (by rw [l1.1]; exact qa)
  rw [l1.1] at d
  have w1 : -0.4145 ≤ (neg (div (lit 1) x)).val := by
    rw [val_neg, d.2]
    have := rnd_mono b32 q1
    have e : rnd b32 0.41443 ≤ 0.4145 := by decide +kernel
    linarith
  have w2 : (neg (div (lit 1) x)).val ≤ -p2 (-128) := by
    rw [val_neg, d.2]
    have := rnd_mono b32 q2
    have e : rnd b32 (p2 (-128)) = p2 (-128) := by decide +kernel
    linarith
  have d1 : (neg (div (lit 1) x)).isFinite = true := by simpa using d.1
  unfold atanfBigC
  rw [div_def, neg_def]
  clear d
  generalize neg (div (lit 1) x) = w at *
  have p0 := p2_pos (-128)
  have wr1 := le_real_iff.2 w1
  have wr2 : w.real ≤ ((0 : ℚ) : ℝ) := real_le_iff.2 (by linarith)
  obtain ⟨s, t, hst, g1, g2⟩ := covers_spans atanfNegE_ok (a := -0.4145) (b := 0) (by decide +kernel) (x := w.real) wr1 wr2
  have rn := okRel1_con (by norm_num) hst d1 g1 g2 (atanfCore_con p w)
  rw [atanfCoreE_real (.var 0) (.var 1) _ rfl, show (E.var 1 : E b32).evalR (fun _ => w.real) = w.real from rfl] at rn
  push_cast at wr1 wr2
  have aw : |w.real| ≤ 0.4145 := by rw [abs_le]; constructor <;> linarith
  have ap := atanf_approx (z := w.real) (aw.trans (by norm_num))
  have lo := arctan_lower (x := -w.real) (by linarith) (by norm_num at wr1 ⊢; linarith)
  rw [Real.arctan_neg] at lo
  have al := arctan_abs_le w.real
  have wη : 100 * (b32.eta : ℝ) ≤ -w.real := by
    have c : 100 * b32.eta ≤ p2 (-128) := by decide +kernel
    have := (Rat.cast_le (K := ℝ)).2 (c.trans (by linarith : p2 (-128) ≤ -w.val))
    push_cast at this
    exact this
  have eta0 : (0 : ℝ) < b32.eta := by exact_mod_cast b32.eta_pos
  have cneg : (atanfCoreC p w).real ≤ 0 ∧ -1 ≤ (atanfCoreC p w).real := by
    have b := rn.2
    rw [abs_of_nonpos wr2] at ap al aw
    generalize w.real * (pev atanfNl (w.real * w.real) / pev [1] (w.real * w.real)) = R at *
    have r1 : R ≤ 0 := by
      have := (abs_le.1 ap).2
      norm_num at this lo; nlinarith
    rw [abs_of_nonpos r1] at b
    have a1 := abs_le.1 ap
    have a2 := abs_le.1 al
    have b1 := abs_le.1 b
    clear b ap al rn
    norm_num at a1 b1 lo
    generalize (b32.eta : ℝ) = η at *
    constructor <;> nlinarith
  have v0 : (atanfCoreC p w).val ≤ 0 := by
    have := cneg.1; unfold FP.real at this; exact_mod_cast this
  have v1 : -1 ≤ (atanfCoreC p w).val := by
    have := cneg.2; unfold FP.real at this; exact_mod_cast this
  have cf := rn.1
  have pf : PIO2F.isFinite = true ∧ 1.5 ≤ PIO2F.val ∧ PIO2F.val ≤ 1.6 ∧ 2 ≤ b32.big ∧ rnd b32 PIO2F.val = PIO2F.val := by decide +kernel
  obtain ⟨f1, n1, n2, n5, e1⟩ := pf
  have s1 := add_spec (x := PIO2F) (y := atanfCoreC p w) f1 cf (by rw [abs_le]; constructor <;> linarith)
  rw [add_def, s1.2]
  have := rnd_mono b32 (show PIO2F.val + (atanfCoreC p w).val ≤ PIO2F.val by linarith)
  rwa [e1] at this

/-- The arctangent of a nonnegative finite float. -/
theorem atanfPosC_acc (p : Policy) {x : F32} (hx : x.isFinite = true) (hs : x.sign = false) :
    (atanfPosC p x).isFinite = true ∧ (atanfPosC p x).sign = false ∧ (atanfPosC p x).val ≤ PIO2F.val ∧
    |(atanfPosC p x).real - Real.arctan x.real| ≤ 5.75 * 2 ^ (-24 : ℤ) * Real.arctan x.real + 2.01 * (b32.eta : ℝ) := by
  obtain ⟨l1, l2, l3, l4, l5, l6⟩ := litf_bounds
  have eta0 : (0 : ℝ) ≤ 2.01 * b32.eta := mul_nonneg (by norm_num) (by exact_mod_cast b32.eta_pos.le)
  have pv : 1.5 ≤ PIO2F.val := by decide +kernel
  rcases le_or_gt x.val (lit 0.4142135623730950 : F32).val with h | h
  · have c2 : FP.gt x (lit 2.414213562373095) = false := by rw [gt_fin hx l6]; exact decide_eq_false (by linarith)
    have c1 : FP.gt x (lit 0.4142135623730950) = false := by rw [gt_fin hx l3]; exact decide_eq_false (not_lt.2 h)
    have hr : x.real ≤ 0.4145 := by
      have := real_le_iff.2 (h.trans l1); push_cast at this; exact this
    have a := atanfCoreC_acc p hx hs hr
    have b := atanfCoreC_sign p hx hs hr
    have bb : |(atanfCoreC p x).val| ≤ b32.big := b.2.trans (by decide +kernel)
    have z0 : (lit 0 : F32) = zero false := by decide +kernel
    have e : atanfPosC p x = atanfCoreC p x := by
      rw [atanfPosC_small p c1 c2, add_pzero' a.1 bb b.1 z0]
    rw [e]
    refine ⟨a.1, b.1, ?_, a.2.trans (add_le_add (mul_le_mul_of_nonneg_right (by norm_num) ?_) le_rfl)⟩
    · have := (abs_le.1 b.2).2; linarith
    · exact Real.arctan_nonneg.2 (real_nonneg hs)
  · have c1 : FP.gt x (lit 0.4142135623730950) = true := by rw [gt_fin hx l3]; exact decide_eq_true h
    rcases le_or_gt x.val (lit 2.414213562373095 : F32).val with h2 | h2
    · have c2 : FP.gt x (lit 2.414213562373095) = false := by rw [gt_fin hx l6]; exact decide_eq_false (not_lt.2 h2)
      obtain ⟨a1, a2, a3, a4⟩ := atan_mid32 p hx (l2.trans h.le) (h2.trans l4)
      rw [atanfPosC_mid p c1 c2]
      refine ⟨a1, ?_, ?_, a2.trans (by linarith)⟩
      · apply sign_of_pos
        have := pos_of_acc a2 (by linarith) (by norm_num)
        unfold FP.real at this; exact_mod_cast this
      · refine le_trans ((real_le_iff (q := 1.5)).1 ?_) pv
        have := (abs_le.1 a2).2
        norm_num at this a4 ⊢
        linarith
    · have c2 : FP.gt x (lit 2.414213562373095) = true := by rw [gt_fin hx l6]; exact decide_eq_true h2
      obtain ⟨a1, a2, a3⟩ := atan_big32 p hx (l5.trans h2.le)
      have le := atanf_big_le p hx (l5.trans h2.le)
      rw [atanfPosC_big p c1 c2]
      have a0 : 0 ≤ Real.arctan x.real := by linarith
      refine ⟨a1, ?_, le, a2.trans ?_⟩
      · apply sign_of_pos
        have := pos_of_acc a2 (by linarith) (by norm_num)
        unfold FP.real at this; exact_mod_cast this
      · have : (2.3 : ℝ) * 2 ^ (-24 : ℤ) * Real.arctan x.real ≤ 5.75 * 2 ^ (-24 : ℤ) * Real.arctan x.real :=
          mul_le_mul_of_nonneg_right (by norm_num) a0
        linarith

theorem atanfPos_acc {x : F32} (hx : x.isFinite = true) (hs : x.sign = false) :
    (atanfPos x).isFinite = true ∧ (atanfPos x).sign = false ∧ (atanfPos x).val ≤ PIO2F.val ∧
    |(atanfPos x).real - Real.arctan x.real| ≤ 5.75 * 2 ^ (-24 : ℤ) * Real.arctan x.real + 2.01 * (b32.eta : ℝ) := by
  rw [← atanfPos_plain]
  exact atanfPosC_acc _ hx hs

end Vdt
