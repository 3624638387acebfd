import Verif.Lemmas.AsinPos

/-! # Rounding and approximation errors of the arcsine in single precision -/

namespace Vdt
open FP details Ab
variable {f : Fmt}

/-- include/asin.h:178-183 without the last two operations. -/
def asinfZE (z : E b32) : E b32 := (((((((((E.const (lit 4.2163199048E-2)).mul z).add (.const (lit 2.4181311049E-2))).mul z).add (.const (lit 4.5470025998E-2))).mul z).add
  (.const (lit 7.4953002686E-2))).mul z).add (.const (lit 1.6666752422E-1))).mul z
/-- include/asin.h:178-183 -/
def asinfPolyE (z x : E b32) : E b32 := ((asinfZE z).mul x).add x
/-- include/asin.h:193-194 -/
def asinfLargeE : E b32 := (E.const PIO2F).sub ((asinfPolyE (.var 0) (.var 1)).add (asinfPolyE (.var 0) (.var 1)))
def asinfSmallE : E b32 := asinfPolyE ((E.var 0).mul (.var 0)) (.var 1)

def asinfPl : List ℚ := [(lit 1.6666752422E-1 : F32).val, (lit 7.4953002686E-2 : F32).val, (lit 4.5470025998E-2 : F32).val, (lit 2.4181311049E-2 : F32).val, (lit 4.2163199048E-2 : F32).val]

theorem asinfZE_real (z : E b32) (env : ℕ → ℝ) : (asinfZE z).evalR env = z.evalR env * pev asinfPl (z.evalR env) := by
  simp only [asinfZE, E.evalR, asinfPl, pev_cons, pev_nil, FP.real]; ring

theorem asinfPolyE_real (z x : E b32) (env : ℕ → ℝ) : (asinfPolyE z x).evalR env = x.evalR env * pev (1 :: asinfPl) (z.evalR env) := by
  have : (asinfPolyE z x).evalR env = (asinfZE z).evalR env * x.evalR env + x.evalR env := rfl
  rw [this, asinfZE_real, pev_cons]; push_cast; ring

theorem asinf_approx {s : ℝ} (h0 : 0 ≤ s) (h : s ≤ 0.25) : |pev (1 :: asinfPl) s - pev asinT s| ≤ 0.2 * 2 ^ (-24 : ℤ) := by
  have k := pratioT_sound (k := 18) (M := 60) (R := 0.25) (n := psub (1 :: asinfPl) asinT) (d := [1]) (C := 0.2 * 2 ^ (-24 : ℤ))
    (l := grid 0 0.25 16) (a := 0) (b := 0.25) (by decide +kernel) (by decide +kernel) (by decide +kernel) (x := s) (by push_cast; exact h0) (by push_cast; exact h)
  rw [pev_sub] at k
  refine k.trans (le_of_eq ?_)
  rw [pev_cons, pev_nil]; push_cast; ring

/-- Lower bound of the floating point result. -/
def okLowS (f : Fmt) (c : ℚ) (e : E f) (L : ℚ) (a b : ℚ) : Bool :=
  match anS f c e a b with
  | some r => r.k == 0 && decide (L ≤ r.lo - r.err - r.h * etaUp)
  | none => false

theorem okLowS_con [f.Ok] [EtaOk f] {c : ℚ} {e : E f} {a b L : ℚ} (h : okLowS f c e L a b = true) {x s : FP f} {σ : ℝ}
    (hx : x.isFinite = true) (hs : s.isFinite = true) (he : x.real = c * (σ * σ)) (hσ : |s.real - σ| ≤ f.u * σ) (h1 : (a : ℝ) ≤ σ) (h2 : σ ≤ b)
    {y : FP f} (hy : e.Con (pick x s) y) :
    y.isFinite = true ∧ (L : ℝ) ≤ y.real := by
  unfold okLowS at h
  split at h
  · rename_i r hr
    simp only [Bool.and_eq_true, beq_iff_eq, decide_eq_true_eq] at h
    obtain ⟨hk, hL⟩ := h
    have S := conS_sound hr hx hs he hσ h1 h2 hy
    obtain ⟨v, hv, hl, _⟩ := S.ex
    have B := S.bound
    rw [hk] at hv B
    simp only [pow_zero, one_mul, mul_one] at hv B
    have hL' := (Rat.cast_le (K := ℝ)).2 hL
    push_cast at hL'
    have := mul_le_mul_of_nonneg_left (Ab.eta_le (f := f)) (show (0 : ℝ) ≤ r.h by exact_mod_cast S.h0)
    rw [hv] at B
    have := (abs_le.1 B).1
    exact ⟨S.fin, by linarith⟩
  · cases h

theorem asinfSmallE_ok : covers (okRel1 b32 asinfSmallE (1.3 * 2 ^ (-24 : ℤ)) 4) [0, 0.5] = true := by decide +kernel
theorem asinfLargeE_ok : covers (okRelS b32 1 asinfLargeE (3.8 * 2 ^ (-24 : ℤ)) (7.2 * 2 ^ (-24 : ℤ)) 0.52) [0, 15 / 32, 1 / 2] = true := by decide +kernel
theorem asinfPolyE_ok : covers (okLowS b32 1 (asinfPolyE (.var 0) (.var 1)) (-2 ^ (-26 : ℤ))) [0, 7 / 64, 1 / 2] = true := by decide +kernel

/-! ## Above one half -/

theorem asinfLargeE_real (z σ : ℝ) : asinfLargeE.evalR (pick z σ) = PIO2F.real - 2 * (σ * pev (1 :: asinfPl) z) := by
  have : asinfLargeE.evalR (pick z σ) = PIO2F.real - ((asinfPolyE (.var 0) (.var 1)).evalR (pick z σ) + (asinfPolyE (.var 0) (.var 1)).evalR (pick z σ)) := rfl
  rw [this, asinfPolyE_real]
  show PIO2F.real - (σ * pev (1 :: asinfPl) z + σ * pev (1 :: asinfPl) z) = _
  ring

theorem pi2f_near : |PIO2F.real - Real.pi / 2| ≤ 0.74 * 2 ^ (-24 : ℤ) := by
  have h := pi_bounds
  have c : |PIO2F.val - 3.141592653589795 / 2| ≤ 0.739 * 2 ^ (-24 : ℤ) := by decide +kernel
  unfold FP.real
  generalize PIO2F.val = a at *
  have c' := (Rat.cast_le (K := ℝ)).2 c
  push_cast at c'
  rw [abs_le] at *
  norm_num at h c' ⊢
  constructor <;> linarith [h.1, h.2, c'.1, c'.2]

theorem asinf_large_real {a : ℝ} (h1 : 0.5 ≤ a) (h2 : a ≤ 1) :
    |asinfLargeE.evalR (pick (1 / 2 * (1 - a)) √(1 / 2 * (1 - a))) - Real.arcsin a| ≤ 0.95 * 2 ^ (-24 : ℤ) := by
  rw [asinfLargeE_real, arcsin_half (by linarith) h2]
  have hz0 : 0 ≤ (1 - a) / 2 := by linarith
  have hz1 : (1 - a) / 2 ≤ 0.25 := by norm_num at *; linarith
  rw [show 1 / 2 * (1 - a) = (1 - a) / 2 by ring]
  set z := (1 - a) / 2
  have ap := asinf_approx hz0 hz1
  have w0 := Real.sqrt_nonneg z
  have w2 : √z * √z = z := Real.mul_self_sqrt hz0
  set w := √z
  have w1 : w ≤ 0.5 := by
    by_contra hc
    push Not at hc
    norm_num at *
    nlinarith
  have tay := asin_taylor w0 (w1.trans (by norm_num))
  rw [w2] at tay
  have pc := pi2f_near
  have ub : Real.arcsin w ≤ 1.6 := by
    have := Real.arcsin_le_pi_div_two w
    have := pi_bounds.2
    norm_num at *; linarith
  generalize pev asinT z = T at *
  generalize pev (1 :: asinfPl) z = p at *
  generalize Real.arcsin w = A at *
  have k1 : |2 * w * (p - T)| ≤ 1 * (0.2 * 2 ^ (-24 : ℤ)) := by
    rw [abs_mul, abs_of_nonneg (by linarith)]
    exact mul_le_mul (by norm_num at *; linarith) ap (abs_nonneg _) (by norm_num)
  have k2 : |w * T - A| ≤ 2 ^ (-61 : ℤ) * 1.6 := tay.trans (mul_le_mul_of_nonneg_left ub (by positivity))
  rw [show PIO2F.real - 2 * (w * p) - (Real.pi / 2 - 2 * A) =
    (PIO2F.real - Real.pi / 2) - 2 * w * (p - T) - 2 * (w * T - A) by ring]
  rw [abs_le] at *
  norm_num at *
  constructor <;> linarith [pc.1, pc.2, k1.1, k1.2, k2.1, k2.2]

theorem lits32 : (lit 1 : F32).isFinite = true ∧ (lit 1 : F32).val = 1 ∧ (lit 1 : F32).sign = false ∧
    (lit 0.5 : F32).isFinite = true ∧ (lit 0.5 : F32).val = 1 / 2 ∧ (lit 0.5 : F32).sign = false ∧ (1 : ℚ) ≤ b32.big := by decide +kernel

/-- The argument of the polynomial and the square root of the large branch. -/
theorem asinf_root {a : F32} (ha : a.isFinite = true) (h1 : 1 / 2 ≤ a.val) (h2 : a.val ≤ 1) :
    (lit 0.5 * (lit 1 - a)).isFinite = true ∧ (lit 0.5 * (lit 1 - a)).real = 1 / 2 * (1 - a.real) ∧ (FP.sqrt (lit 0.5 * (lit 1 - a))).isFinite = true ∧
    (FP.sqrt (lit 0.5 * (lit 1 - a))).sign = false ∧
    |(FP.sqrt (lit 0.5 * (lit 1 - a))).real - √(1 / 2 * (1 - a.real))| ≤ (b32.u : ℝ) * √(1 / 2 * (1 - a.real)) := by
  obtain ⟨l1, l2, l3, m1, m2, m3, b1⟩ := lits32
  have d := sub_exact (x := lit 1) (y := a) l1 ha (by rw [l2]; exact rep_one_sub emin32 h1 h2)
    (by rw [l2, abs_of_nonneg (by linarith)]; linarith)
  have ds : (lit 1 - a).sign = false := sub_sign_nonneg l1 ha l3 (by rw [l2]; exact h2)
  rw [l2] at d
  generalize lit 1 - a = D at *
  have e := mul_exact m1 d.1 (by rw [m2, d.2]; exact rep_one_sub_half emin32 h1 h2)
    (by rw [m2, d.2, abs_of_nonneg (by linarith)]; linarith)
  have es : (lit 0.5 * D).sign = false := by
    rw [mul_def, mul_fin_sign m1 d.1, m3, ds]; rfl
  have r := sqrt_nonneg_err emin32 e.1 es
  have er : (lit 0.5 * D).real = 1 / 2 * (1 - a.real) := by
    unfold FP.real; rw [e.2, m2, d.2]; push_cast; ring
  rw [er] at r
  exact ⟨e.1, er, r⟩

/-- include/asin.h:178-194 on the large branch. -/
def asinfLargeC (p : Policy) (a : F32) : F32 :=
  PIO2F - (asinfPolyC p (lit 0.5 * (lit 1 - a)) (FP.sqrt (lit 0.5 * (lit 1 - a))) + asinfPolyC p (lit 0.5 * (lit 1 - a)) (FP.sqrt (lit 0.5 * (lit 1 - a))))

theorem asinfPoly_con {env : ℕ → F32} {Z X : E b32} {z x : F32} (p : Policy) (h0 : Z.Con env z) (h1 : X.Con env x) :
    (asinfPolyE Z X).Con env (asinfPolyC p z x) := by
  unfold asinfPolyE asinfZE asinfPolyC
  repeat (with_reducible first
    | exact h0 | exact h1 | exact E.Con.const | apply E.Con.mad | apply E.Con.add | apply E.Con.mul)
theorem asinfLarge_con (p : Policy) (z x : F32) : asinfLargeE.Con (pick z x) (PIO2F - (asinfPolyC p z x + asinfPolyC p z x)) :=
  .sub .const (.add (asinfPoly_con p (.var 0) (.var 1)) (asinfPoly_con p (.var 0) (.var 1)))
theorem asinfSmall_con (p : Policy) (a : F32) : asinfSmallE.Con (fun _ => a) (asinfPolyC p (a * a) a) :=
  asinfPoly_con p (.mul (.var 0) (.var 0)) (.var 1)

theorem asinf_large_acc (p : Policy) {a : F32} (ha : a.isFinite = true) (h1 : 0.5 ≤ a.val) (h2 : a.val ≤ 1) :
    (asinfLargeC p a).isFinite = true ∧ |(asinfLargeC p a).real - Real.arcsin a.real| ≤ 4.8 * 2 ^ (-24 : ℤ) ∧
    |(asinfLargeC p a).real - Real.arcsin a.real| ≤ 9.1 * 2 ^ (-24 : ℤ) * Real.arcsin a.real ∧ 0.51 ≤ Real.arcsin a.real ∧
    (asinfPolyC p (lit 0.5 * (lit 1 - a)) (FP.sqrt (lit 0.5 * (lit 1 - a)))).isFinite = true ∧ (asinfLargeC p a).val ≤ PIO2F.val := by
  have r1 := le_real_iff.2 h1
  have r2 := real_le_iff.2 h2
  push_cast at r1 r2
  obtain ⟨d1, d2, s1, -, s2⟩ := asinf_root ha (le_trans (by norm_num) h1) h2
  have ar := asinf_large_real r1 r2
  have z0 : 0 ≤ 1 / 2 * (1 - a.real) := by linarith
  have q0 := Real.sqrt_nonneg (1 / 2 * (1 - a.real))
  have q2 := Real.mul_self_sqrt z0
  have q1 : √(1 / 2 * (1 - a.real)) ≤ 0.5 := by
    by_contra hc
    push Not at hc
    norm_num at *
    nlinarith
  rw [← d2] at ar q2 q0 q1 s2
  set σ := √((lit 0.5 * (lit 1 - a) : F32).real)
  obtain ⟨s, t, hst, g1, g2⟩ := covers_spans asinfLargeE_ok (a := 0) (b := 0.5) (by decide +kernel) (x := σ) (by push_cast; exact q0) (by push_cast; exact q1)
  have k := okRelS_con hst d1 s1 (σ := σ) (by rw [q2]; push_cast; ring) s2 g1 g2 (asinfLarge_con p _ _)
  obtain ⟨s', t', hst', g1', g2'⟩ := covers_spans asinfPolyE_ok (a := 0) (b := 0.5) (by decide +kernel) (x := σ) (by push_cast; exact q0) (by push_cast; exact q1)
  have kp := okLowS_con hst' d1 s1 (σ := σ) (by rw [q2]; push_cast; ring) s2 g1' g2' (asinfPoly_con p (.var 0) (.var 1))
  dsimp only [pick] at kp
  change (asinfLargeC p a).isFinite = true ∧ |(asinfLargeC p a).real - _| ≤ _ ∧ _ ∧ |(asinfLargeC p a).real - _| ≤ _ at k
  have hle : (asinfLargeC p a).val ≤ PIO2F.val := by
    have kf := k.1
    unfold asinfLargeC at kf ⊢
    generalize asinfPolyC p (lit 0.5 * (lit 1 - a)) (FP.sqrt (lit 0.5 * (lit 1 - a))) = p at *
    have P : PIO2F.isFinite = true ∧ rnd b32 (-2 ^ (-26 : ℤ) + -2 ^ (-26 : ℤ)) = -2 ^ (-25 : ℤ) ∧ rnd b32 (PIO2F.val - -2 ^ (-25 : ℤ)) = PIO2F.val := by decide +kernel
    have pl := le_real_iff.1 kp.2
    have pf : (p + p).isFinite = true := by
      have := add_finite_right kf P.1
      rwa [neg_isFinite] at this
    have v : -2 ^ (-25 : ℤ) ≤ (p + p).val := by
      rw [add_def, add_fin kp.1 kp.1, val_ofRat, ← P.2.1]
      exact rnd_mono b32 (by linarith)
    rw [sub_def, sub_fin P.1 pf, val_ofRat]
    refine (rnd_mono b32 ?_).trans P.2.2.le
    linarith
  refine ⟨k.1, ?_, ?_, ?_, kp.1, hle⟩
  all_goals
    generalize (asinfLargeC p a).real = F at *
    generalize asinfLargeE.evalR _ = R at *
    generalize Real.arcsin a.real = A at *
    obtain ⟨k1, k2, k3, k4⟩ := k
    have a51 : 0.51 ≤ A := by
      rw [abs_le] at ar
      norm_num at *; linarith [ar.1, ar.2]
  · have := (abs_sub_le F R A)
    refine this.trans ((add_le_add k2 ar).trans ?_)
    push_cast; norm_num
  · have c1 : ((7.2 * 2 ^ (-24 : ℤ) : ℚ) : ℝ) = 7.2 * 2 ^ (-24 : ℤ) := by norm_num
    rw [c1] at k4
    have := rel_chain (D := 1.9 * 2 ^ (-24 : ℤ)) k4 ar (by positivity) (by norm_num at *; linarith)
    refine this.trans (le_of_eq ?_)
    norm_num
  · exact a51

end Vdt
