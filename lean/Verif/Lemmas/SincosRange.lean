import Verif.Lemmas.SincosfAcc

/-! # Range of sine and cosine: argument reduction for large arguments, results within [-1, 1] -/

namespace Vdt
open FP details Ab

section
variable {f : Fmt} [f.Ok]

/-- The quadrant of any call that is defined. -/
theorem quad_of_some {c x : FP f} {q1 : ℤ} {M : ℚ} (hc : c.isFinite = true) (hc0 : 0 < c.val) (hx : x.isFinite = true)
    (hx0 : 0 ≤ x.val) (hM : c.val * x.val ≤ M) (hM0 : 0 < M) (hMb : M ≤ f.big) (hq : quadStep strict c x = some q1) :
    ∃ m : ℕ, clearLow q1 = 2 * m ∧ m ≤ 1073741823 ∧
      2 * (m : ℚ) - 1 ≤ rnd f (c.val * x.val) ∧ rnd f (c.val * x.val) < 2 * m + 1 ∧
      |rnd f (c.val * x.val) - c.val * x.val| ≤ hulp f M := by
  have h0 : 0 ≤ c.val * x.val := mul_nonneg hc0.le hx0
  have hm := mul_spec hc hx (by rw [abs_of_nonneg h0]; exact hM.trans hMb)
  have he := rnd_err f (q := c.val * x.val) hM0 (by rw [abs_of_nonneg h0]; exact hM) hMb
  have hr0 : 0 ≤ rnd f (c.val * x.val) := rnd_nonneg f h0
  generalize rnd f (c.val * x.val) = t at *
  have f1 := Int.floor_le t
  have f2 := Int.lt_floor_add_one t
  have f0 : 0 ≤ ⌊t⌋ := Int.floor_nonneg.2 hr0
  have hs : q1 = ⌊t⌋ + 1 ∧ ⌊t⌋ + 1 < 2147483648 := by
    unfold quadStep at hq
    rw [mul_def] at hq
    by_cases hd : f2iDefined (FP.mul c x) = true
    · simp only [strict, hd, if_true, Option.bind_eq_bind, Option.bind_some, hm.2, truncRat_nonneg hr0] at hq
      split_ifs at hq with h3
      simp [inI32] at h3
      simp at hq
      omega
    · rw [strict_f2i_none (by simpa using hd)] at hq; cases hq
  obtain ⟨rfl, h3⟩ := hs
  generalize ⌊t⌋ = n at *
  refine ⟨((n + 1) / 2).toNat, ?_, ?_, ?_, ?_, he⟩
  · rw [clearLow_eq (by omega) (by omega)]; omega
  · omega
  · have h3 : 2 * (((n + 1) / 2).toNat : ℤ) - 1 ≤ n := by omega
    have : (2 * (((n + 1) / 2).toNat : ℚ) - 1) ≤ n := by exact_mod_cast h3
    linarith
  · have h3 : n ≤ 2 * (((n + 1) / 2).toNat : ℤ) := by omega
    have : (n : ℚ) ≤ 2 * (((n + 1) / 2).toNat : ℚ) := by exact_mod_cast h3
    linarith

/-- A product with a bound for its rounding error. -/
theorem mul_step {p c : FP f} {N Q : ℚ} (hp : p.isFinite = true) (hc : c.isFinite = true) (hN : |p.val| ≤ N)
    (hQ : N * |c.val| ≤ Q) (hb : Q ≤ f.big) :
    (p * c).isFinite = true ∧ |(p * c).val - p.val * c.val| ≤ f.u * Q + f.eta := by
  have h1 : |p.val * c.val| ≤ Q := by
    rw [abs_mul]; exact (mul_le_mul_of_nonneg_right hN (abs_nonneg _)).trans hQ
  have h := mul_spec hp hc (h1.trans hb)
  rw [mul_def]
  refine ⟨h.1, ?_⟩
  rw [h.2]
  have h2 := rnd_err_add f (h1.trans hb)
  have h3 := mul_le_mul_of_nonneg_left h1 f.u_pos.le
  exact h2.trans (by linarith)

/-- A difference of two approximations. -/
theorem sub_step {a b : FP f} {α β da db W : ℚ} (ha : a.isFinite = true) (hb : b.isFinite = true)
    (h1 : |a.val - α| ≤ da) (h2 : |b.val - β| ≤ db) (hW : |α - β| + da + db ≤ W) (hB : W ≤ f.big) :
    (a - b).isFinite = true ∧ |(a - b).val - (α - β)| ≤ da + db + (f.u * W + f.eta) := by
  have e : a.val - b.val - (α - β) = (a.val - α) - (b.val - β) := by ring
  have h3 : |a.val - b.val - (α - β)| ≤ da + db := by
    rw [e]; exact (abs_sub _ _).trans (add_le_add h1 h2)
  have h4 : |a.val - b.val| ≤ W := by
    have := abs_sub_abs_le_abs_sub (a.val - b.val) (α - β)
    linarith
  have h := sub_spec ha hb (h4.trans hB)
  rw [sub_def]
  refine ⟨h.1, ?_⟩
  rw [h.2]
  have h5 := rnd_err_add f (h4.trans hB)
  have h6 := mul_le_mul_of_nonneg_left h4 f.u_pos.le
  have h7 := abs_sub_le (rnd f (a.val - b.val)) (a.val - b.val) (α - β)
  linarith

/-- The reduction `((x - y*c1) - y*c2) - y*c3` with every rounding error counted. -/
theorem reduce_coarse {c c1 c2 c3 x p : FP f} {X H N l Q1 Q2 Q3 R W1 W2 W3 Z t : ℚ} {m : ℕ}
    (hx : x.isFinite = true) (hx0 : 0 ≤ x.val) (hxX : x.val ≤ X)
    (hc1 : c1.isFinite = true) (hc2 : c2.isFinite = true) (hc3 : c3.isFinite = true)
    (hp : p.isFinite = true) (hpv : p.val = 2 * m)
    (q1 : 2 * (m : ℚ) - 1 ≤ t) (q2 : t < 2 * m + 1) (q3 : |t - c.val * x.val| ≤ H)
    (hN : 2 * (m : ℚ) ≤ N) (hl : 0 < l)
    (hR : l * (1 + H) + |1 - c.val * l| * X ≤ R)
    (hQ1 : N * |c1.val| ≤ Q1) (hQ2 : N * |c2.val| ≤ Q2) (hQ3 : N * |c3.val| ≤ Q3)
    (hB1 : Q1 ≤ f.big) (hB2 : Q2 ≤ f.big) (hB3 : Q3 ≤ f.big)
    (hW1 : R + N * |l - c1.val| + 0 + (f.u * Q1 + f.eta) ≤ W1)
    (hW2 : R + N * |l - c1.val - c2.val| + (0 + (f.u * Q1 + f.eta) + (f.u * W1 + f.eta)) + (f.u * Q2 + f.eta) ≤ W2)
    (hW3 : R + N * |l - c1.val - c2.val - c3.val| +
      (0 + (f.u * Q1 + f.eta) + (f.u * W1 + f.eta) + (f.u * Q2 + f.eta) + (f.u * W2 + f.eta)) + (f.u * Q3 + f.eta) ≤ W3)
    (hV1 : W1 ≤ f.big) (hV2 : W2 ≤ f.big) (hV3 : W3 ≤ f.big)
    (hZ : N * |l - c1.val - c2.val - c3.val| + (0 + (f.u * Q1 + f.eta) + (f.u * W1 + f.eta) + (f.u * Q2 + f.eta) +
      (f.u * W2 + f.eta) + (f.u * Q3 + f.eta) + (f.u * W3 + f.eta)) ≤ Z) :
    (((x - p * c1) - p * c2) - p * c3).isFinite = true ∧ |x.val - 2 * m * l| ≤ R ∧
      |(((x - p * c1) - p * c2) - p * c3).val - (x.val - 2 * m * l)| ≤ Z := by
  have hm0 : (0 : ℚ) ≤ 2 * m := by positivity
  have hpN : |p.val| ≤ N := by rw [hpv, abs_of_nonneg hm0]; exact hN
  have hXR : |x.val - 2 * m * l| ≤ R := by
    have e : x.val - 2 * m * l = (1 - c.val * l) * x.val + l * ((t - 2 * m) - (t - c.val * x.val)) := by ring
    have h1 : |(1 - c.val * l) * x.val| ≤ |1 - c.val * l| * X := by
      rw [abs_mul, abs_of_nonneg hx0]; exact mul_le_mul_of_nonneg_left hxX (abs_nonneg _)
    have h2 : |(t - 2 * m) - (t - c.val * x.val)| ≤ 1 + H := by
      refine (abs_sub _ _).trans (add_le_add ?_ q3)
      rw [abs_le]; constructor <;> linarith
    have h3 : |l * ((t - 2 * m) - (t - c.val * x.val))| ≤ l * (1 + H) := by
      rw [abs_mul, abs_of_pos hl]; exact mul_le_mul_of_nonneg_left h2 hl.le
    rw [e]
    refine (abs_add_le _ _).trans ?_
    linarith
  have tri : ∀ d : ℚ, |x.val - 2 * m * (l - d)| ≤ R + N * |d| := by
    intro d
    have e : x.val - 2 * m * (l - d) = (x.val - 2 * m * l) + 2 * m * d := by ring
    rw [e]
    refine (abs_add_le _ _).trans (add_le_add hXR ?_)
    rw [abs_mul, abs_of_nonneg hm0]
    exact mul_le_mul_of_nonneg_right hN (abs_nonneg _)
  have p1 := mul_step hp hc1 hpN hQ1 hB1
  have p2 := mul_step hp hc2 hpN hQ2 hB2
  have p3 := mul_step hp hc3 hpN hQ3 hB3
  have t1 := tri (l - c1.val)
  have t2 := tri (l - c1.val - c2.val)
  have t3 := tri (l - c1.val - c2.val - c3.val)
  have s1 := sub_step (α := x.val) (da := 0) (W := W1) hx p1.1 (by simp) p1.2
    (by rw [hpv, show x.val - 2 * m * c1.val = x.val - 2 * m * (l - (l - c1.val)) by ring]; linarith) hV1
  have s2 := sub_step (W := W2) s1.1 p2.1 s1.2 p2.2
    (by rw [hpv, show x.val - 2 * m * c1.val - 2 * m * c2.val = x.val - 2 * m * (l - (l - c1.val - c2.val)) by ring]; linarith) hV2
  have s3 := sub_step (W := W3) s2.1 p3.1 s2.2 p3.2
    (by rw [hpv, show x.val - 2 * m * c1.val - 2 * m * c2.val - 2 * m * c3.val = x.val - 2 * m * (l - (l - c1.val - c2.val - c3.val)) by ring]
        linarith) hV3
  refine ⟨s3.1, hXR, ?_⟩
  have e := s3.2
  rw [hpv] at e
  have e2 : ∀ v : ℚ, v - (x.val - 2 * m * l) = (v - (x.val - 2 * m * c1.val - 2 * m * c2.val - 2 * m * c3.val)) +
      2 * m * (l - c1.val - c2.val - c3.val) := by intro v; ring
  rw [e2]
  have h4 : |2 * m * (l - c1.val - c2.val - c3.val)| ≤ N * |l - c1.val - c2.val - c3.val| := by
    rw [abs_mul, abs_of_nonneg hm0]; exact mul_le_mul_of_nonneg_right hN (abs_nonneg _)
  refine (abs_add_le _ _).trans ?_
  linarith
end

/-- Values of an expression over an interval. -/
def okRange (f : Fmt) (e : E f) (lo hi : ℚ) (a b : ℚ) : Bool :=
  match an1 f e a b with
  | some r => r.k == 0 && decide (lo ≤ r.lo - r.err - r.h * etaUp) && decide (r.hi + r.err + r.h * etaUp ≤ hi)
  | none => false

theorem okRange_sound {f : Fmt} [f.Ok] [EtaOk f] {e : E f} {a b lo hi : ℚ} (h : okRange f e lo hi a b = true) {x : FP f}
    (hx : x.isFinite = true) (h1 : (a : ℝ) ≤ x.real) (h2 : x.real ≤ b) :
    (e.evalF fun _ => x).isFinite = true ∧ (lo : ℝ) ≤ (e.evalF fun _ => x).real ∧ (e.evalF fun _ => x).real ≤ hi := by
  unfold okRange at h
  split at h
  · rename_i r hr
    simp only [Bool.and_eq_true, beq_iff_eq, decide_eq_true_eq] at h
    have s := an1_sound hr hx h1 h2
    obtain ⟨v, hv, hv1, hv2⟩ := s.ex
    have hb := s.bound
    rw [h.1.1, pow_zero, mul_one] at hb
    rw [h.1.1, pow_zero, one_mul] at hv
    rw [hv] at hb
    have h3 : (r.h : ℝ) * f.eta ≤ r.h * (etaUp : ℚ) :=
      mul_le_mul_of_nonneg_left eta_le (by exact_mod_cast s.h0)
    have h4 : (lo : ℝ) ≤ r.lo - r.err - r.h * (etaUp : ℚ) := by exact_mod_cast h.1.2
    have h5 : (r.hi : ℝ) + r.err + r.h * (etaUp : ℚ) ≤ hi := by exact_mod_cast h.2
    rw [abs_le] at hb
    exact ⟨s.fin, by linarith, by linarith⟩
  · cases h

/-- include/sincos.h:89-102 as an expression. -/
def cosPxE : E b64 :=
  (((((((((((E.const C1cos).mul (.var 0)).add (.const C2cos)).mul (.var 0)).add (.const C3cos)).mul (.var 0)).add
    (.const C4cos)).mul (.var 0)).add (.const C5cos)).mul (.var 0)).add (.const C6cos))

theorem cosPxE_eq (x : F64) : cosPxE.evalF (fun _ => x) = get_cos_px x := rfl

theorem cosPx_range {x : F64} (hx : x.isFinite = true) (h0 : 0 ≤ x.val) (h1 : x.val ≤ 1) :
    (get_cos_px x).isFinite = true ∧ 0 ≤ (get_cos_px x).val ∧ (get_cos_px x).val ≤ 1 / 2 := by
  have h := okRange_sound (e := cosPxE) (a := 0) (b := 1) (lo := 0) (hi := 1 / 2) (by decide +kernel) hx
    (by unfold FP.real; exact_mod_cast h0) (by unfold FP.real; exact_mod_cast h1)
  rw [cosPxE_eq] at h
  generalize get_cos_px x = y at *
  unfold FP.real at h
  refine ⟨h.1, by exact_mod_cast h.2.1, by exact_mod_cast h.2.2⟩

/-- The cosine of the reduced argument never exceeds one. -/
theorem cos_m45_le_one {z : F64} (hz : z.isFinite = true) (h : |z.val| ≤ 1) : (fast_sincos_m45_45 z).2.val ≤ 1 := by
  have hbig : (4 : ℚ) ≤ b64.big := by decide +kernel
  have one : rnd b64 1 = 1 := by decide +kernel
  have zz1 : |z.val * z.val| ≤ 1 := by rw [abs_mul]; exact mul_le_one₀ h (abs_nonneg _) h
  have m1 := mul_spec hz hz (by linarith)
  have n0 : 0 ≤ (FP.mul z z).val := by rw [m1.2]; exact rnd_nonneg _ (mul_self_nonneg _)
  have n1 : (FP.mul z z).val ≤ 1 := by
    rw [m1.2]; exact (rnd_mono b64 (r := 1) ((le_abs_self _).trans zz1)).trans one.le
  have e : (fast_sincos_m45_45 z).2 = FP.add (FP.sub (lit 1.0) (FP.mul (FP.mul z z) (lit 0.5)))
    (FP.mul (FP.mul (FP.mul z z) (FP.mul z z)) (get_cos_px (FP.mul z z))) := rfl
  rw [e]
  generalize FP.mul z z = w at *
  have hw := m1.1
  obtain ⟨px1, px2, px3⟩ := cosPx_range hw n0 n1
  generalize get_cos_px w = px at *
  have l1 : (lit 1.0 : F64).isFinite = true ∧ (lit 1.0 : F64).val = 1 := by decide +kernel
  have l5 : (lit 0.5 : F64).isFinite = true ∧ (lit 0.5 : F64).val = 1 / 2 := by decide +kernel
  have wr : rnd b64 w.val = w.val := rnd_exact b64 (val_rep w) (by rw [abs_of_nonneg n0]; linarith)
  -- zz*.5
  have hh := mul_spec hw l5.1 (by rw [l5.2, abs_of_nonneg (by positivity)]; linarith)
  have hhv : (FP.mul w (lit 0.5)).val = rnd b64 (w.val * (1 / 2)) := by rw [hh.2, l5.2]
  have hh0 : 0 ≤ (FP.mul w (lit 0.5)).val := by rw [hhv]; exact rnd_nonneg _ (by positivity)
  have hh1 : (FP.mul w (lit 0.5)).val ≤ 1 := by rw [hhv]; exact (rnd_mono b64 (r := 1) (by linarith)).trans one.le
  -- zz*zz
  have ww0 : 0 ≤ w.val * w.val := mul_nonneg n0 n0
  have ww1 : w.val * w.val ≤ w.val := mul_le_of_le_one_right n0 n1
  have w2 := mul_spec hw hw (by rw [abs_of_nonneg ww0]; linarith)
  have w2v : (FP.mul w w).val ≤ w.val := by rw [w2.2]; exact (rnd_mono _ ww1).trans wr.le
  have w20 : 0 ≤ (FP.mul w w).val := by rw [w2.2]; exact rnd_nonneg _ ww0
  generalize FP.mul w w = s at *
  -- zz*zz*px
  have t1 : s.val * px.val ≤ w.val * (1 / 2) := mul_le_mul w2v px3 px2 n0
  have t0 : 0 ≤ s.val * px.val := mul_nonneg w20 px2
  have ht := mul_spec w2.1 px1 (by rw [abs_of_nonneg t0]; linarith)
  have htv : (FP.mul s px).val ≤ (FP.mul w (lit 0.5)).val := by rw [ht.2, hhv]; exact rnd_mono _ t1
  have ht0 : 0 ≤ (FP.mul s px).val := by rw [ht.2]; exact rnd_nonneg _ t0
  generalize FP.mul w (lit 0.5) = hlf at *
  generalize FP.mul s px = t at *
  -- 1 - zz*.5
  have a1 : |(lit 1.0 : F64).val - hlf.val| ≤ 1 := by rw [l1.2, abs_le]; constructor <;> linarith
  have ha := sub_spec l1.1 hh.1 (by linarith)
  have hae := rnd_err b64 (M := 1) one_pos a1 (by linarith)
  rw [← ha.2, l1.2] at hae
  have hu : hulp b64 1 = 1 / 2 ^ 53 := by decide +kernel
  rw [hu, abs_le] at hae
  generalize FP.sub (lit 1.0) hlf = a at *
  have hs : a.val + t.val ≤ 1 + 1 / 2 ^ 53 := by linarith
  rw [add_fin ha.1 ht.1, val_ofRat]
  calc rnd b64 (a.val + t.val) ≤ rnd b64 (1 + 1 / 2 ^ 53) := rnd_mono _ hs
    _ = 1 := by decide +kernel

/-- include/sincos.h:187-200: the factor of `z` in the cosine polynomial. -/
def cosfPxE : E b32 :=
  ((((E.const (lit 2.443315711809948E-005)).mul (.var 0)).sub (.const (lit 1.388731625493765E-003))).mul (.var 0)).add
    (.const (lit 4.166664568298827E-002)) |>.mul (.var 0)

theorem cosfPx_range {w : F32} (hw : w.isFinite = true) (h0 : 0 ≤ w.val) (h1 : w.val ≤ 4) :
    (cosfPxE.evalF fun _ => w).isFinite = true ∧ -1 / 2 ≤ (cosfPxE.evalF fun _ => w).val ∧
      (cosfPxE.evalF fun _ => w).val ≤ 1 / 2 := by
  obtain ⟨px1, px2, px3⟩ := okRange_sound (e := cosfPxE) (a := 0) (b := 4) (lo := -1 / 2) (hi := 1 / 2) (by decide +kernel) hw
    (by unfold FP.real; exact_mod_cast h0) (by unfold FP.real; exact_mod_cast h1)
  generalize cosfPxE.evalF (fun _ => w) = px at *
  unfold FP.real at px2 px3
  exact ⟨px1, by exact_mod_cast px2, by exact_mod_cast px3⟩

theorem cosf_split (z : F32) : (fast_sincosf_m45_45 z).2 = FP.add (FP.sub (FP.mul (cosfPxE.evalF fun _ => FP.mul z z) (FP.mul z z))
    (FP.mul (lit 0.5) (FP.mul z z))) (lit 1.0) := by
  simp only [fast_sincosf_m45_45, cosfPxE, E.evalF, mul_def, add_def, sub_def]

theorem cosf_tail {px w half one : F32} (px1 : px.isFinite = true) (hw : w.isFinite = true) (n0 : 0 ≤ w.val) (n1 : w.val ≤ 4)
    (px2 : -1 / 2 ≤ px.val) (px3 : px.val ≤ 1 / 2) (l1 : one.isFinite = true ∧ one.val = 1)
    (l5 : half.isFinite = true ∧ half.val = 1 / 2) :
    (FP.add (FP.sub (FP.mul px w) (FP.mul half w)) one).val ≤ 1 := by
  have hbig : (8 : ℚ) ≤ b32.big := by decide +kernel
  have r1 : rnd b32 1 = 1 := by decide +kernel
  have four : rnd b32 4 = 4 := by decide +kernel
  have four' : rnd b32 (-4) = -4 := by decide +kernel
  have zero : rnd b32 0 = 0 := by decide +kernel
  have t1 : px.val * w.val ≤ 1 / 2 * w.val := mul_le_mul_of_nonneg_right px3 n0
  have t2 : -1 / 2 * w.val ≤ px.val * w.val := mul_le_mul_of_nonneg_right px2 n0
  have ht := mul_spec px1 hw (by rw [abs_le]; constructor <;> linarith)
  have hh := mul_spec l5.1 hw (by rw [l5.2, abs_le]; constructor <;> linarith)
  rw [l5.2] at hh
  have hle : (FP.mul px w).val ≤ (FP.mul half w).val := by rw [ht.2, hh.2]; exact rnd_mono _ t1
  have b2 : rnd b32 (1 / 2 * w.val) ≤ 4 := (rnd_mono b32 (r := 4) (by linarith)).trans four.le
  have b1 : -4 ≤ rnd b32 (px.val * w.val) := four'.ge.trans (rnd_mono b32 (q := -4) (by linarith))
  rw [← ht.2] at b1
  rw [← hh.2] at b2
  generalize FP.mul px w = a at *
  generalize FP.mul half w = b at *
  have hs := sub_spec ht.1 hh.1 (by rw [abs_le]; constructor <;> linarith)
  have hs0 : (FP.sub a b).val ≤ 0 := by
    rw [hs.2]; exact (rnd_mono b32 (r := 0) (by linarith)).trans zero.le
  generalize FP.sub a b = d at *
  rw [add_fin hs.1 l1.1, val_ofRat, l1.2]
  exact (rnd_mono b32 (r := 1) (by linarith)).trans r1.le

theorem sqf_range {z : F32} (hz : z.isFinite = true) (h : |z.val| ≤ 2) :
    (FP.mul z z).isFinite = true ∧ 0 ≤ (FP.mul z z).val ∧ (FP.mul z z).val ≤ 4 := by
  have hbig : (8 : ℚ) ≤ b32.big := by decide +kernel
  have four : rnd b32 4 = 4 := by decide +kernel
  have zz1 : |z.val * z.val| ≤ 4 := by
    rw [abs_mul]; exact (mul_le_mul h h (abs_nonneg _) (by norm_num)).trans (by norm_num)
  have m1 := mul_spec hz hz (by linarith)
  refine ⟨m1.1, ?_, ?_⟩
  · rw [m1.2]; exact rnd_nonneg _ (mul_self_nonneg _)
  · rw [m1.2]; exact (rnd_mono b32 (r := 4) ((le_abs_self _).trans zz1)).trans four.le

/-- The cosine of the reduced argument never exceeds one. -/
theorem cosf_m45_le_one {z : F32} (hz : z.isFinite = true) (h : |z.val| ≤ 2) : (fast_sincosf_m45_45 z).2.val ≤ 1 := by
  obtain ⟨hw, n0, n1⟩ := sqf_range hz h
  obtain ⟨p1, p2, p3⟩ := cosfPx_range hw n0 n1
  rw [cosf_split]
  exact cosf_tail p1 hw n0 n1 p2 p3 (by decide +kernel) (by decide +kernel)

/-- Largest magnitude of an expression over an interval. -/
def okMag (f : Fmt) (e : E f) (C : ℚ) (a b : ℚ) : Bool :=
  match an1 f e a b with
  | some r => decide ((r.mag + r.err) * (max |a| |b|) ^ r.k + r.h * etaUp ≤ C)
  | none => false

theorem okMag_sound {f : Fmt} [f.Ok] [EtaOk f] {e : E f} {a b C : ℚ} (h : okMag f e C a b = true) {x : FP f}
    (hx : x.isFinite = true) (h1 : (a : ℝ) ≤ x.real) (h2 : x.real ≤ b) :
    (e.evalF fun _ => x).isFinite = true ∧ |(e.evalF fun _ => x).real| ≤ C := by
  unfold okMag at h
  split at h
  · rename_i r hr
    simp only [decide_eq_true_eq] at h
    have s := an1_sound hr hx h1 h2
    obtain ⟨v, hv, hv1, hv2⟩ := s.ex
    have hm := mag_bound hv1 hv2
    have hb := s.bound
    have h3 : (r.h : ℝ) * f.eta ≤ r.h * (etaUp : ℚ) :=
      mul_le_mul_of_nonneg_left eta_le (by exact_mod_cast s.h0)
    have h4 : ((((r.mag + r.err) * (max |a| |b|) ^ r.k + r.h * etaUp : ℚ)) : ℝ) ≤ C := by exact_mod_cast h
    rw [Rat.cast_add, Rat.cast_mul, Rat.cast_add, Rat.cast_pow, Rat.cast_mul] at h4
    have h5 := pow_le_pow_left₀ (abs_nonneg _) (abs_le_max h1 h2) r.k
    have e0 : (0 : ℝ) ≤ r.err := by exact_mod_cast s.err0
    have m0 : (0 : ℝ) ≤ r.mag := (abs_nonneg _).trans hm
    have h6 := mul_le_mul_of_nonneg_left h5 (add_nonneg m0 e0)
    have h7 : |e.evalR fun _ => x.real| ≤ r.mag * |x.real| ^ r.k := by
      rw [hv, abs_mul, abs_pow, mul_comm]
      exact mul_le_mul_of_nonneg_right hm (by positivity)
    have h8 := abs_sub_abs_le_abs_sub (e.evalF fun _ => x).real (e.evalR fun _ => x.real)
    refine ⟨s.fin, ?_⟩
    rw [add_mul] at h6
    linarith
  · cases h

theorem sinf_mag : covers (okMag b32 sinfE 1) [-1.41, -1.39, -1.37, -1.34, -1.30, -1.23, -1.11, -0.80, -0.20, 0.40, 1.00, 1.18, 1.27, 1.32, 1.35, 1.38, 1.40, 1.41] = true := by decide +kernel
theorem cosf_low : covers (okRange b32 cosfE (-1) 2) [-1.41, -0.81, -0.21, 0.39, 0.99, 1.41] = true := by decide +kernel

/-- Single precision, reduced argument up to 1.41: both results are within [-1, 1]. -/
theorem sincosf_m45_range {z : F32} (hz : z.isFinite = true) (h : |z.val| ≤ 1.41) :
    (fast_sincosf_m45_45 z).1.isFinite = true ∧ (fast_sincosf_m45_45 z).2.isFinite = true ∧
    |(fast_sincosf_m45_45 z).1.val| ≤ 1 ∧ |(fast_sincosf_m45_45 z).2.val| ≤ 1 := by
  have hc := cosf_m45_le_one hz (h.trans (by norm_num))
  have h' : |z.real| ≤ 1.41 := by
    unfold FP.real
    have := (Rat.cast_le (K := ℝ)).2 h
    push_cast at this; exact this
  rw [abs_le] at h'
  obtain ⟨s, t, hst, h1, h2⟩ := covers_spans sinf_mag (a := -1.41) (b := 1.41) (by decide +kernel)
    (x := z.real) (by push_cast; linarith) (by push_cast; linarith)
  have r := okMag_sound hst hz h1 h2
  rw [sinfE_eq] at r
  obtain ⟨s', t', hst', h1', h2'⟩ := covers_spans cosf_low (a := -1.41) (b := 1.41) (by decide +kernel)
    (x := z.real) (by push_cast; linarith) (by push_cast; linarith)
  have r' := okRange_sound hst' hz h1' h2'
  rw [cosfE_eq] at r'
  generalize fast_sincosf_m45_45 z = sc at *
  unfold FP.real at r r'
  refine ⟨r.1, r'.1, by exact_mod_cast r.2, ?_⟩
  rw [abs_le]
  exact ⟨by exact_mod_cast r'.2.1, hc⟩

/-- Double precision: the reduction of every argument for which the call is defined. -/
theorem reduce64_wide {x : F64} {q1 : ℤ} (hq : quadStep strict ONEOPIO4 (FP.abs x) = some q1) :
    ∃ m : ℕ, clearLow q1 = 2 * m ∧ m ≤ 1073741823 ∧
      (reduceWith (FP.abs x) (ofInt (2 * m))).isFinite = true ∧
      |(reduceWith (FP.abs x) (ofInt (2 * m))).real| ≤ 0.787 ∧
      |(reduceWith (FP.abs x) (ofInt (2 * m))).real - (|x.real| - m * (Real.pi / 2))| ≤ 0.95 * 2 ^ (-22 : ℤ) := by
  obtain ⟨hx, hX⟩ := (quad64_defined_iff x).1 (by rw [hq]; rfl)
  have hax : (FP.abs x).isFinite = true := by simpa using hx
  have hav : (FP.abs x).val = |x.val| := val_abs x
  have h0 := abs_val_nonneg x
  rw [← hav] at hX
  obtain ⟨m, hm, hmN, q1, q2, q3⟩ := quad_of_some (c := ONEOPIO4) (M := 2147483648) (by decide +kernel) (by decide +kernel) hax h0
    ((mul_le_mul_of_nonneg_left hX.le (by decide +kernel)).trans (by decide +kernel)) (by decide +kernel) (by decide +kernel) hq
  have i := ofInt_spec64 (n := 2 * m) (by rw [abs_of_nonneg (by omega)]; omega)
  have r := reduce_coarse (f := b64) (c := ONEOPIO4) (c1 := DP1) (c2 := DP2) (c3 := DP3) (X := 7074237748734241 / 4194304)
    (H := hulp b64 2147483648) (N := 2147483646) (l := piQ / 4) (Q1 := 1690000000) (Q2 := 20) (Q3 := 1 / 10000000) (R := 0.786)
    (W1 := 20) (W2 := 1) (W3 := 1) (Z := 0.94 / 2 ^ 22) (m := m) (p := ofInt (2 * m)) hax h0 hX.le
    (by decide +kernel) (by decide +kernel) (by decide +kernel) i.1 (by rw [i.2]; push_cast; rfl) q1 q2 q3
    (by have : (m : ℚ) ≤ 1073741823 := by exact_mod_cast hmN
        linarith)
    (by decide +kernel) (by decide +kernel) (by decide +kernel) (by decide +kernel) (by decide +kernel) (by decide +kernel)
    (by decide +kernel) (by decide +kernel) (by decide +kernel) (by decide +kernel) (by decide +kernel) (by decide +kernel)
    (by decide +kernel) (by decide +kernel) (by decide +kernel)
  obtain ⟨r1, r2, r3⟩ := r
  change (reduceWith (FP.abs x) (ofInt (2 * m))).isFinite = true at r1
  change |(reduceWith (FP.abs x) (ofInt (2 * m))).val - _| ≤ _ at r3
  rw [hav] at r2 r3
  refine ⟨m, hm, hmN, r1, ?_⟩
  generalize reduceWith (FP.abs x) (ofInt (2 * m)) = z at *
  have r2' : |(|x.real| - 2 * m * (piQ / 4))| ≤ 0.786 := by
    have := (Rat.cast_le (K := ℝ)).2 r2
    push_cast at this; unfold FP.real; exact this
  have r3' : |z.real - (|x.real| - 2 * m * (piQ / 4))| ≤ 0.94 / 2 ^ 22 := by
    have := (Rat.cast_le (K := ℝ)).2 r3
    push_cast at this; unfold FP.real; exact this
  constructor
  · have h1 := abs_sub_abs_le_abs_sub z.real (|x.real| - 2 * m * (piQ / 4))
    have h2 : (0.94 / 2 ^ 22 : ℝ) ≤ 0.001 := by norm_num
    linarith
  · have hp := pi_near
    have hmR : (m : ℝ) ≤ 1073741823 := by exact_mod_cast hmN
    have hm0 : (0 : ℝ) ≤ m := by positivity
    have hd : |m / 2 * (Real.pi - piQ)| ≤ 1073741823 * (1 / 10 ^ 38) := by
      rw [abs_mul, abs_of_nonneg (by positivity : (0 : ℝ) ≤ m / 2)]
      exact mul_le_mul (by linarith) hp (abs_nonneg _) (by norm_num)
    have e : z.real - (|x.real| - m * (Real.pi / 2)) = (z.real - (|x.real| - 2 * m * (piQ / 4))) + m / 2 * (Real.pi - piQ) := by ring
    rw [e]
    refine (abs_add_le _ _).trans ((add_le_add r3' hd).trans ?_)
    norm_num

theorem sincosTail_abs {f : Fmt} {sc : FP f × FP f} {m : ℕ} {neg : Bool} {K : ℚ} (hm : m ≤ 1073741823)
    (f1 : sc.1.isFinite = true) (f2 : sc.2.isFinite = true) (h1 : |sc.1.val| ≤ K) (h2 : |sc.2.val| ≤ K) :
    (sincosTail sc (2 * m) neg).1.isFinite = true ∧ (sincosTail sc (2 * m) neg).2.isFinite = true ∧
    |(sincosTail sc (2 * m) neg).1.val| ≤ K ∧ |(sincosTail sc (2 * m) neg).2.val| ≤ K := by
  rw [sincosTail_eq sc (by exact_mod_cast hm)]
  cases neg <;> split_ifs <;> simp [val_neg, *]

/-- Double precision, every argument for which the call is defined: results within [-1, 1] and within
`2^-22` of the real sine and cosine. -/
theorem sincos_wide {x s c : F64} (h : fast_sincos x = some (s, c)) :
    s.isFinite = true ∧ c.isFinite = true ∧ |s.val| ≤ 1 ∧ |c.val| ≤ 1 ∧
      |s.real - Real.sin x.real| ≤ 2 ^ (-22 : ℤ) ∧ |c.real - Real.cos x.real| ≤ 2 ^ (-22 : ℤ) := by
  unfold fast_sincos at h
  rw [fast_sincosM_eq] at h
  cases hq : quadStep strict ONEOPIO4 (FP.abs x) with
  | none => rw [hq] at h; cases h
  | some q1 =>
    rw [hq] at h
    simp only [Option.bind_eq_bind, Option.bind_some, Option.pure_def, Option.some.injEq] at h
    obtain ⟨m, hm, hmN, r1, r2, r3⟩ := reduce64_wide hq
    rw [hm] at h
    obtain ⟨hx, -⟩ := (quad64_defined_iff x).1 (by rw [hq]; rfl)
    have hc := cos_m45_le_one r1 (by
      have : |(reduceWith (FP.abs x) (ofInt (2 * m))).real| ≤ ((1 : ℚ) : ℝ) := by push_cast; linarith
      unfold FP.real at this; exact_mod_cast this)
    generalize reduceWith (FP.abs x) (ofInt (2 * m)) = z at *
    obtain ⟨c1, c2, c3, c4⟩ := sincos_core r1 r2
    generalize fast_sincos_m45_45 z = sc at *
    have heta : ((b64.eta : ℚ) : ℝ) ≤ 1 / 2 ^ 100 := by
      have : b64.eta ≤ 1 / 2 ^ 100 := by decide +kernel
      have : ((b64.eta : ℚ) : ℝ) ≤ ((1 / 2 ^ 100 : ℚ) : ℝ) := by exact_mod_cast this
      push_cast at this; exact this
    have c3' : |sc.1.real - Real.sin z.real| ≤ 2.06 * 2 ^ (-53 : ℤ) := by
      refine c3.trans ?_
      have : (1.43 : ℝ) * 2 ^ (-53 : ℤ) * |z.real| ≤ 1.43 * 2 ^ (-53 : ℤ) * 0.787 := mul_le_mul_of_nonneg_left r2 (by positivity)
      refine (add_le_add this (mul_le_mul_of_nonneg_left heta (by norm_num))).trans ?_
      norm_num
    have s1 : |sc.1.val| ≤ 1 := by
      have h1 : |sc.1.real| ≤ 1 := by
        have h2 := abs_sub_abs_le_abs_sub sc.1.real (Real.sin z.real)
        have h3 : |Real.sin z.real| ≤ 0.787 := Real.abs_sin_le_abs.trans r2
        have h4 : |sc.1.real - Real.sin z.real| ≤ 0.001 := c3'.trans (by norm_num)
        linarith
      unfold FP.real at h1; exact_mod_cast h1
    have s2 : |sc.2.val| ≤ 1 := by
      have h1 : -1 ≤ sc.2.real := by
        have h3 : 0 ≤ Real.cos z.real := by
          apply Real.cos_nonneg_of_neg_pi_div_two_le_of_le <;> have := Real.two_le_pi <;> rw [abs_le] at r2 <;> linarith
        have h4 : |sc.2.real - Real.cos z.real| ≤ 0.001 := c4.trans (by norm_num)
        rw [abs_le] at h4
        linarith
      unfold FP.real at h1
      rw [abs_le]; exact ⟨by exact_mod_cast h1, hc⟩
    have t := tail_acc (neg := FP.lt x (lit 0)) (m := m) (by exact_mod_cast hmN) c1 c2 c3' c4 r3
      (lt_zero_real hx (by decide +kernel) (by decide +kernel))
    have a := sincosTail_abs (neg := FP.lt x (lit 0)) hmN c1 c2 s1 s2
    rw [h] at t a
    exact ⟨a.1, a.2.1, a.2.2.1, a.2.2.2, t.2.2.1.trans (by norm_num), t.2.2.2.trans (by norm_num)⟩

/-- Single precision up to `2^22`. -/
theorem sincosf_wide {x s c : F32} (hX : |x.val| ≤ 4194304) (h : fast_sincosf x = some (s, c)) :
    s.isFinite = true ∧ c.isFinite = true ∧ |s.val| ≤ 1 ∧ |c.val| ≤ 1 := by
  unfold fast_sincosf at h
  rw [fast_sincosfM_eq] at h
  cases hq : quadStep strict ONEOPIO4F (FP.abs x) with
  | none => rw [hq] at h; cases h
  | some q1 =>
    rw [hq] at h
    simp only [Option.bind_eq_bind, Option.bind_some, Option.pure_def, Option.some.injEq] at h
    obtain ⟨hx, -⟩ := (quad32_defined_iff x).1 (by rw [hq]; rfl)
    have hax : (FP.abs x).isFinite = true := by simpa using hx
    have hav : (FP.abs x).val = |x.val| := val_abs x
    have h0 := abs_val_nonneg x
    rw [← hav] at hX
    obtain ⟨m, hm, hmN, q1, q2, q3⟩ := quad_of_some (c := ONEOPIO4F) (M := 5340354) (by decide +kernel) (by decide +kernel) hax h0
      ((mul_le_mul_of_nonneg_left hX (by decide +kernel)).trans (by decide +kernel)) (by decide +kernel) (by decide +kernel) hq
    have hmQ : 2 * (m : ℚ) ≤ 5340356 := by
      have h1 : ONEOPIO4F.val * (FP.abs x).val ≤ 5340354 :=
        (mul_le_mul_of_nonneg_left hX (by decide +kernel)).trans (show ONEOPIO4F.val * 4194304 ≤ 5340354 by decide +kernel)
      have h2 : hulp b32 5340354 ≤ 1 / 4 := by decide +kernel
      rw [abs_le] at q3
      linarith
    have i := ofInt_spec32 (n := 2 * m) (by
      have : 2 * m ≤ 5340356 := by exact_mod_cast hmQ
      rw [abs_of_nonneg (by omega)]; omega)
    have r := reduce_coarse (f := b32) (c := ONEOPIO4F) (c1 := DP1F) (c2 := DP2F) (c3 := DP3F) (X := 4194304)
      (H := hulp b32 5340354) (N := 5340356) (l := piQ / 4) (Q1 := 4194304) (Q2 := 1300) (Q3 := 1) (R := 1.152)
      (W1 := 1400) (W2 := 2) (W3 := 2) (Z := 0.252) (m := m) (p := ofInt (2 * m)) hax h0 hX
      (by decide +kernel) (by decide +kernel) (by decide +kernel) i.1 (by rw [i.2]; push_cast; rfl) q1 q2 q3 hmQ
      (by decide +kernel) (by decide +kernel) (by decide +kernel) (by decide +kernel) (by decide +kernel) (by decide +kernel)
      (by decide +kernel) (by decide +kernel) (by decide +kernel) (by decide +kernel) (by decide +kernel) (by decide +kernel)
      (by decide +kernel) (by decide +kernel) (by decide +kernel)
    obtain ⟨r1, r2, r3⟩ := r
    change (reduceWithf (FP.abs x) (ofInt (2 * m))).isFinite = true at r1
    change |(reduceWithf (FP.abs x) (ofInt (2 * m))).val - _| ≤ _ at r3
    rw [hm] at h
    generalize reduceWithf (FP.abs x) (ofInt (2 * m)) = z at *
    have hz : |z.val| ≤ 1.41 := by
      have := abs_sub_abs_le_abs_sub z.val ((FP.abs x).val - 2 * m * (piQ / 4))
      linarith
    obtain ⟨c1, c2, c3, c4⟩ := sincosf_m45_range r1 hz
    have a := sincosTail_abs (neg := FP.lt x (ofInt 0)) hmN c1 c2 c3 c4
    rw [h] at a
    exact a

end Vdt
