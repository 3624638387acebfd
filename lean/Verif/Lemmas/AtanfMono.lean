import Verif.Lemmas.AtanQuot
import Verif.Lemmas.AtanfPos
import Verif.Lemmas.SincosRel

/-! # `fast_atanf` preserves the order -/

namespace Vdt
open FP details

/-- The polynomial without the linear term. -/
def atanfT (w : F32) : F32 := atanfPoly w (w * w)
theorem atanfT_con (w : F32) : (atanfPolyE ((E.var 0).mul (.var 0)) (.var 1)).Con (fun _ => w) (atanfT w) := by
  unfold atanfPolyE atanfT atanfPoly; con

/-- The factor in front of the argument. -/
def atanfAE (x2 : E b32) : E b32 :=
  (((((((E.const (lit 8.05374449538e-2)).mul x2).sub (.const (lit 1.38776856032E-1))).mul x2).add (.const (lit 1.99777106478E-1))).mul x2).sub
    (.const (lit 3.33329491539E-1))).mul x2
def atanfA (x2 : F32) : F32 :=
  (((lit 8.05374449538e-2 * x2 - lit 1.38776856032E-1) * x2 + lit 1.99777106478E-1) * x2 - lit 3.33329491539E-1) * x2
theorem atanfA_con (w : F32) : (atanfAE ((E.var 0).mul (.var 0))).Con (fun _ => w) (atanfA (w * w)) := by
  unfold atanfAE atanfA; con
theorem atanfT_eq (w : F32) : atanfT w = atanfA (w * w) * w := rfl

def atanfNz : List ℚ := [0, 1, 0, -(lit 3.33329491539E-1 : F32).val, 0, (lit 1.99777106478E-1 : F32).val, 0, -(lit 1.38776856032E-1 : F32).val, 0,
  (lit 8.05374449538e-2 : F32).val]
noncomputable def atanfG (z : ℝ) : ℝ := pev atanfNz z - z

theorem atanfA_real (z : ℝ) : ∃ r, (atanfAE ((E.var 0).mul (.var 0))).evalR (fun _ => z) = r ∧ atanfG z = z * r := by
  refine ⟨_, rfl, ?_⟩
  simp only [atanfAE, E.evalR, atanfG, atanfNz, pev_cons, pev_nil, FP.real]
  push_cast
  simp only [mul_zero, add_zero]
  ring

theorem atanfP_real (z : ℝ) : (atanfPolyE ((E.var 0).mul (.var 0)) (.var 1)).evalR (fun _ => z) = atanfG z := by
  obtain ⟨r, h1, h2⟩ := atanfA_real z
  rw [h2, ← h1, mul_comm]
  rfl

theorem atanfA_small {z : ℝ} (h : |z| ≤ 1) : |(atanfAE ((E.var 0).mul (.var 0))).evalR (fun _ => z)| ≤ 3 * (z * z) := by
  have c : ∀ q ∈ [(lit 8.05374449538e-2 : F32).val, (lit 1.38776856032E-1 : F32).val, (lit 1.99777106478E-1 : F32).val, (lit 3.33329491539E-1 : F32).val], 0 ≤ q ∧ q ≤ 1 := by
    decide +kernel
  have e : (atanfAE ((E.var 0).mul (.var 0))).evalR (fun _ => z) = ((((lit 8.05374449538e-2 : F32).real * (z * z) - (lit 1.38776856032E-1 : F32).real) * (z * z) +
      (lit 1.99777106478E-1 : F32).real) * (z * z) - (lit 3.33329491539E-1 : F32).real) * (z * z) := rfl
  rw [e]
  have c' : ∀ w : F32, 0 ≤ w.val ∧ w.val ≤ 1 → 0 ≤ w.real ∧ w.real ≤ 1 := by
    intro w hw; unfold FP.real; exact_mod_cast hw
  simp only [List.forall_mem_cons] at c
  have c3 := c' _ c.1
  have c2 := c' _ c.2.1
  have c1 := c' _ c.2.2.1
  have c0 := c' _ c.2.2.2.1
  clear c c'
  generalize (lit 8.05374449538e-2 : F32).real = a3 at *
  generalize (lit 1.38776856032E-1 : F32).real = a2 at *
  generalize (lit 1.99777106478E-1 : F32).real = a1 at *
  generalize (lit 3.33329491539E-1 : F32).real = a0 at *
  have q0 : 0 ≤ z * z := mul_self_nonneg z
  have q1 : z * z ≤ 1 := by
    have := abs_mul_abs_self z
    nlinarith [abs_nonneg z]
  generalize z * z = q at *
  have p1 : |a3 * q - a2| ≤ 1 := by rw [abs_le]; constructor <;> nlinarith
  have p2 : |(a3 * q - a2) * q + a1| ≤ 2 := by
    generalize a3 * q - a2 = t at *
    rw [abs_le] at *; constructor <;> nlinarith
  have p3 : |((a3 * q - a2) * q + a1) * q - a0| ≤ 3 := by
    generalize (a3 * q - a2) * q + a1 = t at *
    rw [abs_le] at *; constructor <;> nlinarith
  rw [abs_mul, abs_of_nonneg q0]
  exact mul_le_mul_of_nonneg_right p3 q0

theorem atanfT_pos_ok : covers (okLin b32 (atanfPolyE ((E.var 0).mul (.var 0)) (.var 1)) (0.35 * 2 ^ (-24 : ℤ)) 2) [0, 829 / 2000] = true := by decide +kernel
theorem atanfT_neg_ok : covers (okLin b32 (atanfPolyE ((E.var 0).mul (.var 0)) (.var 1)) (0.35 * 2 ^ (-24 : ℤ)) 2) [-829 / 2000, 0] = true := by decide +kernel
theorem atanfA_ok : okAbs b32 (atanfAE ((E.var 0).mul (.var 0))) (p2 (-100)) (-p2 (-60)) (p2 (-60)) = true := by decide +kernel

theorem atanfT_err {w : F32} (hw : w.isFinite = true) (h : |w.val| ≤ 0.4145) :
    (atanfT w).isFinite = true ∧ |((atanfT w).val : ℝ) - atanfG w.real| ≤ 0.36 * 2 ^ (-24 : ℤ) * |w.real| := by
  have aw : |w.real| ≤ ((0.4145 : ℚ) : ℝ) := by
    have e : |w.real| = ((|w.val| : ℚ) : ℝ) := by unfold FP.real; push_cast; rfl
    rw [e]; exact Rat.cast_le.2 h
  have aw' := abs_le.1 aw
  have lin : (atanfT w).isFinite = true ∧ |((atanfT w).val : ℝ) - atanfG w.real| ≤ 0.35 * 2 ^ (-24 : ℤ) * |w.real| + 2 * (b32.eta : ℝ) := by
    have key : ∀ s t, okLin b32 (atanfPolyE ((E.var 0).mul (.var 0)) (.var 1)) (0.35 * 2 ^ (-24 : ℤ)) 2 s t = true → (s : ℝ) ≤ w.real → w.real ≤ t → 
        (atanfT w).isFinite = true ∧ |((atanfT w).val : ℝ) - atanfG w.real| ≤ 0.35 * 2 ^ (-24 : ℤ) * |w.real| + 2 * (b32.eta : ℝ) := by
      intro s t hst h1 h2
      have := okLin_con hst hw h1 h2 (atanfT_con w)
      rw [atanfP_real] at this
      have c1 : ((0.35 * 2 ^ (-24 : ℤ) : ℚ) : ℝ) = 0.35 * 2 ^ (-24 : ℤ) := by norm_num
      have c2 : ((2 : ℚ) : ℝ) = 2 := by norm_num
      rw [c1, c2] at this
      exact this
    rcases le_total 0 w.real with h0 | h0
    · obtain ⟨s, t, hst, h1, h2⟩ := covers_spans atanfT_pos_ok (a := 0) (b := 0.4145) (by decide +kernel) (x := w.real) (by push_cast; exact h0) aw'.2
      exact key s t hst h1 h2
    · obtain ⟨s, t, hst, h1, h2⟩ := covers_spans atanfT_neg_ok (a := -0.4145) (b := 0) (by decide +kernel) (x := w.real) (by push_cast at aw' ⊢; exact aw'.1) (by push_cast; exact h0)
      exact key s t hst h1 h2
  refine ⟨lin.1, ?_⟩
  rcases le_or_gt (|w.val|) (p2 (-60)) with hs | hs
  · -- the correction disappears
    have sv := abs_le.1 hs
    have s1 : ((-p2 (-60) : ℚ) : ℝ) ≤ w.real := by unfold FP.real; exact Rat.cast_le.2 sv.1
    have s2 : w.real ≤ ((p2 (-60) : ℚ) : ℝ) := by unfold FP.real; exact Rat.cast_le.2 sv.2
    have a := okAbs_con atanfA_ok hw s1 s2 (atanfA_con w)
    have p60 : ((p2 (-60) : ℚ) : ℝ) = 2 ^ (-60 : ℤ) := by rw [p2_eq]; norm_num
    have p100 : ((p2 (-100) : ℚ) : ℝ) = 2 ^ (-100 : ℤ) := by rw [p2_eq]; norm_num
    have ws : |w.real| ≤ 2 ^ (-60 : ℤ) := by
      rw [abs_le, ← p60]; push_cast at s1; exact ⟨s1, s2⟩
    have w1 : |w.real| ≤ 1 := ws.trans (by norm_num)
    have ww : w.real * w.real ≤ 2 ^ (-120 : ℤ) := by
      rw [← abs_mul_abs_self]
      calc |w.real| * |w.real| ≤ 2 ^ (-60 : ℤ) * 2 ^ (-60 : ℤ) := mul_le_mul ws ws (abs_nonneg _) (by positivity)
        _ = 2 ^ (-120 : ℤ) := by norm_num
    have am := atanfA_small w1
    have tiny : (atanfT w).val = 0 := by
      have ab : |(atanfA (w * w)).val| ≤ p2 (-99) := by
        have : |(atanfA (w * w)).real| ≤ 2 ^ (-99 : ℤ) := by
          have t1 := abs_sub_abs_le_abs_sub (atanfA (w * w)).real ((atanfAE ((E.var 0).mul (.var 0))).evalR fun _ => w.real)
          have t2 := a.2
          rw [p100] at t2
          have t3 : (2 : ℝ) ^ (-100 : ℤ) + 3 * 2 ^ (-120 : ℤ) ≤ 2 ^ (-99 : ℤ) := by norm_num
          linarith
        have e : |(atanfA (w * w)).real| = ((|(atanfA (w * w)).val| : ℚ) : ℝ) := by unfold FP.real; push_cast; rfl
        have p99 : ((p2 (-99) : ℚ) : ℝ) = 2 ^ (-99 : ℤ) := by rw [p2_eq]; norm_num
        rw [e, ← p99] at this
        exact Rat.cast_le.1 this
      have pr : |(atanfA (w * w)).val * w.val| ≤ p2 (-159) := by
        rw [abs_mul]
        refine (mul_le_mul ab hs (abs_nonneg _) (p2_pos _).le).trans ?_
        rw [← p2_add]; norm_num
      have big : p2 (-159) ≤ b32.big := by decide +kernel
      have m := mulS a.1 hw (pr.trans big)
      rw [atanfT_eq, m.2]
      exact rnd_tiny (by decide +kernel : rnd b32 (p2 (-159)) = 0) pr
    rw [tiny]
    obtain ⟨r, h1, h2⟩ := atanfA_real w.real
    rw [h1] at am
    rw [h2, Rat.cast_zero, zero_sub, abs_neg, abs_mul, mul_comm]
    refine mul_le_mul_of_nonneg_right (am.trans ?_) (abs_nonneg _)
    refine (mul_le_mul_of_nonneg_left ww (by norm_num)).trans ?_
    norm_num
  · have et : (2 : ℝ) * b32.eta ≤ 0.01 * 2 ^ (-24 : ℤ) * |w.real| := by
      have c : 2 * b32.eta ≤ 0.01 * 2 ^ (-24 : ℤ) * p2 (-60) := by decide +kernel
      have c' : 2 * b32.eta ≤ 0.01 * 2 ^ (-24 : ℤ) * |w.val| := c.trans (mul_le_mul_of_nonneg_left hs.le (by norm_num))
      have e : |w.real| = ((|w.val| : ℚ) : ℝ) := by unfold FP.real; push_cast; rfl
      rw [e]
      have := (Rat.cast_le (K := ℝ)).2 c'
      refine le_trans (le_of_eq ?_) (this.trans (le_of_eq ?_))
      · push_cast; rfl
      · push_cast; norm_num
    refine lin.2.trans ?_
    have : (0.36 : ℝ) * 2 ^ (-24 : ℤ) * |w.real| = 0.35 * 2 ^ (-24 : ℤ) * |w.real| + 0.01 * 2 ^ (-24 : ℤ) * |w.real| := by ring
    rw [this]
    linarith

theorem atanf_slope {x y : ℝ} (h1 : -0.4145 ≤ x) (h : x ≤ y) (h2 : y ≤ 0.4145) : 0.84 * (y - x) ≤ (y + atanfG y) - (x + atanfG x) := by
  have k := pslope_sound (N := atanfNz) (D := [1]) (c := 0.84) (l := grid (-0.4145) 0.4145 16) (a := -0.4145) (b := 0.4145) (by decide +kernel)
    (by decide +kernel) (by simp) (x := x) (y := y) (by push_cast; exact h1) h (by push_cast; exact h2)
  unfold atanfG
  generalize atanfNz = N at *
  simp only [pev_cons, pev_nil, mul_zero, add_zero, Rat.cast_one, div_one] at k
  have e : ((0.84 : ℚ) : ℝ) = 0.84 := by norm_num
  rw [e] at k
  linarith

/-- The polynomial with the linear term is increasing. -/
theorem atanfCore_order {x y : F32} (hx : x.isFinite = true) (hy : y.isFinite = true) (h1 : -0.4145 ≤ x.val) (h : x.val ≤ y.val)
    (h2 : y.val ≤ 0.4145) : (atanfCore x).isFinite = true ∧ (atanfCore y).isFinite = true ∧ (atanfCore x).val ≤ (atanfCore y).val ∧
      |(atanfCore x).val| ≤ 1 ∧ |(atanfCore y).val| ≤ 1 := by
  have ax : |x.val| ≤ 0.4145 := abs_le.2 ⟨h1, h.trans h2⟩
  have ay : |y.val| ≤ 0.4145 := abs_le.2 ⟨h1.trans h, h2⟩
  have ex := atanfT_err hx ax
  have ey := atanfT_err hy ay
  have k := core_order (T := fun w => (atanfT w).val) (c := 0.84) (K := 0.36 * 2 ^ (-24 : ℤ)) (G := atanfG) h
    (atanf_slope (by have := le_real_iff.2 h1; push_cast at this; exact this) (by unfold FP.real; exact_mod_cast h)
      (by have := real_le_iff.2 h2; push_cast at this; exact this)) ex.2 ey.2 (by positivity) (by
      have : b32.u = 2 ^ (-24 : ℤ) := by decide +kernel
      rw [this]; push_cast; norm_num)
  have fin : ∀ {w : F32}, w.isFinite = true → |w.val| ≤ 0.4145 → (atanfCore w).isFinite = true ∧ (atanfCore w).val = rnd b32 ((atanfT w).val + w.val) ∧
      |(atanfCore w).val| ≤ 1 := by
    intro w hw aw
    have e := atanfT_err hw aw
    have wr : |w.real| ≤ 0.4145 := by
      have e : |w.real| = ((|w.val| : ℚ) : ℝ) := by unfold FP.real; push_cast; rfl
      have := (Rat.cast_le (K := ℝ)).2 aw
      push_cast at this
      exact this
    obtain ⟨r, g1, g2⟩ := atanfA_real w.real
    have am := atanfA_small (z := w.real) (wr.trans (by norm_num))
    rw [g1] at am
    have tb : |(atanfT w).val| ≤ 0.5 := by
      have gb : |atanfG w.real| ≤ 0.25 := by
        rw [g2, abs_mul]
        have ws : w.real * w.real ≤ 0.4145 * 0.4145 := by
          rw [← abs_mul_abs_self]; exact mul_le_mul wr wr (abs_nonneg _) (by norm_num)
        have : |r| ≤ 0.52 := by norm_num at ws ⊢; linarith
        calc |w.real| * |r| ≤ 0.4145 * 0.52 := mul_le_mul wr this (abs_nonneg _) (by norm_num)
          _ ≤ 0.25 := by norm_num
      have t1 := abs_sub_abs_le_abs_sub ((atanfT w).val : ℝ) (atanfG w.real)
      have t2 : (0.36 : ℝ) * 2 ^ (-24 : ℤ) * |w.real| ≤ 0.2 := by
        have := mul_le_mul_of_nonneg_left wr (show (0 : ℝ) ≤ 0.36 * 2 ^ (-24 : ℤ) by positivity)
        refine this.trans ?_
        norm_num
      have t3 : |((atanfT w).val : ℝ)| ≤ 0.5 := by linarith [e.2]
      have e : |((atanfT w).val : ℝ)| = ((|(atanfT w).val| : ℚ) : ℝ) := by push_cast; rfl
      rw [e] at t3
      refine Rat.cast_le.1 (t3.trans (le_of_eq ?_))
      norm_num
    have sb : |(atanfT w).val + w.val| ≤ 1 := (abs_add_le _ _).trans (by linarith)
    have a := addS (x := atanfT w) (y := w) e.1 hw (sb.trans (by decide +kernel))
    have r1 : rnd b32 1 = 1 ∧ rnd b32 (-1) = -1 := by decide +kernel
    refine ⟨a.1, a.2, ?_⟩
    show |(atanfT w + w).val| ≤ 1
    rw [a.2, abs_le, ← r1.2]
    refine ⟨rnd_mono b32 (abs_le.1 sb).1, ?_⟩
    have := rnd_mono b32 (abs_le.1 sb).2
    rwa [r1.1] at this
  have fx := fin hx ax
  have fy := fin hy ay
  refine ⟨fx.1, fy.1, ?_, fx.2.2, fy.2.2⟩
  rw [fx.2.1, fy.2.1]
  exact rnd_mono b32 k

/-- A constant plus the polynomial. -/
theorem atanf_const_order {c x y : F32} (hc : c.isFinite = true) (c2 : |c.val| ≤ 2) (hx : x.isFinite = true) (hy : y.isFinite = true)
    (h1 : -0.4145 ≤ x.val) (h : x.val ≤ y.val) (h2 : y.val ≤ 0.4145) : (c + atanfCore x).val ≤ (c + atanfCore y).val := by
  obtain ⟨f1, f2, k, b1, b2⟩ := atanfCore_order hx hy h1 h h2
  have big : (3 : ℚ) ≤ b32.big := by decide +kernel
  have s1 := addS hc f1 ((abs_add_le _ _).trans (by linarith))
  have s2 := addS hc f2 ((abs_add_le _ _).trans (by linarith))
  rw [s1.2, s2.2]
  exact rnd_mono b32 (by linarith)

theorem atanf_mid_order {x y : F32} (hx : x.isFinite = true) (hy : y.isFinite = true) (h1 : 0.414 ≤ x.val) (h : x.val ≤ y.val)
    (h2 : y.val ≤ 2.4145) : (PIO4F + atanfCore ((x - lit 1) / (x + lit 1))).val ≤ (PIO4F + atanfCore ((y - lit 1) / (y + lit 1))).val := by
  have l1 : (lit 1 : F32).val = 1 ∧ (lit 1 : F32).isFinite = true := by decide +kernel
  have big : (8 : ℚ) ≤ b32.big := by decide +kernel
  have w : ∀ {z : F32}, z.isFinite = true → 0.414 ≤ z.val → z.val ≤ 2.4145 → 0 < rnd b32 (z.val + 1) → 
      ((z - lit 1) / (z + lit 1)).isFinite = true ∧ ((z - lit 1) / (z + lit 1)).val = rnd b32 (rnd b32 (z.val - 1) / rnd b32 (z.val + 1)) := by
    intro z hz h1 h2 h3
    have s := subS hz l1.2 (by rw [l1.1, abs_le]; constructor <;> linarith)
    have a := addS hz l1.2 (by rw [l1.1, abs_le]; constructor <;> linarith)
    rw [l1.1] at s a
    have nb : |rnd b32 (z.val - 1)| ≤ 2 := by
      have r : rnd b32 2 = 2 ∧ rnd b32 (-2) = -2 := by decide +kernel
      rw [abs_le]
      have a1 := rnd_mono b32 (show -2 ≤ z.val - 1 by linarith)
      have a2 := rnd_mono b32 (show z.val - 1 ≤ 2 by linarith)
      rw [r.2] at a1; rw [r.1] at a2
      exact ⟨a1, a2⟩
    have db : 1 ≤ rnd b32 (z.val + 1) := by
      have r : rnd b32 1 = 1 := by decide +kernel
      have := rnd_mono b32 (show 1 ≤ z.val + 1 by linarith)
      rwa [r] at this
    have d := divS s.1 a.1 (by rw [a.2]; exact h3.ne') (by
      rw [s.2, a.2, abs_div, abs_of_pos h3, div_le_iff₀ h3]; nlinarith)
    rw [s.2, a.2] at d
    exact d
  have q : ∀ {z z' : F32}, 0.414 ≤ z.val → z.val ≤ z'.val → z'.val ≤ 2.4145 → _ := fun {z z'} h1 h h2 =>
    quot_order (f := b32) (x := z) (y := z') (by decide) (by decide) big (by decide +kernel) (by linarith) h (by linarith)
  have y1 := h1.trans h
  have x2 := h.trans h2
  obtain ⟨wx1, wx2⟩ := w hx h1 x2 (q h1 le_rfl x2).1
  obtain ⟨wy1, wy2⟩ := w hy y1 h2 (q y1 le_rfl h2).1
  -- the quotient lies between the two ends
  have low : -0.4145 ≤ rnd b32 (rnd b32 (x.val - 1) / rnd b32 (x.val + 1)) := by
    have c : -0.4145 ≤ rnd b32 (rnd b32 (0.414 - 1) / rnd b32 (0.414 + 1)) ∧ 0 < rnd b32 (0.414 + 1) ∧ rnd b32 (0.414 - 1) ≤ 0 := by decide +kernel
    refine c.1.trans (rnd_mono b32 ?_)
    have d := rnd_mono b32 (show 0.414 + 1 ≤ x.val + 1 by linarith)
    have n := rnd_mono b32 (show 0.414 - 1 ≤ x.val - 1 by linarith)
    rw [div_le_div_iff₀ c.2.1 (c.2.1.trans_le d)]
    nlinarith [c.2.1, c.2.2]
  have high : rnd b32 (rnd b32 (y.val - 1) / rnd b32 (y.val + 1)) ≤ 0.4145 := by
    have tv : (lit 2.4147 : F32).val ≤ 2.4149 ∧ 2.4145 ≤ (lit 2.4147 : F32).val := by decide +kernel
    have k := (quot_order (f := b32) (x := y) (y := lit 2.4147) (by decide) (by decide) big (by decide +kernel) (by linarith) (by linarith [tv.2])
      (by linarith [tv.1])).2
    have c : rnd b32 (rnd b32 ((lit 2.4147 : F32).val - 1) / rnd b32 ((lit 2.4147 : F32).val + 1)) ≤ 0.4145 := by decide +kernel
    exact (rnd_mono b32 k).trans c
  refine atanf_const_order (by decide +kernel) (by decide +kernel) wx1 wy1 ?_ ?_ ?_
  · rw [wx2]; exact low
  · rw [wx2, wy2]; exact rnd_mono b32 (q h1 h h2).2
  · rw [wy2]; exact high

theorem atanf_big_order {x y : F32} (hx : x.isFinite = true) (hy : y.isFinite = true) (h1 : 2.414 ≤ x.val) (h : x.val ≤ y.val) :
    (PIO2F + atanfCore (-(lit 1 / x))).val ≤ (PIO2F + atanfCore (-(lit 1 / y))).val := by
  have l1 : (lit 1 : F32).val = 1 ∧ (lit 1 : F32).isFinite = true := by decide +kernel
  have big : (1 : ℚ) ≤ b32.big := by decide +kernel
  have w : ∀ {z : F32}, z.isFinite = true → 2.414 ≤ z.val → (-(lit 1 / z)).isFinite = true ∧ (-(lit 1 / z)).val = -rnd b32 (1 / z.val) ∧
      -0.4145 ≤ -rnd b32 (1 / z.val) ∧ -rnd b32 (1 / z.val) ≤ 0.4145 := by
    intro z hz h1
    have z0 : 0 < z.val := by linarith
    have q1 : 1 / z.val ≤ 0.41443 := by rw [div_le_iff₀ z0]; norm_num at *; linarith
    have q0 : 0 ≤ 1 / z.val := by positivity
    have d := divS l1.2 hz z0.ne' (by rw [l1.1, abs_of_nonneg q0]; linarith)
    rw [l1.1] at d
    have n0 := rnd_nonneg b32 q0
    have n1 := rnd_mono b32 q1
    have e : rnd b32 0.41443 ≤ 0.4145 := by decide +kernel
    refine ⟨by rw [neg_def]; simpa using d.1, by rw [neg_def, val_neg, d.2], by linarith, by linarith⟩
  obtain ⟨a1, a2, a3, -⟩ := w hx h1
  obtain ⟨b1, b2, -, b4⟩ := w hy (h1.trans h)
  refine atanf_const_order (by decide +kernel) (by decide +kernel) a1 b1 ?_ ?_ ?_
  · rw [a2]; exact a3
  · rw [a2, b2]
    have := rnd_mono b32 (one_div_le_one_div_of_le (by linarith : 0 < x.val) h)
    linarith
  · rw [b2]; exact b4

/-- The number after a number. -/
theorem le_next {f : Fmt} {c n x : FP f} (hn : n.mag = c.mag + 1) (cs : c.sign = false) (ns : n.sign = false) (xs : x.sign = false) (h : c.val < x.val) :
    n.val ≤ x.val := by
  unfold FP.val at *
  simp only [cs, ns, xs, Bool.false_eq_true, if_false] at *
  have := magVal_lt.1 h
  exact magVal_le.2 (by omega)

/-- The results on nonnegative arguments are in their order. -/
theorem atanfPos_order {x y : F32} (hx : x.isFinite = true) (hy : y.isFinite = true) (sx : x.sign = false) (sy : y.sign = false) (h : x.val ≤ y.val) :
    (atanfPos x).val ≤ (atanfPos y).val := by
  obtain ⟨l1, l2, l3, l4, l5, l6⟩ := litf_bounds
  have small : ∀ {z : F32}, z.isFinite = true → z.val ≤ (lit 0.4142135623730950 : F32).val → atanfPos z = lit 0 + atanfCore z := by
    intro z hz h
    exact atanfPos_small (by rw [gt_fin hz l3]; exact decide_eq_false (not_lt.2 h)) (by rw [gt_fin hz l6]; exact decide_eq_false (by linarith))
  have mid : ∀ {z : F32}, z.isFinite = true → (lit 0.4142135623730950 : F32).val < z.val → z.val ≤ (lit 2.414213562373095 : F32).val →
      atanfPos z = PIO4F + atanfCore ((z - lit 1) / (z + lit 1)) := by
    intro z hz h h2
    rw [← atanfPos_plain, atanfPosC_mid _ (by rw [gt_fin hz l3]; exact decide_eq_true h) (by rw [gt_fin hz l6]; exact decide_eq_false (not_lt.2 h2))]
    unfold atanfMidC
    rw [atanfCore_plain]
  have big : ∀ {z : F32}, z.isFinite = true → (lit 2.414213562373095 : F32).val < z.val → atanfPos z = PIO2F + atanfCore (-(lit 1 / z)) := by
    intro z hz h
    rw [← atanfPos_plain, atanfPosC_big _ (by rw [gt_fin hz l3]; exact decide_eq_true (by linarith)) (by rw [gt_fin hz l6]; exact decide_eq_true h)]
    unfold atanfBigC
    rw [atanfCore_plain]
  have x0 := val_nonneg_of_sign sx
  have y0 := val_nonneg_of_sign sy
  have b45 : (lit 2.414213562373095 : F32).val ≤ 2.4145 := by decide +kernel
  obtain ⟨n1, hn1⟩ : ∃ n : F32, n = ⟨false, (lit 0.4142135623730950 : F32).mag + 1, by decide +kernel⟩ := ⟨_, rfl⟩
  obtain ⟨n2, hn2⟩ : ∃ n : F32, n = ⟨false, (lit 2.414213562373095 : F32).mag + 1, by decide +kernel⟩ := ⟨_, rfl⟩
  have sgn : (lit 0.4142135623730950 : F32).sign = false ∧ (lit 2.414213562373095 : F32).sign = false := by decide +kernel
  have n1f : n1.isFinite = true ∧ (lit 0.4142135623730950 : F32).val < n1.val ∧ n1.val ≤ 1 ∧
      (atanfPos (lit 0.4142135623730950)).val ≤ (atanfPos n1).val := by
    rw [hn1]; decide +kernel
  have n2f : n2.isFinite = true ∧ (lit 2.414213562373095 : F32).val < n2.val ∧ 
      (atanfPos (lit 2.414213562373095)).val ≤ (atanfPos n2).val := by
    rw [hn2]; decide +kernel
  have oS : ∀ {a b : F32}, a.isFinite = true → b.isFinite = true → 0 ≤ a.val → a.val ≤ b.val → b.val ≤ (lit 0.4142135623730950 : F32).val →
      (atanfPos a).val ≤ (atanfPos b).val := by
    intro a b ha hb h0 hab hbl
    rw [small ha (hab.trans hbl), small hb hbl]
    exact atanf_const_order (by decide +kernel) (by decide +kernel) ha hb (by linarith) hab (hbl.trans l1)
  have oM : ∀ {a b : F32}, a.isFinite = true → b.isFinite = true → (lit 0.4142135623730950 : F32).val < a.val → a.val ≤ b.val → b.val ≤ (lit 2.414213562373095 : F32).val →
      (atanfPos a).val ≤ (atanfPos b).val := by
    intro a b ha hb h0 hab hbl
    rw [mid ha h0 (hab.trans hbl), mid hb (h0.trans_le hab) hbl]
    exact atanf_mid_order ha hb (l2.trans h0.le) hab (hbl.trans b45)
  have oB : ∀ {a b : F32}, a.isFinite = true → b.isFinite = true → (lit 2.414213562373095 : F32).val < a.val → a.val ≤ b.val →
      (atanfPos a).val ≤ (atanfPos b).val := by
    intro a b ha hb h0 hab
    rw [big ha h0, big hb (h0.trans_le hab)]
    exact atanf_big_order ha hb (l5.trans h0.le) hab
  have next1 : ∀ {z : F32}, z.sign = false → (lit 0.4142135623730950 : F32).val < z.val → n1.val ≤ z.val := fun hs hz =>
    le_next (c := lit 0.4142135623730950) (by rw [hn1]) sgn.1 (by rw [hn1]) hs hz
  have next2 : ∀ {z : F32}, z.sign = false → (lit 2.414213562373095 : F32).val < z.val → n2.val ≤ z.val := fun hs hz =>
    le_next (c := lit 2.414213562373095) (by rw [hn2]) sgn.2 (by rw [hn2]) hs hz
  -- from the middle interval to the last one
  have toBig : ∀ {a b : F32}, a.isFinite = true → b.isFinite = true → b.sign = false → (lit 0.4142135623730950 : F32).val < a.val → a.val ≤ b.val →
      (atanfPos a).val ≤ (atanfPos b).val := by
    intro a b ha hb sb h0 hab
    rcases le_or_gt b.val (lit 2.414213562373095 : F32).val with c | c
    · exact oM ha hb h0 hab c
    rcases le_or_gt a.val (lit 2.414213562373095 : F32).val with d | d
    · exact ((oM ha l6 h0 d le_rfl).trans n2f.2.2).trans (oB n2f.1 hb n2f.2.1 (next2 sb c))
    · exact oB ha hb d hab
  rcases le_or_gt y.val (lit 0.4142135623730950 : F32).val with c | c
  · exact oS hx hy x0 h c
  rcases le_or_gt x.val (lit 0.4142135623730950 : F32).val with d | d
  · exact ((oS hx l3 x0 d le_rfl).trans n1f.2.2.2).trans (toBig n1f.1 hy sy n1f.2.1 (next1 sy c))
  · exact toBig hx hy sy d h

end Vdt
