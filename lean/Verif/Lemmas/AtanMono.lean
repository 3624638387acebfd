import Verif.Lemmas.AtanfMono
import Verif.Lemmas.AtanPos
import Verif.Lemmas.AdjOrder

/-! # `fast_atan` preserves the order -/

namespace Vdt
open FP details

/-- include/atan.h:110-119, without the last sum -/
def atanTail (w : F64) : F64 := w * (w * w) * (get_atan_px (w * w) / get_atan_qx (w * w))
theorem atanCore_tail (w : F64) : atanCore w = atanTail w + w := rfl

def atanTailE (v z : E b64) : E b64 := (z.mul (v.mul v)).mul ((atanPE (v.mul v)).div (atanQE (v.mul v)))
theorem atanTail_con (w : F64) : (atanTailE (.var 0) (.var 1)).Con (fun _ => w) (atanTail w) := by
  unfold atanTailE atanPE atanQE atanTail get_atan_px get_atan_qx; con

def atanTE : E b64 := ((E.var 0).mul (.var 1)).mul ((atanPE (.var 1)).div (atanQE (.var 1)))
theorem atanTE_eval (w : F64) : atanTE.evalF (withSq w) = atanTail w := rfl

theorem atanTail_pos_lin : covers (okLin b64 (atanTailE (.var 0) (.var 1)) (0.4 * 2 ^ (-53 : ℤ)) 8) [0, 11 / 32, 13 / 32, 829 / 2000] = true := by decide +kernel
theorem atanTail_neg_lin : covers (okLin b64 (atanTailE (.var 0) (.var 1)) (0.4 * 2 ^ (-53 : ℤ)) 8) [-829 / 2000, -23 / 64, -1 / 16, 0] = true := by decide +kernel
theorem atanTail_ok1 : covers (okD b64 (-54) atanTE) [53 / 128, 31 / 64, 1 / 2] = true ∧ spans [53 / 128, 31 / 64, 1 / 2] 0.4140625 0.5 = true := by decide +kernel
theorem atanTail_ok2 : covers (okD b64 (-53) atanTE) [1 / 2, 19 / 32, 5 / 8, 21 / 32, 85 / 128] = true ∧ spans [1 / 2, 19 / 32, 5 / 8, 21 / 32, 85 / 128] 0.5 0.6640625 = true := by decide +kernel

/-! ## The exact function -/

/-- The polynomial in the square. -/
def psquare : List ℚ → List ℚ
  | [] => []
  | c :: l => c :: 0 :: psquare l
theorem pev_psquare (l : List ℚ) (z : ℝ) : pev (psquare l) z = pev l (z * z) := by
  induction l with
  | nil => simp [psquare]
  | cons c l ih => rw [psquare, pev_cons, pev_cons, pev_cons, ih]; push_cast; ring

noncomputable def atanG (z : ℝ) : ℝ := z * (z * z) * (pev atanPl (z * z) / pev atanQl (z * z))

theorem atanTailE_real (z : ℝ) : (atanTailE (.var 0) (.var 1)).evalR (fun _ => z) = atanG z := by
  have : (atanTailE (.var 0) (.var 1)).evalR (fun _ => z) =
    z * (z * z) * ((atanPE ((E.var 0).mul (.var 0))).evalR (fun _ => z) / (atanQE ((E.var 0).mul (.var 0))).evalR (fun _ => z)) := rfl
  rw [this, atanPE_real, atanQE_real]; rfl

theorem atan_slope {x y : ℝ} (h1 : -0.4145 ≤ x) (h : x ≤ y) (h2 : y ≤ 0.4145) : 0.84 * (y - x) ≤ (y + atanG y) - (x + atanG x) := by
  have k := pslope_sound (N := 0 :: psquare atanNl) (D := psquare atanQl) (c := 0.84) (l := [-0.4145, 0.4145]) (a := -0.4145) (b := 0.4145) (by decide +kernel)
    (by decide +kernel) (fun t _ _ => by rw [pev_psquare]; exact atanQ_pos _ (mul_self_nonneg t)) (x := x) (y := y) (by push_cast; exact h1) h (by push_cast; exact h2)
  have e : ∀ z : ℝ, pev (0 :: psquare atanNl) z / pev (psquare atanQl) z = z + atanG z := by
    intro z
    have q := atanQ_pos _ (mul_self_nonneg z)
    rw [pev_cons, pev_psquare, pev_psquare, atanNl, pev_add, pev_cons]
    unfold atanG
    generalize pev atanQl (z * z) = Q at *
    generalize pev atanPl (z * z) = P at *
    push_cast
    field_simp
    ring
  rw [e, e] at k
  have c : ((0.84 : ℚ) : ℝ) = 0.84 := by norm_num
  rw [c] at k
  linarith

theorem atanG_small {z : ℝ} (h : |z| ≤ 1) : |atanG z| ≤ 2 * (z * z) * |z| := by
  have q0 := atanQ_pos _ (mul_self_nonneg z)
  have q1 : 194 ≤ pev atanQl (z * z) := by
    have e : atanQl = atanQl.headI :: atanQl.tail := rfl
    have c : (∀ c ∈ atanQl, 0 ≤ c) ∧ 194 ≤ atanQl.headI := by decide +kernel
    have k : ∀ l : List ℚ, (∀ c ∈ l, 0 ≤ c) → 0 ≤ pev l (z * z) := by
      intro l
      induction l with
      | nil => intro _; simp
      | cons a l ih =>
        intro hl
        rw [pev_cons]
        have h1 : (0 : ℝ) ≤ a := by exact_mod_cast hl a (by simp)
        have h2 := ih (fun c hc => hl c (by simp [hc]))
        have := mul_nonneg (mul_self_nonneg z) h2
        linarith
    rw [e, pev_cons]
    have h1 : (194 : ℝ) ≤ atanQl.headI := by exact_mod_cast c.2
    have h2 := mul_nonneg (mul_self_nonneg z) (k atanQl.tail fun d hd => c.1 d (by rw [e]; exact List.mem_cons_of_mem _ hd))
    linarith
  have zz : |z * z| ≤ ((1 : ℚ) : ℝ) := by
    rw [abs_mul]; push_cast; nlinarith [abs_nonneg z]
  have p := pabs_bound atanPl (r := 1) (t := z * z) zz
  have c : pabs 1 atanPl ≤ 300 := by decide +kernel
  have c' := (Rat.cast_le (K := ℝ)).2 c
  have p' : |pev atanPl (z * z)| ≤ 300 := p.trans (c'.trans (by norm_num))
  unfold atanG
  have r : |pev atanPl (z * z) / pev atanQl (z * z)| ≤ 2 := by
    rw [abs_div, abs_of_pos q0, div_le_iff₀ q0]; linarith
  rw [abs_mul, abs_mul, abs_of_nonneg (mul_self_nonneg z)]
  have := mul_le_mul_of_nonneg_left r (mul_nonneg (abs_nonneg z) (mul_self_nonneg z))
  linarith

/-! ## Arguments where the error cannot change the order -/

theorem atanTail_tiny {w : F64} (hw : w.isFinite = true) (h : |w.val| ≤ p2 (-600)) : (atanTail w).isFinite = true ∧ (atanTail w).val = 0 := by
  have big : p2 0 ≤ b64.big := by decide +kernel
  have b1 : p2 (-1200) ≤ b64.big := (p2_le (by norm_num)).trans big
  have sq : |w.val * w.val| ≤ p2 (-1200) := by
    rw [abs_mul]
    refine (mul_le_mul h h (abs_nonneg _) (p2_pos _).le).trans ?_
    rw [← p2_add]; norm_num
  have m := mulS hw hw (sq.trans b1)
  have m0 : (w * w).val = 0 := by
    rw [m.2]; exact rnd_tiny (by decide +kernel : rnd b64 (p2 (-1200)) = 0) sq
  have ms : (w * w).sign = false := by rw [mul_def, mul_fin_sign hw hw]; cases w.sign <;> rfl
  have e : w * w = zero false := by
    have mm := val_eq_zero.1 m0
    ext
    · exact ms
    · exact mm
  have c : (get_atan_px (zero false) / get_atan_qx (zero false)).isFinite = true := by decide +kernel
  have n := mulS hw m.1 (by rw [m0, mul_zero, abs_zero]; exact (p2_pos 0).le.trans big)
  have n0 : (w * (w * w)).val = 0 := by rw [n.2, m0, mul_zero, rnd_zero]
  unfold atanTail
  generalize hW : w * (w * w) = W at *
  rw [e]
  have k := mulS n.1 c (by rw [n0, zero_mul, abs_zero]; exact (p2_pos 0).le.trans big)
  exact ⟨k.1, by rw [k.2, n0, zero_mul, rnd_zero]⟩

theorem atanTail_err {w : F64} (hw : w.isFinite = true) (h : |w.val| ≤ 0.4145) :
    (atanTail w).isFinite = true ∧ |((atanTail w).val : ℝ) - atanG w.real| ≤ 0.41 * 2 ^ (-53 : ℤ) * |w.real| := by
  have ae : |w.real| = ((|w.val| : ℚ) : ℝ) := by unfold FP.real; push_cast; rfl
  have aw : |w.real| ≤ ((0.4145 : ℚ) : ℝ) := by rw [ae]; exact Rat.cast_le.2 h
  have aw' := abs_le.1 aw
  rcases le_or_gt (|w.val|) (p2 (-600)) with hs | hs
  · obtain ⟨t1, t2⟩ := atanTail_tiny hw hs
    refine ⟨t1, ?_⟩
    have s60 : |w.real| ≤ 2 ^ (-60 : ℤ) := by
      rw [ae]
      have : p2 (-600) ≤ p2 (-60) := p2_le (by norm_num)
      refine ((Rat.cast_le (K := ℝ)).2 (hs.trans this)).trans (le_of_eq ?_)
      rw [p2_eq]; push_cast; rfl
    have g := atanG_small (z := w.real) (s60.trans (by norm_num))
    rw [t2, Rat.cast_zero, zero_sub, abs_neg]
    refine g.trans (mul_le_mul_of_nonneg_right ?_ (abs_nonneg _))
    have : w.real * w.real ≤ 2 ^ (-60 : ℤ) * 2 ^ (-60 : ℤ) := by
      rw [← abs_mul_abs_self]; exact mul_le_mul s60 s60 (abs_nonneg _) (by positivity)
    refine (mul_le_mul_of_nonneg_left this (by norm_num)).trans ?_
    norm_num
  have lin : (atanTail w).isFinite = true ∧ |((atanTail w).val : ℝ) - atanG w.real| ≤ 0.4 * 2 ^ (-53 : ℤ) * |w.real| + 8 * (b64.eta : ℝ) := by
    have key : ∀ s t, okLin b64 (atanTailE (.var 0) (.var 1)) (0.4 * 2 ^ (-53 : ℤ)) 8 s t = true → (s : ℝ) ≤ w.real → w.real ≤ t →
        (atanTail w).isFinite = true ∧ |((atanTail w).val : ℝ) - atanG w.real| ≤ 0.4 * 2 ^ (-53 : ℤ) * |w.real| + 8 * (b64.eta : ℝ) := by
      intro s t hst h1 h2
      have := okLin_con hst hw h1 h2 (atanTail_con w)
      rw [atanTailE_real] at this
      have c1 : ((0.4 * 2 ^ (-53 : ℤ) : ℚ) : ℝ) = 0.4 * 2 ^ (-53 : ℤ) := by norm_num
      have c2 : ((8 : ℚ) : ℝ) = 8 := by norm_num
      rw [c1, c2] at this
      exact this
    rcases le_total 0 w.real with h0 | h0
    · obtain ⟨s, t, hst, h1, h2⟩ := covers_spans atanTail_pos_lin (a := 0) (b := 0.4145) (by decide +kernel) (x := w.real) (by push_cast; exact h0) aw'.2
      exact key s t hst h1 h2
    · obtain ⟨s, t, hst, h1, h2⟩ := covers_spans atanTail_neg_lin (a := -0.4145) (b := 0) (by decide +kernel) (x := w.real) (by push_cast at aw' ⊢; exact aw'.1) (by push_cast; exact h0)
      exact key s t hst h1 h2
  refine ⟨lin.1, lin.2.trans ?_⟩
  have et : (8 : ℝ) * b64.eta ≤ 0.01 * 2 ^ (-53 : ℤ) * |w.real| := by
    have c : 8 * b64.eta ≤ 0.01 * 2 ^ (-53 : ℤ) * p2 (-600) := by decide +kernel
    have c' : 8 * b64.eta ≤ 0.01 * 2 ^ (-53 : ℤ) * |w.val| := c.trans (mul_le_mul_of_nonneg_left hs.le (by norm_num))
    rw [ae]
    have := (Rat.cast_le (K := ℝ)).2 c'
    refine le_trans (le_of_eq ?_) (this.trans (le_of_eq ?_))
    · push_cast; rfl
    · push_cast; norm_num
  have : (0.41 : ℝ) * 2 ^ (-53 : ℤ) * |w.real| = 0.4 * 2 ^ (-53 : ℤ) * |w.real| + 0.01 * 2 ^ (-53 : ℤ) * |w.real| := by ring
  rw [this]
  linarith

theorem atanTail_le {w : F64} (hw : w.isFinite = true) (h : |w.val| ≤ 0.4145) : |(atanTail w).val| ≤ 1 := by
  have e := atanTail_err hw h
  have ae : |w.real| = ((|w.val| : ℚ) : ℝ) := by unfold FP.real; push_cast; rfl
  have wr : |w.real| ≤ 0.4145 := by
    rw [ae]
    have := (Rat.cast_le (K := ℝ)).2 h
    refine this.trans (le_of_eq ?_)
    norm_num
  have g := atanG_small (z := w.real) (wr.trans (by norm_num))
  have gb : |atanG w.real| ≤ 0.25 := by
    have ws : w.real * w.real ≤ 0.4145 * 0.4145 := by
      rw [← abs_mul_abs_self]; exact mul_le_mul wr wr (abs_nonneg _) (by norm_num)
    refine g.trans ?_
    calc 2 * (w.real * w.real) * |w.real| ≤ 2 * (0.4145 * 0.4145) * 0.4145 :=
          mul_le_mul (mul_le_mul_of_nonneg_left ws (by norm_num)) wr (abs_nonneg _) (by norm_num)
      _ ≤ 0.25 := by norm_num
  have t1 := abs_sub_abs_le_abs_sub ((atanTail w).val : ℝ) (atanG w.real)
  have t2 : (0.41 : ℝ) * 2 ^ (-53 : ℤ) * |w.real| ≤ 0.2 := by
    have := mul_le_mul_of_nonneg_left wr (show (0 : ℝ) ≤ 0.41 * 2 ^ (-53 : ℤ) by positivity)
    refine this.trans ?_
    norm_num
  have t3 : |((atanTail w).val : ℝ)| ≤ 1 := by norm_num at gb t2; linarith [e.2]
  have e : |((atanTail w).val : ℝ)| = ((|(atanTail w).val| : ℚ) : ℝ) := by push_cast; rfl
  rw [e] at t3
  exact Rat.cast_le.1 (t3.trans (le_of_eq (by norm_num)))

/-- What is needed of the core for the sums that follow. -/
def CoreUp (x y : F64) : Prop := (atanCore x).isFinite = true ∧ (atanCore y).isFinite = true ∧ (atanCore x).val ≤ (atanCore y).val ∧
  |(atanCore x).val| ≤ 2 ∧ |(atanCore y).val| ≤ 2

theorem coreUp_of {x y : F64} (hx : x.isFinite = true) (hy : y.isFinite = true) (bx : |x.val| ≤ 1) (byy : |y.val| ≤ 1)
    (tx : (atanTail x).isFinite = true) (ty : (atanTail y).isFinite = true) (cx : |(atanTail x).val| ≤ 1) (cy : |(atanTail y).val| ≤ 1)
    (h : (atanTail x).val + x.val ≤ (atanTail y).val + y.val) : CoreUp x y := by
  have L : (2 : ℚ) ≤ b64.big ∧ rnd b64 2 = 2 ∧ rnd b64 (-2) = -2 := by decide +kernel
  obtain ⟨big, r1, r2⟩ := L
  have sx : |(atanTail x).val + x.val| ≤ 2 := (abs_add_le _ _).trans (by linarith)
  have sy : |(atanTail y).val + y.val| ≤ 2 := (abs_add_le _ _).trans (by linarith)
  have ax := addS tx hx (sx.trans big)
  have ay := addS ty hy (sy.trans big)
  have b : ∀ q : ℚ, |q| ≤ 2 → |rnd b64 q| ≤ 2 := by
    intro q hq
    rw [abs_le] at hq ⊢
    have a1 := rnd_mono b64 hq.1
    have a2 := rnd_mono b64 hq.2
    rw [r2] at a1; rw [r1] at a2
    exact ⟨a1, a2⟩
  unfold CoreUp
  rw [atanCore_tail, atanCore_tail]
  refine ⟨ax.1, ay.1, ?_, ?_, ?_⟩
  · rw [ax.2, ay.2]; exact rnd_mono b64 h
  · rw [ax.2]; exact b _ sx
  · rw [ay.2]; exact b _ sy

theorem atanCore_lin {x y : F64} (hx : x.isFinite = true) (hy : y.isFinite = true) (h1 : -0.4145 ≤ x.val) (h : x.val ≤ y.val) (h2 : y.val ≤ 0.4145) : CoreUp x y := by
  have ax : |x.val| ≤ 0.4145 := abs_le.2 ⟨h1, h.trans h2⟩
  have ay : |y.val| ≤ 0.4145 := abs_le.2 ⟨h1.trans h, h2⟩
  have ex := atanTail_err hx ax
  have ey := atanTail_err hy ay
  have k := core_order (T := fun w => (atanTail w).val) (c := 0.84) (K := 0.41 * 2 ^ (-53 : ℤ)) (G := atanG) h
    (atan_slope (by have := le_real_iff.2 h1; push_cast at this; exact this) (by unfold FP.real; exact_mod_cast h)
      (by have := real_le_iff.2 h2; push_cast at this; exact this)) ex.2 ey.2 (by positivity) (by
      have : b64.u = 2 ^ (-53 : ℤ) := by decide +kernel
      rw [this]; push_cast; norm_num)
  exact coreUp_of hx hy (ax.trans (by norm_num)) (ay.trans (by norm_num)) ex.1 ey.1 (atanTail_le hx ax) (atanTail_le hy ay) k

/-! ## Larger arguments: from one number to the next -/

theorem atanTail_next {x y : F64} (hx : x.isFinite = true) (hy : y.isFinite = true) (sx : x.sign = false) (sy : y.sign = false) (hm : y.mag = x.mag + 1)
    (h1 : 0.4140625 ≤ x.val) (h2 : y.val ≤ 0.6640625) : CoreUp x y := by
  have hlt : x.val < y.val := by
    have ex : x.val = magVal b64 x.mag := by unfold FP.val; simp [sx]
    have ey : y.val = magVal b64 y.mag := by unfold FP.val; simp [sy]
    rw [ex, ey]; exact magVal_lt.2 (by omega)
  have x0 : 0 < x.val := lt_of_lt_of_le (by norm_num) h1
  have em : b64.emin = -1022 := by decide
  have mb : b64.mb = 52 := rfl
  have ph : p2 (-1) = 1 / 2 := by rw [p2_eq]; norm_num
  have pq : p2 (-2) = 1 / 4 := by rw [p2_eq]; norm_num
  have k : (atanTail x).isFinite = true ∧ (atanTail y).isFinite = true ∧ |(atanTail x).val| ≤ 1 ∧ |(atanTail y).val| ≤ 1 ∧
      (atanTail x).val + x.val ≤ (atanTail y).val + y.val := by
    rcases lt_or_ge x.val (1 / 2) with c | c
    · have l1 : p2 (-2) ≤ x.val := by rw [pq]; norm_num at *; linarith
      have nv := next_val sx sy hm (by rw [em]; norm_num) l1 (by rw [show (-2 : ℤ) + 1 = -1 by norm_num, ph]; exact c)
      have mu := mult_of_ge (x := x) (j := -2) (by rw [abs_of_pos x0]; exact l1)
      have eg : -2 - (b64.mb : ℤ) = -54 := by rw [mb]; norm_num
      rw [eg] at nv mu
      obtain ⟨s, t, hst, g1, g2⟩ := covers_spans atanTail_ok1.1 atanTail_ok1.2 (x := x.real) (by unfold FP.real; exact Rat.cast_le.2 h1)
        (by unfold FP.real; exact Rat.cast_le.2 (c.le.trans (by norm_num)))
      exact okD_sound hst hx hy (Rat.cast_le.1 g1) (Rat.cast_le.1 g2) nv mu
    · have l1 : p2 (-1) ≤ x.val := by rw [ph]; exact c
      have nv := next_val sx sy hm (by rw [em]; norm_num) l1 (by rw [show (-1 : ℤ) + 1 = 0 by norm_num, p2_eq]; norm_num at *; linarith)
      have mu := mult_of_ge (x := x) (j := -1) (by rw [abs_of_pos x0]; exact l1)
      have eg : -1 - (b64.mb : ℤ) = -53 := by rw [mb]; norm_num
      rw [eg] at nv mu
      obtain ⟨s, t, hst, g1, g2⟩ := covers_spans atanTail_ok2.1 atanTail_ok2.2 (x := x.real) (by unfold FP.real; exact Rat.cast_le.2 (le_trans (by norm_num) c))
        (by unfold FP.real; exact Rat.cast_le.2 (hlt.le.trans h2))
      exact okD_sound hst hx hy (Rat.cast_le.1 g1) (Rat.cast_le.1 g2) nv mu
  have y1 : y.val ≤ 1 := h2.trans (by norm_num)
  obtain ⟨k1, k2, k3, k4, k5⟩ := k
  exact coreUp_of hx hy (by rw [abs_of_pos x0]; linarith) (by rw [abs_of_pos (x0.trans hlt)]; exact y1) k1 k2 k3 k4 k5

theorem CoreUp.refl_left {x y : F64} (h : CoreUp x y) : CoreUp x x := ⟨h.1, h.1, le_rfl, h.2.2.2.1, h.2.2.2.1⟩
theorem CoreUp.trans {x y z : F64} (h : CoreUp x y) (k : CoreUp y z) : CoreUp x z := ⟨h.1, k.2.1, h.2.2.1.trans k.2.2.1, h.2.2.2.1, k.2.2.2.2⟩

/-- The small interval. -/
theorem atanCore_pos {x y : F64} (hx : x.isFinite = true) (hy : y.isFinite = true) (sx : x.sign = false) (sy : y.sign = false) (h : x.val ≤ y.val) (h2 : y.val ≤ 0.6601) : CoreUp x y := by
  have ev : ∀ {a : F64}, a.sign = false → a.val = magVal b64 a.mag := by intro a s; unfold FP.val; simp [s]
  have x0 := val_nonneg_of_sign sx
  have L : (lit 0.4140625 : F64).isFinite = true ∧ (lit 0.4140625 : F64).val = 0.4140625 ∧ (lit 0.4140625 : F64).sign = false := by decide +kernel
  obtain ⟨l1, l2, l3⟩ := L
  have up : ∀ {x y : F64}, x.isFinite = true → y.isFinite = true → x.sign = false → y.sign = false → 0.4140625 ≤ x.val → x.val ≤ y.val → y.val ≤ 0.6601 → CoreUp x y := by
    intro x y hx hy sx sy h1 h h2
    have one : ∀ {a : F64}, a.isFinite = true → a.sign = false → 0.4140625 ≤ a.val → a.val ≤ 0.6601 → (atanCore a).isFinite = true ∧ |(atanCore a).val| ≤ 2 := by
      intro a ha sa c1 c2
      let b : F64 := ⟨false, a.mag + 1, by
        have := ha
        simp only [isFinite, decide_eq_true_eq] at this
        have := b64.infMag_lt
        omega⟩
      have bf : b.isFinite = true ∧ b.val ≤ 0.6640625 := by
        have s : (lit 0.661 : F64).isFinite = true ∧ (lit 0.661 : F64).sign = false ∧ 0.6601 < (lit 0.661 : F64).val ∧ (lit 0.661 : F64).val ≤ 0.6640625 := by decide +kernel
        obtain ⟨s1, s2, s3, s4⟩ := s
        have lt : a.mag < (lit 0.661 : F64).mag := by
          have := c2.trans_lt s3
          rw [ev sa, ev s2] at this
          exact magVal_lt.1 this
        constructor
        · simp only [isFinite, decide_eq_true_eq] at s1 ⊢
          show a.mag + 1 < _
          omega
        · refine le_trans ?_ s4
          rw [ev (a := b) rfl, ev s2]
          exact magVal_le.2 (by show a.mag + 1 ≤ _; omega)
      have k := atanTail_next (y := b) ha bf.1 sa rfl rfl c1 bf.2
      exact ⟨k.1, k.2.2.2.1⟩
    have o := adj_run (P := fun a => (atanCore a).val) (Q := fun a => a.isFinite = true ∧ 0.4140625 ≤ a.val ∧ a.val ≤ 0.6601)
      (fun a b sa sb hm qa qb => (atanTail_next qa.1 qb.1 sa sb hm qa.2.1 (qb.2.2.trans (by norm_num))).2.2.1) sx sy
      (by rw [ev sx, ev sy] at h; exact magVal_le.1 h) (fun a sa c1 c2 => by
        have d1 := magVal_le (f := b64).2 c1
        have d2 := magVal_le (f := b64).2 c2
        rw [← ev sx, ← ev sa] at d1
        rw [← ev sa, ← ev sy] at d2
        refine ⟨?_, h1.trans d1, d2.trans h2⟩
        simp only [isFinite, decide_eq_true_eq] at hy ⊢
        omega)
    have ox := one hx sx h1 (h.trans h2)
    have oy := one hy sy (h1.trans h) h2
    exact ⟨ox.1, oy.1, o, ox.2, oy.2⟩
  rcases le_or_gt y.val 0.4140625 with c | c
  · exact atanCore_lin hx hy (le_trans (by norm_num) x0) h (c.trans (by norm_num))
  rcases le_or_gt 0.4140625 x.val with d | d
  · exact up hx hy sx sy d h h2
  · exact (atanCore_lin hx l1 (le_trans (by norm_num) x0) (by rw [l2]; exact d.le) (by rw [l2]; norm_num)).trans
      (up l1 hy l3 sy l2.ge (by rw [l2]; exact c.le) h2)

/-! ## The three intervals -/

theorem atan_const_order {c d x y : F64} (hc : c.isFinite = true ∧ |c.val| ≤ 2) (hd : d.isFinite = true ∧ |d.val| ≤ 2) (h : CoreUp x y) :
    ((atanCore x + c) + d).val ≤ ((atanCore y + c) + d).val := by
  obtain ⟨f1, f2, k, b1, b2⟩ := h
  have L : (6 : ℚ) ≤ b64.big ∧ rnd b64 4 = 4 ∧ rnd b64 (-4) = -4 := by decide +kernel
  obtain ⟨big, r1, r2⟩ := L
  have q1 : |(atanCore x).val + c.val| ≤ 4 := (abs_add_le _ _).trans (by linarith [hc.2])
  have q2 : |(atanCore y).val + c.val| ≤ 4 := (abs_add_le _ _).trans (by linarith [hc.2])
  have s1 := addS f1 hc.1 (q1.trans (by linarith))
  have s2 := addS f2 hc.1 (q2.trans (by linarith))
  have b : ∀ q : ℚ, |q| ≤ 4 → |rnd b64 q| ≤ 4 := by
    intro q hq
    rw [abs_le] at hq ⊢
    have a1 := rnd_mono b64 hq.1
    have a2 := rnd_mono b64 hq.2
    rw [r2] at a1; rw [r1] at a2
    exact ⟨a1, a2⟩
  have p1 := b _ q1
  have p2 := b _ q2
  rw [← s1.2] at p1
  rw [← s2.2] at p2
  have t1 := addS s1.1 hd.1 ((abs_add_le _ _).trans (by linarith [hd.2]))
  have t2 := addS s2.1 hd.1 ((abs_add_le _ _).trans (by linarith [hd.2]))
  rw [t1.2, t2.2, s1.2, s2.2]
  have := rnd_mono b64 (show (atanCore x).val + c.val ≤ (atanCore y).val + c.val by linarith)
  exact rnd_mono b64 (by linarith)

theorem atan_mid_order {x y : F64} (hx : x.isFinite = true) (hy : y.isFinite = true) (h1 : 0.659 ≤ x.val) (h : x.val ≤ y.val) (h2 : y.val ≤ 2.4145) :
    ((atanCore ((x - lit 1.0) / (x + lit 1.0)) + PIO4) + MOREBITSO2).val ≤ ((atanCore ((y - lit 1.0) / (y + lit 1.0)) + PIO4) + MOREBITSO2).val := by
  have l1 : (lit 1.0 : F64).val = 1 ∧ (lit 1.0 : F64).isFinite = true := by decide +kernel
  have big : (8 : ℚ) ≤ b64.big := by decide +kernel
  have w : ∀ {z : F64}, z.isFinite = true → 0.659 ≤ z.val → z.val ≤ 2.4145 → 0 < rnd b64 (z.val + 1) →
      ((z - lit 1.0) / (z + lit 1.0)).isFinite = true ∧ ((z - lit 1.0) / (z + lit 1.0)).val = rnd b64 (rnd b64 (z.val - 1) / rnd b64 (z.val + 1)) := by
    intro z hz h1 h2 h3
    have s := subS hz l1.2 (by rw [l1.1, abs_le]; constructor <;> linarith)
    have a := addS hz l1.2 (by rw [l1.1, abs_le]; constructor <;> linarith)
    rw [l1.1] at s a
    have nb : |rnd b64 (z.val - 1)| ≤ 2 := by
      have r : rnd b64 2 = 2 ∧ rnd b64 (-2) = -2 := by decide +kernel
      rw [abs_le]
      have a1 := rnd_mono b64 (show -2 ≤ z.val - 1 by linarith)
      have a2 := rnd_mono b64 (show z.val - 1 ≤ 2 by linarith)
      rw [r.2] at a1; rw [r.1] at a2
      exact ⟨a1, a2⟩
    have db : 1 ≤ rnd b64 (z.val + 1) := by
      have r : rnd b64 1 = 1 := by decide +kernel
      have := rnd_mono b64 (show 1 ≤ z.val + 1 by linarith)
      rwa [r] at this
    have d := divS s.1 a.1 (by rw [a.2]; exact h3.ne') (by
      rw [s.2, a.2, abs_div, abs_of_pos h3, div_le_iff₀ h3]; nlinarith)
    rw [s.2, a.2] at d
    exact d
  have q : ∀ {z z' : F64}, 0.659 ≤ z.val → z.val ≤ z'.val → z'.val ≤ 2.4145 → _ := fun {z z'} h1 h h2 =>
    quot_order (f := b64) (x := z) (y := z') (by decide) (by decide) big (by decide +kernel) (by linarith) h (by linarith)
  have y1 := h1.trans h
  have x2 := h.trans h2
  obtain ⟨wx1, wx2⟩ := w hx h1 x2 (q h1 le_rfl x2).1
  obtain ⟨wy1, wy2⟩ := w hy y1 h2 (q y1 le_rfl h2).1
  -- the quotient lies between the two ends
  have low : -0.4145 ≤ rnd b64 (rnd b64 (x.val - 1) / rnd b64 (x.val + 1)) := by
    have c : -0.4145 ≤ rnd b64 (rnd b64 (0.659 - 1) / rnd b64 (0.659 + 1)) ∧ 0 < rnd b64 (0.659 + 1) ∧ rnd b64 (0.659 - 1) ≤ 0 := by decide +kernel
    refine c.1.trans (rnd_mono b64 ?_)
    have d := rnd_mono b64 (show 0.659 + 1 ≤ x.val + 1 by linarith)
    have n := rnd_mono b64 (show 0.659 - 1 ≤ x.val - 1 by linarith)
    rw [div_le_div_iff₀ c.2.1 (c.2.1.trans_le d)]
    nlinarith [c.2.1, c.2.2]
  have high : rnd b64 (rnd b64 (y.val - 1) / rnd b64 (y.val + 1)) ≤ 0.4145 := by
    have tv : (lit 2.4147 : F64).val ≤ 2.4149 ∧ 2.4145 ≤ (lit 2.4147 : F64).val := by decide +kernel
    have k := (quot_order (f := b64) (x := y) (y := lit 2.4147) (by decide) (by decide) big (by decide +kernel) (by linarith) (by linarith [tv.2])
      (by linarith [tv.1])).2
    have c : rnd b64 (rnd b64 ((lit 2.4147 : F64).val - 1) / rnd b64 ((lit 2.4147 : F64).val + 1)) ≤ 0.4145 := by decide +kernel
    exact (rnd_mono b64 k).trans c
  refine atan_const_order (by decide +kernel) (by decide +kernel) (atanCore_lin wx1 wy1 ?_ ?_ ?_)
  · rw [wx2]; exact low
  · rw [wx2, wy2]; exact rnd_mono b64 (q h1 h h2).2
  · rw [wy2]; exact high

theorem atan_big_order {x y : F64} (hx : x.isFinite = true) (hy : y.isFinite = true) (h1 : 2.414 ≤ x.val) (h : x.val ≤ y.val) :
    ((atanCore (-lit 1.0 / x) + PIO2) + MOREBITS).val ≤ ((atanCore (-lit 1.0 / y) + PIO2) + MOREBITS).val := by
  have l1 : (-lit 1.0 : F64).val = -1 ∧ (-lit 1.0 : F64).isFinite = true := by decide +kernel
  have big : (1 : ℚ) ≤ b64.big := by decide +kernel
  have w : ∀ {z : F64}, z.isFinite = true → 2.414 ≤ z.val → (-lit 1.0 / z).isFinite = true ∧ (-lit 1.0 / z).val = rnd b64 (-1 / z.val) ∧
      -0.4145 ≤ rnd b64 (-1 / z.val) ∧ rnd b64 (-1 / z.val) ≤ 0.4145 := by
    intro z hz h1
    have z0 : 0 < z.val := by linarith
    have q1 : -0.41443 ≤ -1 / z.val := by rw [le_div_iff₀ z0]; norm_num at *; linarith
    have q0 : -1 / z.val ≤ 0 := by
      rw [neg_div]; have : 0 < 1 / z.val := by positivity
      linarith
    have d := divS l1.2 hz z0.ne' (by rw [l1.1, abs_of_nonpos q0]; linarith)
    rw [l1.1] at d
    have n0 := rnd_mono b64 q0
    rw [rnd_zero] at n0
    have n1 := rnd_mono b64 q1
    have e : -0.4145 ≤ rnd b64 (-0.41443) := by decide +kernel
    exact ⟨d.1, d.2, by linarith, by linarith⟩
  obtain ⟨a1, a2, a3, -⟩ := w hx h1
  obtain ⟨b1, b2, -, b4⟩ := w hy (h1.trans h)
  refine atan_const_order (by decide +kernel) (by decide +kernel) (atanCore_lin a1 b1 ?_ ?_ ?_)
  · rw [a2]; exact a3
  · rw [a2, b2]
    refine rnd_mono b64 ?_
    have := one_div_le_one_div_of_le (by linarith : 0 < x.val) h
    rw [neg_div, neg_div]; linarith
  · rw [b2]; exact b4

/-- The results on nonnegative arguments are in their order. -/
theorem atanPos_order {x y : F64} (hx : x.isFinite = true) (hy : y.isFinite = true) (sx : x.sign = false) (sy : y.sign = false) (h : x.val ≤ y.val) :
    (atanPos x).val ≤ (atanPos y).val := by
  obtain ⟨l1, l2, l3, l4, l5, l6⟩ := lit66
  have small : ∀ {z : F64}, z.isFinite = true → z.val ≤ (lit 0.66 : F64).val → atanPos z = (atanCore z + lit 0) + lit 0 := by
    intro z hz h
    have g1 : FP.gt z T3PO8 = false := by rw [gt_fin hz l6]; exact decide_eq_false (by linarith)
    have g2 : FP.le z (lit 0.66) = true := by rw [le_fin hz l3]; exact decide_eq_true h
    unfold atanPos atanReduce; simp only [g1, g2]; rfl
  have mid : ∀ {z : F64}, z.isFinite = true → (lit 0.66 : F64).val < z.val → z.val ≤ T3PO8.val →
      atanPos z = (atanCore ((z - lit 1.0) / (z + lit 1.0)) + PIO4) + MOREBITSO2 := by
    intro z hz h h2
    have g1 : FP.gt z T3PO8 = false := by rw [gt_fin hz l6]; exact decide_eq_false (not_lt.2 h2)
    have g2 : FP.le z (lit 0.66) = false := by rw [le_fin hz l3]; exact decide_eq_false (not_le.2 h)
    exact atanPos_mid g1 g2
  have big : ∀ {z : F64}, z.isFinite = true → T3PO8.val < z.val → atanPos z = (atanCore (-lit 1.0 / z) + PIO2) + MOREBITS := by
    intro z hz h
    have g1 : FP.gt z T3PO8 = true := by rw [gt_fin hz l6]; exact decide_eq_true h
    have g2 : FP.le z (lit 0.66) = false := by rw [le_fin hz l3]; exact decide_eq_false (by linarith)
    unfold atanPos atanReduce; simp only [g1, g2]; rfl
  have b45 : T3PO8.val ≤ 2.4145 := by decide +kernel
  obtain ⟨n1, hn1⟩ : ∃ n : F64, n = ⟨false, (lit 0.66 : F64).mag + 1, by decide +kernel⟩ := ⟨_, rfl⟩
  obtain ⟨n2, hn2⟩ : ∃ n : F64, n = ⟨false, T3PO8.mag + 1, by decide +kernel⟩ := ⟨_, rfl⟩
  have sgn : (lit 0.66 : F64).sign = false ∧ T3PO8.sign = false := by decide +kernel
  have n1f : n1.isFinite = true ∧ (lit 0.66 : F64).val < n1.val ∧ n1.val ≤ 1 ∧ (atanPos (lit 0.66)).val ≤ (atanPos n1).val := by
    rw [hn1]; decide +kernel
  have n2f : n2.isFinite = true ∧ T3PO8.val < n2.val ∧ (atanPos T3PO8).val ≤ (atanPos n2).val := by
    rw [hn2]; decide +kernel
  have oS : ∀ {a b : F64}, a.isFinite = true → b.isFinite = true → a.sign = false → b.sign = false → a.val ≤ b.val → b.val ≤ (lit 0.66 : F64).val →
      (atanPos a).val ≤ (atanPos b).val := by
    intro a b ha hb sa sb hab hbl
    rw [small ha (hab.trans hbl), small hb hbl]
    exact atan_const_order (by decide +kernel) (by decide +kernel) (atanCore_pos ha hb sa sb hab (hbl.trans l1))
  have oM : ∀ {a b : F64}, a.isFinite = true → b.isFinite = true → (lit 0.66 : F64).val < a.val → a.val ≤ b.val → b.val ≤ T3PO8.val →
      (atanPos a).val ≤ (atanPos b).val := by
    intro a b ha hb h0 hab hbl
    rw [mid ha h0 (hab.trans hbl), mid hb (h0.trans_le hab) hbl]
    exact atan_mid_order ha hb (l2.trans h0.le) hab (hbl.trans b45)
  have oB : ∀ {a b : F64}, a.isFinite = true → b.isFinite = true → T3PO8.val < a.val → a.val ≤ b.val → (atanPos a).val ≤ (atanPos b).val := by
    intro a b ha hb h0 hab
    rw [big ha h0, big hb (h0.trans_le hab)]
    exact atan_big_order ha hb (l5.trans h0.le) hab
  have next1 : ∀ {z : F64}, z.sign = false → (lit 0.66 : F64).val < z.val → n1.val ≤ z.val := fun hs hz =>
    le_next (c := lit 0.66) (by rw [hn1]) sgn.1 (by rw [hn1]) hs hz
  have next2 : ∀ {z : F64}, z.sign = false → T3PO8.val < z.val → n2.val ≤ z.val := fun hs hz =>
    le_next (c := T3PO8) (by rw [hn2]) sgn.2 (by rw [hn2]) hs hz
  -- from the middle interval to the last one
  have toBig : ∀ {a b : F64}, a.isFinite = true → b.isFinite = true → b.sign = false → (lit 0.66 : F64).val < a.val → a.val ≤ b.val →
      (atanPos a).val ≤ (atanPos b).val := by
    intro a b ha hb sb h0 hab
    rcases le_or_gt b.val T3PO8.val with c | c
    · exact oM ha hb h0 hab c
    rcases le_or_gt a.val T3PO8.val with d | d
    · exact ((oM ha l6 h0 d le_rfl).trans n2f.2.2).trans (oB n2f.1 hb n2f.2.1 (next2 sb c))
    · exact oB ha hb d hab
  rcases le_or_gt y.val (lit 0.66 : F64).val with c | c
  · exact oS hx hy sx sy h c
  rcases le_or_gt x.val (lit 0.66 : F64).val with d | d
  · exact ((oS hx l3 sx sgn.1 d le_rfl).trans n1f.2.2.2).trans (toBig n1f.1 hy sy n1f.2.1 (next1 sy c))
  · exact toBig hx hy sy d h

end Vdt
