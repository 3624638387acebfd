import Verif.Lemmas.DirExp
import Verif.Lemmas.AtanfPos
import Verif.Props.Atan

/-! # The arctangent in every rounding direction -/

namespace Vdt.Flush
open FP details
variable {f : Fmt} {m : Mode}

/-- Adding zero. -/
theorem add_zero_dir [f.Ok] (hm : m.Dir) {a : Z m f} {z : FP f} (ha : a.v.isFinite = true) (hz : z.isFinite = true) (z0 : z.val = 0) (hb : |a.v.val| ≤ f.big) :
    (a + of z).v.isFinite = true ∧ (a + of z).v.val = a.v.val := by
  have e : a.v.val + (of z : Z m f).v.val = a.v.val := by show _ + z.val = _; rw [z0, add_zero]
  have t := add_dir hm (b := of z) ha hz (by rw [e]; exact hb)
  rw [e] at t
  exact ⟨t.1, t.exactQ (val_rep a.v) hb⟩

theorem zero_add_dir [f.Ok] (hm : m.Dir) {a : Z m f} {z : FP f} (ha : a.v.isFinite = true) (hz : z.isFinite = true) (z0 : z.val = 0) (hb : |a.v.val| ≤ f.big) :
    (of z + a).v.isFinite = true ∧ (of z + a).v.val = a.v.val := by
  have e : (of z : Z m f).v.val + a.v.val = a.v.val := by show z.val + _ = _; rw [z0, zero_add]
  have t := add_dir hm (a := of z) hz ha (by rw [e]; exact hb)
  rw [e] at t
  exact ⟨t.1, t.exactQ (val_rep a.v) hb⟩

/-- Putting the sign back. -/
theorem signed_dir {g : ℝ → ℝ} (hg : ∀ t, g (-t) = -g t) {x r w : FP f} (hr : 0 < r.real) (hw : w.sign = (r.sign || x.sign)) (hm : w.mag = r.mag) {C : ℝ}
    (hb : |r.real - g (FP.abs x).real| ≤ C * |g (FP.abs x).real|) : |w.real - g x.real| ≤ C * |g x.real| := by
  have hs : r.sign = false := sign_of_pos (by unfold FP.real at hr; exact_mod_cast hr)
  have e : w = signedBy r x.sign := by
    ext
    · rw [hw, hs]; rfl
    · exact hm
  rw [e]
  have := signed_acc hg (x := x) hs (C := C) (h := 0) (by rw [add_zero]; exact hb)
  rwa [add_zero] at this

/-! ## Double precision -/

theorem atanSmallE_okD : covers (okLinD b64 (atanCoreE (.var 0) (.var 1)) (5.2 * 2 ^ (-53 : ℤ)) 10) [0, 3 / 16, 19 / 64, 25 / 64, 1 / 2, 39 / 64, 6601 / 10000] = true := by decide +kernel
theorem atanMidE_okD : covers (okRelD b64 atanMidE (6.25 * 2 ^ (-53 : ℤ))) [659 / 1000, 43 / 32, 101 / 64, 113 / 64, 127 / 64, 135 / 64, 9 / 4, 77 / 32, 483 / 200] = true := by decide +kernel
theorem atanBigE_okD : covers (okRelD b64 atanBigE (5 * 2 ^ (-53 : ℤ))) (bigCells (p2 1024)) = true := by decide +kernel

/-- The core as in include/atan.h:110-117. -/
def atanCoreZ (x : Z m b64) : Z m b64 :=
  let x2 := x * x
  x * x2 * (get_atan_px x2 / get_atan_qx x2) + x

theorem atan_small_dir (hm : m.Dir) {x : F64} (hx : x.isFinite = true) (h0 : 2 ^ (-1000 : ℤ) ≤ x.real) (h : x.real ≤ 0.6601) :
    (atanCoreZ (of x : Z m b64)).v.isFinite = true ∧ |(atanCoreZ (of x : Z m b64)).v.real - Real.arctan x.real| ≤ 6.2 * 2 ^ (-53 : ℤ) * Real.arctan x.real := by
  have x0 : 0 ≤ x.real := le_trans (by positivity) h0
  obtain ⟨s, t, hst, h1, h2⟩ := covers_spans atanSmallE_okD (a := 0) (b := 0.6601) (by decide +kernel) (x := x.real) (by push_cast; exact x0)
    (by push_cast; exact h)
  have rn := okLinD_sound hm hst hx h1 h2
  rw [atanCoreE_real (.var 0) (.var 1) _ rfl, show (E.var 1 : E b64).evalR (fun _ => x.real) = x.real from rfl] at rn
  change (atanCoreZ (of x : Z m b64)).v.isFinite = true ∧ |(atanCoreZ (of x : Z m b64)).v.real - _| ≤ _ at rn
  refine ⟨rn.1, ?_⟩
  have ap := atan_approx (z := x.real) (by rw [abs_of_nonneg x0]; exact h)
  rw [abs_of_nonneg x0] at ap
  have lo := arctan_lower x0 h
  have et : ((10 : ℚ) : ℝ) * (b64.eta : ℝ) ≤ 0.001 * 2 ^ (-53 : ℤ) * x.real := by
    have e : 10 * b64.eta ≤ 0.001 * p2 (-53) * p2 (-1000) := by decide +kernel
    have e' := (Rat.cast_le (K := ℝ)).2 e
    push_cast at e'
    rw [p2_real, p2_real] at e'
    push_cast
    refine e'.trans (mul_le_mul_of_nonneg_left h0 (by positivity))
  have r2 := rn.2
  rw [abs_of_nonneg x0] at r2
  push_cast at r2 et
  have k := abs_sub_le (atanCoreZ (of x : Z m b64)).v.real (x.real * (pev atanNl (x.real * x.real) / pev atanQl (x.real * x.real))) (Real.arctan x.real)
  have u : (0 : ℝ) < 2 ^ (-53 : ℤ) := by positivity
  have lo' := mul_le_mul_of_nonneg_left lo u.le
  generalize (2 : ℝ) ^ (-53 : ℤ) = U at *
  norm_num at *
  nlinarith

theorem atan_mid_dir (hm : m.Dir) {x : F64} (hx : x.isFinite = true) (h1 : 0.659 ≤ x.val) (h2 : x.val ≤ 2.415) :
    (atanCoreZ ((of x - of (lit 1.0)) / (of x + of (lit 1.0)) : Z m b64) + of PIO4 + of MOREBITSO2).v.isFinite = true ∧
    |(atanCoreZ ((of x - of (lit 1.0)) / (of x + of (lit 1.0)) : Z m b64) + of PIO4 + of MOREBITSO2).v.real - Real.arctan x.real| ≤ 6.4 * 2 ^ (-53 : ℤ) * Real.arctan x.real := by
  have r1 := le_real_iff.2 h1
  have r2 := real_le_iff.2 h2
  obtain ⟨s, t, hst, g1, g2⟩ := covers_spans atanMidE_okD (a := 0.659) (b := 2.415) (by decide +kernel) (x := x.real) r1 r2
  have rn := okRelD_sound hm (by norm_num) hst hx g1 g2
  push_cast at r1 r2
  have l1 : (lit 1.0 : F64).real = 1 := by
    have : (lit 1.0 : F64).val = 1 := by decide +kernel
    unfold FP.real; rw [this]; norm_num
  have ez : atanMidR.evalR (fun _ => x.real) = (x.real - 1) / (x.real + 1) := by
    have : atanMidR.evalR (fun _ => x.real) = (x.real - (lit 1.0 : F64).real) / (x.real + (lit 1.0 : F64).real) := rfl
    rw [this, l1]
  have eR : atanMidE.evalR (fun _ => x.real) = ((atanCoreE atanMidR atanMidR).evalR (fun _ => x.real) + PIO4.real) + MOREBITSO2.real := rfl
  rw [atanCoreE_real _ _ _ rfl, ez] at eR
  have zb := z_mid (le_trans (by norm_num) r1) r2
  have ap := atan_approx (z := (x.real - 1) / (x.real + 1)) (zb.1.trans (by norm_num))
  have am := arctan_mid (x := x.real) (by linarith)
  have pc := pi4_const
  have hA1 := (atan_mid64 (fun _ => false) hx h1 h2).2.2.1
  generalize hzz : (x.real - 1) / (x.real + 1) = z at *
  have hδ : |atanMidE.evalR (fun _ => x.real) - Real.arctan x.real| ≤ 0.052 * 2 ^ (-53 : ℤ) := by
    rw [eR, am]
    have e : z * (pev atanNl (z * z) / pev atanQl (z * z)) + PIO4.real + MOREBITSO2.real - (Real.pi / 4 + Real.arctan z) =
        (z * (pev atanNl (z * z) / pev atanQl (z * z)) - Real.arctan z) + (PIO4.real + MOREBITSO2.real - Real.pi / 4) := by ring
    rw [e]
    refine (abs_add_le _ _).trans ((add_le_add ap pc).trans ?_)
    have := mul_le_mul_of_nonneg_left zb.1 (show (0 : ℝ) ≤ 0.125 * 2 ^ (-53 : ℤ) by positivity)
    refine (add_le_add this le_rfl).trans ?_
    norm_num
  refine ⟨rn.1, ?_⟩
  have k := rel_chain (D := 0.15 * 2 ^ (-53 : ℤ)) rn.2 hδ (by positivity) (by norm_num at hA1 ⊢; linarith)
  refine k.trans (le_of_eq ?_)
  norm_num

theorem atan_big_dir (hm : m.Dir) {x : F64} (hx : x.isFinite = true) (h1 : 2.414 ≤ x.val) :
    (atanCoreZ (of (-lit 1.0) / of x : Z m b64) + of PIO2 + of MOREBITS).v.isFinite = true ∧
    |(atanCoreZ (of (-lit 1.0) / of x : Z m b64) + of PIO2 + of MOREBITS).v.real - Real.arctan x.real| ≤ 5.1 * 2 ^ (-53 : ℤ) * Real.arctan x.real := by
  have r1 := le_real_iff.2 h1
  have hm' : x.val ≤ p2 1024 := by
    have h := hx
    simp only [isFinite, decide_eq_true_eq] at h
    have e : |x.val| = magVal b64 x.mag := abs_val x
    have e2 : magVal b64 b64.infMag ≤ p2 1024 := by decide +kernel
    exact (le_abs_self _).trans (e.le.trans ((magVal_le.2 h.le).trans e2))
  have r2 := real_le_iff.2 hm'
  obtain ⟨s, t, hst, g1, g2⟩ := covers_spans atanBigE_okD (a := 2.414) (b := p2 1024) (by decide +kernel) (x := x.real) r1 r2
  have rn := okRelD_sound hm (by norm_num) hst hx g1 g2
  push_cast at r1
  have l1 : (-lit 1.0 : F64).real = -1 := by
    have : (-lit 1.0 : F64).val = -1 := by decide +kernel
    unfold FP.real; rw [this]; norm_num
  have ez : atanBigR.evalR (fun _ => x.real) = -1 / x.real := by
    have : atanBigR.evalR (fun _ => x.real) = (-lit 1.0 : F64).real / x.real := rfl
    rw [this, l1]
  have eR : atanBigE.evalR (fun _ => x.real) = ((atanCoreE atanBigR atanBigR).evalR (fun _ => x.real) + PIO2.real) + MOREBITS.real := rfl
  rw [atanCoreE_real _ _ _ rfl, ez] at eR
  have zb := z_big r1
  have ap := atan_approx (z := -1 / x.real) (zb.trans (by norm_num))
  have am := arctan_big (x := x.real) (by linarith)
  have pc := pi2_const
  have hA1 := (atan_big64 (fun _ => false) hx h1).2.2
  generalize hzz : -1 / x.real = z at *
  have hδ : |atanBigE.evalR (fun _ => x.real) - Real.arctan x.real| ≤ 0.052 * 2 ^ (-53 : ℤ) := by
    rw [eR, am]
    have e : z * (pev atanNl (z * z) / pev atanQl (z * z)) + PIO2.real + MOREBITS.real - (Real.pi / 2 + Real.arctan z) =
        (z * (pev atanNl (z * z) / pev atanQl (z * z)) - Real.arctan z) + (PIO2.real + MOREBITS.real - Real.pi / 2) := by ring
    rw [e]
    refine (abs_add_le _ _).trans ((add_le_add ap pc).trans ?_)
    have := mul_le_mul_of_nonneg_left zb (show (0 : ℝ) ≤ 0.125 * 2 ^ (-53 : ℤ) by positivity)
    refine (add_le_add this le_rfl).trans ?_
    norm_num
  refine ⟨rn.1, ?_⟩
  have k := rel_chain (D := 0.1 * 2 ^ (-53 : ℤ)) rn.2 hδ (by positivity) (by norm_num at hA1 ⊢; linarith)
  refine k.trans (le_of_eq ?_)
  norm_num

theorem arctan_pos {x : ℝ} (h : 0 < x) : 0 < Real.arctan x := by
  have := Real.arctan_strictMono h
  rwa [Real.arctan_zero] at this

theorem atanPos_dir (hm : m.Dir) {x : F64} (hx : x.isFinite = true) (h0 : 2 ^ (-1000 : ℤ) ≤ x.real) :
    (atanPos (of x : Z m b64)).v.isFinite = true ∧ |(atanPos (of x : Z m b64)).v.real - Real.arctan x.real| ≤ 6.4 * 2 ^ (-53 : ℤ) * Real.arctan x.real := by
  obtain ⟨l1, l2, l3, l4, l5, l6⟩ := lit66
  have x0 : 0 < x.real := lt_of_lt_of_le (by positivity) h0
  have A0 := arctan_pos x0
  unfold atanPos
  simp only [Mode.gt, Mode.le, hm.arg, of]
  rw [gt_fin hx l6, le_fin hx l3]
  by_cases c2 : x.val ≤ (lit 0.66 : F64).val
  · have c1 : ¬ T3PO8.val < x.val := by linarith
    simp only [c1, c2, decide_false, decide_true, if_true]
    have r := atan_small_dir hm hx h0 (by
      have := real_le_iff.2 (c2.trans l1); push_cast at this; exact this)
    have z := (show (lit 0 : F64).isFinite = true ∧ (lit 0 : F64).val = 0 by decide +kernel)
    have up := arctan_abs_le x.real
    rw [abs_of_pos A0, abs_of_pos x0] at up
    have up2 : x.real ≤ 0.6601 := by have := real_le_iff.2 (c2.trans l1); push_cast at this; exact this
    have bR : |(atanCoreZ (of x : Z m b64)).v.real| ≤ 1 := by
      have := abs_le.1 r.2
      norm_num at this up2
      rw [abs_le]; constructor <;> nlinarith [this.1, this.2]
    have b1 : |(atanCoreZ (of x : Z m b64)).v.val| ≤ b64.big := by
      have h1 : |(atanCoreZ (of x : Z m b64)).v.val| ≤ 1 := by unfold FP.real at bR; exact_mod_cast bR
      exact h1.trans (by decide +kernel)
    obtain ⟨a1, a2⟩ := add_zero_dir hm r.1 z.1 z.2 b1
    obtain ⟨b2, b3⟩ := add_zero_dir hm a1 z.1 z.2 (by rw [a2]; exact b1)
    refine ⟨b2, ?_⟩
    have e : (atanCoreZ (of x : Z m b64) + of (lit 0) + of (lit 0)).v.real = (atanCoreZ (of x : Z m b64)).v.real := by
      unfold FP.real; rw [b3, a2]
    refine (le_of_eq ?_).trans (r.2.trans (mul_le_mul_of_nonneg_right (by norm_num) A0.le))
    exact congrArg (fun t => |t - Real.arctan x.real|) e
  · by_cases c1 : T3PO8.val < x.val
    · simp only [c1, c2, decide_false, decide_true, if_true, Bool.false_eq_true, if_false]
      have r := atan_big_dir hm hx (by linarith)
      exact ⟨r.1, r.2.trans (mul_le_mul_of_nonneg_right (by norm_num) A0.le)⟩
    · simp only [c1, c2, decide_false, Bool.false_eq_true, if_false]
      exact atan_mid_dir hm hx (by linarith) (by linarith)

theorem atan_dir (hm : m.Dir) {x : F64} (hx : x.isFinite = true) (h0 : 2 ^ (-1000 : ℤ) ≤ |x.real|) :
    (fast_atan m x).isFinite = true ∧ |(fast_atan m x).real - Real.arctan x.real| ≤ 6.4 * 2 ^ (-53 : ℤ) * |Real.arctan x.real| := by
  have ea : (FP.abs x).real = |x.real| := by unfold FP.real; rw [val_abs]; push_cast; rfl
  have r := atanPos_dir hm (x := FP.abs x) (by simpa using hx) (by rw [ea]; exact h0)
  have A0 : 0 < Real.arctan (FP.abs x).real := arctan_pos (by rw [ea]; exact lt_of_lt_of_le (by positivity) h0)
  have p := pos_of_acc r.2 A0 (by norm_num)
  have e : fast_atan m x = ⟨_ || x.sign, _, _⟩ := dpOR_signMask (atanPos (of (FP.abs x) : Z m b64)).v x
  rw [e]
  refine ⟨r.1, signed_dir (x := x) Real.arctan_neg p (by rfl) (by rfl) ?_⟩
  rw [abs_of_pos A0]
  exact r.2

/-! ## Single precision -/

theorem atanfSmallE_okD : covers (okLinD b32 (atanfCoreE (.var 0) (.var 1)) (2.5 * 2 ^ (-24 : ℤ)) 10) [0, 23 / 64, 829 / 2000] = true := by decide +kernel
theorem atanfMidE_okD : covers (okRelD b32 atanfMidE (8.5 * 2 ^ (-24 : ℤ))) [207 / 500, 1 / 2, 63 / 64, 127 / 64, 483 / 200] = true := by decide +kernel
theorem atanfBigE_okD : covers (okRelD b32 atanfBigE (2.8 * 2 ^ (-24 : ℤ))) (bigCells (p2 128)) = true := by decide +kernel

theorem atanf_small_dir (hm : m.Dir) {x : F32} (hx : x.isFinite = true) (h0 : 2 ^ (-110 : ℤ) ≤ x.real) (h : x.real ≤ 0.4145) :
    (atanfPoly (of x : Z m b32)).v.isFinite = true ∧ |(atanfPoly (of x : Z m b32)).v.real - Real.arctan x.real| ≤ 3.4 * 2 ^ (-24 : ℤ) * Real.arctan x.real := by
  have x0 : 0 ≤ x.real := le_trans (by positivity) h0
  obtain ⟨s, t, hst, h1, h2⟩ := covers_spans atanfSmallE_okD (a := 0) (b := 0.4145) (by decide +kernel) (x := x.real) (by push_cast; exact x0)
    (by push_cast; exact h)
  have rn := okLinD_sound hm hst hx h1 h2
  rw [atanfCoreE_real (.var 0) (.var 1) _ rfl, show (E.var 1 : E b32).evalR (fun _ => x.real) = x.real from rfl] at rn
  change (atanfPoly (of x : Z m b32)).v.isFinite = true ∧ |(atanfPoly (of x : Z m b32)).v.real - _| ≤ _ at rn
  refine ⟨rn.1, ?_⟩
  have ap := atanf_approx (z := x.real) (by rw [abs_of_nonneg x0]; exact h)
  rw [abs_of_nonneg x0] at ap
  have lo := arctan_lower x0 (h.trans (by norm_num))
  have et : ((10 : ℚ) : ℝ) * (b32.eta : ℝ) ≤ 0.01 * 2 ^ (-24 : ℤ) * x.real := by
    have e : 10 * b32.eta ≤ 0.01 * p2 (-24) * p2 (-110) := by decide +kernel
    have e' := (Rat.cast_le (K := ℝ)).2 e
    push_cast at e'
    rw [p2_real, p2_real] at e'
    push_cast
    refine e'.trans (mul_le_mul_of_nonneg_left h0 (by positivity))
  have r2 := rn.2
  rw [abs_of_nonneg x0] at r2
  push_cast at r2 et
  have k := abs_sub_le (atanfPoly (of x : Z m b32)).v.real (x.real * (pev atanfNl (x.real * x.real) / pev [1] (x.real * x.real))) (Real.arctan x.real)
  have u : (0 : ℝ) < 2 ^ (-24 : ℤ) := by positivity
  have lo' := mul_le_mul_of_nonneg_left lo u.le
  generalize (2 : ℝ) ^ (-24 : ℤ) = U at *
  norm_num at *
  nlinarith

theorem atanf_mid_dir (hm : m.Dir) {x : F32} (hx : x.isFinite = true) (h1 : 0.414 ≤ x.val) (h2 : x.val ≤ 2.415) :
    (of PIO4F + atanfPoly ((of x - of (lit 1)) / (of x + of (lit 1)) : Z m b32)).v.isFinite = true ∧
    |(of PIO4F + atanfPoly ((of x - of (lit 1)) / (of x + of (lit 1)) : Z m b32)).v.real - Real.arctan x.real| ≤ 10 * 2 ^ (-24 : ℤ) * Real.arctan x.real := by
  have r1 := le_real_iff.2 h1
  have r2 := real_le_iff.2 h2
  obtain ⟨s, t, hst, g1, g2⟩ := covers_spans atanfMidE_okD (a := 0.414) (b := 2.415) (by decide +kernel) (x := x.real) r1 r2
  have rn := okRelD_sound hm (by norm_num) hst hx g1 g2
  push_cast at r1 r2
  have l1 : (lit 1 : F32).real = 1 := by
    have : (lit 1 : F32).val = 1 := by decide +kernel
    unfold FP.real; rw [this]; norm_num
  have ez : atanfMidR.evalR (fun _ => x.real) = (x.real - 1) / (x.real + 1) := by
    have : atanfMidR.evalR (fun _ => x.real) = (x.real - (lit 1 : F32).real) / (x.real + (lit 1 : F32).real) := rfl
    rw [this, l1]
  have eR : atanfMidE.evalR (fun _ => x.real) = PIO4F.real + (atanfCoreE atanfMidR atanfMidR).evalR (fun _ => x.real) := rfl
  rw [atanfCoreE_real _ _ _ rfl, ez] at eR
  have zb := (z_mid r1 r2).1
  have ap := atanf_approx (z := (x.real - 1) / (x.real + 1)) (zb.trans (by norm_num))
  have am := arctan_mid (x := x.real) (by linarith)
  have pc := pi4f_const
  have hA1 := (atan_mid32 (fun _ => false) hx h1 h2).2.2.1
  generalize hzz : (x.real - 1) / (x.real + 1) = z at *
  have hδ : |atanfMidE.evalR (fun _ => x.real) - Real.arctan x.real| ≤ 0.53 * 2 ^ (-24 : ℤ) := by
    rw [eR, am]
    have e : PIO4F.real + z * (pev atanfNl (z * z) / pev [1] (z * z)) - (Real.pi / 4 + Real.arctan z) =
        (z * (pev atanfNl (z * z) / pev [1] (z * z)) - Real.arctan z) + (PIO4F.real - Real.pi / 4) := by ring
    rw [e]
    refine (abs_add_le _ _).trans ((add_le_add ap pc).trans ?_)
    have := mul_le_mul_of_nonneg_left zb (show (0 : ℝ) ≤ 0.36 * 2 ^ (-24 : ℤ) by positivity)
    refine (add_le_add this le_rfl).trans ?_
    norm_num
  refine ⟨rn.1, ?_⟩
  have k := rel_chain (D := 1.5 * 2 ^ (-24 : ℤ)) rn.2 hδ (by positivity) (by norm_num at hA1 ⊢; linarith)
  refine k.trans (le_of_eq ?_)
  norm_num

theorem atanf_big_dir (hm : m.Dir) {x : F32} (hx : x.isFinite = true) (h1 : 2.414 ≤ x.val) :
    (of PIO2F + atanfPoly ((of (lit 1) / of x : Z m b32).map fun r => -r)).v.isFinite = true ∧
    |(of PIO2F + atanfPoly ((of (lit 1) / of x : Z m b32).map fun r => -r)).v.real - Real.arctan x.real| ≤ 3.7 * 2 ^ (-24 : ℤ) * Real.arctan x.real := by
  have r1 := le_real_iff.2 h1
  have r2 := real_le_iff.2 (real_le_max32 hx)
  obtain ⟨s, t, hst, g1, g2⟩ := covers_spans atanfBigE_okD (a := 2.414) (b := p2 128) (by decide +kernel) (x := x.real) r1 r2
  have rn := okRelD_sound hm (by norm_num) hst hx g1 g2
  push_cast at r1
  have l1 : (lit 1 : F32).real = 1 := by
    have : (lit 1 : F32).val = 1 := by decide +kernel
    unfold FP.real; rw [this]; norm_num
  have ez : atanfBigR.evalR (fun _ => x.real) = -1 / x.real := by
    have : atanfBigR.evalR (fun _ => x.real) = -((lit 1 : F32).real / x.real) := rfl
    rw [this, l1, neg_div]
  have eR : atanfBigE.evalR (fun _ => x.real) = PIO2F.real + (atanfCoreE atanfBigR atanfBigR).evalR (fun _ => x.real) := rfl
  rw [atanfCoreE_real _ _ _ rfl, ez] at eR
  have zb := z_big r1
  have ap := atanf_approx (z := -1 / x.real) (zb.trans (by norm_num))
  have am := arctan_big (x := x.real) (by linarith)
  have pc := pi2f_const
  have hA1 := (atan_big32 (fun _ => false) hx h1).2.2
  generalize hzz : -1 / x.real = z at *
  have hδ : |atanfBigE.evalR (fun _ => x.real) - Real.arctan x.real| ≤ 0.9 * 2 ^ (-24 : ℤ) := by
    rw [eR, am]
    have e : PIO2F.real + z * (pev atanfNl (z * z) / pev [1] (z * z)) - (Real.pi / 2 + Real.arctan z) =
        (z * (pev atanfNl (z * z) / pev [1] (z * z)) - Real.arctan z) + (PIO2F.real - Real.pi / 2) := by ring
    rw [e]
    refine (abs_add_le _ _).trans ((add_le_add ap pc).trans ?_)
    have := mul_le_mul_of_nonneg_left zb (show (0 : ℝ) ≤ 0.36 * 2 ^ (-24 : ℤ) by positivity)
    refine (add_le_add this le_rfl).trans ?_
    norm_num
  refine ⟨rn.1, ?_⟩
  have k := rel_chain (D := 0.9 * 2 ^ (-24 : ℤ)) rn.2 hδ (by positivity) (by norm_num at hA1 ⊢; linarith)
  refine k.trans (le_of_eq ?_)
  norm_num

theorem atanf_dir (hm : m.Dir) {x : F32} (hx : x.isFinite = true) (h0 : 2 ^ (-110 : ℤ) ≤ |x.real|) :
    (fast_atanf m x).isFinite = true ∧ |(fast_atanf m x).real - Real.arctan x.real| ≤ 10 * 2 ^ (-24 : ℤ) * |Real.arctan x.real| := by
  have ea : (FP.abs x).real = |x.real| := by unfold FP.real; rw [val_abs]; push_cast; rfl
  have hx' : (FP.abs x).isFinite = true := by simpa using hx
  have x0 : 0 < (FP.abs x).real := by rw [ea]; exact lt_of_lt_of_le (by positivity) h0
  have A0 : 0 < Real.arctan (FP.abs x).real := arctan_pos x0
  rw [← ea] at h0
  obtain ⟨l1, l2, l3, l4, l5, l6⟩ := litf_bounds
  have fin : ∀ {r : F32}, r.isFinite = true ∧ |r.real - Real.arctan (FP.abs x).real| ≤ 10 * 2 ^ (-24 : ℤ) * Real.arctan (FP.abs x).real →
      (spORuint32 r (getSignMaskf x)).isFinite = true ∧ |(spORuint32 r (getSignMaskf x)).real - Real.arctan x.real| ≤ 10 * 2 ^ (-24 : ℤ) * |Real.arctan x.real| := by
    intro r h
    have p := pos_of_acc h.2 A0 (by norm_num)
    rw [spOR_signMask]
    refine ⟨h.1, signed_dir (x := x) Real.arctan_neg p (by rfl) (by rfl) ?_⟩
    rw [abs_of_pos A0]
    exact h.2
  unfold fast_atanf
  refine fin ?_
  generalize FP.abs x = a at *
  clear fin ea
  simp only [Mode.gt, hm.arg, of]
  rw [gt_fin hx' l3, gt_fin hx' l6]
  by_cases c2 : (lit 2.414213562373095 : F32).val < a.val
  · have c1 : (lit 0.4142135623730950 : F32).val < a.val := by linarith
    simp only [c1, c2, decide_true, if_true]
    have r := atanf_big_dir hm hx' (by linarith)
    exact ⟨r.1, r.2.trans (mul_le_mul_of_nonneg_right (by norm_num) A0.le)⟩
  · by_cases c1 : (lit 0.4142135623730950 : F32).val < a.val
    · simp only [c1, c2, decide_false, decide_true, if_true, Bool.false_eq_true, if_false]
      exact atanf_mid_dir hm hx' (by linarith) (by linarith)
    · simp only [c1, c2, decide_false, Bool.false_eq_true, if_false]
      have up2 : a.real ≤ 0.4145 := by
        have := real_le_iff.2 ((not_lt.1 c1).trans l1); push_cast at this; exact this
      have r := atanf_small_dir hm hx' h0 up2
      have z := (show (lit 0 : F32).isFinite = true ∧ (lit 0 : F32).val = 0 by decide +kernel)
      have up := arctan_abs_le a.real
      rw [abs_of_pos A0, abs_of_pos x0] at up
      have bR : |(atanfPoly (of a : Z m b32)).v.real| ≤ 1 := by
        have := abs_le.1 r.2
        norm_num at this up2
        rw [abs_le]; constructor <;> nlinarith [this.1, this.2]
      have b1 : |(atanfPoly (of a : Z m b32)).v.val| ≤ b32.big := by
        have h1 : |(atanfPoly (of a : Z m b32)).v.val| ≤ 1 := by unfold FP.real at bR; exact_mod_cast bR
        exact h1.trans (by decide +kernel)
      obtain ⟨a1, a2⟩ := zero_add_dir hm r.1 z.1 z.2 b1
      refine ⟨a1, ?_⟩
      have e : (of (lit 0) + atanfPoly (of a : Z m b32)).v.real = (atanfPoly (of a : Z m b32)).v.real := by
        unfold FP.real; rw [a2]
      refine (le_of_eq ?_).trans (r.2.trans (mul_le_mul_of_nonneg_right (by norm_num) A0.le))
      exact congrArg (fun t => |t - Real.arctan a.real|) e

end Vdt.Flush
