import Verif.Float.Analyse2
import Verif.Real.Tanh
import Verif.Lemmas.Special
import Verif.Lemmas.Round
import Verif.Lemmas.Reduce
import Verif.Model.Tanh
import Verif.Model.Contract
import Verif.Float.Contract

/-! # The hyperbolic tangent: signs, ranges and symmetry -/

namespace Vdt
open FP details

variable {f : Fmt}

namespace FP

/-- On finite operands the sign of a quotient is the xor of the signs. -/
theorem div_fin_sign {x y : FP f} (hx : x.isFinite = true) (hy : y.isFinite = true) (h0 : y.val ≠ 0) :
    (div x y).sign = (x.sign ^^ y.sign) := by
  rw [div_fin hx hy h0]
  unfold ofRat
  simp only
  split
  · rfl
  · rename_i h
    have hx0 : x.val ≠ 0 := fun hh => h (by rw [hh, zero_div])
    rcases lt_or_gt_of_ne hx0 with a | a <;> rcases lt_or_gt_of_ne h0 with b | b
    · rw [(val_neg_iff.1 a).1, (val_neg_iff.1 b).1]; simp [(div_pos_of_neg_of_neg a b).le]
    · rw [(val_neg_iff.1 a).1, (val_pos_iff.1 b).1]; simp [div_neg_of_neg_of_pos a b]
    · rw [(val_pos_iff.1 a).1, (val_neg_iff.1 b).1]; simp [div_neg_of_pos_of_neg a b]
    · rw [(val_pos_iff.1 a).1, (val_pos_iff.1 b).1]; simp [(div_pos a b).le]

theorem val_nonneg_of_sign {x : FP f} (h : x.sign = false) : 0 ≤ x.val := by
  by_contra hc
  push Not at hc
  rw [(val_neg_iff.1 hc).1] at h
  cases h

theorem sign_of_pos {x : FP f} (h : 0 < x.val) : x.sign = false := (val_pos_iff.1 h).1

theorem zero_of_val [f.Ok] {x : FP f} (h : x.val = 0) : x.isZero = true := by
  simp [isZero, val_eq_zero.1 h]

theorem not_zero_of_val {x : FP f} (h : x.val ≠ 0) : x.isZero = false := by
  simp only [isZero, decide_eq_false_iff_not]
  exact fun hh => h (val_eq_zero.2 hh)

end FP

/-- What is needed of the integer constants of the doubling step. -/
structure DblOk (f : Fmt) : Prop where
  two : (ofInt 2 : FP f).isFinite = true ∧ (ofInt 2 : FP f).val = 2 ∧ (ofInt 2 : FP f).sign = false
  one : (ofInt 1 : FP f).isFinite = true ∧ (ofInt 1 : FP f).val = 1
  big : 2 ≤ f.big
  emin : f.emin ≤ -1
  mb : 2 ≤ f.mb

theorem dblOk64 : DblOk b64 := ⟨by decide +kernel, by decide +kernel, by decide +kernel, by decide +kernel, by decide +kernel⟩
theorem dblOk32 : DblOk b32 := ⟨by decide +kernel, by decide +kernel, by decide +kernel, by decide +kernel, by decide +kernel⟩

theorem rep_two_mul {q : ℚ} (h : Rep f q) : Rep f (2 * q) := by
  obtain ⟨k, e, hq, hk, he⟩ := h
  refine ⟨k, e + 1, ?_, hk, by omega⟩
  rw [hq, p2_succ]; ring

/-- `2t-1` is representable for `t` in `[1/2,1]`. -/
theorem rep_two_mul_sub [f.Ok] (ok : DblOk f) {x : FP f} (h1 : 1 / 2 ≤ x.val) (h2 : x.val ≤ 1) : Rep f (2 * x.val - 1) := by
  have hp : p2 (-1) ≤ |x.val| := by
    rw [abs_of_nonneg (by linarith)]
    refine le_trans (le_of_eq ?_) h1
    rw [p2_eq]; norm_num
  obtain ⟨n, k, hv, -, hk⟩ := rep_of_ge hp
  have e1 : p2 k = ((2 ^ (k + 1 + f.mb).toNat : ℤ) : ℚ) * p2 (-1 - f.mb) := by
    rw [Int.cast_pow, Int.cast_ofNat, ← p2_nat, ← p2_add]; congr 1; omega
  have e2 : (1 : ℚ) = ((2 ^ (f.mb + 1) : ℤ) : ℚ) * p2 (-1 - f.mb) := by
    rw [Int.cast_pow, Int.cast_ofNat, ← p2_nat, ← p2_add, p2_eq]
    have : ((f.mb + 1 : ℕ) : ℤ) + (-1 - f.mb) = 0 := by push_cast; ring
    rw [this]; norm_num
  have e3 : 2 * x.val - 1 = ((2 * (n * 2 ^ (k + 1 + f.mb).toNat) - 2 ^ (f.mb + 1) : ℤ) : ℚ) * p2 (-1 - f.mb) := by
    rw [Int.cast_sub, sub_mul, ← e2, hv, e1]
    push_cast; ring
  refine ⟨_, _, e3, ?_, by have := ok.emin; omega⟩
  have h3 : |2 * x.val - 1| ≤ 1 := by rw [abs_le]; constructor <;> linarith
  rw [e3, e2, abs_mul, abs_of_pos (p2_pos _)] at h3
  have := le_of_mul_le_mul_right h3 (p2_pos _)
  exact_mod_cast this

namespace FP
theorem fma_neg_neg (x y z : FP f) : fma (neg x) (neg y) z = fma x y z := by
  unfold fma
  simp only [neg_isNaN, neg_isInf, neg_isZero, val_neg, neg_mul_neg, neg_sign, Bool.not_bne_not]

theorem mad_neg_neg (b : Bool) (x y z : FP f) : mad b (neg x) (neg y) z = mad b x y z := by
  unfold mad
  rw [fma_neg_neg, mul_def, mul_def, mul_neg_neg]
end FP

/-- The square that enters the denominator: rounded, or exact if the sum is fused. -/
def sqv (b : Bool) (t : FP f) : ℚ := if b then t.val * t.val else rnd f (t.val * t.val)

theorem sqv_mad [f.Ok] (b : Bool) {t z : FP f} (ht : t.isFinite = true) (hz : z.isFinite = true) (h : |t.val * t.val| ≤ f.big)
    (hb : |sqv b t + z.val| ≤ f.big) :
    (mad b t t z).isFinite = true ∧ (mad b t t z).val = rnd f (sqv b t + z.val) := by
  cases b
  · have m := mul_spec ht ht h
    simp only [sqv, Bool.false_eq_true, if_false, ← m.2] at hb ⊢
    rw [mad_false]
    exact add_spec m.1 hz hb
  · exact fma_spec ht ht hz hb

theorem sqv_range [f.Ok] (ok : DblOk f) (b : Bool) {t : FP f} (h : |t.val| ≤ 1) : 0 ≤ sqv b t ∧ sqv b t ≤ 1 := by
  have hb := ok.big
  have hsq0 : 0 ≤ t.val * t.val := mul_self_nonneg _
  have hsq1 : t.val * t.val ≤ 1 := by rw [← abs_mul_abs_self]; nlinarith [abs_nonneg t.val]
  have r1 : rnd f 1 = 1 := by
    have := val_rep (ofInt 1 : FP f)
    rw [ok.one.2] at this
    exact rnd_exact f this (by rw [abs_one]; linarith)
  unfold sqv
  split
  · exact ⟨hsq0, hsq1⟩
  · exact ⟨rnd_nonneg f hsq0, (rnd_mono f hsq1).trans (le_of_eq r1)⟩

theorem dbl_facts [f.Ok] (ok : DblOk f) (b : Bool) {t : FP f} (ht : t.isFinite = true) (h : |t.val| ≤ 1) :
    (ofInt 2 * t).isFinite = true ∧ (ofInt 2 * t).val = 2 * t.val ∧ (ofInt 2 * t).sign = t.sign ∧
    (mad b t t (ofInt 1)).isFinite = true ∧ (mad b t t (ofInt 1)).val = rnd f (sqv b t + 1) ∧
    1 ≤ (mad b t t (ofInt 1)).val ∧ (mad b t t (ofInt 1)).val ≤ 2 ∧ 2 * |t.val| ≤ (mad b t t (ofInt 1)).val := by
  have hb := ok.big
  have hsq0 : 0 ≤ t.val * t.val := mul_self_nonneg _
  have hsq1 : t.val * t.val ≤ 1 := by rw [← abs_mul_abs_self]; nlinarith [abs_nonneg t.val]
  have a := mul_exact (x := ofInt 2) (y := t) ok.two.1 ht (by rw [ok.two.2.1]; exact rep_two_mul (val_rep t))
    (by rw [ok.two.2.1, abs_mul, abs_of_pos (by norm_num : (0:ℚ) < 2)]; linarith)
  have r1 : rnd f 1 = 1 := by
    have := val_rep (ofInt 1 : FP f)
    rw [ok.one.2] at this
    exact rnd_exact f this (by rw [abs_one]; linarith)
  have r2 : rnd f 2 = 2 := by
    have := val_rep (ofInt 2 : FP f)
    rw [ok.two.2.1] at this
    exact rnd_exact f this (by rw [abs_of_pos (by norm_num : (0:ℚ) < 2)]; exact hb)
  obtain ⟨s0, s1⟩ := sqv_range ok b h
  have c := sqv_mad b ht ok.one.1 (by rw [abs_of_nonneg hsq0]; linarith) (by
    rw [ok.one.2, abs_of_nonneg (by linarith)]; linarith)
  rw [ok.one.2] at c
  have d1 : 1 ≤ rnd f (sqv b t + 1) := by
    have := rnd_mono f (show (1 : ℚ) ≤ sqv b t + 1 by linarith)
    rwa [r1] at this
  have d2 : rnd f (sqv b t + 1) ≤ 2 := by
    have := rnd_mono f (show sqv b t + 1 ≤ 2 by linarith)
    rwa [r2] at this
  refine ⟨a.1, by rw [a.2, ok.two.2.1], ?_, c.1, c.2, by rw [c.2]; exact d1,
    by rw [c.2]; exact d2, ?_⟩
  · rw [mul_def, mul_fin_sign ok.two.1 ht, ok.two.2.2]; simp
  · rw [c.2]
    rcases le_total (|t.val|) (1 / 2) with hh | hh
    · linarith
    · have ha : (FP.abs t).val = |t.val| := val_abs t
      have hrep := rep_two_mul_sub ok (x := FP.abs t) (by rw [ha]; exact hh) (by rw [ha]; exact h)
      rw [ha] at hrep
      have k0 : 2 * |t.val| - 1 ≤ t.val * t.val := by
        rw [← abs_mul_abs_self]; nlinarith [sq_nonneg (|t.val| - 1)]
      have k1 : 2 * |t.val| - 1 ≤ sqv b t := by
        unfold sqv
        split
        · exact k0
        · rw [← rnd_exact f hrep (by rw [abs_of_nonneg (by linarith)]; linarith)]
          exact rnd_mono f k0
      have hrep2 := rep_two_mul (val_rep (FP.abs t))
      rw [ha] at hrep2
      rw [← rnd_exact f hrep2 (by rw [abs_of_nonneg (by linarith)]; linarith)]
      exact rnd_mono f (by linarith)

/-- One doubling keeps the interval `[-1,1]` and the sign. -/
theorem dbl_range [f.Ok] (ok : DblOk f) (b : Bool) {t : FP f} (ht : t.isFinite = true) (h : |t.val| ≤ 1) :
    (tanhDoubleC b t).isFinite = true ∧ |(tanhDoubleC b t).val| ≤ 1 ∧ (tanhDoubleC b t).sign = t.sign ∧
    (tanhDoubleC b t).val = rnd f (2 * t.val / rnd f (sqv b t + 1)) ∧ tanhDoubleC b (-t) = -tanhDoubleC b t := by
  obtain ⟨a1, a2, a3, c1, c2, d1, d2, d3⟩ := dbl_facts ok b ht h
  have hd0 : (mad b t t (ofInt 1)).val ≠ 0 := by linarith
  have hq : |2 * t.val / (mad b t t (ofInt 1)).val| ≤ 1 := by
    have hpos : 0 < (mad b t t (ofInt 1)).val := by linarith
    rw [abs_div, abs_mul, abs_of_pos (by norm_num : (0:ℚ) < 2), abs_of_pos hpos, div_le_one hpos]
    exact d3
  have hb := ok.big
  have e := div_spec a1 c1 hd0 (by rw [a2]; linarith)
  have r1 : rnd f 1 = 1 := by
    have := val_rep (ofInt 1 : FP f)
    rw [ok.one.2] at this
    exact rnd_exact f this (by rw [abs_one]; linarith)
  have ds : (mad b t t (ofInt 1)).sign = false := sign_of_pos (by linarith)
  refine ⟨e.1, ?_, ?_, ?_, ?_⟩
  · change |(div _ _).val| ≤ 1
    rw [e.2, a2]
    rw [abs_le] at hq ⊢
    constructor
    · have := rnd_mono f hq.1
      rw [rnd_neg, r1] at this; exact this
    · have := rnd_mono f hq.2
      rw [r1] at this; exact this
  · change (div _ _).sign = _
    rw [div_fin_sign a1 c1 hd0, ds, a3]; simp
  · change (div _ _).val = _
    rw [e.2, a2, c2]
  · change div (mul (ofInt 2) (neg t)) (mad b (neg t) (neg t) (ofInt 1)) = neg (div (mul (ofInt 2) t) _)
    rw [mad_neg_neg, mul_neg_right ok.two.1 ht]
    refine div_neg_left (finite_not_nan a1) (finite_not_nan c1) ?_ ?_
    · rintro ⟨h1, -⟩
      have := finite_not_inf a1
      rw [mul_def, h1] at this; cases this
    · rintro ⟨-, h1⟩
      have := not_zero_of_val hd0
      rw [h1] at this; cases this

/-! ## The Padé approximant in double precision -/

/-- include/tanh.h:47, as an expression in `xx`. -/
def tanhNumE : E b64 :=
  let xx2 := (E.var 0).mul (.var 0)
  (E.const (ofInt 135135)).add (xx2.mul ((E.const (ofInt 17325)).add (xx2.mul ((E.const (ofInt 378)).add (xx2.mul (.const (ofInt 1)))))))

/-- include/tanh.h:48, as an expression in `xx`. -/
def tanhDenE : E b64 :=
  let xx2 := (E.var 0).mul (.var 0)
  (E.const (ofInt 135135)).add (xx2.mul ((E.const (ofInt 62370)).add (xx2.mul ((E.const (ofInt 3150)).add (xx2.mul (.const (ofInt 28)))))))

/-- include/tanh.h:50, as an expression in `xx`. -/
def tanhE : E b64 := ((E.var 1).mul tanhNumE).div tanhDenE

theorem tanhPade_eq (x : F64) : tanhPade x = tanhE.evalF (fun _ => x * lit 0.125) := rfl

theorem tanhPade_eq' (x : F64) : tanhPade x = div (mul (x * lit 0.125) (tanhNumE.evalF (fun _ => x * lit 0.125)))
    (tanhDenE.evalF (fun _ => x * lit 0.125)) := rfl

/-- Numerator and denominator as functions of `xx`, with any fusing. -/
def tanhNumC (p : Policy) (xx : F64) : F64 :=
  let xx2 := xx * xx
  madR (p 0) xx2 (madR (p 1) xx2 (madR (p 2) xx2 (ofInt 1) (ofInt 378)) (ofInt 17325)) (ofInt 135135)
def tanhDenC (p : Policy) (xx : F64) : F64 :=
  let xx2 := xx * xx
  madR (p 3) xx2 (madR (p 4) xx2 (madR (p 5) xx2 (ofInt 28) (ofInt 3150)) (ofInt 62370)) (ofInt 135135)

theorem tanhNumE_con (p : Policy) (w : F64) : tanhNumE.Con (fun _ => w) (tanhNumC p w) := by unfold tanhNumE tanhNumC; con
theorem tanhDenE_con (p : Policy) (w : F64) : tanhDenE.Con (fun _ => w) (tanhDenC p w) := by unfold tanhDenE tanhDenC; con

def tanhQuoC (p : Policy) (w : F64) : F64 := w * tanhNumC p w / tanhDenC p w

theorem tanhE_con (p : Policy) (w : F64) : tanhE.Con (fun _ => w) (tanhQuoC p w) := by
  unfold tanhE tanhNumE tanhDenE tanhQuoC tanhNumC tanhDenC; con

theorem tanhPadeC_eq (p : Policy) (x : F64) : tanhPadeC p x = tanhQuoC p (mul x (lit 0.125)) := rfl

theorem tanhNumE_ok : covers (okRel b64 tanhNumE 0.01) (grid (-2.5) 2.5 4) = true := by decide +kernel
theorem tanhDenE_ok : covers (okRel b64 tanhDenE 0.01) (grid (-2.5) 2.5 4) = true := by decide +kernel

/-! ## The Padé approximant in single precision -/

/-- include/tanh.h:66, numerator and denominator. -/
def tanhfNumE : E b32 := ((E.var 0).mul (.var 0)).add (.const (ofInt 15))
def tanhfDenE : E b32 := ((E.const (ofInt 6)).mul ((E.var 0).mul (.var 0))).add (.const (ofInt 15))
def tanhfE : E b32 := ((E.var 1).mul tanhfNumE).div tanhfDenE

theorem tanhPadef_eq (x : F32) : tanhPadef x = tanhfE.evalF (fun _ => x * lit 0.125) := rfl

theorem tanhPadef_eq' (x : F32) : tanhPadef x = div (mul (x * lit 0.125) (tanhfNumE.evalF (fun _ => x * lit 0.125)))
    (tanhfDenE.evalF (fun _ => x * lit 0.125)) := rfl

def tanhfNumC (p : Policy) (xx : F32) : F32 := mad (p 0) xx xx (ofInt 15)
def tanhfDenC (p : Policy) (xx : F32) : F32 := mad (p 1) (ofInt 6) (xx * xx) (ofInt 15)

theorem tanhfNumE_con (p : Policy) (w : F32) : tanhfNumE.Con (fun _ => w) (tanhfNumC p w) := by unfold tanhfNumE tanhfNumC; con
theorem tanhfDenE_con (p : Policy) (w : F32) : tanhfDenE.Con (fun _ => w) (tanhfDenC p w) := by unfold tanhfDenE tanhfDenC; con

def tanhfQuoC (p : Policy) (w : F32) : F32 := w * tanhfNumC p w / tanhfDenC p w

theorem tanhfE_con (p : Policy) (w : F32) : tanhfE.Con (fun _ => w) (tanhfQuoC p w) := by
  unfold tanhfE tanhfNumE tanhfDenE tanhfQuoC tanhfNumC tanhfDenC; con

theorem tanhPadefC_eq (p : Policy) (x : F32) : tanhPadefC p x = tanhfQuoC p (mul x (lit 0.125)) := rfl

theorem tanhfNumE_ok : covers (okRel b32 tanhfNumE 0.01) (grid (-1.1376) 1.1376 4) = true := by decide +kernel
theorem tanhfDenE_ok : covers (okRel b32 tanhfDenE 0.01) (grid (-1.1376) 1.1376 4) = true := by decide +kernel

/-! ## Symmetry and sign, for both precisions -/

/-- `xx*n/d` with positive `n`, `d` depending on `xx^2` only. -/
theorem pade_sym [f.Ok] {w n d : FP f} (hw : w.isFinite = true) (hn : n.isFinite = true) (hd : d.isFinite = true)
    (pn : 0 < n.val) (pd : 0 < d.val) (hb : |w.val * n.val| ≤ f.big) :
    (div (mul w n) d).sign = w.sign ∧ div (mul (neg w) n) d = neg (div (mul w n) d) := by
  have a := mul_spec hw hn hb
  have hd0 : d.val ≠ 0 := pd.ne'
  constructor
  · rw [div_fin_sign a.1 hd hd0, mul_fin_sign hw hn, sign_of_pos pn, sign_of_pos pd]; simp
  · rw [mul_neg_left hw hn]
    refine div_neg_left (finite_not_nan a.1) (finite_not_nan hd) ?_ ?_
    · rintro ⟨h1, -⟩
      rw [finite_not_inf a.1] at h1; cases h1
    · rintro ⟨-, h1⟩
      rw [not_zero_of_val hd0] at h1; cases h1

/-- An eighth of the argument. -/
theorem eighth [f.Ok] {x c : FP f} {X : ℚ} (hx : x.isFinite = true) (hc : c.isFinite = true) (hv : c.val = 1 / 8) (hX : |x.val| ≤ X)
    (hr : Rep f (X / 8)) (hb : X / 8 ≤ f.big) :
    (mul x c).isFinite = true ∧ |(mul x c).val| ≤ X / 8 ∧ (mul x c).sign = x.sign ∧
      |(mul x c).val - x.val / 8| ≤ f.eta ∧ mul (neg x) c = neg (mul x c) := by
  have hX0 : 0 ≤ X := (abs_nonneg _).trans hX
  have h1 : |x.val * c.val| ≤ X / 8 := by
    rw [hv, abs_mul, abs_of_pos (by norm_num : (0:ℚ) < 1 / 8)]; linarith
  have a := mul_spec hx hc (h1.trans hb)
  have cs : c.sign = false := sign_of_pos (by rw [hv]; norm_num)
  refine ⟨a.1, ?_, ?_, ?_, mul_neg_left hx hc⟩
  · have hre := rnd_exact f hr (by rw [abs_of_nonneg (by linarith)]; exact hb)
    rw [a.2]
    rw [abs_le] at h1 ⊢
    have l := rnd_mono f h1.1
    have u := rnd_mono f h1.2
    rw [rnd_neg, hre] at l
    rw [hre] at u
    exact ⟨l, u⟩
  · rw [mul_fin_sign hx hc, cs]; simp
  · rw [a.2, hv]
    have e : x.val * (1 / 8) = x.val / 8 := by ring
    rw [e]
    rcases le_or_gt (p2 (f.emin + 3)) |x.val| with hh | hh
    · obtain ⟨n, k, hk1, hk2, hk3⟩ := rep_of_ge hh
      have : Rep f (x.val / 8) := by
        refine ⟨n, k - 3, ?_, hk2, by omega⟩
        have : p2 k = p2 (k - 3) * 8 := by
          have h8 : (8 : ℚ) = p2 3 := by rw [p2_eq]; norm_num
          rw [h8, ← p2_add]; congr 1; ring
        rw [hk1, this]; ring
      rw [rnd_exact f this (by rw [abs_div, abs_of_pos (by norm_num : (0:ℚ) < 8)]; linarith)]
      simp [f.eta_pos.le]
    · have h8 : p2 (f.emin + 3) = 8 * p2 f.emin := by
        have h8 : (8 : ℚ) = p2 3 := by rw [p2_eq]; norm_num
        rw [h8, ← p2_add]; congr 1; ring
      have h9 : |x.val / 8| ≤ p2 f.emin := by
        rw [abs_div, abs_of_pos (by norm_num : (0:ℚ) < 8)]; linarith
      have h10 : |x.val / 8| ≤ f.big := by
        rw [abs_div, abs_of_pos (by norm_num : (0:ℚ) < 8)]; linarith
      refine (rnd_err_rel f h10).trans (max_le ?_ le_rfl)
      have : f.u * p2 f.emin = f.eta := by
        unfold Fmt.u Fmt.eta
        rw [← p2_add]; congr 1; ring
      rw [← this]
      exact mul_le_mul_of_nonneg_left h9 f.u_pos.le

theorem real_of_val {x : FP f} {q : ℚ} (h : x.val = q) : x.real = (q : ℝ) := by unfold FP.real; rw [h]

theorem val_pos_of_real {x : FP f} (h : 0 < x.real) : 0 < x.val := by unfold FP.real at h; exact_mod_cast h

theorem real_le_of_val {x : FP f} {q : ℚ} (h : |x.val| ≤ q) : -(q : ℝ) ≤ x.real ∧ x.real ≤ q := by
  have : |x.real| ≤ q := by unfold FP.real; exact_mod_cast h
  exact abs_le.1 this

theorem tanhNumE_real (w : ℝ) : tanhNumE.evalR (fun _ => w) = 135135 + w * w * (17325 + w * w * (378 + w * w)) := by
  have c1 : (ofInt 135135 : F64).val = 135135 := by decide +kernel
  have c2 : (ofInt 17325 : F64).val = 17325 := by decide +kernel
  have c3 : (ofInt 378 : F64).val = 378 := by decide +kernel
  have c4 : (ofInt 1 : F64).val = 1 := by decide +kernel
  simp only [tanhNumE, E.evalR, FP.real, c1, c2, c3, c4]
  push_cast; ring

theorem tanhDenE_real (w : ℝ) : tanhDenE.evalR (fun _ => w) = 135135 + w * w * (62370 + w * w * (3150 + w * w * 28)) := by
  have c1 : (ofInt 135135 : F64).val = 135135 := by decide +kernel
  have c2 : (ofInt 62370 : F64).val = 62370 := by decide +kernel
  have c3 : (ofInt 3150 : F64).val = 3150 := by decide +kernel
  have c4 : (ofInt 28 : F64).val = 28 := by decide +kernel
  simp only [tanhDenE, E.evalR, FP.real, c1, c2, c3, c4]
  push_cast; ring

theorem tanhfNumE_real (w : ℝ) : tanhfNumE.evalR (fun _ => w) = w * w + 15 := by
  have c1 : (ofInt 15 : F32).val = 15 := by decide +kernel
  simp only [tanhfNumE, E.evalR, FP.real, c1]
  push_cast; ring

theorem tanhfDenE_real (w : ℝ) : tanhfDenE.evalR (fun _ => w) = 6 * (w * w) + 15 := by
  have c1 : (ofInt 15 : F32).val = 15 := by decide +kernel
  have c2 : (ofInt 6 : F32).val = 6 := by decide +kernel
  simp only [tanhfDenE, E.evalR, FP.real, c1, c2]
  push_cast; ring

theorem rel_pos {a b : ℝ} (hb : 0 < b) (h : |a - b| ≤ ((0.01 : ℚ) : ℝ) * b) : 0 < a ∧ a ≤ 2 * b := by
  push_cast at h
  rw [abs_le] at h
  constructor <;> norm_num at h <;> linarith [h.1, h.2]

theorem real_val_bound {x : FP f} {q : ℚ} (h : |x.real| ≤ q) : |x.val| ≤ q := by
  unfold FP.real at h; exact_mod_cast h

theorem pade64_w (p : Policy) {w : F64} (w1 : w.isFinite = true) (w2 : |w.val| ≤ 2.5) :
    (tanhQuoC p w).sign = w.sign ∧ (tanhQuoC p (neg w)) = neg (tanhQuoC p w) := by
  have hw := real_le_of_val w2
  obtain ⟨s, t, hst, h1, h2⟩ := covers_spans tanhNumE_ok (a := -2.5) (b := 2.5) (by decide +kernel)
      (x := w.real) (by push_cast at hw ⊢; exact hw.1) (by push_cast at hw ⊢; exact hw.2)
  have rn := okRel_con (by norm_num) hst w1 h1 h2 (tanhNumE_con p w)
  obtain ⟨s, t, hst, h1, h2⟩ := covers_spans tanhDenE_ok (a := -2.5) (b := 2.5) (by decide +kernel)
      (x := w.real) (by push_cast at hw ⊢; exact hw.1) (by push_cast at hw ⊢; exact hw.2)
  have rd := okRel_con (by norm_num) hst w1 h1 h2 (tanhDenE_con p w)
  have ww : w.real * w.real ≤ 6.25 := by
    push_cast at hw
    norm_num at hw ⊢
    nlinarith
  have ww0 := mul_self_nonneg w.real
  rw [tanhNumE_real] at rn
  rw [tanhDenE_real] at rd
  have pn := rel_pos (by positivity) rn.2
  have pd := rel_pos (by positivity) rd.2
  have bn : (tanhNumC p w).real ≤ 1000000 := by
    refine pn.2.trans ?_
    generalize w.real * w.real = k at ww ww0
    nlinarith [mul_nonneg ww0 ww0, mul_nonneg (mul_nonneg ww0 ww0) ww0, mul_nonneg ww0 (sub_nonneg.2 ww),
      mul_nonneg (mul_nonneg ww0 ww0) (sub_nonneg.2 ww)]
  have sgn := pade_sym w1 rn.1 rd.1 (val_pos_of_real pn.1) (val_pos_of_real pd.1) (by
    have b1 : |(tanhNumC p w).val| ≤ 1000000 := by
      apply real_val_bound; rw [abs_of_pos pn.1]; push_cast; exact bn
    rw [abs_mul]
    refine (mul_le_mul w2 b1 (abs_nonneg _) (by norm_num)).trans (by decide +kernel))
  refine ⟨sgn.1, ?_⟩
  have e : (tanhNumC p (neg w)) = tanhNumC p w ∧ (tanhDenC p (neg w)) = tanhDenC p w := by
    simp only [tanhNumC, tanhDenC, mul_def, mul_neg_neg, mad_neg_neg, and_self]
  have : (tanhQuoC p (neg w)) = div (mul (neg w) (tanhNumC p (neg w))) (tanhDenC p (neg w)) := rfl
  rw [this, e.1, e.2]
  exact sgn.2

/-- Padé approximant in double precision: sign and symmetry. -/
theorem pade64 (p : Policy) {x : F64} (hx : x.isFinite = true) (h : |x.val| ≤ 20) :
    (tanhPadeC p x).sign = x.sign ∧ tanhPadeC p (-x) = -tanhPadeC p x := by
  obtain ⟨w1, w2, w3, -, w5⟩ := eighth (c := lit 0.125) (X := 20) hx (by decide +kernel) (by decide +kernel) h
    ⟨5, -1, by rw [p2_eq]; norm_num, by norm_num [b64], by decide⟩ (by decide +kernel)
  have k := pade64_w p w1 (w2.trans (by norm_num))
  rw [tanhPadeC_eq, tanhPadeC_eq, neg_def, w5]
  exact ⟨k.1.trans w3, k.2⟩

theorem pade32_w (p : Policy) {w : F32} (w1 : w.isFinite = true) (w2 : |w.val| ≤ 1.1376) :
    (tanhfQuoC p w).sign = w.sign ∧ (tanhfQuoC p (neg w)) = neg (tanhfQuoC p w) := by
  have hw := real_le_of_val w2
  obtain ⟨s, t, hst, h1, h2⟩ := covers_spans tanhfNumE_ok (a := -1.1376) (b := 1.1376) (by decide +kernel)
      (x := w.real) (by push_cast at hw ⊢; exact hw.1) (by push_cast at hw ⊢; exact hw.2)
  have rn := okRel_con (by norm_num) hst w1 h1 h2 (tanhfNumE_con p w)
  obtain ⟨s, t, hst, h1, h2⟩ := covers_spans tanhfDenE_ok (a := -1.1376) (b := 1.1376) (by decide +kernel)
      (x := w.real) (by push_cast at hw ⊢; exact hw.1) (by push_cast at hw ⊢; exact hw.2)
  have rd := okRel_con (by norm_num) hst w1 h1 h2 (tanhfDenE_con p w)
  have ww : w.real * w.real ≤ 6.25 := by
    push_cast at hw
    norm_num at hw ⊢
    nlinarith
  have ww0 := mul_self_nonneg w.real
  rw [tanhfNumE_real] at rn
  rw [tanhfDenE_real] at rd
  have pn := rel_pos (by positivity) rn.2
  have pd := rel_pos (by positivity) rd.2
  have bn : (tanhfNumC p w).real ≤ 1000000 := by
    refine pn.2.trans ?_
    generalize w.real * w.real = k at ww ww0
    nlinarith [mul_nonneg ww0 ww0, mul_nonneg (mul_nonneg ww0 ww0) ww0, mul_nonneg ww0 (sub_nonneg.2 ww),
      mul_nonneg (mul_nonneg ww0 ww0) (sub_nonneg.2 ww)]
  have sgn := pade_sym w1 rn.1 rd.1 (val_pos_of_real pn.1) (val_pos_of_real pd.1) (by
    have b1 : |(tanhfNumC p w).val| ≤ 1000000 := by
      apply real_val_bound; rw [abs_of_pos pn.1]; push_cast; exact bn
    rw [abs_mul]
    refine (mul_le_mul w2 b1 (abs_nonneg _) (by norm_num)).trans (by decide +kernel))
  refine ⟨sgn.1, ?_⟩
  have e : (tanhfNumC p (neg w)) = tanhfNumC p w ∧ (tanhfDenC p (neg w)) = tanhfDenC p w := by
    simp only [tanhfNumC, tanhfDenC, mul_def, mul_neg_neg, mad_neg_neg, and_self]
  have : (tanhfQuoC p (neg w)) = div (mul (neg w) (tanhfNumC p (neg w))) (tanhfDenC p (neg w)) := rfl
  rw [this, e.1, e.2]
  exact sgn.2

/-- Padé approximant in single precision: sign and symmetry. -/
theorem pade32 (p : Policy) {x : F32} (hx : x.isFinite = true) (h : |x.val| ≤ (lit 9.1 : F32).val) :
    (tanhPadefC p x).sign = x.sign ∧ tanhPadefC p (-x) = -tanhPadefC p x := by
  obtain ⟨w1, w2, w3, -, w5⟩ := eighth (c := lit 0.125) (X := (lit 9.1 : F32).val) hx (by decide +kernel) (by decide +kernel) h
    ⟨9542042, -23, by decide +kernel, by norm_num [b32], by decide⟩ (by decide +kernel)
  have hv : (lit 9.1 : F32).val / 8 ≤ 1.1376 := by decide +kernel
  have k := pade32_w p w1 (w2.trans hv)
  rw [tanhPadefC_eq, tanhPadefC_eq, neg_def, w5]
  exact ⟨k.1.trans w3, k.2⟩

end Vdt
