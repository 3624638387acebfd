import Verif.Float.Flush
import Verif.Lemmas.FlushSource
import Verif.Props.InvLarge

/-! # The reciprocal square root and the reciprocal when small numbers are flushed to zero -/

namespace Vdt.Flush
open FP details
variable {f : Fmt} {m : Mode}

/-- A number that no flush replaces by another one. -/
def Keep (x : FP f) : Prop := x.val = 0 ∨ p2 f.emin < |x.val|

theorem Keep.arg (hm : m.Ok) {x : FP f} (h : Keep x) : m.arg x = x := arg_same hm h

theorem add_of (hm : m.Ok) {a b : FP f} (ha : Keep a) (hb : Keep b) (hr : Keep (a + b)) : (of a + of b : Z m f) = of (a + b) := by
  show Z.mk (m.res .add (m.arg a) (m.arg b) (m.arg a + m.arg b)) = Z.mk (a + b)
  rw [ha.arg hm, hb.arg hm, res_same hm hr]

theorem sub_of (hm : m.Ok) {a b : FP f} (ha : Keep a) (hb : Keep b) (hr : Keep (a - b)) : (of a - of b : Z m f) = of (a - b) := by
  show Z.mk (m.res .sub (m.arg a) (m.arg b) (m.arg a - m.arg b)) = Z.mk (a - b)
  rw [ha.arg hm, hb.arg hm, res_same hm hr]

theorem mul_of (hm : m.Ok) {a b : FP f} (ha : Keep a) (hb : Keep b) (hr : Keep (a * b)) : (of a * of b : Z m f) = of (a * b) := by
  show Z.mk (m.res .mul (m.arg a) (m.arg b) (m.arg a * m.arg b)) = Z.mk (a * b)
  rw [ha.arg hm, hb.arg hm, res_same hm hr]

theorem div_of (hm : m.Ok) {a b : FP f} (ha : Keep a) (hb : Keep b) (hr : Keep (a / b)) : (of a / of b : Z m f) = of (a / b) := by
  show Z.mk (m.res .div (m.arg a) (m.arg b) (m.arg a / m.arg b)) = Z.mk (a / b)
  rw [ha.arg hm, hb.arg hm, res_same hm hr]

theorem keep_real {x : FP f} (h : ((p2 f.emin : ℚ) : ℝ) < x.real) : Keep x := by
  right
  unfold FP.real at h
  have : p2 f.emin < x.val := by exact_mod_cast h
  exact this.trans_le (le_abs_self _)

/-- One step of the loop. -/
theorem step_same [f.Ok] (hm : m.Ok) (ok : NewtOk f ((p2 f.emin : ℚ) : ℝ)) {X : ℝ} {x2 y : FP f} (hX : ((p2 f.emin : ℚ) : ℝ) ≤ X) (hX2 : X ≤ 2 * f.big)
    (h2f : x2.isFinite = true) (h2 : |x2.real - X / 2| ≤ f.u * X) (hy : y.isFinite = true) (he : |Real.sqrt X * y.real - 1| ≤ 1 / 20) (k2 : Keep x2) :
    (of y * (of (lit 1.5) - of x2 * of y * of y) : Z m f) = of (y * (lit 1.5 - x2 * y * y)) := by
  have X0 : 0 < X := ok.A0.trans_le hX
  obtain ⟨S, hS⟩ : ∃ S, Real.sqrt X = S := ⟨_, rfl⟩
  have S0 : 0 < S := by rw [← hS]; exact Real.sqrt_pos.2 X0
  have SS : S * S = X := by rw [← hS]; exact Real.mul_self_sqrt X0.le
  rw [hS] at he
  have A0 := ok.A0
  have A2 : ((p2 f.emin : ℚ) : ℝ) ≤ 1 / 1000000 := ok.A1.trans (by norm_num)
  have u0 := ok.u0
  have u1 := ok.u1
  have u2 : (f.u : ℝ) ≤ 1 / 100000 := u1.trans (by norm_num)
  obtain ⟨SA, AS, G1, SG, GS⟩ := newton_range A0 A2 ok.big S0 SS hX hX2
  obtain ⟨P, hP⟩ : ∃ P, S * y.real = P := ⟨_, rfl⟩
  rw [hP] at he
  have p1 := abs_le.1 he
  have yv : y.real = P / S := by rw [← hP]; field_simp
  obtain ⟨f1, e1⟩ := newton_prod ok S0 SS SA SG h2f h2 hy yv (by linarith) (by linarith)
  obtain ⟨⟨f20, f21⟩, f2, bm⟩ := newton_prod2 ok S0 G1 f1 e1 hy yv (by linarith) (by linarith)
  have pp : 0.9 ≤ P * P ∧ P * P ≤ 1.11 := sq_near (by linarith) (by linarith)
  have ky : Keep y := keep_real (by rw [yv, lt_div_iff₀ S0]; linarith)
  have sp : 0.95 * S ≤ S * P := by nlinarith
  have k1 : Keep (x2 * y) := keep_real (by
    have t : 3.001 * f.u * (S * P / 2) ≤ 0.001 * (S * P / 2) := mul_le_mul_of_nonneg_right (by linarith) (by linarith)
    have := abs_le.1 (e1.trans t)
    rw [mul_def]
    linarith)
  have bs : |(mul (mul x2 y) y).real - P * P / 2| ≤ 0.001 * (P * P / 2) := bm.trans (mul_le_mul_of_nonneg_right (by linarith) (by linarith))
  have b1 := abs_le.1 bs
  have k3 : Keep (x2 * y * y) := keep_real (by rw [mul_def, mul_def]; linarith)
  have t1 : (lit 1.5 : FP f).real = 3 / 2 := by unfold FP.real; rw [ok.th.2]; norm_num
  have kt : Keep (lit 1.5 : FP f) := keep_real (by rw [t1]; linarith)
  obtain ⟨f3, e3⟩ := sub_abs_err ok ok.th.1 f2 (M := 1.1) (by rw [t1, abs_le]; constructor <;> linarith) (by linarith) (by linarith)
  rw [t1] at e3
  obtain ⟨c, hc⟩ : ∃ v, (sub (lit 1.5) (mul (mul x2 y) y)).real = v := ⟨_, rfl⟩
  rw [hc] at e3
  have cb : 0.9 ≤ c ∧ c ≤ 1.1 := by
    have := abs_le.1 e3
    constructor <;> linarith
  have k4 : Keep (lit 1.5 - x2 * y * y) := keep_real (by rw [sub_def, mul_def, mul_def, hc]; linarith)
  have PC := prod_near (P := P) (c := c) (by linarith) (by linarith) cb.1 cb.2
  have yc : y.real * c = P * c / S := by rw [yv]; ring
  have yc0 : 0 ≤ y.real * c := by rw [yc]; exact div_nonneg (by linarith) S0.le
  have y1 : 2 * ((p2 f.emin : ℚ) : ℝ) ≤ y.real * c := by rw [yc, le_div_iff₀ S0]; linarith
  have y2 : y.real * c ≤ f.big := by rw [yc, div_le_iff₀ S0]; linarith
  obtain ⟨f4, e4⟩ := mul_rel ok (x := y) (y := sub (lit 1.5) (mul (mul x2 y) y)) hy f3 (by rw [hc, abs_of_nonneg yc0]; linarith)
    (by rw [hc, abs_of_nonneg yc0]; exact y2)
  rw [hc, abs_of_nonneg yc0] at e4
  have k5 : Keep (y * (lit 1.5 - x2 * y * y)) := keep_real (by
    have t : f.u * (y.real * c) ≤ 0.001 * (y.real * c) := mul_le_mul_of_nonneg_right (by linarith) yc0
    have := abs_le.1 (e4.trans t)
    rw [sub_def, mul_def, mul_def, mul_def]
    linarith)
  rw [mul_of hm k2 ky k1, mul_of hm k1 ky k3, sub_of hm kt k3 k4, mul_of hm ky k4 k5]

theorem step_near [f.Ok] (ok : NewtOk f ((p2 f.emin : ℚ) : ℝ)) {X : ℝ} {x2 y : FP f} (hX : ((p2 f.emin : ℚ) : ℝ) ≤ X) (hX2 : X ≤ 2 * f.big)
    (h2f : x2.isFinite = true) (h2 : |x2.real - X / 2| ≤ f.u * X) (hy : y.isFinite = true) (he : |Real.sqrt X * y.real - 1| ≤ 0.0354) :
    (y * (lit 1.5 - x2 * y * y)).isFinite = true ∧ |Real.sqrt X * (y * (lit 1.5 - x2 * y * y)).real - 1| ≤ 0.0354 := by
  have s := newton_step ok false hX hX2 h2f h2 hy he (by norm_num)
  have e : nmad false (x2 * y) y (lit 1.5) = lit 1.5 - x2 * y * y := rfl
  rw [e] at s
  refine ⟨s.1, s.2.trans ?_⟩
  have := ok.u1
  norm_num at this ⊢
  linarith

/-- The loop. -/
theorem loop_same [f.Ok] (hm : m.Ok) (ok : NewtOk f ((p2 f.emin : ℚ) : ℝ)) {X : ℝ} {x2 : FP f} (hX : ((p2 f.emin : ℚ) : ℝ) ≤ X) (hX2 : X ≤ 2 * f.big)
    (h2f : x2.isFinite = true) (h2 : |x2.real - X / 2| ≤ f.u * X) (k2 : Keep x2) (n : ℕ) :
    ∀ y : FP f, y.isFinite = true → |Real.sqrt X * y.real - 1| ≤ 0.0354 →
      (isqrtLoop (of x2) n (of y) : Z m f) = of (details.isqrtLoop x2 n y) ∧ (details.isqrtLoop x2 n y).isFinite = true ∧
        |Real.sqrt X * (details.isqrtLoop x2 n y).real - 1| ≤ 0.0354 := by
  induction n with
  | zero => intro y hy h; exact ⟨rfl, hy, h⟩
  | succ n ih =>
    intro y hy h
    have s := step_near ok hX hX2 h2f h2 hy h
    have r := ih _ s.1 s.2
    refine ⟨?_, r.2⟩
    show isqrtLoop (of x2) n (of y * (of (lit 1.5) - of x2 * of y * of y)) = _
    rw [step_same hm ok hX hX2 h2f h2 hy (h.trans (by norm_num)) k2]
    exact r.1

/-- Arguments whose half is normal. -/
theorem isqrt_gen [f.Ok] (hm : m.Ok) (ok : NewtOk f ((p2 f.emin : ℚ) : ℝ)) {B Km : ℕ} (st : StartOk f B Km) {x : FP f} (hf : x.isFinite = true)
    (hx : 2 * p2 f.emin < x.val) (n : ℕ) :
    (isqrtLoop (of x * of (lit 0.5)) n (of (isqrtStart st x)) : Z m f) = of (details.isqrtLoop (x * lit 0.5) n (isqrtStart st x)) ∧
      (details.isqrtLoop (x * lit 0.5) n (isqrtStart st x)).isFinite = true ∧
      |Real.sqrt x.real * (details.isqrtLoop (x * lit 0.5) n (isqrtStart st x)).real - 1| ≤ 0.0354 := by
  have e0 := p2_pos f.emin
  have hs : x.sign = false := (val_pos_iff.1 (by linarith)).1
  have nx : x.Normal := ⟨hf, by rw [← p2_eq, abs_of_pos (by linarith)]; linarith⟩
  have mg := mag_of_normal nx
  have lo : ((p2 f.emin : ℚ) : ℝ) ≤ x.real := by unfold FP.real; exact_mod_cast (by linarith : p2 f.emin ≤ x.val)
  have hi : x.real ≤ 2 * f.big := by
    have := finite_le_big hf
    rw [abs_of_pos (by linarith)] at this
    unfold FP.real
    exact_mod_cast this
  obtain ⟨h1, h2⟩ := half_err ok hf hs lo
  have kx : Keep x := Or.inr (by rw [abs_of_pos (by linarith)]; linarith)
  have kh : Keep (lit 0.5 : FP f) := Or.inr (by
    rw [ok.half.2, abs_of_pos (by norm_num)]
    have : p2 f.emin ≤ 1 / 2 ^ 100 := (Rat.cast_le (K := ℝ)).1 (by push_cast; exact ok.A1)
    exact this.trans_lt (by norm_num))
  have big : |x.val * (lit 0.5 : FP f).val| ≤ f.big := by
    have := finite_le_big hf
    rw [ok.half.2, abs_mul, abs_of_pos (show (0 : ℚ) < 1 / 2 by norm_num)]; linarith
  have ev : (x * lit 0.5 : FP f).val = x.val * (1 / 2) := by
    rw [(mulS hf ok.half.1 big).2, ok.half.2]
    rw [ok.half.2] at big
    refine rnd_exact f ?_ big
    have r := val_rep x
    obtain ⟨k, e, h1, h2, h3⟩ := r
    by_cases he : f.emin - f.mb ≤ e - 1
    · exact ⟨k, e - 1, by rw [h1, show e = e - 1 + 1 by ring, p2_succ, show e - 1 + 1 - 1 = e - 1 by ring]; ring, h2, he⟩
    · exfalso
      have ee : e = f.emin - f.mb := by omega
      have : |x.val| ≤ 2 * p2 f.emin := by
        rw [h1, abs_mul, abs_of_pos (p2_pos _), ee]
        have k1 : |(k : ℚ)| ≤ 2 ^ (f.mb + 1) := by exact_mod_cast h2
        have := mul_le_mul_of_nonneg_right k1 (p2_pos (f.emin - f.mb)).le
        refine this.trans (le_of_eq ?_)
        rw [← p2_nat, ← p2_add, show ((f.mb + 1 : ℕ) : ℤ) + (f.emin - f.mb) = f.emin + 1 by push_cast; ring, p2_succ]
      rw [abs_of_pos (by linarith)] at this
      linarith
  have k2 : Keep (x * lit 0.5 : FP f) := Or.inr (by rw [ev, abs_of_pos (by linarith)]; linarith)
  obtain ⟨s1, s2⟩ := start_prod st mg.1 mg.2
  rw [mul_of hm kx kh k2]
  refine loop_same hm ok lo hi h1 h2 k2 n _ (decide_eq_true s1) ?_
  refine sqrt_near (ok.A0.trans_le lo) ?_ ?_
  · rw [real_of_pos rfl]; exact_mod_cast magVal_nonneg _ _
  · rw [real_of_pos hs, real_of_pos rfl]
    push_cast at s2
    exact s2

/-- The square of the reciprocal square root with the sign of the argument. -/
theorem square_same [f.Ok] (hm : m.Ok) (ok : NewtOk f ((p2 f.emin : ℚ) : ℝ)) {X : ℝ} {r r' : FP f} (hX : ((p2 f.emin : ℚ) : ℝ) ≤ X)
    (hX2 : X * (2 * ((p2 f.emin : ℚ) : ℝ)) ≤ 1) (hr : r.isFinite = true) (he : |Real.sqrt X * r.real - 1| ≤ 0.0354) (h1 : r'.isFinite = true)
    (h2 : |r'.val| = |r.val|) : (of r * of r' : Z m f) = of (r * r') := by
  have A0 := ok.A0
  have A1 := ok.A1
  have X0 : 0 < X := A0.trans_le hX
  obtain ⟨S, hS⟩ : ∃ S, Real.sqrt X = S := ⟨_, rfl⟩
  have S0 : 0 < S := by rw [← hS]; exact Real.sqrt_pos.2 X0
  have SS : S * S = X := by rw [← hS]; exact Real.mul_self_sqrt X0.le
  rw [hS] at he
  obtain ⟨A, hA⟩ : ∃ A, ((p2 f.emin : ℚ) : ℝ) = A := ⟨_, rfl⟩
  rw [hA] at hX hX2 A0 A1
  have B := ok.big
  rw [hA] at B
  have e := abs_le.1 he
  have A2 : A ≤ 1 / 1000000 := A1.trans (by norm_num)
  have G0 : (2000000 : ℝ) ≤ f.big := by nlinarith
  have r0 : 0.9646 ≤ S * r.real ∧ S * r.real ≤ 1.0354 := by constructor <;> linarith
  have rp : 0 < r.real := by
    by_contra c
    push Not at c
    have := mul_nonpos_of_nonneg_of_nonpos S0.le c
    linarith
  have q : (S * r.real) * (S * r.real) = X * (r.real * r.real) := by rw [← SS]; ring
  have q1 : 0.93 ≤ X * (r.real * r.real) := by rw [← q]; nlinarith
  have q2 : X * (r.real * r.real) ≤ 1.08 := by rw [← q]; nlinarith
  have lo : 1.8 * A ≤ r.real * r.real := by
    by_contra c
    push Not at c
    have := mul_lt_mul_of_pos_left c X0
    nlinarith
  have hi : r.real * r.real ≤ f.big := by
    by_contra c
    push Not at c
    have t := mul_lt_mul_of_pos_left c X0
    have : A * (f.big : ℝ) ≤ X * f.big := mul_le_mul_of_nonneg_right hX (by linarith)
    nlinarith
  have ra : |r.real * r'.real| = r.real * r.real := by
    have : |r'.real| = r.real := by
      rw [← abs_of_pos rp]; unfold FP.real; exact_mod_cast congrArg (fun z : ℚ => (z : ℝ)) h2
    rw [abs_mul, abs_of_pos rp, this]
  obtain ⟨m1, m2⟩ := mul_rel ok hr h1 (by rw [hA, ra]; linarith) (by rw [ra]; exact hi)
  rw [ra] at m2
  have kp : A < |(mul r r').real| := by
    have t := abs_sub_abs_le_abs_sub (r.real * r'.real) (mul r r').real
    rw [ra, abs_sub_comm] at t
    have u : (f.u : ℝ) * (r.real * r.real) ≤ 0.001 * (r.real * r.real) := mul_le_mul_of_nonneg_right (ok.u1.trans (by norm_num)) (by nlinarith)
    linarith
  have k3 : Keep (r * r') := by
    right
    rw [← hA] at kp
    unfold FP.real at kp
    exact_mod_cast kp
  have rA : A < r.real := by
    by_contra c
    push Not at c
    nlinarith
  have k1 : Keep r := keep_real (by rw [hA]; exact rA)
  have k2 : Keep r' := by
    rcases k1 with k | k
    · exact absurd k (by intro c; unfold FP.real at rp; rw [c] at rp; simp at rp)
    · right; rw [h2]; exact k
  exact mul_of hm k1 k2 k3

theorem zero_mul_of [f.Ok] (hm : m.Ok) {y : FP f} (hy : y.isFinite = true) (ky : Keep y) :
    ∃ s, (of (zero false) * of y : Z m f) = of (zero s) ∧ (zero (f := f) false * y) = zero s := by
  have b : |(zero (f := f) false).val * y.val| ≤ f.big := by rw [zero_val, zero_mul, abs_zero]; exact f.big_pos.le
  have e := (mulS (zero_finite (f := f) false) hy b).2
  rw [zero_val, zero_mul, rnd_zero] at e
  refine ⟨_, ?_, eq_zero' (by rw [isZero, decide_eq_true_eq]; exact val_eq_zero.1 e)⟩
  rw [mul_of hm (Or.inl (zero_val _)) ky (Or.inl e)]
  exact congrArg of (eq_zero' (by rw [isZero, decide_eq_true_eq]; exact val_eq_zero.1 e))

/-- If the half of the argument has become zero, each step only multiplies by 1.5. -/
theorem lost_step [f.Ok] (hm : m.Ok) (ok : NewtOk f ((p2 f.emin : ℚ) : ℝ)) {y : FP f} (hy : y.isFinite = true) (h1 : 1 ≤ y.real)
    (h2 : y.real * 2 ≤ f.big) :
    (of y * (of (lit 1.5) - of (zero false) * of y * of y) : Z m f) = of (y * lit 1.5) ∧ (y * lit 1.5).isFinite = true ∧
      1.49 * y.real ≤ (y * lit 1.5).real ∧ (y * lit 1.5).real ≤ 1.51 * y.real := by
  have A0 := ok.A0
  have A1 := ok.A1
  have A2 : ((p2 f.emin : ℚ) : ℝ) ≤ 1 / 1000000 := A1.trans (by norm_num)
  have t1 : (lit 1.5 : FP f).real = 3 / 2 := by unfold FP.real; rw [ok.th.2]; norm_num
  have ky : Keep y := keep_real (by linarith)
  have kt : Keep (lit 1.5 : FP f) := keep_real (by rw [t1]; linarith)
  obtain ⟨m1, m2⟩ := mul_rel ok hy ok.th.1 (by rw [t1, abs_of_pos (by linarith)]; linarith) (by rw [t1, abs_of_pos (by linarith)]; linarith)
  rw [t1, abs_of_pos (show 0 < y.real * (3 / 2) by linarith)] at m2
  have u : (f.u : ℝ) * (y.real * (3 / 2)) ≤ 0.001 * (y.real * (3 / 2)) := mul_le_mul_of_nonneg_right (ok.u1.trans (by norm_num)) (by linarith)
  have b := abs_le.1 (m2.trans u)
  have k3 : Keep (y * lit 1.5) := keep_real (by rw [mul_def]; linarith)
  obtain ⟨s, e1, _⟩ := zero_mul_of hm hy ky
  have e2 : ∃ s', (of (zero s) * of y : Z m f) = of (zero s') := by
    have b : |(zero (f := f) s).val * y.val| ≤ f.big := by rw [zero_val, zero_mul, abs_zero]; exact f.big_pos.le
    have e := (mulS (zero_finite (f := f) s) hy b).2
    rw [zero_val, zero_mul, rnd_zero] at e
    exact ⟨_, by rw [mul_of hm (Or.inl (zero_val _)) ky (Or.inl e)]; exact congrArg of (eq_zero' (by rw [isZero, decide_eq_true_eq]; exact val_eq_zero.1 e))⟩
  obtain ⟨s', e2⟩ := e2
  have e3 : (lit 1.5 : FP f) - zero s' = lit 1.5 := by
    have bb : (3 / 2 : ℚ) ≤ f.big := by
      have : (3 / 2 : ℝ) ≤ f.big := by linarith
      have t : ((3 / 2 : ℚ) : ℝ) ≤ f.big := by push_cast; exact this
      exact_mod_cast t
    have e := (subS ok.th.1 (zero_finite (f := f) s') (by rw [zero_val, sub_zero, ok.th.2, abs_of_pos (by norm_num)]; exact bb)).2
    rw [zero_val, sub_zero, rnd_exact f (val_rep _) (by rw [ok.th.2, abs_of_pos (by norm_num)]; exact bb)] at e
    exact eq_of_val_ne (by rw [e, ok.th.2]; norm_num) e
  refine ⟨?_, m1, by rw [mul_def]; linarith, by rw [mul_def]; linarith⟩
  rw [e1, e2, sub_of hm kt (Or.inl (zero_val _)) (by rw [e3]; exact kt), e3, mul_of hm ky kt k3]

theorem lost_loop [f.Ok] (hm : m.Ok) (ok : NewtOk f ((p2 f.emin : ℚ) : ℝ)) (n : ℕ) : ∀ {y : FP f}, y.isFinite = true → 1 ≤ y.real →
    y.real * 2 ^ n ≤ f.big → 1.49 ^ n * y.real ≤ (isqrtLoop (of (zero false)) n (of y) : Z m f).v.real ∧
      (isqrtLoop (of (zero false)) n (of y) : Z m f).v.isFinite = true := by
  induction n with
  | zero => intro y hy _ _; exact ⟨by rw [pow_zero, one_mul]; exact le_rfl, hy⟩
  | succ n ih =>
    intro y hy h1 h2
    have p0 : (0 : ℝ) < 2 ^ n := by positivity
    have p1 : (1 : ℝ) ≤ 2 ^ n := one_le_pow₀ (by norm_num)
    have y2 : y.real * 2 ≤ f.big := by rw [pow_succ] at h2; nlinarith
    obtain ⟨a, b, c, d⟩ := lost_step hm ok hy h1 y2
    have r := ih b (by linarith) (by
      rw [pow_succ] at h2
      have := mul_le_mul_of_nonneg_right d p0.le
      nlinarith)
    have e : (isqrtLoop (of (zero false)) (n + 1) (of y) : Z m f) = isqrtLoop (of (zero false)) n (of (y * lit 1.5)) := by
      show isqrtLoop (of (zero false)) n (of y * (of (lit 1.5) - of (zero false) * of y * of y)) = _
      rw [a]
    rw [e]
    refine ⟨le_trans ?_ r.1, r.2⟩
    rw [pow_succ]
    have := mul_le_mul_of_nonneg_left c (show (0 : ℝ) ≤ 1.49 ^ n by positivity)
    linarith

/-- A normal argument whose half is not normal. -/
theorem half_lost [f.Ok] (hm : m.Full) (ok : NewtOk f ((p2 f.emin : ℚ) : ℝ)) (hb : 3 ≤ 2 ^ (f.mb + 1)) (hmb : 2 ≤ f.mb) {x : FP f} (hf : x.isFinite = true)
    (h1 : p2 f.emin ≤ x.val) (h2 : x.val ≤ 3 / 2 * p2 f.emin) : (of x * of (lit 0.5) : Z m f) = of (zero false) := by
  have e0 := p2_pos f.emin
  have hb1 : p2 f.emin ≤ 1 / 2 ^ 100 := (Rat.cast_le (K := ℝ)).1 (by push_cast; exact ok.A1)
  have kh : Keep (lit 0.5 : FP f) := Or.inr (by rw [ok.half.2, abs_of_pos (by norm_num)]; exact hb1.trans_lt (by norm_num))
  have ax : m.arg x = x := by
    rcases hm.arg x with a | ⟨a, _⟩
    · exact a
    · rw [← magVal_lt (f := f), minNormal_val, ← abs_val, abs_of_pos (by linarith)] at a
      linarith
  have big : |x.val * (lit 0.5 : FP f).val| ≤ f.big := by
    have := finite_le_big hf
    rw [ok.half.2, abs_mul, abs_of_pos (show (0 : ℚ) < 1 / 2 by norm_num)]; linarith
  have ev := (mulS hf ok.half.1 big).2
  rw [ok.half.2] at ev big
  have hr : rnd f (3 / 4 * p2 f.emin) = 3 / 4 * p2 f.emin := by
    refine rnd_exact f ⟨3, f.emin - 2, ?_, ?_, by omega⟩ ?_
    · rw [show f.emin = f.emin - 2 + 1 + 1 by ring, p2_succ, p2_succ, show f.emin - 2 + 1 + 1 - 2 = f.emin - 2 by ring]; push_cast; ring
    · simpa using (by exact_mod_cast hb : (3 : ℤ) ≤ 2 ^ (f.mb + 1))
    · rw [abs_of_pos (by linarith)]
      have : (1 : ℚ) ≤ f.big := by
        have B := ok.big
        have A0 := ok.A0
        have A1 := ok.A1
        have A2 : ((p2 f.emin : ℚ) : ℝ) ≤ 1 / 1000000 := A1.trans (by norm_num)
        have t : (1 : ℝ) ≤ f.big := by
          by_contra c
          push Not at c
          have := mul_lt_mul_of_pos_right c A0
          linarith
        exact_mod_cast t
      norm_num at hb1
      linarith
  have lt : (x * lit 0.5 : FP f).val ≤ 3 / 4 * p2 f.emin := by
    rw [ev, ← hr]; exact rnd_mono f (by linarith)
  have ge : 0 ≤ (x * lit 0.5 : FP f).val := by rw [ev]; exact rnd_nonneg f (by linarith)
  have sg : (x * lit 0.5 : FP f).sign = false := by
    have := mul_fin_sign hf ok.half.1
    rw [mul_def, this, (val_pos_iff.1 (show 0 < x.val by linarith)).1, (val_pos_iff.1 (show 0 < (lit 0.5 : FP f).val by rw [ok.half.2]; norm_num)).1]
    rfl
  show Z.mk (m.res .mul (m.arg x) (m.arg (lit 0.5)) (m.arg x * m.arg (lit 0.5))) = Z.mk (zero false)
  rw [ax, kh.arg hm.toOk, hm.res_sub _ _ _ _ (by rw [← magVal_lt (f := f), minNormal_val, ← abs_val, abs_of_nonneg ge]; linarith), sg]

end Vdt.Flush
