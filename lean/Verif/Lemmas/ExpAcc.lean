import Verif.Float.Contract
import Verif.Model.Contract
import Verif.Real.Tools
import Verif.Lemmas.Reduce
import Mathlib.Analysis.SpecialFunctions.ExpDeriv
import Mathlib.Analysis.SpecialFunctions.Pow.Real

/-! # Accuracy of the exponential: approximation, rounding, argument reduction -/

namespace Vdt
open FP details

/-! ## Double precision: the core rational function -/

/-- include/exp.h:80-101 as an expression. -/
def expE : E b64 :=
  let x : E b64 := .var 0
  let xx := x.mul x
  let px := (((((E.const PX1exp).mul xx).add (.const PX2exp)).mul xx).add (.const PX3exp)).mul x
  let qx := (((((((E.const QX1exp).mul xx).add (.const QX2exp)).mul xx).add (.const QX3exp)).mul xx).add (.const QX4exp))
  (E.const (lit 1.0)).add (.scale (lit 2.0) (px.div (qx.sub px)))

theorem expE_con (p : Policy) (x : F64) : expE.Con (fun _ => x) (expCoreC p x) := by
  unfold expE expCoreC
  con

def expPl : List ℚ := [0, PX3exp.val, 0, PX2exp.val, 0, PX1exp.val]
def expQl : List ℚ := [QX4exp.val, 0, QX3exp.val, 0, QX2exp.val, 0, QX1exp.val]
def expAl : List ℚ := padd expQl expPl
def expBl : List ℚ := psub expQl expPl
def expNl : List ℚ := psub (psub (pmul (pder expAl) expBl) (pmul expAl (pder expBl))) (pmul expAl expBl)

theorem exp_pos {x : ℝ} (h : |x| ≤ 0.35) : 1 ≤ pev expAl x ∧ 1 ≤ pev expBl x := by
  rw [abs_le] at h
  have h1 : ((-0.35 : ℚ) : ℝ) ≤ x := by push_cast; linarith
  have h2 : x ≤ ((0.35 : ℚ) : ℝ) := by push_cast; linarith
  constructor
  · exact_mod_cast plower_sound (p := expAl) (l := grid (-0.35) 0.35 4) (c := 1) (by decide +kernel) (by decide +kernel) h1 h2
  · exact_mod_cast plower_sound (p := expBl) (l := grid (-0.35) 0.35 4) (c := 1) (by decide +kernel) (by decide +kernel) h1 h2

/-- The rational function is `e^(x+δ)` with a tiny `δ`. -/
theorem exp_approx {x : ℝ} (h : |x| ≤ 0.35) :
    ∃ δ : ℝ, |δ| ≤ 2 ^ (-59 : ℤ) ∧ pev expAl x / pev expBl x = Real.exp (x + δ) := by
  have hp := exp_pos h
  have hA : 0 < pev expAl x := by linarith
  have hB : 0 < pev expBl x := by linarith
  refine ⟨Real.log (pev expAl x) - Real.log (pev expBl x) - x, ?_, ?_⟩
  · have key := mvt_bound (f := fun y => Real.log (pev expAl y) - Real.log (pev expBl y) - y)
      (f' := fun y => pev (pder expAl) y / pev expAl y - pev (pder expBl) y / pev expBl y - 1)
      (C := ((2 ^ (-58 : ℤ) : ℚ) : ℝ)) (x := x)
      (fun y hy => by
        have hy' := (mem_uIcc_abs hy).trans h
        have hq := exp_pos hy'
        exact (((hasDerivAt_pev expAl y).log (by linarith)).sub ((hasDerivAt_pev expBl y).log (by linarith))).sub (hasDerivAt_id y))
      (fun y hy => by
        have hy' := (mem_uIcc_abs hy).trans h
        have hq := exp_pos hy'
        have hA : 0 < pev expAl y := by linarith
        have hB : 0 < pev expBl y := by linarith
        have e : pev (pder expAl) y / pev expAl y - pev (pder expBl) y / pev expBl y - 1 =
            pev expNl y / (pev expAl y * pev expBl y) := by
          unfold expNl
          rw [pev_sub, pev_sub, pev_mul, pev_mul, pev_mul]
          field_simp
        rw [e, abs_div, abs_of_pos (mul_pos hA hB), div_le_iff₀ (mul_pos hA hB), ← pev_mul]
        rw [abs_le] at hy'
        exact pratio_sound (n := expNl) (d := pmul expAl expBl) (l := [-0.35, -31 / 256, 43 / 256, 0.35]) (a := -0.35) (b := 0.35)
          (by decide +kernel) (by decide +kernel) (by push_cast; linarith) (by push_cast; linarith))
    have e0 : pev expAl 0 = pev expBl 0 := by
      simp [expAl, expBl, expQl, expPl, pev_add, pev_sub]
    rw [e0] at key
    have hx1 : ((2 ^ (-58 : ℤ) : ℚ) : ℝ) * |x| ≤ 2 ^ (-59 : ℤ) := by
      have : ((2 ^ (-58 : ℤ) : ℚ) : ℝ) = 2 * 2 ^ (-59 : ℤ) := by push_cast; norm_num
      rw [this]
      have : (0 : ℝ) < 2 ^ (-59 : ℤ) := by positivity
      nlinarith
    have := key.trans hx1
    simpa using this
  · have : x + (Real.log (pev expAl x) - Real.log (pev expBl x) - x) = Real.log (pev expAl x / pev expBl x) := by
      rw [Real.log_div hA.ne' hB.ne']; ring
    rw [this, Real.exp_log (div_pos hA hB)]

theorem expE_real {x : ℝ} (h : |x| ≤ 0.35) : expE.evalR (fun _ => x) = pev expAl x / pev expBl x := by
  have hp := exp_pos h
  have hB : pev expBl x ≠ 0 := by linarith
  have e1 : (lit 1.0 : F64).real = 1 := by
    unfold FP.real; rw [show (lit 1.0 : F64).val = 1 by decide +kernel]; norm_num
  have e2 : (lit 2.0 : F64).real = 2 := by
    unfold FP.real; rw [show (lit 2.0 : F64).val = 2 by decide +kernel]; norm_num
  have hp1 : pev expPl x = ((PX1exp.real * (x * x) + PX2exp.real) * (x * x) + PX3exp.real) * x := by
    simp only [expPl, pev_cons, pev_nil, FP.real]; push_cast; ring
  have hq1 : pev expQl x = ((QX1exp.real * (x * x) + QX2exp.real) * (x * x) + QX3exp.real) * (x * x) + QX4exp.real := by
    simp only [expQl, pev_cons, pev_nil, FP.real]; push_cast; ring
  have hAe : pev expAl x = pev expQl x + pev expPl x := by unfold expAl; rw [pev_add]
  have hBe : pev expBl x = pev expQl x - pev expPl x := by unfold expBl; rw [pev_sub]
  simp only [expE, E.evalR]
  rw [e1, e2, ← hp1, ← hq1, hAe, hBe]
  rw [hBe] at hB
  field_simp
  ring

theorem expE_ok : covers (okRel b64 expE (2.8 * 2 ^ (-53 : ℤ))) [-0.3475, -15 / 64, 7 / 64, 0.3475] = true := by decide +kernel

/-- Rounding and approximation together: the core returns `e^z (1+ε)`. -/
theorem expCore_acc (p : Policy) {z : F64} (hz : z.isFinite = true) (h : |z.real| ≤ 0.3475) :
    (expCoreC p z).isFinite = true ∧ ∃ ε δ : ℝ, |ε| ≤ 2.8 * 2 ^ (-53 : ℤ) ∧ |δ| ≤ 2 ^ (-59 : ℤ) ∧
      (expCoreC p z).real = Real.exp (z.real + δ) * (1 + ε) := by
  have h' : |z.real| ≤ 0.35 := h.trans (by norm_num)
  rw [abs_le] at h
  obtain ⟨s, t, hst, h1, h2⟩ := covers_spans expE_ok (a := -0.3475) (b := 0.3475) (by decide +kernel)
    (x := z.real) (by push_cast; linarith) (by push_cast; linarith)
  have r := okRel_con (by positivity) hst hz h1 h2 (expE_con p z)
  rw [expE_real h'] at r
  generalize expCoreC p z = y at *
  obtain ⟨δ, hδ, he⟩ := exp_approx h'
  rw [he] at r
  have hp := Real.exp_pos (z.real + δ)
  refine ⟨r.1, y.real / Real.exp (z.real + δ) - 1, δ, ?_, hδ, ?_⟩
  · have : y.real / Real.exp (z.real + δ) - 1 = (y.real - Real.exp (z.real + δ)) / Real.exp (z.real + δ) := by
      field_simp
    rw [this, abs_div, abs_of_pos hp, div_le_iff₀ hp]
    refine r.2.trans (le_of_eq ?_)
    push_cast; rfl
  · field_simp; ring


theorem pow2n_table : ∀ i < 2046, (uint642dp ((BitVec.ofNat 64 (i + 1)) <<< 52)).isFinite = true ∧
    (uint642dp ((BitVec.ofNat 64 (i + 1)) <<< 52)).val = p2 ((i : ℤ) - 1022) := by decide +kernel

theorem pow2n_spec {n : ℤ} (h1 : -1022 ≤ n) (h2 : n ≤ 1023) : (pow2n n).isFinite = true ∧ (pow2n n).val = p2 n := by
  obtain ⟨i, hi⟩ : ∃ i : ℕ, n = (i : ℤ) - 1022 := ⟨(n + 1022).toNat, by omega⟩
  have t := pow2n_table i (by omega)
  have e : pow2n n = uint642dp ((BitVec.ofNat 64 (i + 1)) <<< 52) := by
    have e1 : BitVec.ofNat 64 (i + 1) = BitVec.ofInt 64 ((i : ℤ) + 1) := by
      rw [← BitVec.ofInt_natCast]; push_cast; rfl
    have e2 : BitVec.ofInt 64 n + 1023#64 = BitVec.ofNat 64 (i + 1) := by
      rw [e1, show (1023#64) = BitVec.ofInt 64 1023 by rfl, ← BitVec.ofInt_add, hi]
      exact congrArg _ (by ring)
    unfold pow2n
    rw [e2]
  rw [e, hi]; exact t

/-- The function after both conversions. -/
def expTailC (p : Policy) (x : F64) (n : ℤ) : F64 :=
  let r := expCoreC p (expReduceC p x (ofInt n)) * pow2n n
  let r := if FP.gt x EXP_LIMIT then inf false else r
  if FP.lt x (-EXP_LIMIT) then lit 0 else r

theorem fast_expC_eq (p : Policy) (x : F64) : fast_expC p x =
    if f2iDefined (mad (p 0) LOG2E x (lit 0.5)) then
      some (expTailC p x (expN (mad (p 0) LOG2E x (lit 0.5)) (mad (p 0) LOG2E x (lit 0.5)).sign))
    else none := by
  unfold fast_expC fast_expCM fpfloor
  dsimp only
  generalize mad (p 0) LOG2E x (lit 0.5) = a
  by_cases h : f2iDefined a = true
  · have hf : a.isFinite = true := by unfold f2iDefined at h; simp at h; exact h.1
    rw [if_pos h]
    simp only [strict, h, if_true, Option.pure_def, Option.bind_eq_bind, Option.bind_some]
    rw [sp_signbit, convert_sign (finite_not_nan hf)]
    have hn := ofInt32_f2i64 (wrap32_bound (truncRat a.val - (if a.sign then 1 else 0)))
    simp only [strict] at hn
    rw [hn]
    rfl
  · rw [if_neg h]
    have : f2iDefined a = false := by simpa using h
    simp [strict, this]

/-- The double-precision reduction. -/
theorem exp_reduce (p : Policy) {x : F64} (hx : x.isFinite = true) (h : |x.val| ≤ 708) :
    let a := mad (p 0) LOG2E x (lit 0.5)
    let n := expN a a.sign
    let z := expReduceC p x (ofInt n)
    f2iDefined a = true ∧ |n| ≤ 1021 ∧ z.isFinite = true ∧ |z.real| ≤ 0.3475 ∧
      |z.real - (x.real - n * Real.log 2)| ≤ 0.51 * 2 ^ (-53 : ℤ) := by
  intro a n z
  have r := reduce_int (p 0) (f := b64) (L := LOG2E) (h := lit 0.5) (X := 708) (M := 1023) (l := ln2Q) (N := 1021) hx h
    (by decide +kernel) (by decide +kernel) (by decide +kernel) (by decide +kernel) (by decide +kernel) (by decide +kernel)
    (by decide +kernel) (by decide +kernel) (by decide +kernel) (by decide +kernel)
  obtain ⟨r1, r2, r3⟩ := r
  change |n| ≤ 1021 at r2
  change |x.val - n * ln2Q| ≤ _ at r3
  have i := ofInt_spec64 (n := n) (by refine r2.trans ?_; norm_num)
  have r3' : |x.val - n * ln2Q| ≤ 0.3466 := r3.trans (by decide +kernel)
  have s := reduce_sub (p 1) (p 2) (f := b64) (c1 := lit 6.93145751953125E-1) (c2 := lit 1.42860682030941723212E-6) (N := 1021)
    (M1 := 0.36) (M2 := 0.0015) (M3 := 0.36) (k := 22713) (j := -15) hx i.1 i.2 (by decide +kernel) (by decide +kernel)
    (by exact_mod_cast r2) r3'
    (by decide +kernel) (by decide +kernel) (by decide +kernel) (by decide +kernel) (by decide +kernel) (by decide +kernel)
    (by decide +kernel) (by decide +kernel) (by decide +kernel) (by decide +kernel) (by decide +kernel) (by decide +kernel) (by decide +kernel)
  obtain ⟨s1, s2⟩ := s
  change z.isFinite = true at s1
  change |z.val - _| ≤ _ at s2
  have s3 : |z.val - (x.val - n * ln2Q)| ≤ 0.505 * p2 (-53) := s2.trans (by decide +kernel)
  have s4 : |z.val| ≤ 0.3475 := by
    have : (0.505 : ℚ) * p2 (-53) ≤ 0.0001 := by decide +kernel
    rw [abs_le] at *; constructor <;> linarith [s3.1, s3.2, r3'.1, r3'.2]
  refine ⟨r1, r2, s1, ?_, ?_⟩
  · have : ((|z.val| : ℚ) : ℝ) ≤ ((0.3475 : ℚ) : ℝ) := by exact_mod_cast s4
    push_cast at this; exact this
  · have hl := ln2_near
    have hn : |(n : ℝ)| ≤ 1021 := by exact_mod_cast r2
    have s5 : |z.real - (x.real - n * ln2Q)| ≤ ((0.505 * p2 (-53) : ℚ) : ℝ) := by
      unfold FP.real; exact_mod_cast s3
    have : z.real - (x.real - n * Real.log 2) = (z.real - (x.real - n * ln2Q)) + n * (Real.log 2 - ln2Q) := by ring
    rw [this]
    refine (abs_add_le _ _).trans ?_
    rw [abs_mul]
    have := mul_le_mul hn hl (_root_.abs_nonneg _) (by norm_num)
    rw [p2_eq] at s5
    push_cast at s5
    refine (add_le_add s5 this).trans ?_
    norm_num

/-- `e^t (1+ε)` is `1 + ε'`. -/
theorem exp_eps {t ε T e : ℝ} (ht : |t| ≤ T) (hT : T ≤ 1) (he : |ε| ≤ e) :
    |Real.exp t * (1 + ε) - 1| ≤ e + T + T ^ 2 + e * (T + T ^ 2) := by
  have h1 := Real.abs_exp_sub_one_sub_id_le (x := t) (ht.trans hT)
  have h2 : |Real.exp t - 1| ≤ T + T ^ 2 := by
    have : Real.exp t - 1 = (Real.exp t - 1 - t) + t := by ring
    rw [this]
    refine (abs_add_le _ _).trans ?_
    have : t ^ 2 ≤ T ^ 2 := by rw [← sq_abs]; exact pow_le_pow_left₀ (abs_nonneg _) ht 2
    linarith
  have : Real.exp t * (1 + ε) - 1 = (Real.exp t - 1) + ε + (Real.exp t - 1) * ε := by ring
  rw [this]
  refine (abs_add_le _ _).trans ?_
  have h3 := abs_add_le (Real.exp t - 1) ε
  have h4 : |(Real.exp t - 1) * ε| ≤ (T + T ^ 2) * e := by
    rw [abs_mul]
    exact mul_le_mul h2 he (abs_nonneg _) ((abs_nonneg _).trans h2)
  linarith

theorem real_exp_split (x : ℝ) (n : ℤ) : Real.exp x = Real.exp (x - n * Real.log 2) * 2 ^ n := by
  rw [← Real.rpow_intCast, Real.rpow_def_of_pos (by norm_num), ← Real.exp_add]
  congr 1; ring

theorem p2_real (n : ℤ) : ((p2 n : ℚ) : ℝ) = 2 ^ n := by rw [p2_eq]; push_cast; rfl

/-- Double precision, everything together. -/
theorem expC_acc (p : Policy) {x : F64} (hx : x.isFinite = true) (h : |x.val| ≤ 708) :
    ∃ y, fast_expC p x = some y ∧ y.isFinite = true ∧ 0 < y.val ∧ |y.real - Real.exp x.real| ≤ 2 ^ (-51 : ℤ) * Real.exp x.real := by
  obtain ⟨r1, r2, r3, r4, r5⟩ := exp_reduce p hx h
  rw [fast_expC_eq, if_pos r1]
  unfold expTailC
  generalize expN (mad (p 0) LOG2E x (lit 0.5)) (mad (p 0) LOG2E x (lit 0.5)).sign = n at *
  generalize expReduceC p x (ofInt n) = z at *
  obtain ⟨c1, ε, δ, c2, c3, c4⟩ := expCore_acc p r3 r4
  generalize expCoreC p z = c at *
  have hlo : (1 : ℝ) / 2 ≤ c.real := by
    have h1 : Real.exp (z.real + δ) ≥ 0.65 := by
      have := Real.add_one_le_exp (z.real + δ)
      have hδ : |δ| ≤ 0.001 := c3.trans (by norm_num)
      rw [abs_le] at r4 hδ; linarith
    have h2 : |ε| ≤ 0.001 := c2.trans (by norm_num)
    rw [abs_le] at h2
    rw [c4]; nlinarith
  have hhi : c.real ≤ 2 := by
    have h1 : Real.exp (z.real + δ) ≤ 1.9 := by
      have hδ : |δ| ≤ 0.001 := c3.trans (by norm_num)
      have ht : |z.real + δ| ≤ 0.35 := by rw [abs_le] at *; constructor <;> linarith
      have := Real.abs_exp_sub_one_sub_id_le (x := z.real + δ) (ht.trans (by norm_num))
      rw [abs_le] at this ht
      nlinarith
    have h2 : |ε| ≤ 0.001 := c2.trans (by norm_num)
    have h3 := Real.exp_pos (z.real + δ)
    rw [abs_le] at h2
    rw [c4]; nlinarith
  have hloq : (1 : ℚ) / 2 ≤ c.val := by
    have : (((1 : ℚ) / 2 : ℚ) : ℝ) ≤ ((c.val : ℚ) : ℝ) := by push_cast; exact hlo
    exact_mod_cast this
  have hhiq : c.val ≤ 2 := by unfold FP.real at hhi; exact_mod_cast hhi
  rw [abs_le] at r2
  have pw := pow2n_spec (n := n) (by omega) (by omega)
  have hp0 := p2_pos n
  have hbig : |c.val * p2 n| < 2 * b64.big := by
    rw [abs_of_pos (mul_pos (by linarith) hp0)]
    have h1 : p2 n ≤ p2 1021 := p2_le (by omega)
    have h2 : 2 * p2 1021 < 2 * b64.big := by decide +kernel
    nlinarith
  have mx := mul_p2_exact (j := -1) c1 pw.1 pw.2 (by
      rw [abs_of_pos (by linarith)]
      have : p2 (-1) = 1 / 2 := by decide +kernel
      rw [this]; exact hloq) (by have : b64.emin = -1022 := by decide
                                 rw [this]; omega) hbig
  have lim : FP.gt x EXP_LIMIT = false ∧ FP.lt x (-EXP_LIMIT) = false := by
    have lf : EXP_LIMIT.isFinite = true ∧ EXP_LIMIT.val = 708 := by decide +kernel
    rw [abs_le] at h
    rw [gt_fin hx lf.1, neg_def, lt_fin hx (by simpa using lf.1), val_neg, lf.2]
    simp; exact ⟨h.2, h.1⟩
  refine ⟨c * pow2n n, ?_, mx.1, ?_, ?_⟩
  · simp only [lim.1, lim.2, Bool.false_eq_true, if_false]
  · rw [mx.2]; exact mul_pos (by linarith) hp0
  · have hv : (c * pow2n n).real = c.real * 2 ^ n := by
      unfold FP.real; rw [mx.2]; push_cast; rw [p2_real]
    rw [hv, c4, real_exp_split x.real n]
    obtain ⟨t, ht⟩ : ∃ t, t = z.real + δ - (x.real - n * Real.log 2) := ⟨_, rfl⟩
    have e1 : Real.exp (z.real + δ) = Real.exp (x.real - n * Real.log 2) * Real.exp t := by
      rw [← Real.exp_add, ht]; exact congrArg _ (by ring)
    have tb : |t| ≤ 0.53 * 2 ^ (-53 : ℤ) := by
      have : t = (z.real - (x.real - n * Real.log 2)) + δ := by rw [ht]; ring
      rw [this]
      refine (abs_add_le _ _).trans ((add_le_add r5 c3).trans ?_)
      norm_num
    have ee := exp_eps tb (by norm_num) c2
    have hE := Real.exp_pos (x.real - n * Real.log 2)
    have h2n : (0 : ℝ) < 2 ^ n := by positivity
    have : Real.exp (z.real + δ) * (1 + ε) * 2 ^ n - Real.exp (x.real - n * Real.log 2) * 2 ^ n =
        (Real.exp t * (1 + ε) - 1) * (Real.exp (x.real - n * Real.log 2) * 2 ^ n) := by rw [e1]; ring
    rw [this, abs_mul, abs_of_pos (mul_pos hE h2n)]
    refine mul_le_mul_of_nonneg_right (ee.trans ?_) (mul_pos hE h2n).le
    norm_num

theorem exp_acc {x : F64} (hx : x.isFinite = true) (h : |x.val| ≤ 708) :
    ∃ y, fast_exp x = some y ∧ y.isFinite = true ∧ 0 < y.val ∧ |y.real - Real.exp x.real| ≤ 2 ^ (-51 : ℤ) * Real.exp x.real := by
  have r := expC_acc (fun _ => false) hx h
  rwa [fast_exp_plain] at r

end Vdt
