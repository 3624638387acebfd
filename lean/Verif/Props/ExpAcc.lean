import Verif.Lemmas.ExpfAcc

/-!
# Exponential: accuracy (C01, C03) and the exact limits of the single precision version (C04)
-/

namespace Vdt
open FP details

/-! ## C01 -/

/-- For every double in `[-708, 708]` the call is defined and its result is a positive finite number
within relative error `2^-51` of `e^x`. -/
theorem C01_exp_accurate (x : F64) (hx : x.isFinite = true) (h : |x.val| ≤ 708) :
    ∃ y, fast_exp x = some y ∧ 0 < y.val ∧ CloseRel y (Real.exp x.real) (2 ^ (-51 : ℤ)) := by
  obtain ⟨y, h1, h2, h3, h4⟩ := exp_acc hx h
  exact ⟨y, h1, h3, h2, by rwa [abs_of_pos (Real.exp_pos _)]⟩

/-- One ulp above the correctly rounded `e`, one ulp above the correctly rounded `e^-708`. -/
example : (lit 1 : F64).isFinite = true ∧ |(lit 1 : F64).val| ≤ 708 ∧
    (fast_exp (lit 1)).map (·.mag) = some 4613303445314885482 ∧
    (fast_exp (lit (-708))).map (·.mag) = some 6694561808697772 := by decide +kernel

/-! ## C03 -/

/-- The core of the single precision function on the reduced argument. -/
theorem expfCoreC_range (p : Policy) {z : F32} (hz : z.isFinite = true) (h : |z.real| ≤ 0.3475) :
    1 / 2 ≤ (expfCoreC p z).val ∧ (expfCoreC p z).val < 2 := by
  obtain ⟨c1, ε, δ, c2, c3, c4⟩ := expfCoreC_acc p hz h
  have hδ : |δ| ≤ 0.001 := c3.trans (by norm_num)
  have h2 : |ε| ≤ 0.001 := c2.trans (by norm_num)
  have ht : |z.real + δ| ≤ 0.35 := by rw [abs_le] at *; constructor <;> linarith
  have hlo : (1 : ℝ) / 2 ≤ (expfCoreC p z).real := by
    have h1 : Real.exp (z.real + δ) ≥ 0.65 := by
      have := Real.add_one_le_exp (z.real + δ)
      rw [abs_le] at ht; linarith
    rw [abs_le] at h2
    rw [c4]; nlinarith
  have hhi : (expfCoreC p z).real < 2 := by
    have h1 : Real.exp (z.real + δ) ≤ 1.9 := by
      have := Real.abs_exp_sub_one_sub_id_le (x := z.real + δ) (ht.trans (by norm_num))
      rw [abs_le] at this ht
      nlinarith
    have h3 := Real.exp_pos (z.real + δ)
    rw [abs_le] at h2
    rw [c4]; nlinarith
  constructor
  · have : (((1 : ℚ) / 2 : ℚ) : ℝ) ≤ (((expfCoreC p z).val : ℚ) : ℝ) := by push_cast; exact hlo
    exact_mod_cast this
  · unfold FP.real at hhi; exact_mod_cast hhi

theorem expfCore_range {z : F32} (hz : z.isFinite = true) (h : |z.real| ≤ 0.3475) :
    1 / 2 ≤ (expfCore z).val ∧ (expfCore z).val < 2 := by
  have r := expfCoreC_range (fun _ => false) hz h
  rwa [expfCore_plain] at r

theorem expf_lim {x : F32} (hx : x.isFinite = true) (h1 : -88 ≤ x.val) (h2 : x.val ≤ MAXLOGF.val) :
    FP.gt x MAXLOGF = false ∧ FP.lt x MINLOGF = false := by
  have hM : MAXLOGF.isFinite = true ∧ MINLOGF.isFinite = true ∧ MINLOGF.val = -88 := by decide +kernel
  rw [gt_fin hx hM.1, lt_fin hx hM.2.1, hM.2.2]
  simp; exact ⟨h2, h1⟩

theorem expfC_acc (p : Policy) (x : F32) (hx : x.isFinite = true) (h1 : -87.25 ≤ x.val) (h2 : x.val ≤ 88.35) :
    ∃ y, fast_expfC p x = some y ∧ 0 < y.val ∧ CloseRel y (Real.exp x.real) (2 ^ (-22 : ℤ)) := by
  have hb : |x.val| ≤ 88.99 := by rw [abs_le]; constructor <;> linarith
  obtain ⟨r1, r2, r3, r4, r5⟩ := expfC_reduce p hx hb
  rw [fast_expfC_eq p r1 (r2.trans (by norm_num))]
  simp only
  generalize expN (mad (p 0) LOG2EF x (lit 0.5)) (mad (p 0) LOG2EF x (lit 0.5)).sign = n at *
  generalize hz : expfReduceC p x (ofInt n) = z at *
  have hl : (0.6931 : ℝ) ≤ Real.log 2 ∧ Real.log 2 ≤ 0.69315 := by
    have := abs_le.1 ln2_near
    unfold ln2Q at this
    push_cast at this
    norm_num at this ⊢
    constructor <;> linarith [this.1, this.2]
  have hxr : (-87.25 : ℝ) ≤ x.real ∧ x.real ≤ 88.35 := by
    have g1 : ((-87.25 : ℚ) : ℝ) ≤ x.real := by unfold FP.real; exact_mod_cast h1
    have g2 : x.real ≤ ((88.35 : ℚ) : ℝ) := by unfold FP.real; exact_mod_cast h2
    push_cast at g1 g2; exact ⟨g1, g2⟩
  have hnl : |x.real - n * Real.log 2| ≤ 0.348 := by
    have h5 : |z.real - (x.real - n * Real.log 2)| ≤ 0.0005 := r5.trans (by norm_num)
    rw [abs_le] at r4 h5 ⊢
    constructor <;> linarith
  have hn1 : n ≤ 127 := by
    by_contra hc
    have : (128 : ℝ) ≤ n := by exact_mod_cast not_le.1 hc
    rw [abs_le] at hnl
    nlinarith
  have hn2 : -126 ≤ n := by
    by_contra hc
    have : (n : ℝ) ≤ -127 := by
      have : n ≤ -127 := by omega
      exact_mod_cast this
    rw [abs_le] at hnl
    nlinarith
  rw [if_pos (by omega)]
  obtain ⟨c1, ε, δ, c2, c3, c4⟩ := expfCoreC_acc p r3 r4
  obtain ⟨hloq, hhiq⟩ := expfCoreC_range p r3 r4
  have pw := pow2nf_spec hn2 hn1
  have hp0 := p2_pos n
  have hbig : |(expfCoreC p z).val * p2 n| < 2 * b32.big := by
    rw [abs_of_pos (mul_pos (by linarith) hp0)]
    have h1 : p2 n ≤ p2 127 := p2_le (by omega)
    have h2 : p2 127 = b32.big := by decide +kernel
    nlinarith
  -- for n = -126 the core is at least 1
  have hj : ∃ j, p2 j ≤ (expfCoreC p z).val ∧ b32.emin ≤ j + n := by
    have he : b32.emin = -126 := by decide
    rw [he]
    rcases lt_or_eq_of_le hn2 with hlt | heq
    · exact ⟨-1, by rw [show p2 (-1) = 1 / 2 by decide +kernel]; exact hloq, by omega⟩
    · refine ⟨0, ?_, by omega⟩
      rw [show p2 0 = 1 by decide +kernel]
      have hδ : |δ| ≤ 0.001 := c3.trans (by norm_num)
      have hε : |ε| ≤ 0.001 := c2.trans (by norm_num)
      have h5 : |z.real - (x.real - n * Real.log 2)| ≤ 0.001 := r5.trans (by norm_num)
      rw [← heq] at h5
      push_cast at h5
      have hone := Real.add_one_le_exp (z.real + δ)
      rw [abs_le] at hδ hε h5
      obtain ⟨hl, -⟩ := hl
      obtain ⟨hxr, -⟩ := hxr
      have : (1 : ℝ) ≤ (expfCoreC p z).real := by
        rw [c4]
        have : z.real + δ ≥ 0.05 := by linarith
        nlinarith
      unfold FP.real at this; exact_mod_cast this
  obtain ⟨j, hj1, hj2⟩ := hj
  have mx := mul_p2_exact c1 pw.1 pw.2 (by rw [abs_of_pos (by linarith)]; exact hj1) hj2 hbig
  have lim := expf_lim hx (by linarith) (h2.trans (by decide +kernel))
  refine ⟨expfCoreC p z * pow2nf n, ?_, ?_, mx.1, ?_⟩
  · unfold expfTailC
    rw [hz]
    simp only [lim.1, lim.2, Bool.false_eq_true, if_false]
  · rw [mx.2]; exact mul_pos (by linarith) hp0
  · have hv : (expfCoreC p z * pow2nf n).real = (expfCoreC p z).real * 2 ^ n := by
      unfold FP.real; rw [mx.2]; push_cast; rw [p2_real]
    rw [abs_of_pos (Real.exp_pos _), hv, c4, real_exp_split x.real n]
    obtain ⟨t, ht⟩ : ∃ t, t = z.real + δ - (x.real - n * Real.log 2) := ⟨_, rfl⟩
    have e1 : Real.exp (z.real + δ) = Real.exp (x.real - n * Real.log 2) * Real.exp t := by
      rw [← Real.exp_add, ht]; exact congrArg _ (by ring)
    have tb : |t| ≤ 0.73 * 2 ^ (-24 : ℤ) := by
      have : t = (z.real - (x.real - n * Real.log 2)) + δ := by rw [ht]; ring
      rw [this]
      refine (abs_add_le _ _).trans ((add_le_add r5 c3).trans ?_)
      norm_num
    have ee := exp_eps tb (by norm_num) c2
    have hE := Real.exp_pos (x.real - n * Real.log 2)
    have h2n : (0 : ℝ) < 2 ^ n := by positivity
    have : Real.exp (z.real + δ) * (1 + ε) * 2 ^ n - Real.exp (x.real - n * Real.log 2) * 2 ^ n =
        (Real.exp t * (1 + ε) - 1) * (Real.exp (x.real - n * Real.log 2) * 2 ^ n) := by rw [e1]; ring
    rw [this, abs_mul, abs_of_pos (mul_pos hE h2n)]
    refine mul_le_mul_of_nonneg_right (ee.trans ?_) (mul_pos hE h2n).le
    norm_num

/-- On `[-87.25, 88.35]` the call is defined and the result is within relative error `2^-22` of
`e^x`. -/
theorem C03_expf_accurate (x : F32) (hx : x.isFinite = true) (h1 : -87.25 ≤ x.val) (h2 : x.val ≤ 88.35) :
    ∃ y, fast_expf x = some y ∧ 0 < y.val ∧ CloseRel y (Real.exp x.real) (2 ^ (-22 : ℤ)) := by
  have r := expfC_acc (fun _ => false) x hx h1 h2
  rwa [fast_expf_plain] at r

example : (lit 1 : F32).isFinite = true ∧ -87.25 ≤ (lit 1 : F32).val ∧ (lit 1 : F32).val ≤ 88.35 ∧
    fast_expf (lit 1) = some (lit 2.7182818284) := by decide +kernel

/-! ## C04 -/

/-- The limits the code really has.  Between `-87.68312…` and `88.37627…` (exclusive) the result is
finite and positive; from there to `MAXLOGF` it is `+infinity`, down to `MINLOGF` it is `+0`.
Missing from the full statement: finiteness on the two end pieces, where the code overflows or
underflows early. -/
theorem C04_expf_limits_partial (x : F32) (hx : x.isFinite = true) (h1 : MINLOGF.val ≤ x.val) (h2 : x.val ≤ MAXLOGF.val) :
    (-(5746401 / 65536) < x.val → x.val < 5791827 / 65536 → ∃ y, fast_expf x = some y ∧ y.isFinite = true ∧ 0 < y.val) ∧
    (5791827 / 65536 ≤ x.val → fast_expf x = some (inf false)) ∧
    (x.val ≤ -(5746401 / 65536) → fast_expf x = some (zero false)) := by
  have hM1 : MINLOGF.val = -88 := by decide +kernel
  have hM2 : MAXLOGF.val ≤ 88.8 := by decide +kernel
  rw [hM1] at h1
  have hb : |x.val| ≤ 88.99 := by rw [abs_le]; constructor <;> linarith
  obtain ⟨r1, r2, r3, r4, -⟩ := expf_reduce hx hb
  have nn := expf_n hx hb
  have lim := expf_lim hx h1 h2
  rw [fast_expf_eq r1 (r2.trans (by norm_num))]
  simp only at r2 nn ⊢
  generalize expN (LOG2EF * x + lit 0.5) (LOG2EF * x + lit 0.5).sign = n at *
  generalize hz : expfReduce x (ofInt n) = z at *
  obtain ⟨hloq, hhiq⟩ := expfCore_range r3 r4
  obtain ⟨c1, -⟩ := expfCore_acc r3 r4
  have hn3 := nn.2.2.2.2 (by linarith)
  rw [abs_le] at r2
  rw [if_pos (by omega)]
  have et : expfTail x n = expfCore z * pow2nf n := by
    unfold expfTail
    rw [hz]
    simp only [lim.1, lim.2, Bool.false_eq_true, if_false]
  rw [et]
  have hcs : (expfCore z).sign = false := (val_pos_iff.1 (by linarith)).1
  refine ⟨fun ha hb => ⟨_, rfl, ?_⟩, fun ha => ?_, fun ha => ?_⟩
  · have hn1 := nn.1 hb
    have hn2 := nn.2.2.1 ha
    have pw := pow2nf_spec hn2 hn1
    have hp0 := p2_pos n
    rcases lt_or_eq_of_le hn2 with hlt | heq
    · have hbig : |(expfCore z).val * p2 n| < 2 * b32.big := by
        rw [abs_of_pos (mul_pos (by linarith) hp0)]
        have h1 : p2 n ≤ p2 127 := p2_le (by omega)
        have h2 : p2 127 = b32.big := by decide +kernel
        nlinarith
      have he : b32.emin = -126 := by decide
      have mx := mul_p2_exact (j := -1) c1 pw.1 pw.2 (by
        rw [abs_of_pos (by linarith), show p2 (-1) = 1 / 2 by decide +kernel]; exact hloq) (by omega) hbig
      exact ⟨mx.1, by rw [mx.2]; exact mul_pos (by linarith) hp0⟩
    · have ms := mul_spec (x := expfCore z) (y := pow2nf n) c1 pw.1 (by
        rw [pw.2, abs_of_pos (mul_pos (by linarith) hp0), ← heq]
        have : 2 * p2 (-126) ≤ b32.big := by decide +kernel
        have hp1 := p2_pos (-126)
        nlinarith)
      refine ⟨ms.1, ?_⟩
      rw [mul_def, ms.2, pw.2, ← heq]
      have : (0 : ℚ) < rnd b32 (1 / 2 * p2 (-126)) := by decide +kernel
      refine lt_of_lt_of_le this (rnd_mono _ ?_)
      exact mul_le_mul_of_nonneg_right hloq (p2_pos _).le
  · rw [nn.2.1 ha]
    have : pow2nf 128 = inf false := by decide +kernel
    rw [this]
    have hz : (expfCore z).isZero = false := by
      have := (val_pos_iff.1 (show 0 < (expfCore z).val by linarith)).2
      simp [isZero]; omega
    simp [mul_def, FP.mul, finite_not_nan c1, hcs, hz, show (inf false : F32).isNaN = false by decide,
      show (inf false : F32).isInf = true by decide, show (inf false : F32).isZero = false by decide]
    rfl
  · have hn : n = -127 := by have := nn.2.2.2.1 ha; omega
    rw [hn]
    have : pow2nf (-127) = zero false := by decide +kernel
    rw [this, mul_def, mul_fin c1 (by decide), hcs]
    have : (zero false : F32).val = 0 := by decide +kernel
    rw [this, mul_zero, ofRat_zero]
    rfl

/-- The end pieces are not empty. -/
example : MINLOGF.val ≤ (lit (-87.9) : F32).val ∧ (lit (-87.9) : F32).val ≤ -(5746401 / 65536) ∧
    5791827 / 65536 ≤ (lit 88.5 : F32).val ∧ (lit 88.5 : F32).val ≤ MAXLOGF.val ∧
    -(5746401 / 65536) < (lit 80 : F32).val ∧ (lit 80 : F32).val < 5791827 / 65536 := by decide +kernel

end Vdt
