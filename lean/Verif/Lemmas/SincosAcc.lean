import Verif.Float.Contract
import Verif.Real.Taylor
import Verif.Lemmas.QuadReduce
import Mathlib.Analysis.SpecialFunctions.Trigonometric.Bounds

/-! # Accuracy of sine and cosine: the two polynomials on the reduced interval -/

namespace Vdt
open FP details

/-! ## Double precision -/

/-- include/sincos.h:119-124, sine, as an expression. -/
def sinE : E b64 :=
  let zz := (E.var 0).mul (.var 0)
  let px := (((((E.const C1sin).mul zz).add (.const C2sin)).mul zz).add (.const C3sin)).mul zz
  let px := (((px.add (.const C4sin)).mul zz).add (.const C5sin)).mul zz
  (E.var 1).add (((E.var 1).mul zz).mul (px.add (.const C6sin)))

/-- include/sincos.h:119-124, cosine, as an expression. -/
def cosE : E b64 :=
  let zz := (E.var 0).mul (.var 0)
  let px := (((((E.const C1cos).mul zz).add (.const C2cos)).mul zz).add (.const C3cos)).mul zz
  let px := (((px.add (.const C4cos)).mul zz).add (.const C5cos)).mul zz
  ((E.const (lit 1.0)).sub (zz.scaleR (lit 0.5))).add ((zz.mul zz).mul (px.add (.const C6cos)))

theorem sinE_eq (x : F64) : sinE.evalF (fun _ => x) = (fast_sincos_m45_45 x).1 := rfl
theorem cosE_eq (x : F64) : cosE.evalF (fun _ => x) = (fast_sincos_m45_45 x).2 := rfl

theorem sinE_con (p : Policy) (x : F64) : sinE.Con (fun _ => x) (sincosCoreC p x).1 := by
  unfold sinE sincosCoreC get_sin_pxC
  con
theorem cosE_con (p : Policy) (x : F64) : cosE.Con (fun _ => x) (sincosCoreC p x).2 := by
  unfold cosE sincosCoreC get_cos_pxC
  con

theorem sincosCoreC_plain (z : F64) : sincosCoreC (fun _ => false) z = fast_sincos_m45_45 z := by
  plain [sincosCoreC, fast_sincos_m45_45, get_sin_pxC, get_cos_pxC, get_sin_px, get_cos_px]

def sinPl : List ℚ := [1, C6sin.val, C5sin.val, C4sin.val, C3sin.val, C2sin.val, C1sin.val]
def cosPl : List ℚ := [1, -1/2, C6cos.val, C5cos.val, C4cos.val, C3cos.val, C2cos.val, C1cos.val]

theorem lit1_real : (lit 1.0 : F64).real = 1 := by
  unfold FP.real; rw [show (lit 1.0 : F64).val = 1 by decide +kernel]; norm_num

theorem lit05_real : (lit 0.5 : F64).real = 1 / 2 := by
  unfold FP.real; rw [show (lit 0.5 : F64).val = 1 / 2 by decide +kernel]; norm_num

theorem sinE_real (x : ℝ) : sinE.evalR (fun _ => x) = x * pev sinPl (x * x) := by
  simp only [sinE, E.evalR, sinPl, pev_cons, pev_nil, FP.real]
  push_cast
  ring

theorem cosE_real (x : ℝ) : cosE.evalR (fun _ => x) = pev cosPl (x * x) := by
  simp only [cosE, E.evalR, cosPl, pev_cons, pev_nil, lit1_real, lit05_real]
  simp only [FP.real]
  push_cast
  ring

theorem sq_range {x : ℝ} (h : |x| ≤ 0.787) : ((0 : ℚ) : ℝ) ≤ x * x ∧ x * x ≤ ((0.62 : ℚ) : ℝ) := by
  rw [abs_le] at h
  refine ⟨by push_cast; exact mul_self_nonneg x, ?_⟩
  push_cast
  nlinarith

theorem sin_approx {x : ℝ} (h : |x| ≤ 0.787) : |x * pev sinPl (x * x) - Real.sin x| ≤ 0.13 * 2 ^ (-53 : ℤ) * |x| := by
  have t := sin_taylor (h.trans (by norm_num))
  have hw := sq_range h
  have p := pratio_sound (n := psub sinPl sinTl) (d := [1]) (C := 0.12 * 2 ^ (-53 : ℤ)) (l := grid 0 0.62 12) (a := 0) (b := 0.62)
    (by decide +kernel) (by decide +kernel) hw.1 hw.2
  rw [pev_sub] at p
  have e : x * pev sinPl (x * x) - Real.sin x = x * (pev sinPl (x * x) - pev sinTl (x * x)) - (Real.sin x - x * pev sinTl (x * x)) := by ring
  rw [e]
  refine (abs_sub _ _).trans ?_
  rw [abs_mul]
  have := mul_le_mul_of_nonneg_left p (abs_nonneg x)
  refine (add_le_add this t).trans ?_
  simp only [pev_cons, pev_nil]
  push_cast
  rw [mul_comm]
  have : (0 : ℝ) ≤ |x| := abs_nonneg x
  rw [← add_mul]
  apply mul_le_mul_of_nonneg_right _ this
  norm_num

theorem cos_approx {x : ℝ} (h : |x| ≤ 0.787) : |pev cosPl (x * x) - Real.cos x| ≤ 0.05 * 2 ^ (-53 : ℤ) := by
  have t := cos_taylor (h.trans (by norm_num))
  have hw := sq_range h
  have p := pratio_sound (n := psub cosPl cosTl) (d := [1]) (C := 0.015 * 2 ^ (-53 : ℤ)) (l := grid 0 0.62 12) (a := 0) (b := 0.62)
    (by decide +kernel) (by decide +kernel) hw.1 hw.2
  rw [pev_sub] at p
  have e : pev cosPl (x * x) - Real.cos x = (pev cosPl (x * x) - pev cosTl (x * x)) - (Real.cos x - pev cosTl (x * x)) := by ring
  rw [e]
  refine (abs_sub _ _).trans ((add_le_add p t).trans ?_)
  simp only [pev_cons, pev_nil]
  push_cast
  norm_num

theorem sinE_ok : covers (okLin b64 sinE (1.3 * 2 ^ (-53 : ℤ)) 2.2) [-787 / 1000, -21 / 32, 31 / 64, 47 / 64, 787 / 1000] = true := by decide +kernel
theorem cosE_ok : covers (okAbs b64 cosE (2.01 * 2 ^ (-53 : ℤ))) [-787 / 1000, -1 / 64, 11 / 64, 787 / 1000] = true := by decide +kernel

/-- Double precision on the reduced interval: the error of the sine is relative to the argument. -/
theorem sincosC_core (p : Policy) {z : F64} (hz : z.isFinite = true) (h : |z.real| ≤ 0.787) :
    (sincosCoreC p z).1.isFinite = true ∧ (sincosCoreC p z).2.isFinite = true ∧
    |(sincosCoreC p z).1.real - Real.sin z.real| ≤ 1.43 * 2 ^ (-53 : ℤ) * |z.real| + 2.2 * b64.eta ∧
    |(sincosCoreC p z).2.real - Real.cos z.real| ≤ 2.06 * 2 ^ (-53 : ℤ) := by
  have a1 := sin_approx h
  have a2 := cos_approx h
  rw [abs_le] at h
  obtain ⟨s, t, hst, h1, h2⟩ := covers_spans sinE_ok (a := -0.787) (b := 0.787) (by decide +kernel)
    (x := z.real) (by push_cast; linarith) (by push_cast; linarith)
  have r := okLin_con hst hz h1 h2 (sinE_con p z)
  rw [sinE_real] at r
  obtain ⟨s', t', hst', h1', h2'⟩ := covers_spans cosE_ok (a := -0.787) (b := 0.787) (by decide +kernel)
    (x := z.real) (by push_cast; linarith) (by push_cast; linarith)
  have r' := okAbs_con hst' hz h1' h2' (cosE_con p z)
  rw [cosE_real] at r'
  refine ⟨r.1, r'.1, ?_, ?_⟩
  · have e := (abs_sub_le _ _ (Real.sin z.real)).trans (add_le_add r.2 a1)
    refine e.trans (le_of_eq ?_)
    push_cast; ring
  · have e := (abs_sub_le _ _ (Real.cos z.real)).trans (add_le_add r'.2 a2)
    refine e.trans (le_of_eq ?_)
    push_cast; ring

theorem sincos_core {z : F64} (hz : z.isFinite = true) (h : |z.real| ≤ 0.787) :
    (fast_sincos_m45_45 z).1.isFinite = true ∧ (fast_sincos_m45_45 z).2.isFinite = true ∧
    |(fast_sincos_m45_45 z).1.real - Real.sin z.real| ≤ 1.43 * 2 ^ (-53 : ℤ) * |z.real| + 2.2 * b64.eta ∧
    |(fast_sincos_m45_45 z).2.real - Real.cos z.real| ≤ 2.06 * 2 ^ (-53 : ℤ) := by
  have r := sincosC_core (fun _ => false) hz h
  rwa [sincosCoreC_plain] at r

/-! ## Putting the octants together -/

theorem andI_table {m : ℕ} (hm : (m : ℚ) ≤ 1073741823) :
    andI (2 * m) 4 = 4 * ((m / 2 % 2 : ℕ) : ℤ) ∧ andI (2 * m - 2) 4 = 4 * (((m + 3) / 2 % 2 : ℕ) : ℤ) ∧
    andI (2 * m - 2) 2 = 2 * (((m + 3) % 2 : ℕ) : ℤ) := by
  have hm' : m ≤ 1073741823 := by exact_mod_cast hm
  refine ⟨?_, ?_, ?_⟩
  · rw [andI_four (by omega) (by omega)]; omega
  · rcases Nat.eq_zero_or_pos m with h | h
    · subst h; decide
    · rw [andI_four (by omega) (by omega)]; omega
  · rcases Nat.eq_zero_or_pos m with h | h
    · subst h; decide
    · rw [andI_two (by omega) (by omega)]; omega

theorem neg_real {f : Fmt} (x : FP f) : (FP.neg x).real = -x.real := by
  unfold FP.real; rw [val_neg]; push_cast; rfl

theorem sincosTail_eq {f : Fmt} (sc : FP f × FP f) {m : ℕ} (hm : (m : ℚ) ≤ 1073741823) (neg : Bool) :
    sincosTail sc (2 * m) neg =
      ((fun s => if neg then FP.neg s else s) (if m % 4 = 0 then sc.1 else if m % 4 = 1 then sc.2 else if m % 4 = 2 then FP.neg sc.1 else FP.neg sc.2),
       (if m % 4 = 0 then sc.2 else if m % 4 = 1 then FP.neg sc.1 else if m % 4 = 2 then FP.neg sc.2 else sc.1)) := by
  obtain ⟨t1, t2, t3⟩ := andI_table hm
  unfold sincosTail
  rw [t1, t2, t3]
  have : m % 4 = 0 ∨ m % 4 = 1 ∨ m % 4 = 2 ∨ m % 4 = 3 := by omega
  rcases this with h | h | h | h
  · have e1 : m / 2 % 2 = 0 := by omega
    have e2 : (m + 3) / 2 % 2 = 1 := by omega
    have e3 : (m + 3) % 2 = 1 := by omega
    simp [h, e1, e2, e3]
  · have e1 : m / 2 % 2 = 0 := by omega
    have e2 : (m + 3) / 2 % 2 = 0 := by omega
    have e3 : (m + 3) % 2 = 0 := by omega
    simp [h, e1, e2, e3]
  · have e1 : m / 2 % 2 = 1 := by omega
    have e2 : (m + 3) / 2 % 2 = 0 := by omega
    have e3 : (m + 3) % 2 = 1 := by omega
    simp [h, e1, e2, e3]
  · have e1 : m / 2 % 2 = 1 := by omega
    have e2 : (m + 3) / 2 % 2 = 1 := by omega
    have e3 : (m + 3) % 2 = 0 := by omega
    simp [h, e1, e2, e3]

/-- Sine and cosine of `t + m π/2`. -/
theorem quadrant_trig (t : ℝ) (m : ℕ) :
    (Real.sin (t + m * (Real.pi / 2)) = if m % 4 = 0 then Real.sin t else if m % 4 = 1 then Real.cos t else if m % 4 = 2 then -Real.sin t else -Real.cos t) ∧
    (Real.cos (t + m * (Real.pi / 2)) = if m % 4 = 0 then Real.cos t else if m % 4 = 1 then -Real.sin t else if m % 4 = 2 then -Real.cos t else Real.sin t) := by
  induction m with
  | zero => simp
  | succ m ih =>
    have e : t + ((m + 1 : ℕ) : ℝ) * (Real.pi / 2) = (t + m * (Real.pi / 2)) + Real.pi / 2 := by push_cast; ring
    rw [e, Real.sin_add_pi_div_two, Real.cos_add_pi_div_two, ih.1, ih.2]
    have : m % 4 = 0 ∨ m % 4 = 1 ∨ m % 4 = 2 ∨ m % 4 = 3 := by omega
    rcases this with h | h | h | h
    · have h' : (m + 1) % 4 = 1 := by omega
      simp [h, h']
    · have h' : (m + 1) % 4 = 2 := by omega
      simp [h, h']
    · have h' : (m + 1) % 4 = 3 := by omega
      simp [h, h']
    · have h' : (m + 1) % 4 = 0 := by omega
      simp [h, h']

theorem sin_lip (a b : ℝ) : |Real.sin a - Real.sin b| ≤ |a - b| := Real.abs_sin_sub_sin_le a b

theorem cos_lip (a b : ℝ) : |Real.cos a - Real.cos b| ≤ |a - b| := by
  rw [← Real.sin_pi_div_two_sub, ← Real.sin_pi_div_two_sub]
  refine (sin_lip _ _).trans (le_of_eq ?_)
  rw [abs_sub_comm]; congr 1; ring

/-- The final selection and sign changes turn the reduced sine and cosine into those of `x`. -/
theorem tail_acc {f : Fmt} {sc : FP f × FP f} {x z K D : ℝ} {m : ℕ} {neg : Bool} (hm : (m : ℚ) ≤ 1073741823)
    (f1 : sc.1.isFinite = true) (f2 : sc.2.isFinite = true)
    (h1 : |sc.1.real - Real.sin z| ≤ K) (h2 : |sc.2.real - Real.cos z| ≤ K)
    (hz : |z - (|x| - m * (Real.pi / 2))| ≤ D) (hneg : neg = true ↔ x < 0) :
    (sincosTail sc (2 * m) neg).1.isFinite = true ∧ (sincosTail sc (2 * m) neg).2.isFinite = true ∧
    |(sincosTail sc (2 * m) neg).1.real - Real.sin x| ≤ K + D ∧
    |(sincosTail sc (2 * m) neg).2.real - Real.cos x| ≤ K + D := by
  obtain ⟨t, ht⟩ : ∃ t, t = |x| - m * (Real.pi / 2) := ⟨_, rfl⟩
  rw [← ht] at hz
  have hs : |sc.1.real - Real.sin t| ≤ K + D := (abs_sub_le _ (Real.sin z) _).trans (add_le_add h1 ((sin_lip _ _).trans hz))
  have hc : |sc.2.real - Real.cos t| ≤ K + D := (abs_sub_le _ (Real.cos z) _).trans (add_le_add h2 ((cos_lip _ _).trans hz))
  have hs' : |(FP.neg sc.1).real - -Real.sin t| ≤ K + D := by
    rw [neg_real, ← abs_neg]; refine le_trans (le_of_eq ?_) hs; congr 1; ring
  have hc' : |(FP.neg sc.2).real - -Real.cos t| ≤ K + D := by
    rw [neg_real, ← abs_neg]; refine le_trans (le_of_eq ?_) hc; congr 1; ring
  have ft := quadrant_trig t m
  have e : t + m * (Real.pi / 2) = |x| := by rw [ht]; ring
  rw [e] at ft
  have f1' : (FP.neg sc.1).isFinite = true := by simpa using f1
  have f2' : (FP.neg sc.2).isFinite = true := by simpa using f2
  have hcosx : Real.cos x = Real.cos |x| := (Real.cos_abs x).symm
  rw [sincosTail_eq sc hm, hcosx]
  have main : ∀ S : FP f, S.isFinite = true → |S.real - Real.sin (|x|)| ≤ K + D →
      (if neg = true then FP.neg S else S).isFinite = true ∧ |(if neg = true then FP.neg S else S).real - Real.sin x| ≤ K + D := by
    intro S hS hb
    by_cases hn : neg = true
    · rw [if_pos hn]
      have hx := hneg.1 hn
      rw [abs_of_neg hx, Real.sin_neg] at hb
      refine ⟨by simpa using hS, ?_⟩
      rw [neg_real, ← abs_neg]; refine le_trans (le_of_eq ?_) hb; congr 1; ring
    · rw [if_neg hn]
      have hx : ¬ x < 0 := fun h => hn (hneg.2 h)
      rw [abs_of_nonneg (not_lt.1 hx)] at hb
      exact ⟨hS, hb⟩
  have : m % 4 = 0 ∨ m % 4 = 1 ∨ m % 4 = 2 ∨ m % 4 = 3 := by omega
  rcases this with h | h | h | h
  · simp only [h] at ft ⊢
    norm_num at ft ⊢
    rw [← ft.1] at hs; rw [← ft.2] at hc
    exact ⟨(main _ f1 hs).1, f2, (main _ f1 hs).2, hc⟩
  · simp only [h] at ft ⊢
    norm_num at ft ⊢
    rw [← ft.1] at hc; rw [← ft.2] at hs'
    exact ⟨(main _ f2 hc).1, f1, (main _ f2 hc).2, hs'⟩
  · simp only [h] at ft ⊢
    norm_num at ft ⊢
    rw [← ft.1] at hs'; rw [← ft.2] at hc'
    have mm := main _ f1' hs'
    norm_num at mm
    exact ⟨mm.1, f2, mm.2, hc'⟩
  · simp only [h] at ft ⊢
    norm_num at ft ⊢
    rw [← ft.1] at hc'; rw [← ft.2] at hs
    have mm := main _ f2' hc'
    norm_num at mm
    exact ⟨mm.1, f1, mm.2, hs⟩

theorem lt_zero_real {f : Fmt} [f.Ok] {x z : FP f} (hx : x.isFinite = true) (hz : z.isFinite = true) (hv : z.val = 0) :
    FP.lt x z = true ↔ x.real < 0 := by
  rw [lt_fin hx hz, hv, decide_eq_true_eq]
  unfold FP.real
  exact_mod_cast Iff.rfl

theorem fast_sincosCM_eq {m : Type → Type} [Monad m] [LawfulMonad m] (M : Machine m) (p : Policy) (x : F64) : fast_sincosCM M p x =
    (quadStep M ONEOPIO4 (FP.abs x)) >>= fun q1 => pure (sincosTail
      (sincosCoreC p (reduceC p (FP.abs x) (ofInt (clearLow q1)) DP1 DP2 DP3)) (clearLow q1) (FP.lt x (lit 0))) := by
  simp only [fast_sincosCM, quadrant, quadStep, bind_assoc, pure_bind, sincosTail, neg_def]

/-- Double precision, everything together. -/
theorem sincosC_acc (p : Policy) {x : F64} (hx : x.isFinite = true) (h : |x.val| ≤ 2 ^ 27) :
    ∃ s c, fast_sincosC p x = some (s, c) ∧ s.isFinite = true ∧ c.isFinite = true ∧
      |s.real - Real.sin x.real| ≤ 2 ^ (-51 : ℤ) ∧ |c.real - Real.cos x.real| ≤ 2 ^ (-51 : ℤ) ∧
      |s.real ^ 2 + c.real ^ 2 - 1| ≤ 2 ^ (-50 : ℤ) := by
  obtain ⟨m, ⟨q1, hq1, hq2⟩, hmN, r1, r2, -, -, r4, r5⟩ := reduce64C p hx h
  have hm : (m : ℚ) ≤ 1073741823 := by linarith
  have r3 : |(reduceC p (FP.abs x) (ofInt (2 * m)) DP1 DP2 DP3).real - (|x.real| - m * (Real.pi / 2))| ≤ 1.0005 * 2 ^ (-53 : ℤ) := by
    have hmR : (m : ℝ) ≤ 85445661 := by exact_mod_cast hmN
    have h1 : (m : ℝ) * (1 / 2 ^ 106) ≤ 85445661 * (1 / 2 ^ 106) := mul_le_mul_of_nonneg_right hmR (by positivity)
    have h2 : (2 : ℝ) ^ (-53 : ℤ) * |(|x.real| - m * (Real.pi / 2))| ≤ 2 ^ (-53 : ℤ) * 0.7863 := mul_le_mul_of_nonneg_left r4 (by positivity)
    have h3 : (2 : ℝ) ^ (-53 : ℤ) * 0.7863 + 85445661 * (1 / 2 ^ 106) ≤ 1.0005 * 2 ^ (-53 : ℤ) := by norm_num
    linarith
  have e : fast_sincosC p x = some (sincosTail (sincosCoreC p (reduceC p (FP.abs x) (ofInt (2 * m)) DP1 DP2 DP3)) (2 * m) (FP.lt x (lit 0))) := by
    unfold fast_sincosC
    rw [fast_sincosCM_eq, hq1]
    simp only [Option.bind_eq_bind, Option.bind_some, Option.pure_def, hq2]
  generalize reduceC p (FP.abs x) (ofInt (2 * m)) DP1 DP2 DP3 = z at *
  obtain ⟨c1, c2, c3, c4⟩ := sincosC_core p r1 r2
  generalize sincosCoreC p z = sc at *
  have heta : ((b64.eta : ℚ) : ℝ) ≤ 1 / 2 ^ 100 := by
    have : b64.eta ≤ 1 / 2 ^ 100 := by decide +kernel
    have : ((b64.eta : ℚ) : ℝ) ≤ ((1 / 2 ^ 100 : ℚ) : ℝ) := by exact_mod_cast this
    push_cast at this; exact this
  have c3' : |sc.1.real - Real.sin z.real| ≤ 1.2 * 2 ^ (-53 : ℤ) := by
    refine c3.trans ?_
    have : (1.43 : ℝ) * 2 ^ (-53 : ℤ) * |z.real| ≤ 1.43 * 2 ^ (-53 : ℤ) * 0.787 := mul_le_mul_of_nonneg_left r2 (by positivity)
    refine (add_le_add this (mul_le_mul_of_nonneg_left heta (by norm_num))).trans ?_
    norm_num
  have t := tail_acc (neg := FP.lt x (lit 0)) hm c1 c2 (c3'.trans (by norm_num)) c4 r3
    (lt_zero_real hx (by decide +kernel) (by decide +kernel))
  refine ⟨(sincosTail sc (2 * m) (FP.lt x (lit 0))).1, (sincosTail sc (2 * m) (FP.lt x (lit 0))).2, e, t.1, t.2.1, t.2.2.1.trans (by norm_num), t.2.2.2.trans (by norm_num), ?_⟩
  have hsq : (sincosTail sc (2 * m) (FP.lt x (lit 0))).1.real ^ 2 + (sincosTail sc (2 * m) (FP.lt x (lit 0))).2.real ^ 2 =
      sc.1.real ^ 2 + sc.2.real ^ 2 := by
    rw [sincosTail_eq sc hm]
    split_ifs <;> simp only [neg_real] <;> ring
  rw [hsq]
  have hS := Real.abs_sin_le_one z.real
  have hC := Real.abs_cos_le_one z.real
  have hs1 : |Real.sin z.real| ≤ 0.787 := Real.abs_sin_le_abs.trans r2
  have e2 : sc.1.real ^ 2 + sc.2.real ^ 2 - 1 =
      (sc.1.real - Real.sin z.real) * (sc.1.real - Real.sin z.real + 2 * Real.sin z.real) +
      (sc.2.real - Real.cos z.real) * (sc.2.real - Real.cos z.real + 2 * Real.cos z.real) := by
    linear_combination (Real.sin_sq_add_cos_sq z.real)
  rw [e2]
  refine (abs_add_le _ _).trans ?_
  rw [abs_mul, abs_mul]
  have u1 : |sc.1.real - Real.sin z.real + 2 * Real.sin z.real| ≤ 1.58 := by
    refine (abs_add_le _ _).trans ?_
    rw [abs_mul, abs_two]
    have : |sc.1.real - Real.sin z.real| ≤ 0.001 := c3'.trans (by norm_num)
    linarith
  have u2 : |sc.2.real - Real.cos z.real + 2 * Real.cos z.real| ≤ 2.01 := by
    refine (abs_add_le _ _).trans ?_
    rw [abs_mul, abs_two]
    have : |sc.2.real - Real.cos z.real| ≤ 0.001 := c4.trans (by norm_num)
    linarith
  have v1 := mul_le_mul c3' u1 (abs_nonneg _) (by positivity)
  have v2 := mul_le_mul c4 u2 (abs_nonneg _) (by positivity)
  refine (add_le_add v1 v2).trans ?_
  norm_num

theorem sincos_acc {x : F64} (hx : x.isFinite = true) (h : |x.val| ≤ 2 ^ 27) :
    ∃ s c, fast_sincos x = some (s, c) ∧ s.isFinite = true ∧ c.isFinite = true ∧
      |s.real - Real.sin x.real| ≤ 2 ^ (-51 : ℤ) ∧ |c.real - Real.cos x.real| ≤ 2 ^ (-51 : ℤ) ∧
      |s.real ^ 2 + c.real ^ 2 - 1| ≤ 2 ^ (-50 : ℤ) := by
  have r := sincosC_acc (fun _ => false) hx h
  rwa [fast_sincos_plain] at r

end Vdt
