import Verif.Lemmas.SincosAcc

/-! # Accuracy of sine and cosine, single precision -/

namespace Vdt
open FP details

/-- include/sincos.h:187-200, sine, as an expression. -/
def sinfE : E b32 :=
  let z := (E.var 0).mul (.var 0)
  ((((((E.const (-lit 1.9515295891E-4)).mul z).add (.const (lit 8.3321608736E-3))).mul z).sub (.const (lit 1.6666654611E-1))).mul z).mul (.var 1) |>.add (.var 1)

/-- include/sincos.h:187-200, cosine, as an expression. -/
def cosfE : E b32 :=
  let z := (E.var 0).mul (.var 0)
  (((((((((E.const (lit 2.443315711809948E-005)).mul z).sub (.const (lit 1.388731625493765E-003))).mul z).add
    (.const (lit 4.166664568298827E-002))).mul z).mul z).sub (z.scale (lit 0.5)))).add (.const (lit 1.0))

theorem sinfE_eq (x : F32) : sinfE.evalF (fun _ => x) = (fast_sincosf_m45_45 x).1 := rfl
theorem cosfE_eq (x : F32) : cosfE.evalF (fun _ => x) = (fast_sincosf_m45_45 x).2 := rfl

theorem sinfE_con (p : Policy) (x : F32) : sinfE.Con (fun _ => x) (sincosfCoreC p x).1 := by
  unfold sinfE sincosfCoreC
  con
theorem cosfE_con (p : Policy) (x : F32) : cosfE.Con (fun _ => x) (sincosfCoreC p x).2 := by
  unfold cosfE sincosfCoreC
  con

theorem sincosfCoreC_plain (z : F32) : sincosfCoreC (fun _ => false) z = fast_sincosf_m45_45 z := by
  plain [sincosfCoreC, fast_sincosf_m45_45]

def sinfPl : List ℚ := [1, -(lit 1.6666654611E-1 : F32).val, (lit 8.3321608736E-3 : F32).val, -(lit 1.9515295891E-4 : F32).val]
def cosfPl : List ℚ := [1, -1/2, (lit 4.166664568298827E-002 : F32).val, -(lit 1.388731625493765E-003 : F32).val, (lit 2.443315711809948E-005 : F32).val]

theorem lit1_realf : (lit 1.0 : F32).real = 1 := by
  unfold FP.real; rw [show (lit 1.0 : F32).val = 1 by decide +kernel]; norm_num

theorem lit05_realf : (lit 0.5 : F32).real = 1 / 2 := by
  unfold FP.real; rw [show (lit 0.5 : F32).val = 1 / 2 by decide +kernel]; norm_num

theorem sinfE_real (x : ℝ) : sinfE.evalR (fun _ => x) = x * pev sinfPl (x * x) := by
  simp only [sinfE, E.evalR, sinfPl, pev_cons, pev_nil, neg_def, neg_real]
  simp only [FP.real]
  push_cast
  ring

theorem cosfE_real (x : ℝ) : cosfE.evalR (fun _ => x) = pev cosfPl (x * x) := by
  simp only [cosfE, E.evalR, cosfPl, pev_cons, pev_nil, lit1_realf, lit05_realf]
  simp only [FP.real]
  push_cast
  ring

theorem sinf_approx {x : ℝ} (h : |x| ≤ 0.787) : |x * pev sinfPl (x * x) - Real.sin x| ≤ 0.5 * 2 ^ (-24 : ℤ) * |x| := by
  have t := sin_taylor (h.trans (by norm_num))
  have hw := sq_range h
  have p := pratio_sound (n := psub sinfPl sinTl) (d := [1]) (C := 0.499 * 2 ^ (-24 : ℤ)) (l := grid 0 0.62 12) (a := 0) (b := 0.62)
    (by decide +kernel) (by decide +kernel) hw.1 hw.2
  rw [pev_sub] at p
  have e : x * pev sinfPl (x * x) - Real.sin x = x * (pev sinfPl (x * x) - pev sinTl (x * x)) - (Real.sin x - x * pev sinTl (x * x)) := by ring
  rw [e]
  refine (abs_sub _ _).trans ?_
  rw [abs_mul]
  have := mul_le_mul_of_nonneg_left p (abs_nonneg x)
  refine (add_le_add this t).trans ?_
  simp only [pev_cons, pev_nil]
  push_cast
  rw [mul_comm]
  have : (0 : ℝ) ≤ |x| := abs_nonneg x
  rw [← add_mul]
  apply mul_le_mul_of_nonneg_right _ this
  norm_num

theorem cosf_approx {x : ℝ} (h : |x| ≤ 0.787) : |pev cosfPl (x * x) - Real.cos x| ≤ 0.05 * 2 ^ (-24 : ℤ) := by
  have t := cos_taylor (h.trans (by norm_num))
  have hw := sq_range h
  have p := pratio_sound (n := psub cosfPl cosTl) (d := [1]) (C := 0.049 * 2 ^ (-24 : ℤ)) (l := grid 0 0.62 12) (a := 0) (b := 0.62)
    (by decide +kernel) (by decide +kernel) hw.1 hw.2
  rw [pev_sub] at p
  have e : pev cosfPl (x * x) - Real.cos x = (pev cosfPl (x * x) - pev cosTl (x * x)) - (Real.cos x - pev cosTl (x * x)) := by ring
  rw [e]
  refine (abs_sub _ _).trans ((add_le_add p t).trans ?_)
  simp only [pev_cons, pev_nil]
  push_cast
  norm_num

theorem sinfE_ok : covers (okLin b32 sinfE (1.26 * 2 ^ (-24 : ℤ)) 2.2) [-787 / 1000, -43 / 64, 11 / 64, 45 / 64, 787 / 1000] = true := by decide +kernel
theorem cosfE_ok : covers (okAbs b32 cosfE (1.07 * 2 ^ (-24 : ℤ))) [-787 / 1000, -3 / 16, 11 / 32, 787 / 1000] = true := by decide +kernel

/-- Single precision on the reduced interval: the error of the sine is relative to the argument. -/
theorem sincosfC_core (p : Policy) {z : F32} (hz : z.isFinite = true) (h : |z.real| ≤ 0.787) :
    (sincosfCoreC p z).1.isFinite = true ∧ (sincosfCoreC p z).2.isFinite = true ∧
    |(sincosfCoreC p z).1.real - Real.sin z.real| ≤ 1.76 * 2 ^ (-24 : ℤ) * |z.real| + 2.2 * b32.eta ∧
    |(sincosfCoreC p z).2.real - Real.cos z.real| ≤ 1.12 * 2 ^ (-24 : ℤ) := by
  have a1 := sinf_approx h
  have a2 := cosf_approx h
  rw [abs_le] at h
  obtain ⟨s, t, hst, h1, h2⟩ := covers_spans sinfE_ok (a := -0.787) (b := 0.787) (by decide +kernel)
    (x := z.real) (by push_cast; linarith) (by push_cast; linarith)
  have r := okLin_con hst hz h1 h2 (sinfE_con p z)
  rw [sinfE_real] at r
  obtain ⟨s', t', hst', h1', h2'⟩ := covers_spans cosfE_ok (a := -0.787) (b := 0.787) (by decide +kernel)
    (x := z.real) (by push_cast; linarith) (by push_cast; linarith)
  have r' := okAbs_con hst' hz h1' h2' (cosfE_con p z)
  rw [cosfE_real] at r'
  refine ⟨r.1, r'.1, ?_, ?_⟩
  · have e := (abs_sub_le _ _ (Real.sin z.real)).trans (add_le_add r.2 a1)
    refine e.trans (le_of_eq ?_)
    push_cast; ring
  · have e := (abs_sub_le _ _ (Real.cos z.real)).trans (add_le_add r'.2 a2)
    refine e.trans (le_of_eq ?_)
    push_cast; ring

theorem sincosf_core {z : F32} (hz : z.isFinite = true) (h : |z.real| ≤ 0.787) :
    (fast_sincosf_m45_45 z).1.isFinite = true ∧ (fast_sincosf_m45_45 z).2.isFinite = true ∧
    |(fast_sincosf_m45_45 z).1.real - Real.sin z.real| ≤ 1.76 * 2 ^ (-24 : ℤ) * |z.real| + 2.2 * b32.eta ∧
    |(fast_sincosf_m45_45 z).2.real - Real.cos z.real| ≤ 1.12 * 2 ^ (-24 : ℤ) := by
  have r := sincosfC_core (fun _ => false) hz h
  rwa [sincosfCoreC_plain] at r

theorem fast_sincosfCM_eq {m : Type → Type} [Monad m] [LawfulMonad m] (M : Machine m) (p : Policy) (x : F32) : fast_sincosfCM M p x =
    (quadStep M ONEOPIO4F (FP.abs x)) >>= fun q1 => pure (sincosTail
      (sincosfCoreC p (reduceC p (FP.abs x) (ofInt (clearLow q1)) DP1F DP2F DP3F)) (clearLow q1) (FP.lt x (ofInt 0))) := by
  simp only [fast_sincosfCM, quadrantf, quadStep, bind_assoc, pure_bind, sincosTail, neg_def]

/-- Single precision, everything together. -/
theorem sincosfC_acc (p : Policy) {x : F32} (hx : x.isFinite = true) (h : |x.val| ≤ 8192) :
    ∃ s c, fast_sincosfC p x = some (s, c) ∧ s.isFinite = true ∧ c.isFinite = true ∧
      |s.real - Real.sin x.real| ≤ 2 ^ (-22 : ℤ) ∧ |c.real - Real.cos x.real| ≤ 2 ^ (-22 : ℤ) ∧
      |s.real ^ 2 + c.real ^ 2 - 1| ≤ 2 ^ (-21 : ℤ) := by
  obtain ⟨m, ⟨q1, hq1, hq2⟩, hmN, r1, r2, -, -, r4, r5⟩ := reduce32C p hx h
  have hm : (m : ℚ) ≤ 1073741823 := by linarith
  have r3 : |(reduceC p (FP.abs x) (ofInt (2 * m)) DP1F DP2F DP3F).real - (|x.real| - m * (Real.pi / 2))| ≤ 1.01 * 2 ^ (-24 : ℤ) := by
    have hmR : (m : ℝ) ≤ 5216 := by exact_mod_cast hmN
    have h1 : (m : ℝ) * (0.9 / 2 ^ 47) ≤ 5216 * (0.9 / 2 ^ 47) := mul_le_mul_of_nonneg_right hmR (by positivity)
    have h2 : (2 : ℝ) ^ (-24 : ℤ) * |(|x.real| - m * (Real.pi / 2))| ≤ 2 ^ (-24 : ℤ) * 0.7863 := mul_le_mul_of_nonneg_left r4 (by positivity)
    have h3 : (2 : ℝ) ^ (-24 : ℤ) * 0.7863 + 5216 * (0.9 / 2 ^ 47) ≤ 1.01 * 2 ^ (-24 : ℤ) := by norm_num
    linarith
  have e : fast_sincosfC p x = some (sincosTail (sincosfCoreC p (reduceC p (FP.abs x) (ofInt (2 * m)) DP1F DP2F DP3F)) (2 * m) (FP.lt x (ofInt 0))) := by
    unfold fast_sincosfC
    rw [fast_sincosfCM_eq, hq1]
    simp only [Option.bind_eq_bind, Option.bind_some, Option.pure_def, hq2]
  generalize reduceC p (FP.abs x) (ofInt (2 * m)) DP1F DP2F DP3F = z at *
  obtain ⟨c1, c2, c3, c4⟩ := sincosfC_core p r1 r2
  generalize sincosfCoreC p z = sc at *
  have heta : ((b32.eta : ℚ) : ℝ) ≤ 1 / 2 ^ 100 := by
    have : b32.eta ≤ 1 / 2 ^ 100 := by decide +kernel
    have : ((b32.eta : ℚ) : ℝ) ≤ ((1 / 2 ^ 100 : ℚ) : ℝ) := by exact_mod_cast this
    push_cast at this; exact this
  have c3' : |sc.1.real - Real.sin z.real| ≤ 1.39 * 2 ^ (-24 : ℤ) := by
    refine c3.trans ?_
    have : (1.76 : ℝ) * 2 ^ (-24 : ℤ) * |z.real| ≤ 1.76 * 2 ^ (-24 : ℤ) * 0.787 := mul_le_mul_of_nonneg_left r2 (by positivity)
    refine (add_le_add this (mul_le_mul_of_nonneg_left heta (by norm_num))).trans ?_
    norm_num
  have t := tail_acc (neg := FP.lt x (ofInt 0)) hm c1 c2 c3' (c4.trans (by norm_num)) r3
    (lt_zero_real hx (by decide +kernel) (by decide +kernel))
  refine ⟨(sincosTail sc (2 * m) (FP.lt x (ofInt 0))).1, (sincosTail sc (2 * m) (FP.lt x (ofInt 0))).2, e, t.1, t.2.1, t.2.2.1.trans (by norm_num), t.2.2.2.trans (by norm_num), ?_⟩
  have hsq : (sincosTail sc (2 * m) (FP.lt x (ofInt 0))).1.real ^ 2 + (sincosTail sc (2 * m) (FP.lt x (ofInt 0))).2.real ^ 2 =
      sc.1.real ^ 2 + sc.2.real ^ 2 := by
    rw [sincosTail_eq sc hm]
    split_ifs <;> simp only [neg_real] <;> ring
  rw [hsq]
  have hS := Real.abs_sin_le_one z.real
  have hC := Real.abs_cos_le_one z.real
  have hs1 : |Real.sin z.real| ≤ 0.787 := Real.abs_sin_le_abs.trans r2
  have e2 : sc.1.real ^ 2 + sc.2.real ^ 2 - 1 =
      (sc.1.real - Real.sin z.real) * (sc.1.real - Real.sin z.real + 2 * Real.sin z.real) +
      (sc.2.real - Real.cos z.real) * (sc.2.real - Real.cos z.real + 2 * Real.cos z.real) := by
    linear_combination (Real.sin_sq_add_cos_sq z.real)
  rw [e2]
  refine (abs_add_le _ _).trans ?_
  rw [abs_mul, abs_mul]
  have u1 : |sc.1.real - Real.sin z.real + 2 * Real.sin z.real| ≤ 1.58 := by
    refine (abs_add_le _ _).trans ?_
    rw [abs_mul, abs_two]
    have : |sc.1.real - Real.sin z.real| ≤ 0.001 := c3'.trans (by norm_num)
    linarith
  have u2 : |sc.2.real - Real.cos z.real + 2 * Real.cos z.real| ≤ 2.01 := by
    refine (abs_add_le _ _).trans ?_
    rw [abs_mul, abs_two]
    have : |sc.2.real - Real.cos z.real| ≤ 0.001 := c4.trans (by norm_num)
    linarith
  have v1 := mul_le_mul c3' u1 (abs_nonneg _) (by positivity)
  have v2 := mul_le_mul c4 u2 (abs_nonneg _) (by positivity)
  refine (add_le_add v1 v2).trans ?_
  norm_num

theorem sincosf_acc {x : F32} (hx : x.isFinite = true) (h : |x.val| ≤ 8192) :
    ∃ s c, fast_sincosf x = some (s, c) ∧ s.isFinite = true ∧ c.isFinite = true ∧
      |s.real - Real.sin x.real| ≤ 2 ^ (-22 : ℤ) ∧ |c.real - Real.cos x.real| ≤ 2 ^ (-22 : ℤ) ∧
      |s.real ^ 2 + c.real ^ 2 - 1| ≤ 2 ^ (-21 : ℤ) := by
  have r := sincosfC_acc (fun _ => false) hx h
  rwa [fast_sincosf_plain] at r

end Vdt
