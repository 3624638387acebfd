import Verif.Lemmas.ExpAcc

/-! # Single precision exponential: structure, thresholds, accuracy -/

namespace Vdt
open FP details

/-- include/exp.h:128-141 as an expression. -/
def expfE : E b32 :=
  let x : E b32 := .var 0
  let z := ((((((((((x.mul (.const PX1expf)).add (.const PX2expf)).mul x).add (.const PX3expf)).mul x).add (.const PX4expf)).mul x).add
    (.const PX5expf)).mul x).add (.const PX6expf)).mul (x.mul x)
  z.add (x.add (.const (lit 1.0)))

theorem expfE_con (p : Policy) (x : F32) : expfE.Con (fun _ => x) (expfCoreC p x) := by
  unfold expfE expfCoreC
  con

def expfPl : List ℚ := [1, 1, PX6expf.val, PX5expf.val, PX4expf.val, PX3expf.val, PX2expf.val, PX1expf.val]

theorem expf_pos {x : ℝ} (h : |x| ≤ 0.3475) : 1 / 2 ≤ pev expfPl x := by
  rw [abs_le] at h
  have := plower_sound (p := expfPl) (l := grid (-0.3475) 0.3475 4) (c := 1 / 2) (a := -0.3475) (b := 0.3475) (x := x)
    (by decide +kernel) (by decide +kernel) (by push_cast; linarith) (by push_cast; linarith)
  push_cast at this; exact this

theorem expf_approx {x : ℝ} (h : |x| ≤ 0.3475) :
    ∃ δ : ℝ, |δ| ≤ 0.18 * 2 ^ (-24 : ℤ) ∧ pev expfPl x = Real.exp (x + δ) := by
  have hp := expf_pos h
  have hA : 0 < pev expfPl x := by linarith
  refine ⟨Real.log (pev expfPl x) - x, ?_, ?_⟩
  · have key := mvt_bound (f := fun y => Real.log (pev expfPl y) - y)
      (f' := fun y => pev (pder expfPl) y / pev expfPl y - 1)
      (C := ((2 ^ (-25 : ℤ) : ℚ) : ℝ)) (x := x)
      (fun y hy => by
        have hq := expf_pos ((mem_uIcc_abs hy).trans h)
        exact ((hasDerivAt_pev expfPl y).log (by linarith)).sub (hasDerivAt_id y))
      (fun y hy => by
        have hy' := (mem_uIcc_abs hy).trans h
        have hq := expf_pos hy'
        have hA : 0 < pev expfPl y := by linarith
        have e : pev (pder expfPl) y / pev expfPl y - 1 = pev (psub (pder expfPl) expfPl) y / pev expfPl y := by
          rw [pev_sub]; field_simp
        rw [e, abs_div, abs_of_pos hA, div_le_iff₀ hA]
        rw [abs_le] at hy'
        exact pratio_sound (n := psub (pder expfPl) expfPl) (d := expfPl) (l := grid (-0.3475) 0.3475 16) (a := -0.3475) (b := 0.3475)
          (by decide +kernel) (by decide +kernel) (by push_cast; linarith) (by push_cast; linarith))
    have e0 : pev expfPl 0 = 1 := by simp [expfPl]
    rw [e0] at key
    have hx1 : ((2 ^ (-25 : ℤ) : ℚ) : ℝ) * |x| ≤ 0.18 * 2 ^ (-24 : ℤ) := by
      have : ((2 ^ (-25 : ℤ) : ℚ) : ℝ) = 0.5 * 2 ^ (-24 : ℤ) := by push_cast; norm_num
      rw [this]
      have : (0 : ℝ) < 2 ^ (-24 : ℤ) := by positivity
      nlinarith
    have := key.trans hx1
    simpa using this
  · have : x + (Real.log (pev expfPl x) - x) = Real.log (pev expfPl x) := by ring
    rw [this, Real.exp_log hA]

theorem expfE_real (x : ℝ) : expfE.evalR (fun _ => x) = pev expfPl x := by
  have e1 : (lit 1.0 : F32).real = 1 := by
    unfold FP.real; rw [show (lit 1.0 : F32).val = 1 by decide +kernel]; norm_num
  simp only [expfE, E.evalR, expfPl, pev_cons, pev_nil]
  rw [e1]
  unfold FP.real
  push_cast
  ring

theorem expfE_ok : covers (okRel b32 expfE (2.25 * 2 ^ (-24 : ℤ))) (grid (-0.3475) 0.3475 8) = true := by decide +kernel

theorem expfCoreC_acc (p : Policy) {z : F32} (hz : z.isFinite = true) (h : |z.real| ≤ 0.3475) :
    (expfCoreC p z).isFinite = true ∧ ∃ ε δ : ℝ, |ε| ≤ 2.25 * 2 ^ (-24 : ℤ) ∧ |δ| ≤ 0.18 * 2 ^ (-24 : ℤ) ∧
      (expfCoreC p z).real = Real.exp (z.real + δ) * (1 + ε) := by
  obtain ⟨δ, hδ, he⟩ := expf_approx h
  rw [abs_le] at h
  obtain ⟨s, t, hst, h1, h2⟩ := covers_spans expfE_ok (a := -0.3475) (b := 0.3475) (by decide +kernel)
    (x := z.real) (by push_cast; linarith) (by push_cast; linarith)
  have r := okRel_con (by positivity) hst hz h1 h2 (expfE_con p z)
  rw [expfE_real] at r
  generalize expfCoreC p z = y at *
  rw [he] at r
  have hp := Real.exp_pos (z.real + δ)
  refine ⟨r.1, y.real / Real.exp (z.real + δ) - 1, δ, ?_, hδ, ?_⟩
  · have : y.real / Real.exp (z.real + δ) - 1 = (y.real - Real.exp (z.real + δ)) / Real.exp (z.real + δ) := by
      field_simp
    rw [this, abs_div, abs_of_pos hp, div_le_iff₀ hp]
    refine r.2.trans (le_of_eq ?_)
    push_cast; rfl
  · field_simp; ring

theorem expfCore_plain (z : F32) : expfCoreC (fun _ => false) z = expfCore z := by plain [expfCoreC, expfCore]
theorem expfReduce_plain (x z : F32) : expfReduceC (fun _ => false) x z = expfReduce x z := by plain [expfReduceC, expfReduce]

theorem expfCore_acc {z : F32} (hz : z.isFinite = true) (h : |z.real| ≤ 0.3475) :
    (expfCore z).isFinite = true ∧ ∃ ε δ : ℝ, |ε| ≤ 2.25 * 2 ^ (-24 : ℤ) ∧ |δ| ≤ 0.18 * 2 ^ (-24 : ℤ) ∧
      (expfCore z).real = Real.exp (z.real + δ) * (1 + ε) := by
  have r := expfCoreC_acc (fun _ => false) hz h
  rwa [expfCore_plain] at r

/-- include/exp.h:144 -/
def pow2nf (n : ℤ) : F32 := uint322sp (BitVec.ofInt 32 (wrap32 ((n + 0x7f) * 2 ^ 23)))

theorem pow2nf_table : ∀ i < 254, (pow2nf ((i : ℕ) - 126 : ℤ)).isFinite = true ∧
    (pow2nf ((i : ℕ) - 126 : ℤ)).val = p2 ((i : ℤ) - 126) := by decide +kernel

theorem pow2nf_spec {n : ℤ} (h1 : -126 ≤ n) (h2 : n ≤ 127) : (pow2nf n).isFinite = true ∧ (pow2nf n).val = p2 n := by
  obtain ⟨i, hi⟩ : ∃ i : ℕ, n = (i : ℤ) - 126 := ⟨(n + 126).toNat, by omega⟩
  have t := pow2nf_table i (by omega)
  rw [hi]; exact t

/-- `fast_expf` after the conversions. -/
def expfTail (x : F32) (n : ℤ) : F32 :=
  let z := expfCore (expfReduce x (ofInt n)) * pow2nf n
  let z := if FP.gt x MAXLOGF then inf false else z
  if FP.lt x MINLOGF then lit 0 else z

theorem fast_expf_eq {x : F32} (hd : f2iDefined (LOG2EF * x + lit 0.5) = true)
    (hn : |expN (LOG2EF * x + lit 0.5) (LOG2EF * x + lit 0.5).sign| ≤ 2 ^ 24) : fast_expf x =
    let n := expN (LOG2EF * x + lit 0.5) (LOG2EF * x + lit 0.5).sign
    if -127 ≤ n ∧ n ≤ 384 then some (expfTail x n) else none := by
  unfold fast_expf fast_expfM fpfloorf
  dsimp only
  generalize LOG2EF * x + lit 0.5 = a at *
  have hs := ofInt_spec32 hn
  have hn' := abs_le.1 hn
  have hf : strict.f2i (ofInt (expN a a.sign) : F32) = some (expN a a.sign) := by
    rw [strict_f2i hs.1 (by rw [hs.2, truncRat_int]; simp [inI32]; omega), hs.2, truncRat_int]
  have h1 : strict.f2i a = some (truncRat a.val) := by simp [strict, hd]
  rw [h1]
  simp only [Option.pure_def, Option.bind_eq_bind, Option.bind_some]
  rw [sp_signbit]
  change (strict.f2i (ofInt (expN a a.sign) : F32)).bind _ = _
  rw [hf]
  simp only [Option.bind_some]
  have hi : strict.i32 (expN a a.sign + 0x7f) = some (expN a a.sign + 0x7f) := by
    simp [strict, inI32]; omega
  rw [hi]
  simp only [Option.bind_some]
  by_cases hc : -127 ≤ expN a a.sign ∧ expN a a.sign ≤ 384
  · rw [if_pos hc]
    have : strict.shl (expN a a.sign + 0x7f) 23 = some (wrap32 ((expN a a.sign + 0x7f) * 2 ^ 23)) := by
      simp only [strict]; rw [if_pos (by omega)]
    rw [this]
    rfl
  · rw [if_neg hc]
    have : strict.shl (expN a a.sign + 0x7f) 23 = none := by
      simp only [strict]; rw [if_neg (by omega)]
    rw [this]
    rfl

/-- The function after the conversions, with fused operations. -/
def expfTailC (p : Policy) (x : F32) (n : ℤ) : F32 :=
  let z := expfCoreC p (expfReduceC p x (ofInt n)) * pow2nf n
  let z := if FP.gt x MAXLOGF then inf false else z
  if FP.lt x MINLOGF then lit 0 else z

theorem fast_expfC_eq (p : Policy) {x : F32} (hd : f2iDefined (mad (p 0) LOG2EF x (lit 0.5)) = true)
    (hn : |expN (mad (p 0) LOG2EF x (lit 0.5)) (mad (p 0) LOG2EF x (lit 0.5)).sign| ≤ 2 ^ 24) : fast_expfC p x =
    let n := expN (mad (p 0) LOG2EF x (lit 0.5)) (mad (p 0) LOG2EF x (lit 0.5)).sign
    if -127 ≤ n ∧ n ≤ 384 then some (expfTailC p x n) else none := by
  unfold fast_expfC fast_expfCM fpfloorf
  dsimp only
  generalize mad (p 0) LOG2EF x (lit 0.5) = a at *
  have hs := ofInt_spec32 hn
  have hn' := abs_le.1 hn
  have hf : strict.f2i (ofInt (expN a a.sign) : F32) = some (expN a a.sign) := by
    rw [strict_f2i hs.1 (by rw [hs.2, truncRat_int]; simp [inI32]; omega), hs.2, truncRat_int]
  have h1 : strict.f2i a = some (truncRat a.val) := by simp [strict, hd]
  rw [h1]
  simp only [Option.pure_def, Option.bind_eq_bind, Option.bind_some]
  rw [sp_signbit]
  change (strict.f2i (ofInt (expN a a.sign) : F32)).bind _ = _
  rw [hf]
  simp only [Option.bind_some]
  have hi : strict.i32 (expN a a.sign + 0x7f) = some (expN a a.sign + 0x7f) := by
    simp [strict, inI32]; omega
  rw [hi]
  simp only [Option.bind_some]
  by_cases hc : -127 ≤ expN a a.sign ∧ expN a a.sign ≤ 384
  · rw [if_pos hc]
    have : strict.shl (expN a a.sign + 0x7f) 23 = some (wrap32 ((expN a a.sign + 0x7f) * 2 ^ 23)) := by
      simp only [strict]; rw [if_pos (by omega)]
    rw [this]
    rfl
  · rw [if_neg hc]
    have : strict.shl (expN a a.sign + 0x7f) 23 = none := by
      simp only [strict]; rw [if_neg (by omega)]
    rw [this]
    rfl

/-- The single-precision reduction. -/
theorem expfC_reduce (p : Policy) {x : F32} (hx : x.isFinite = true) (h : |x.val| ≤ 88.99) :
    let a := mad (p 0) LOG2EF x (lit 0.5)
    let n := expN a a.sign
    let z := expfReduceC p x (ofInt n)
    f2iDefined a = true ∧ |n| ≤ 128 ∧ z.isFinite = true ∧ |z.real| ≤ 0.3475 ∧
      |z.real - (x.real - n * Real.log 2)| ≤ 0.55 * 2 ^ (-24 : ℤ) := by
  intro a n z
  have r := reduce_int (p 0) (f := b32) (L := LOG2EF) (h := lit 0.5) (X := 88.99) (M := 130) (l := ln2Q) (N := 128) hx h
    (by decide +kernel) (by decide +kernel) (by decide +kernel) (by decide +kernel) (by decide +kernel) (by decide +kernel)
    (by decide +kernel) (by decide +kernel) (by decide +kernel) (by decide +kernel)
  obtain ⟨r1, r2, r3⟩ := r
  change |n| ≤ 128 at r2
  change |x.val - n * ln2Q| ≤ _ at r3
  have i := ofInt_spec32 (n := n) (by refine r2.trans ?_; norm_num)
  have r3' : |x.val - n * ln2Q| ≤ 0.3467 := r3.trans (by decide +kernel)
  have s := reduce_sub (p 1) (p 2) (f := b32) (c1 := C1F) (c2 := C2F) (N := 128)
    (M1 := 0.4) (M2 := 0.03) (M3 := 0.4) (k := 355) (j := -9) hx i.1 i.2 (by decide +kernel) (by decide +kernel)
    (by exact_mod_cast r2) r3'
    (by decide +kernel) (by decide +kernel) (by decide +kernel) (by decide +kernel) (by decide +kernel) (by decide +kernel)
    (by decide +kernel) (by decide +kernel) (by decide +kernel) (by decide +kernel) (by decide +kernel) (by decide +kernel) (by decide +kernel)
  obtain ⟨s1, s2⟩ := s
  change z.isFinite = true at s1
  change |z.val - _| ≤ _ at s2
  have s3 : |z.val - (x.val - n * ln2Q)| ≤ 0.549 * p2 (-24) := s2.trans (by decide +kernel)
  have s4 : |z.val| ≤ 0.3475 := by
    have : (0.549 : ℚ) * p2 (-24) ≤ 0.0001 := by decide +kernel
    rw [abs_le] at *; constructor <;> linarith [s3.1, s3.2, r3'.1, r3'.2]
  refine ⟨r1, r2, s1, ?_, ?_⟩
  · have : ((|z.val| : ℚ) : ℝ) ≤ ((0.3475 : ℚ) : ℝ) := by exact_mod_cast s4
    push_cast at this; exact this
  · have hl := ln2_near
    have hn : |(n : ℝ)| ≤ 128 := by exact_mod_cast r2
    have s5 : |z.real - (x.real - n * ln2Q)| ≤ ((0.549 * p2 (-24) : ℚ) : ℝ) := by
      unfold FP.real; exact_mod_cast s3
    have : z.real - (x.real - n * Real.log 2) = (z.real - (x.real - n * ln2Q)) + n * (Real.log 2 - ln2Q) := by ring
    rw [this]
    refine (abs_add_le _ _).trans ?_
    rw [abs_mul]
    have := mul_le_mul hn hl (_root_.abs_nonneg _) (by norm_num)
    rw [p2_eq] at s5
    push_cast at s5
    refine (add_le_add s5 this).trans ?_
    norm_num

theorem expf_reduce {x : F32} (hx : x.isFinite = true) (h : |x.val| ≤ 88.99) :
    let a := LOG2EF * x + lit 0.5
    let n := expN a a.sign
    let z := expfReduce x (ofInt n)
    f2iDefined a = true ∧ |n| ≤ 128 ∧ z.isFinite = true ∧ |z.real| ≤ 0.3475 ∧
      |z.real - (x.real - n * Real.log 2)| ≤ 0.55 * 2 ^ (-24 : ℤ) := by
  have r := expfC_reduce (fun _ => false) hx h
  simpa only [mad_false, expfReduce_plain] using r

/-- The value of the intermediate `a = L*x + 1/2` as a monotone function of `x`. -/
theorem expf_a {x : F32} (hx : x.isFinite = true) (h : |x.val| ≤ 88.99) :
    (LOG2EF * x + lit 0.5).val = rnd b32 (rnd b32 (LOG2EF.val * x.val) + (lit 0.5 : F32).val) := by
  have hd := (expf_reduce hx h).1
  rcases affine_cases (c := LOG2EF) (d := lit 0.5) (by decide +kernel) (by decide +kernel) hx with h1 | h1
  · unfold f2iDefined at hd; rw [h1] at hd; simp at hd
  · exact h1

theorem expf_a_le {x : F32} {q : ℚ} (hx : x.isFinite = true) (h : |x.val| ≤ 88.99) (hq : x.val ≤ q) :
    (LOG2EF * x + lit 0.5).val ≤ rnd b32 (rnd b32 (LOG2EF.val * q) + (lit 0.5 : F32).val) := by
  rw [expf_a hx h]
  have hL : 0 ≤ LOG2EF.val := by decide +kernel
  exact rnd_mono _ (add_le_add_left (rnd_mono _ (mul_le_mul_of_nonneg_left hq hL)) _)

theorem expf_a_ge {x : F32} {q : ℚ} (hx : x.isFinite = true) (h : |x.val| ≤ 88.99) (hq : q ≤ x.val) :
    rnd b32 (rnd b32 (LOG2EF.val * q) + (lit 0.5 : F32).val) ≤ (LOG2EF * x + lit 0.5).val := by
  rw [expf_a hx h]
  have hL : 0 ≤ LOG2EF.val := by decide +kernel
  exact rnd_mono _ (add_le_add_left (rnd_mono _ (mul_le_mul_of_nonneg_left hq hL)) _)

theorem expf_step {x : F32} (hx : x.isFinite = true) (h : |x.val| ≤ 88.99) :
    let a := LOG2EF * x + lit 0.5
    a.val - 1 ≤ expN a a.sign ∧ (expN a a.sign : ℚ) ≤ a.val := by
  have h1 := (abs_le.1 h).2
  have h2 := (abs_le.1 h).1
  have b1 := expf_a_le (q := 88.99) hx h h1
  have b2 := expf_a_ge (q := -88.99) hx h h2
  have c1 : rnd b32 (rnd b32 (LOG2EF.val * 88.99) + (lit 0.5 : F32).val) ≤ 1000 := by decide +kernel
  have c2 : -1000 ≤ rnd b32 (rnd b32 (LOG2EF.val * (-88.99)) + (lit 0.5 : F32).val) := by decide +kernel
  exact floor_step (by rw [abs_lt]; constructor <;> linarith)

/-- Where the exponent `n` passes 127, -126 and -127. -/
theorem expf_n {x : F32} (hx : x.isFinite = true) (h : |x.val| ≤ 88.99) :
    let n := expN (LOG2EF * x + lit 0.5) (LOG2EF * x + lit 0.5).sign
    (x.val < 5791827 / 65536 → n ≤ 127) ∧ (5791827 / 65536 ≤ x.val → n = 128) ∧
    (-(5746401 / 65536) < x.val → -126 ≤ n) ∧ (x.val ≤ -(5746401 / 65536) → n ≤ -127) ∧
    (-(5791827 / 65536) < x.val → -127 ≤ n) := by
  intro n
  have hs := expf_step hx h
  have hr := (expf_reduce hx h).2.1
  simp only at hs hr
  change _ ≤ (n : ℚ) ∧ (n : ℚ) ≤ _ at hs
  change |n| ≤ _ at hr
  rw [abs_le] at hr
  have hA : magVal b32 1118879910 = 5791827 / 65536 := by decide +kernel
  have hB : magVal b32 1118789058 = 5746401 / 65536 := by decide +kernel
  refine ⟨fun hh => ?_, fun hh => ?_, fun hh => ?_, fun hh => ?_, fun hh => ?_⟩
  · have hup : x.val ≤ magVal b32 1118879909 := by
      rcases le_or_gt x.val 0 with h0 | h0
      · exact h0.trans (magVal_nonneg _ _)
      · have := mag_lt_of_val_lt (x := x) hA (by rwa [abs_of_pos h0])
        rw [← abs_of_pos h0, abs_val, magVal_le]; omega
    have b := expf_a_le hx h hup
    have c : rnd b32 (rnd b32 (LOG2EF.val * magVal b32 1118879909) + (lit 0.5 : F32).val) < 128 := by decide +kernel
    have : (n : ℚ) < 128 := by linarith
    have : n < 128 := by exact_mod_cast this
    omega
  · have b := expf_a_ge hx h hh
    have c : 128 ≤ rnd b32 (rnd b32 (LOG2EF.val * (5791827 / 65536)) + (lit 0.5 : F32).val) := by decide +kernel
    have hpos : (LOG2EF * x + lit 0.5).sign = false := (val_pos_iff.1 (by linarith)).1
    have : 128 ≤ n := by
      have hq : (128 : ℚ) ≤ (LOG2EF * x + lit 0.5).val := by linarith
      have hle : (n : ℚ) ≤ 128 := by exact_mod_cast hr.2
      have hn : n = wrap32 (truncRat (LOG2EF * x + lit 0.5).val - 0) := by
        change expN _ _ = _
        rw [hpos]; rfl
      have hup : (LOG2EF * x + lit 0.5).val ≤ 129 := by linarith
      rw [hn, sub_zero, truncRat_nonneg (by linarith)]
      have h1 : (128 : ℤ) ≤ ⌊(LOG2EF * x + lit 0.5).val⌋ := by rw [Int.le_floor]; exact_mod_cast hq
      have h2 : ⌊(LOG2EF * x + lit 0.5).val⌋ < 130 := by rw [Int.floor_lt]; push_cast; linarith
      rw [wrap32_id (by omega) (by omega)]; exact h1
    omega
  · have hlo : -magVal b32 1118789057 ≤ x.val := by
      rcases le_or_gt 0 x.val with h0 | h0
      · have := magVal_nonneg b32 1118789057; linarith
      · have := mag_lt_of_val_lt (x := x) hB (by rw [abs_of_neg h0]; linarith)
        have : |x.val| ≤ magVal b32 1118789057 := by rw [abs_val, magVal_le]; omega
        rw [abs_of_neg h0] at this; linarith
    have b := expf_a_ge hx h hlo
    have c : -126 < rnd b32 (rnd b32 (LOG2EF.val * (-magVal b32 1118789057)) + (lit 0.5 : F32).val) := by decide +kernel
    have : -127 < (n : ℚ) := by linarith
    have : -127 < n := by exact_mod_cast this
    omega
  · have b := expf_a_le hx h hh
    have c : rnd b32 (rnd b32 (LOG2EF.val * (-(5746401 / 65536))) + (lit 0.5 : F32).val) ≤ -126 := by decide +kernel
    rcases lt_or_eq_of_le (b.trans c) with hlt | heq
    · have : (n : ℚ) < -126 := by linarith
      have : n < -126 := by exact_mod_cast this
      omega
    · have hn : n = wrap32 (truncRat (LOG2EF * x + lit 0.5).val - 1) := by
        change expN _ _ = _
        have : (LOG2EF * x + lit 0.5).sign = true := (val_neg_iff.1 (by linarith)).1
        rw [this]; rfl
      rw [hn, heq]
      decide +kernel
  · have hlo : -magVal b32 1118879909 ≤ x.val := by
      rcases le_or_gt 0 x.val with h0 | h0
      · have := magVal_nonneg b32 1118879909; linarith
      · have := mag_lt_of_val_lt (x := x) hA (by rw [abs_of_neg h0]; linarith)
        have : |x.val| ≤ magVal b32 1118879909 := by rw [abs_val, magVal_le]; omega
        rw [abs_of_neg h0] at this; linarith
    have b := expf_a_ge hx h hlo
    have c : -127 < rnd b32 (rnd b32 (LOG2EF.val * (-magVal b32 1118879909)) + (lit 0.5 : F32).val) := by decide +kernel
    have : -128 < (n : ℚ) := by linarith
    have : -128 < n := by exact_mod_cast this
    omega

end Vdt
