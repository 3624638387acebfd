import Verif.Lemmas.TanAcc

/-! # The selection of the quadrant in the tangent, and the complete tangent -/

namespace Vdt
open FP details

/-- The constants the selection works with. -/
structure TanC (f : Fmt) : Prop where
  one_f : (lit 1 : FP f).isFinite = true
  one_v : (lit 1 : FP f).val = 1
  i0_f : (ofInt 0 : FP f).isFinite = true
  i0_v : (ofInt 0 : FP f).val = 0
  i1_f : (ofInt 1 : FP f).isFinite = true
  i1_v : (ofInt 1 : FP f).val = 1
  l0_f : (lit 0 : FP f).isFinite = true
  l0_v : (lit 0 : FP f).val = 0
  sub : (lit 1 - ofInt 0 : FP f) = lit 1
  big : 1 ≤ f.big

theorem tanC64 : TanC b64 := by constructor <;> decide +kernel
theorem tanC32 : TanC b32 := by constructor <;> decide +kernel

/-- include/tan.h:118-122: `quad` is 0 or 1. -/
def tanSel {f : Fmt} (res : FP f) (odd : Bool) : FP f :=
  ofInt (if odd then 1 else 0) * (-lit 1 / res) + ofInt (if odd then 0 else 1) * res

variable {f : Fmt} [f.Ok]

theorem rnd_val {x : FP f} (h : |x.val| ≤ f.big) : rnd f x.val = x.val := rnd_exact f (val_rep x) h

/-- The same with the two products and the sum fused in any way. -/
def tanSelC {f : Fmt} (b c : Bool) (res : FP f) (odd : Bool) : FP f :=
  mad2 b c (ofInt (if odd then 1 else 0)) (-lit 1 / res) (ofInt (if odd then 0 else 1)) res

/-- When one of the two products is zero and the other is representable, fusing changes no value. -/
theorem mad2_val (b c : Bool) {x y u v : FP f} (hx : x.isFinite = true) (hy : y.isFinite = true) (hu : u.isFinite = true)
    (hv : v.isFinite = true) {w : FP f} (hw : |w.val| ≤ f.big)
    (h : x.val * y.val = w.val ∧ u.val * v.val = 0 ∨ x.val * y.val = 0 ∧ u.val * v.val = w.val) :
    (mad2 b c x y u v).isFinite = true ∧ (mad2 b c x y u v).val = w.val := by
  have h0 : |(0 : ℚ)| ≤ f.big := by rw [abs_zero]; exact (abs_nonneg _).trans hw
  have m1 := mul_spec hx hy (by rcases h with h | h <;> rw [h.1] <;> assumption)
  have m2 := mul_spec hu hv (by rcases h with h | h <;> rw [h.2] <;> assumption)
  have e1 : (mul x y).val = x.val * y.val := by
    rw [m1.2]; rcases h with h | h <;> rw [h.1]
    · exact rnd_val hw
    · exact rnd_zero f
  have e2 : (mul u v).val = u.val * v.val := by
    rw [m2.2]; rcases h with h | h <;> rw [h.2]
    · exact rnd_zero f
    · exact rnd_val hw
  have hs : x.val * y.val + u.val * v.val = w.val := by rcases h with h | h <;> rw [h.1, h.2] <;> simp
  unfold mad2
  cases b
  · cases c
    · have a := add_spec m1.1 m2.1 (by rw [e1, e2, hs]; exact hw)
      rw [e1, e2, hs, rnd_val hw] at a
      simpa only [Bool.false_eq_true, if_false, add_def, mul_def] using a
    · have a := fma_spec hu hv m1.1 (by rw [e1, add_comm, hs]; exact hw)
      rw [e1, add_comm, hs, rnd_val hw] at a
      simpa only [Bool.false_eq_true, if_false, if_true, mul_def] using a
  · have a := fma_spec hx hy m2.1 (by rw [e2, hs]; exact hw)
    rw [e2, hs, rnd_val hw] at a
    simpa only [if_true, mul_def] using a

theorem tanSel_even (C : TanC f) (b c : Bool) {res : FP f} (hr : res.isFinite = true) (hb : |res.val| ≤ f.big)
    (hd : (div (neg (lit 1)) res).isFinite = true) : (tanSelC b c res false).isFinite = true ∧ (tanSelC b c res false).val = res.val :=
  mad2_val b c C.i0_f hd C.i1_f hr hb (.inr ⟨by
    change (ofInt 0 : FP f).val * _ = 0
    rw [C.i0_v, zero_mul], by
    change (ofInt 1 : FP f).val * _ = _
    rw [C.i1_v, one_mul]⟩)

theorem tanSel_odd (C : TanC f) (b c : Bool) {res : FP f} (hr : res.isFinite = true) (h0 : res.val ≠ 0) (hi : 1 / |res.val| ≤ f.big)
    (hib : |rnd f (-1 / res.val)| ≤ f.big) : (tanSelC b c res true).isFinite = true ∧ (tanSelC b c res true).val = rnd f (-1 / res.val) := by
  have hl : (FP.neg (lit 1 : FP f)).isFinite = true := by simpa using C.one_f
  have d := div_spec hl hr h0 (by rw [val_neg, C.one_v, abs_div, abs_neg, abs_one]; exact hi)
  rw [val_neg, C.one_v] at d
  have := mad2_val b c C.i1_f d.1 C.i0_f hr (w := div (neg (lit 1)) res) (by rw [d.2]; exact hib) (.inl ⟨by rw [C.i1_v, one_mul], by rw [C.i0_v, zero_mul]⟩)
  rw [d.2] at this
  exact this

/-- The last lines for `x ≠ 0`. -/
theorem tanFinish_eq (C : TanC f) (xor : FP f → FP f) {x res : FP f} (hx : FP.eq x (lit 0) = false) {m : ℕ} (hm : (m : ℚ) ≤ 1073741823) :
    tanFinish xor x res (2 * m) = xor (tanSel (res + ofInt 0) (decide (m % 2 = 1))) * lit 1 := by
  have hm' : m ≤ 1073741823 := by exact_mod_cast hm
  have a := andI_two (j := 2 * m) (by omega) (by omega)
  unfold tanFinish
  simp only [a, hx, ofBool, if_neg (Bool.false_ne_true), C.sub]
  have e1 : 2 * ((2 * (m : ℤ)) / 2 % 2) / 2 = ((m % 2 : ℕ) : ℤ) := by omega
  rw [e1]
  rcases Nat.mod_two_eq_zero_or_one m with h | h
  · rw [h]; rfl
  · rw [h]; rfl

/-- The last lines for `x ≠ 0`. -/
theorem tanFinishC_eq (C : TanC f) (pol : Policy) (xor : FP f → FP f) {x res : FP f} (hx : FP.eq x (lit 0) = false) {m : ℕ} (hm : (m : ℚ) ≤ 1073741823) :
    tanFinishC pol xor x res (2 * m) = xor (tanSelC (pol 9) (pol 10) (res + ofInt 0) (decide (m % 2 = 1))) * lit 1 := by
  have hm' : m ≤ 1073741823 := by exact_mod_cast hm
  have a := andI_two (j := 2 * m) (by omega) (by omega)
  unfold tanFinishC
  simp only [a, hx, ofBool, if_neg (Bool.false_ne_true), C.sub]
  have e1 : 2 * ((2 * (m : ℤ)) / 2 % 2) / 2 = ((m % 2 : ℕ) : ℤ) := by omega
  rw [e1]
  rcases Nat.mod_two_eq_zero_or_one m with h | h
  · rw [h]; rfl
  · rw [h]; rfl

/-- Everything after the reduced tangent is known: which value comes out for `x ≠ 0`. -/
theorem tanFinish_val (C : TanC f) (pol : Policy) {x res : FP f} (hx : x.isFinite = true) (hx0 : x.val ≠ 0) {m : ℕ} (hm : (m : ℚ) ≤ 1073741823)
    (hr : res.isFinite = true) (h0 : res.val ≠ 0) (hb : |res.val| ≤ f.big)
    (hi : if m % 2 = 1 then 1 / |res.val| ≤ f.big ∧ |rnd f (-1 / res.val)| ≤ f.big else
      (div (neg (lit 1)) (add res (ofInt 0))).isFinite = true) {xor : FP f → FP f}
    (hxor : ∀ y : FP f, xor y = ⟨y.sign ^^ x.sign, y.mag, y.bound⟩) :
    (tanFinishC pol xor x res (2 * m)).isFinite = true ∧
    (tanFinishC pol xor x res (2 * m)).val =
      (if x.val < 0 then -1 else 1) * (if m % 2 = 1 then rnd f (-1 / res.val) else res.val) := by
  have he : FP.eq x (lit 0) = false := by
    rw [eq_fin hx C.l0_f, C.l0_v, decide_eq_false_iff_not]; exact hx0
  rw [tanFinishC_eq C pol xor he hm]
  have a := add_spec hr C.i0_f (by rw [C.i0_v, add_zero]; exact hb)
  rw [C.i0_v, add_zero, rnd_val hb] at a
  change (add res (ofInt 0)).isFinite = true ∧ (add res (ofInt 0)).val = res.val at a
  rw [add_def]
  generalize add res (ofInt 0) = r' at *
  have key : ∀ v : FP f, v.isFinite = true → |v.val| ≤ f.big → (xor v * lit 1).isFinite = true ∧
      (xor v * lit 1).val = (if x.val < 0 then -1 else 1) * v.val := by
    intro v hv hvb
    have hx1 : (xor v).isFinite = true := by rw [hxor]; simpa [isFinite] using hv
    have hx2 : (xor v).val = (if x.val < 0 then -1 else 1) * v.val := by
      rw [hxor]
      have hs : x.sign = decide (x.val < 0) := by
        cases hs : x.sign
        · have : 0 ≤ x.val := by unfold val; rw [hs]; exact magVal_nonneg _ _
          simp [this]
        · have : x.val ≤ 0 := by unfold val; rw [hs]; simpa using magVal_nonneg _ _
          have := lt_of_le_of_ne this hx0
          simp [this]
      rw [hs]
      by_cases hn : x.val < 0
      · simp only [hn, decide_true, Bool.xor_true, if_true]
        have := val_neg v
        unfold FP.neg at this
        rw [this]; ring
      · simp only [hn, decide_false, Bool.xor_false, if_false, one_mul]
    have hx3 : |(xor v).val| ≤ f.big := by rw [hx2]; split_ifs <;> simpa using hvb
    have m1 := mul_spec hx1 C.one_f (by rw [C.one_v, mul_one]; exact hx3)
    rw [C.one_v, mul_one, rnd_val hx3, hx2] at m1
    exact m1
  rcases Nat.mod_two_eq_zero_or_one m with h | h
  · rw [if_neg (by omega)] at hi
    have t := tanSel_even C (pol 9) (pol 10) a.1 (by rw [a.2]; exact hb) hi
    have k := key _ t.1 (by rw [t.2, a.2]; exact hb)
    rw [t.2, a.2] at k
    simp only [h, decide_false, Nat.zero_ne_one, if_false]
    exact k
  · rw [if_pos h] at hi
    have t := tanSel_odd C (pol 9) (pol 10) a.1 (by rw [a.2]; exact h0) (by rw [a.2]; exact hi.1) (by rw [a.2]; exact hi.2)
    have k := key _ t.1 (by rw [t.2, a.2]; exact hi.2)
    rw [t.2, a.2] at k
    simp only [h, decide_true, if_true]
    exact k

section
variable {m : Type → Type} [Monad m] [LawfulMonad m]

theorem fast_tanCM_eq (M : Machine m) (p : Policy) (x : F64) : fast_tanCM M p x =
    (quadStep M ONEOPIO4 (FP.abs x)) >>= fun q1 => pure (tanFinishC p (fun r => dpXORuint64 r (getSignMask x)) x
      (tanCoreC p (reduceC p (FP.abs x) (ofInt (clearLow q1)) DP1 DP2 DP3)) (clearLow q1)) := by
  simp only [fast_tanCM, quadStep, bind_assoc, pure_bind]
  rfl

theorem fast_tanfCM_eq (M : Machine m) (p : Policy) (x : F32) : fast_tanfCM M p x =
    (quadStep M ONEOPIO4F (FP.abs x)) >>= fun q1 => pure (tanFinishC p (fun r => spXORuint32 r (getSignMaskf x)) x
      (tanfCoreC p (reduceC p (FP.abs x) (ofInt (clearLow q1)) DP1F DP2F DP3F)) (clearLow q1)) := by
  simp only [fast_tanfCM, quadStep, bind_assoc, pure_bind]
  rfl

theorem fast_tanM_eq (M : Machine m) (x : F64) : fast_tanM M x =
    (quadStep M ONEOPIO4 (FP.abs x)) >>= fun q1 => pure (tanFinish (fun r => dpXORuint64 r (getSignMask x)) x
      (tanCore (reduceWith (FP.abs x) (ofInt (clearLow q1)))) (clearLow q1)) := by
  simp only [fast_tanM, reduce2quadranttan, quadStep, bind_assoc, pure_bind]
  rfl

theorem fast_tanfM_eq (M : Machine m) (x : F32) : fast_tanfM M x =
    (quadStep M ONEOPIO4F (FP.abs x)) >>= fun q1 => pure (tanFinish (fun r => spXORuint32 r (getSignMaskf x)) x
      (tanfCore (reduceWithf (FP.abs x) (ofInt (clearLow q1)))) (clearLow q1)) := by
  simp only [fast_tanfM, reduce2quadranttanf, quadStep, bind_assoc, pure_bind]
  rfl
end

/-- The tangent of `t + m π/2`. -/
theorem quadrant_tan {t : ℝ} (m : ℕ) :
    Real.tan (t + m * (Real.pi / 2)) = if m % 2 = 1 then -1 / Real.tan t else Real.tan t := by
  have q := quadrant_trig t m
  rw [Real.tan_eq_sin_div_cos, q.1, q.2, Real.tan_eq_sin_div_cos]
  have : m % 4 = 0 ∨ m % 4 = 1 ∨ m % 4 = 2 ∨ m % 4 = 3 := by omega
  rcases this with h | h | h | h
  · have h' : m % 2 = 0 := by omega
    simp [h, h']
  · have h' : m % 2 = 1 := by omega
    simp [h, h', div_neg, neg_div]
  · have h' : m % 2 = 0 := by omega
    simp [h, h', neg_div_neg_eq]
  · have h' : m % 2 = 1 := by omega
    simp [h, h', neg_div]

/-- Relative errors through the selection: `t` is the computed tangent of the reduced argument, `τ` the true one. -/
theorem tan_combine {t τ ε u y : ℝ} {odd : Prop} [Decidable odd] (hτ : τ ≠ 0) (hε : |t - τ| ≤ ε * |τ|) (hε1 : ε ≤ 0.0051) (hu : 0 ≤ u)
    (hy : if odd then |y - -1 / t| ≤ u / |t| else y = t) :
    |y - (if odd then -1 / τ else τ)| ≤ 1.006 * (u + ε) * |if odd then -1 / τ else τ| := by
  have hτp : 0 < |τ| := abs_pos.2 hτ
  have hε0 : 0 ≤ ε := by
    by_contra h; push Not at h
    have := abs_nonneg (t - τ); nlinarith
  split_ifs at hy ⊢ with ho
  · have ht : 0.9949 * |τ| ≤ |t| := by
      have := abs_sub_abs_le_abs_sub τ t
      rw [abs_sub_comm τ t] at this
      nlinarith
    have htp : 0 < |t| := by nlinarith
    have ht0 : t ≠ 0 := abs_pos.1 htp
    have e : -1 / t - -1 / τ = (t - τ) / (t * τ) := by field_simp; ring
    have h1 : |-1 / t - -1 / τ| ≤ ε / |t| := by
      rw [e, abs_div, abs_mul, div_le_div_iff₀ (by positivity) htp]
      nlinarith [mul_le_mul_of_nonneg_right hε htp.le]
    have h2 := (abs_sub_le y (-1 / t) (-1 / τ)).trans (add_le_add hy h1)
    refine h2.trans ?_
    rw [← add_div, abs_div, abs_neg, abs_one, mul_one_div, div_le_div_iff₀ htp hτp]
    have : 0 ≤ u + ε := by linarith
    nlinarith [mul_le_mul_of_nonneg_left ht this]
  · rw [hy]
    refine hε.trans ?_
    have h1 : ε ≤ 1.006 * (u + ε) := by linarith
    exact mul_le_mul_of_nonneg_right h1 hτp.le

/-- The pieces put together, for both precisions. -/
theorem tan_assemble (C : TanC f) (pol : Policy) {x res : FP f} {z A κ w : ℝ} {m : ℕ} {xor : FP f → FP f}
    (hx : x.isFinite = true) (hx0 : x.val ≠ 0) (hm : (m : ℚ) ≤ 1073741823) (hr : res.isFinite = true)
    (hz : |z| ≤ 0.787) (hζ : |(|x.real| - m * (Real.pi / 2))| ≤ 0.7863) (hζ0 : 0 < |(|x.real| - m * (Real.pi / 2))|)
    (hzζ : |z - (|x.real| - m * (Real.pi / 2))| ≤ f.u * |(|x.real| - m * (Real.pi / 2))| + m * κ)
    (hw : w * |(|x.real| - m * (Real.pi / 2))| = m * κ) (hw0 : 0 ≤ w)
    (core : |res.real - Real.tan z| ≤ A * |z|) (hA : 0 ≤ A) (small : A + 2.03 * (f.u + w) ≤ 0.005) (hA1 : A ≤ 0.005)
    (hsm : 2 ^ (-100 : ℤ) ≤ |(|x.real| - m * (Real.pi / 2))| ∨
      m % 2 = 0 ∧ (div (neg (lit 1)) (add res (ofInt 0))).isFinite = true)
    (hbig : (2 : ℚ) ^ 102 ≤ f.big) (heta : f.eta ≤ f.u / 2) (hu1 : f.u ≤ 1)
    (hxor : ∀ y : FP f, xor y = ⟨y.sign ^^ x.sign, y.mag, y.bound⟩) :
    (tanFinishC pol xor x res (2 * m)).isFinite = true ∧
    |(tanFinishC pol xor x res (2 * m)).real - Real.tan x.real| ≤
      1.006 * (f.u + (A * 1.005 + 2.02 * (f.u + w))) * |Real.tan x.real| ∧
    w * |Real.tan x.real| ≤ 1.42 * (m * κ) * (1 + Real.tan x.real ^ 2) ∧
    (2 ^ (-20 : ℤ) ≤ |Real.tan x.real| → |Real.tan x.real| ≤ 2 ^ 20 → 1.1e-7 ≤ |z|) := by
  obtain ⟨ζ, hζe⟩ : ∃ ζ, ζ = |x.real| - m * (Real.pi / 2) := ⟨_, rfl⟩
  rw [← hζe] at hζ hζ0 hzζ hw hsm
  have hu0 : (0 : ℝ) < f.u := by exact_mod_cast f.u_pos
  have hζ' : |ζ| ≤ 0.787 := hζ.trans (by norm_num)
  have τ1 := tan_ge hζ'
  have τ2 := tan_le hζ'
  have τ0 : Real.tan ζ ≠ 0 := abs_pos.1 (hζ0.trans_le τ1)
  have hδ : |z - ζ| ≤ (f.u + w) * |ζ| := by rw [add_mul, hw]; exact hzζ
  have hzz : |z| ≤ 1.005 * |ζ| := by
    have := abs_add_le ζ (z - ζ); rw [add_sub_cancel] at this
    nlinarith
  have hzl : 0.99 * |ζ| ≤ |z| := by
    have := abs_sub_abs_le_abs_sub ζ z; rw [abs_sub_comm ζ z] at this
    nlinarith
  have hε : |res.real - Real.tan ζ| ≤ (A * 1.005 + 2.02 * (f.u + w)) * |Real.tan ζ| := by
    have h1 := (abs_sub_le res.real (Real.tan z) (Real.tan ζ)).trans (add_le_add core (tan_lip hz hζ'))
    have h2 : A * |z| ≤ A * (1.005 * |ζ|) := mul_le_mul_of_nonneg_left hzz hA
    have h3 : |res.real - Real.tan ζ| ≤ (A * 1.005 + 2.02 * (f.u + w)) * |ζ| := by nlinarith
    refine h3.trans (mul_le_mul_of_nonneg_left τ1 ?_)
    have : 0 ≤ f.u + w := by linarith
    nlinarith
  have hε1 : A * 1.005 + 2.02 * (f.u + w) ≤ 0.005 + 0.005 * 0.005 := by nlinarith
  have hres : 0.9 * |Real.tan ζ| ≤ |res.real| := by
    have := abs_sub_abs_le_abs_sub (Real.tan ζ) res.real
    rw [abs_sub_comm] at this
    nlinarith [abs_nonneg (Real.tan ζ)]
  have hresu : |res.real| ≤ 2 := by
    have := abs_add_le (Real.tan ζ) (res.real - Real.tan ζ); rw [add_sub_cancel] at this
    nlinarith [abs_nonneg (Real.tan ζ)]
  have hres0 : 0 < |res.real| := by nlinarith
  have hr0 : res.val ≠ 0 := by
    intro h; unfold FP.real at hres0; rw [h] at hres0; simp at hres0
  have hresuQ : |res.val| ≤ 2 := by
    have : ((|res.val| : ℚ) : ℝ) ≤ ((2 : ℚ) : ℝ) := by rw [← real_abs]; push_cast; exact hresu
    exact_mod_cast this
  have hpos : 0 < |res.val| := abs_pos.2 hr0
  have hnt : 2 ^ (-100 : ℤ) ≤ |ζ| → 1 / |res.val| ≤ 2 ^ 101 := by
    intro h1
    have h2 : (2 : ℝ) ^ (-101 : ℤ) ≤ |res.real| := by
      have : (2 : ℝ) ^ (-101 : ℤ) = 0.5 * 2 ^ (-100 : ℤ) := by norm_num
      rw [this]
      have hk : (0 : ℝ) < 2 ^ (-100 : ℤ) := by positivity
      generalize (2 : ℝ) ^ (-100 : ℤ) = k at *
      norm_num at hres ⊢
      linarith
    have h3 : (1 : ℚ) / 2 ^ 101 ≤ |res.val| := by
      have : (((1 : ℚ) / 2 ^ 101 : ℚ) : ℝ) ≤ ((|res.val| : ℚ) : ℝ) := by
        rw [← real_abs]; push_cast; refine le_trans (le_of_eq ?_) h2; norm_num
      exact_mod_cast this
    rw [div_le_iff₀ hpos]
    have := mul_le_mul_of_nonneg_left h3 (by positivity : (0 : ℚ) ≤ 2 ^ 101)
    refine le_trans (le_of_eq ?_) this; norm_num
  have hodd : m % 2 = 1 → 1 / |res.val| ≤ 2 ^ 101 := by
    intro h
    rcases hsm with h1 | h1
    · exact hnt h1
    · omega
  have hev : m % 2 = 0 → (div (neg (lit 1)) (add res (ofInt 0))).isFinite = true := by
    intro h
    rcases hsm with h1 | h1
    · have a := add_spec hr C.i0_f (by rw [C.i0_v, add_zero]; exact hresuQ.trans (le_trans (by norm_num) hbig))
      rw [C.i0_v, add_zero, rnd_val (hresuQ.trans (le_trans (by norm_num) hbig))] at a
      exact (div_spec (by simpa using C.one_f) a.1 (by rw [a.2]; exact hr0) (by
        rw [val_neg, C.one_v, a.2, abs_div, abs_neg, abs_one]; exact (hnt h1).trans (le_trans (by norm_num) hbig))).1
    · exact h1.2
  have hrn : m % 2 = 1 → |rnd f (-1 / res.val) - -1 / res.val| ≤ f.u * (1 / |res.val|) := by
    intro h
    have h1 := hodd h
    have hq : |-1 / res.val| = 1 / |res.val| := by rw [abs_div, abs_neg, abs_one]
    have e := rnd_err_rel f (q := -1 / res.val) (by rw [hq]; exact h1.trans (le_trans (by norm_num) hbig))
    rw [hq] at e
    refine e.trans (max_le le_rfl ?_)
    have h2 : 1 / 2 ≤ 1 / |res.val| := by
      rw [div_le_div_iff₀ (by norm_num) hpos]; linarith
    have := mul_le_mul_of_nonneg_left h2 f.u_pos.le
    linarith
  have v := tanFinish_val C pol hx hx0 hm hr hr0 (hresuQ.trans (le_trans (by norm_num) hbig)) (by
    split_ifs with h
    · have h1 := hodd h
      refine ⟨h1.trans (le_trans (by norm_num) hbig), ?_⟩
      have h2 := hrn h
      have hq : |-1 / res.val| = 1 / |res.val| := by rw [abs_div, abs_neg, abs_one]
      have h3 := abs_add_le (-1 / res.val) (rnd f (-1 / res.val) - -1 / res.val)
      rw [add_sub_cancel, hq] at h3
      have h4 : f.u * (1 / |res.val|) ≤ 1 * (1 / |res.val|) := mul_le_mul_of_nonneg_right hu1 (by positivity)
      have h5 : (2 : ℚ) ^ 102 = 2 ^ 101 + 2 ^ 101 := by norm_num
      linarith
    · exact hev (by omega)) hxor
  refine ⟨v.1, ?_⟩
  have c := tan_combine (u := f.u) (y := if m % 2 = 1 then ((rnd f (-1 / res.val) : ℚ) : ℝ) else res.real) (odd := m % 2 = 1) τ0 hε
    (le_of_eq_of_le rfl (by norm_num at hε1 ⊢; linarith)) hu0.le (by
      split_ifs with h
      · have := hrn h
        have h2 : ((|rnd f (-1 / res.val) - -1 / res.val| : ℚ) : ℝ) ≤ ((f.u * (1 / |res.val|) : ℚ) : ℝ) := by exact_mod_cast this
        rw [real_abs]
        unfold FP.real
        push_cast at h2 ⊢
        rw [div_eq_mul_one_div (f.u : ℝ)]
        exact h2
      · rfl)
  have hq := quadrant_tan (t := ζ) m
  rw [show ζ + m * (Real.pi / 2) = |x.real| by rw [hζe]; ring] at hq
  rw [← hq] at c
  have hy : (tanFinishC pol xor x res (2 * m)).real = (if x.val < 0 then -1 else 1) *
      (if m % 2 = 1 then ((rnd f (-1 / res.val) : ℚ) : ℝ) else res.real) := by
    unfold FP.real
    rw [v.2]
    split_ifs <;> push_cast <;> ring
  have htx : Real.tan x.real = (if x.val < 0 then -1 else 1) * Real.tan |x.real| := by
    split_ifs with h
    · have : x.real < 0 := by unfold FP.real; exact_mod_cast h
      rw [abs_of_neg this, Real.tan_neg]; ring
    · have : 0 ≤ x.real := by unfold FP.real; exact_mod_cast not_lt.1 h
      rw [abs_of_nonneg this, one_mul]
  have hta : |Real.tan x.real| = |Real.tan (|x.real|)| := by
    rw [htx, abs_mul]; split_ifs <;> simp
  refine ⟨?_, ?_, ?_⟩
  · rw [hta, hy, htx, ← mul_sub, abs_mul]
    refine le_trans (le_of_eq ?_) c
    split_ifs <;> simp
  · rw [← sq_abs, hta, hq]
    have hmκ : (m : ℝ) * κ = w * |ζ| := hw.symm
    rw [hmκ]
    have hp := abs_pos.2 τ0
    split_ifs with h
    · rw [abs_div, abs_neg, abs_one]
      have h1 : 1 / |Real.tan ζ| ≤ 1.42 * |ζ| * (1 + (1 / |Real.tan ζ|) ^ 2) := by
        have h2 : |Real.tan ζ| * (1 / |Real.tan ζ|) ^ 2 = 1 / |Real.tan ζ| := by field_simp
        have h3 : |Real.tan ζ| * (1 / |Real.tan ζ|) ^ 2 ≤ 1.42 * |ζ| * (1 / |Real.tan ζ|) ^ 2 := mul_le_mul_of_nonneg_right τ2 (by positivity)
        have h4 : 0 ≤ 1.42 * |ζ| := by positivity
        linarith
      have := mul_le_mul_of_nonneg_left h1 hw0
      linarith
    · have h1 : |Real.tan ζ| ≤ 1.42 * |ζ| * (1 + |Real.tan ζ| ^ 2) := by
        have : 0 ≤ 1.42 * |ζ| * |Real.tan ζ| ^ 2 := by positivity
        linarith
      have := mul_le_mul_of_nonneg_left h1 hw0
      linarith
  · intro h1 h2
    rw [hta, hq] at h1 h2
    have hp := abs_pos.2 τ0
    have h3 : (2 : ℝ) ^ (-20 : ℤ) ≤ |Real.tan ζ| := by
      split_ifs at h1 h2 with h
      · rw [abs_div, abs_neg, abs_one, div_le_iff₀ hp] at h2
        have : (2 : ℝ) ^ (-20 : ℤ) * 1 ≤ 2 ^ (-20 : ℤ) * (2 ^ 20 * |Real.tan ζ|) := mul_le_mul_of_nonneg_left h2 (by positivity)
        norm_num at this ⊢; linarith
      · exact h1
    have h4 : (1.2e-7 : ℝ) * 1.42 ≤ 2 ^ (-20 : ℤ) := by norm_num
    norm_num at h4 h3 τ2 hzl ⊢
    linarith

/-- The reciprocal of a number that is not too small is finite. -/
theorem inv_finite (C : TanC f) {r : FP f} {q : ℚ} (hr : r.isFinite = true) (h0 : 0 < q) (hq : q ≤ |r.val|)
    (hd : roundMag f (1 / q) < f.infMag) : (div (neg (lit 1)) r).isFinite = true := by
  have hp : 0 < |r.val| := h0.trans_le hq
  rw [div_fin (by simpa using C.one_f) hr (abs_pos.1 hp), val_neg, C.one_v]
  have h1 : 1 / |r.val| ≤ 1 / q := one_div_le_one_div_of_le h0 hq
  have h2 := lt_of_le_of_lt (roundMag_mono f h1) hd
  have e : |-1 / r.val| = 1 / |r.val| := by rw [abs_div, abs_neg, abs_one]
  unfold ofRat isFinite
  simp only [decide_eq_true_eq]
  split
  · rename_i hq; rw [abs_of_neg hq] at e; rw [e]; exact h2
  · rename_i hq; rw [abs_of_nonneg (not_lt.1 hq)] at e; rw [e]; exact h2

/-- The next number after a magnitude. -/
theorem next_mag {x : FP f} {n : ℕ} (h : magVal f n < |x.val|) : magVal f (n + 1) ≤ |x.val| := by
  rw [abs_val] at h ⊢
  exact magVal_le.2 (magVal_lt.1 h)

theorem distCover64b : covers (distCheck64 (2 ^ 23)) ((List.range 29).map fun i : ℕ => p2 ((i : ℤ) - 1)) = true := by decide +kernel
theorem distCover32 : covers (distCheck32 (2 ^ 9)) ((List.range 15).map fun i : ℕ => p2 ((i : ℤ) - 1)) = true := by decide +kernel

theorem distCover64_27 : covers (distCheck64 (1.4 * 2 ^ 23)) ((List.range 29).map fun i : ℕ => p2 ((i : ℤ) - 1)) = true := by decide +kernel
theorem distCover64_20 : covers (distCheck64 (2 ^ 33)) ((List.range 22).map fun i : ℕ => p2 ((i : ℤ) - 1)) = true := by decide +kernel
theorem distCover64_13 : covers (distCheck64 (2 ^ 39)) ((List.range 15).map fun i : ℕ => p2 ((i : ℤ) - 1)) = true := by decide +kernel
theorem distCover64_5 : covers (distCheck64 (1.4 * 2 ^ 48)) ((List.range 7).map fun i : ℕ => p2 ((i : ℤ) - 1)) = true := by decide +kernel

theorem distCover32_13 : covers (distCheck32 (1.4 * 2 ^ 10)) ((List.range 15).map fun i : ℕ => p2 ((i : ℤ) - 1)) = true := by decide +kernel
theorem distCover32_12 : covers (distCheck32 (1.4 * 2 ^ 11)) ((List.range 14).map fun i : ℕ => p2 ((i : ℤ) - 1)) = true := by decide +kernel
theorem distCover32_7 : covers (distCheck32 (2 ^ 16)) ((List.range 9).map fun i : ℕ => p2 ((i : ℤ) - 1)) = true := by decide +kernel

/-- The complete tangent. `w` is the part of the relative error due to the argument reduction. -/
theorem tanC_acc64 (p : Policy) {x : F64} (hx : x.isFinite = true) (h0 : p2 (-1024) < |x.val|) (h : |x.val| ≤ 2 ^ 27) :
    ∃ (y : F64) (w : ℝ), fast_tanC p x = some y ∧ y.isFinite = true ∧ 0 ≤ w ∧ w ≤ 1 / 2 ^ 23 ∧
      (∀ (ρ X : ℚ) (l : List ℚ), 1 ≤ ρ → covers (distCheck64 ρ) l = true → spans l (1 / 2) X = true → |x.val| ≤ X → w ≤ 1 / (ρ : ℝ)) ∧
      (∃ m : ℕ, (m : ℝ) * 1.57 ≤ |x.real| + 0.7863 ∧ w * |Real.tan x.real| ≤ 1.42 * (m * (1 / 2 ^ 106)) * (1 + Real.tan x.real ^ 2)) ∧
      |y.real - Real.tan x.real| ≤ (36 * 2 ^ (-53 : ℤ) + 2.04 * w) * |Real.tan x.real| ∧
      (2 ^ (-20 : ℤ) ≤ |Real.tan x.real| → |Real.tan x.real| ≤ 2 ^ 20 →
        |y.real - Real.tan x.real| ≤ (7.1 * 2 ^ (-53 : ℤ) + 2.04 * w) * |Real.tan x.real|) := by
  obtain ⟨m, ⟨q1, hq1, hq2⟩, hmN, r1, r2, r3, r4, r5, r6⟩ := reduce64C p hx h
  have hm : (m : ℚ) ≤ 1073741823 := by linarith
  have e : fast_tanC p x = some (tanFinishC p (fun r => dpXORuint64 r (getSignMask x)) x (tanCoreC p (reduceC p (FP.abs x) (ofInt (2 * m)) DP1 DP2 DP3)) (2 * m)) := by
    unfold fast_tanC
    rw [fast_tanCM_eq, hq1]
    simp only [Option.bind_eq_bind, Option.bind_some, Option.pure_def, hq2]
  have hx0 : x.val ≠ 0 := by
    intro hc; rw [hc, abs_zero] at h0
    exact absurd h0 (by decide +kernel)
  have hxr0 : x.real ≠ 0 := by unfold FP.real; exact_mod_cast hx0
  have hU : ((b64.u : ℚ) : ℝ) = 2 ^ (-53 : ℤ) := by
    rw [show b64.u = p2 (-53) by decide +kernel, p2_eq]; push_cast; rfl
  obtain ⟨ζ, hζ⟩ : ∃ ζ, ζ = |x.real| - m * (Real.pi / 2) := ⟨_, rfl⟩
  have hdist : 1 ≤ m → (2 ^ 23) * (m * (1 / 2 ^ 106)) ≤ |ζ| := by
    intro h1
    have := dist64 (by decide +kernel) distCover64b (X := 2 ^ 27) (by decide +kernel) (r4 h1) h h1 r5
    rw [hζ]; push_cast at this; exact this
  have hζ0 : 0 < |ζ| := by
    rcases Nat.eq_zero_or_pos m with h1 | h1
    · rw [hζ, h1]; simpa using hxr0
    · have h2 : (1 : ℝ) ≤ m := by exact_mod_cast h1
      refine lt_of_lt_of_le ?_ (hdist h1)
      positivity
  have hw0 : (0 : ℝ) ≤ m * (1 / 2 ^ 106) / |ζ| := by positivity
  have hw : (m : ℝ) * (1 / 2 ^ 106) / |ζ| * |ζ| = m * (1 / 2 ^ 106) := div_mul_cancel₀ _ hζ0.ne'
  have hwb : (m : ℝ) * (1 / 2 ^ 106) / |ζ| ≤ 1 / 2 ^ 23 := by
    rcases Nat.eq_zero_or_pos m with h1 | h1
    · rw [h1]; simp
    · rw [div_le_div_iff₀ hζ0 (by norm_num)]
      have := hdist h1
      linarith
  have core := tan_core p r1 r2
  have hpi : (1.57 : ℝ) ≤ Real.pi / 2 := by
    have h1 := pi_near
    have h2 : ((piQ : ℚ) : ℝ) ≥ 3.1415 := by norm_num [piQ]
    rw [abs_le] at h1
    have h3 : (1 : ℝ) / 10 ^ 38 ≤ 0.0001 := by norm_num
    norm_num at h2 h3 ⊢
    linarith [h1.1]
  have hsm : 2 ^ (-100 : ℤ) ≤ |ζ| ∨
      m % 2 = 0 ∧ (div (neg (lit 1)) (add (tanCoreC p (reduceC p (FP.abs x) (ofInt (2 * m)) DP1 DP2 DP3)) (ofInt 0))).isFinite = true := by
    rcases Nat.eq_zero_or_pos m with h1 | h1
    · rcases le_or_gt (1 / 2 ^ 100) |x.val| with h2 | h2
      · left
        rw [hζ, h1]
        have : (((1 : ℚ) / 2 ^ 100 : ℚ) : ℝ) ≤ ((|x.val| : ℚ) : ℝ) := by exact_mod_cast h2
        rw [← real_abs] at this
        push_cast at this
        simp only [Nat.cast_zero, zero_mul, sub_zero, abs_abs]
        refine le_trans (le_of_eq ?_) this
        norm_num
      · right
        refine ⟨by omega, ?_⟩
        have hv := r3 h1
        have hq : |(reduceC p (FP.abs x) (ofInt (2 * m)) DP1 DP2 DP3).val| ≤ 0.787 := by
          rw [hv, abs_abs]; exact h2.le.trans (by norm_num)
        have t := (square_test (c := lit 1.0e-14) (U := 1e-18) r1 hq (by decide +kernel) (by norm_num) (by decide +kernel) (by decide +kernel)
          (by decide +kernel) (by decide +kernel) (by decide +kernel) (by decide +kernel) (by decide +kernel)).1
        have hg : FP.gt (reduceC p (FP.abs x) (ofInt (2 * m)) DP1 DP2 DP3 * reduceC p (FP.abs x) (ofInt (2 * m)) DP1 DP2 DP3) (lit 1.0e-14) = false := by
          by_contra hc
          rw [Bool.not_eq_false] at hc
          have := t hc
          rw [hv, abs_abs] at this
          norm_num at this h2
          linarith
        rw [tanCoreC_eq, hg, if_neg (by simp)]
        have a := add_spec r1 tanC64.i0_f (by
          rw [tanC64.i0_v, add_zero]; exact hq.trans (by decide +kernel))
        rw [tanC64.i0_v, add_zero, rnd_val (hq.trans (by decide +kernel)), hv] at a
        have hn := next_mag (n := 2 ^ 50) (x := x) (lt_of_eq_of_lt (by decide +kernel) h0)
        refine inv_finite tanC64 a.1 (q := magVal b64 (2 ^ 50 + 1)) (by decide +kernel) ?_ (by decide +kernel)
        rw [a.2, abs_abs]; exact hn
    · left
      have h2 : (1 : ℝ) ≤ m := by exact_mod_cast h1
      have h3 : ((2 ^ 23) : ℝ) * (1 * (1 / 2 ^ 106)) ≤ (2 ^ 23) * (m * (1 / 2 ^ 106)) :=
        mul_le_mul_of_nonneg_left (mul_le_mul_of_nonneg_right h2 (by positivity)) (by positivity)
      refine le_trans ?_ (h3.trans (hdist h1))
      norm_num
  have hmx : (m : ℝ) * 1.57 ≤ |x.real| + 0.7863 := by
    rw [abs_le] at r5
    have : (m : ℝ) * 1.57 ≤ m * (Real.pi / 2) := mul_le_mul_of_nonneg_left hpi (by positivity)
    norm_num at r5 ⊢
    linarith [r5.1]
  rw [← hζ] at r5 r6
  have main : ∀ A : ℝ, 0 ≤ A → A ≤ 0.001 → |(tanCoreC p (reduceC p (FP.abs x) (ofInt (2 * m)) DP1 DP2 DP3)).real - Real.tan (reduceC p (FP.abs x) (ofInt (2 * m)) DP1 DP2 DP3).real| ≤
      A * |(reduceC p (FP.abs x) (ofInt (2 * m)) DP1 DP2 DP3).real| → _ := fun A hA0 hA1 hA =>
    tan_assemble tanC64 p (A := A) (κ := (1 / 2 ^ 106)) (w := (m : ℝ) * (1 / 2 ^ 106) / |ζ|) hx hx0 hm core.1 r2 (by rw [← hζ]; exact r5) (by rw [← hζ]; exact hζ0)
      (by rw [← hζ, hU]; exact r6) (by rw [← hζ]; exact hw) hw0 hA hA0 (by
        rw [hU]
        have h2 : (1 : ℝ) / 2 ^ 23 ≤ 1 / 2 ^ 9 := by norm_num
        have h3 : (2 : ℝ) ^ (-53 : ℤ) ≤ 1e-6 := by norm_num
        norm_num at h2 h3 hA1 hwb ⊢
        linarith) (hA1.trans (by norm_num)) (by rw [← hζ]; exact hsm)
      (by decide +kernel) (by decide +kernel) (by decide +kernel) (dpXOR_signMask · x)
  obtain ⟨t1, t2, t3, t4⟩ := main (2 ^ (-48 : ℤ)) (by positivity) (by norm_num) core.2.1
  refine ⟨_, _, e, t1, hw0, hwb, ?_, ⟨m, hmx, t3⟩, ?_, ?_⟩
  · intro ρ X l hρ ok hs h20
    have hρ0 : (0 : ℝ) < ρ := by
      have : (0 : ℚ) < ρ := by linarith
      exact_mod_cast this
    rcases Nat.eq_zero_or_pos m with h1 | h1
    · rw [h1]; simpa using hρ0.le
    · have := dist64 hρ ok hs (r4 h1) h20 h1 (by rw [← hζ]; exact r5)
      rw [← hζ] at this
      rw [div_le_div_iff₀ hζ0 hρ0]
      linarith
  · refine t2.trans (mul_le_mul_of_nonneg_right ?_ (abs_nonneg _))
    rw [hU]
    norm_num at hw0 ⊢
    linarith
  · intro g1 g2
    obtain ⟨-, t5, -, -⟩ := main (3.9 * 2 ^ (-53 : ℤ)) (by positivity) (by norm_num) (core.2.2 (t4 g1 g2))
    refine t5.trans (mul_le_mul_of_nonneg_right ?_ (abs_nonneg _))
    rw [hU]
    norm_num at hw0 ⊢
    linarith

theorem tan_acc64 {x : F64} (hx : x.isFinite = true) (h0 : p2 (-1024) < |x.val|) (h : |x.val| ≤ 2 ^ 27) :
    ∃ (y : F64) (w : ℝ), fast_tan x = some y ∧ y.isFinite = true ∧ 0 ≤ w ∧ w ≤ 1 / 2 ^ 23 ∧
      (∀ (ρ X : ℚ) (l : List ℚ), 1 ≤ ρ → covers (distCheck64 ρ) l = true → spans l (1 / 2) X = true → |x.val| ≤ X → w ≤ 1 / (ρ : ℝ)) ∧
      (∃ m : ℕ, (m : ℝ) * 1.57 ≤ |x.real| + 0.7863 ∧ w * |Real.tan x.real| ≤ 1.42 * (m * (1 / 2 ^ 106)) * (1 + Real.tan x.real ^ 2)) ∧
      |y.real - Real.tan x.real| ≤ (36 * 2 ^ (-53 : ℤ) + 2.04 * w) * |Real.tan x.real| ∧
      (2 ^ (-20 : ℤ) ≤ |Real.tan x.real| → |Real.tan x.real| ≤ 2 ^ 20 →
        |y.real - Real.tan x.real| ≤ (7.1 * 2 ^ (-53 : ℤ) + 2.04 * w) * |Real.tan x.real|) := by
  rw [← fast_tan_plain]
  exact tanC_acc64 _ hx h0 h


/-- The complete tangent in single precision. `w` is the part of the relative error due to the argument reduction. -/
theorem tanC_acc32 (p : Policy) {x : F32} (hx : x.isFinite = true) (h0 : p2 (-128) < |x.val|) (h : |x.val| ≤ 8192) :
    ∃ (y : F32) (w : ℝ), fast_tanfC p x = some y ∧ y.isFinite = true ∧ 0 ≤ w ∧ w ≤ 1 / 2 ^ 9 ∧
      (∀ (ρ X : ℚ) (l : List ℚ), 1 ≤ ρ → covers (distCheck32 ρ) l = true → spans l (1 / 2) X = true → |x.val| ≤ X → w ≤ 1 / (ρ : ℝ)) ∧
      (∃ m : ℕ, (m : ℝ) * 1.57 ≤ |x.real| + 0.7863 ∧ w * |Real.tan x.real| ≤ 1.42 * (m * (0.9 / 2 ^ 47)) * (1 + Real.tan x.real ^ 2)) ∧
      |y.real - Real.tan x.real| ≤ (6.4 * 2 ^ (-24 : ℤ) + 2.04 * w) * |Real.tan x.real| := by
  obtain ⟨m, ⟨q1, hq1, hq2⟩, hmN, r1, r2, r3, r4, r5, r6⟩ := reduce32C p hx h
  have hm : (m : ℚ) ≤ 1073741823 := by linarith
  have e : fast_tanfC p x = some (tanFinishC p (fun r => spXORuint32 r (getSignMaskf x)) x (tanfCoreC p (reduceC p (FP.abs x) (ofInt (2 * m)) DP1F DP2F DP3F)) (2 * m)) := by
    unfold fast_tanfC
    rw [fast_tanfCM_eq, hq1]
    simp only [Option.bind_eq_bind, Option.bind_some, Option.pure_def, hq2]
  have hx0 : x.val ≠ 0 := by
    intro hc; rw [hc, abs_zero] at h0
    exact absurd h0 (by decide +kernel)
  have hxr0 : x.real ≠ 0 := by unfold FP.real; exact_mod_cast hx0
  have hU : ((b32.u : ℚ) : ℝ) = 2 ^ (-24 : ℤ) := by
    rw [show b32.u = p2 (-24) by decide +kernel, p2_eq]; push_cast; rfl
  obtain ⟨ζ, hζ⟩ : ∃ ζ, ζ = |x.real| - m * (Real.pi / 2) := ⟨_, rfl⟩
  have hdist : 1 ≤ m → (2 ^ 9) * (m * (0.9 / 2 ^ 47)) ≤ |ζ| := by
    intro h1
    have := dist32 (by decide +kernel) distCover32 (X := 8192) (by decide +kernel) (r4 h1) h h1 r5
    rw [hζ]; push_cast at this; exact this
  have hζ0 : 0 < |ζ| := by
    rcases Nat.eq_zero_or_pos m with h1 | h1
    · rw [hζ, h1]; simpa using hxr0
    · have h2 : (1 : ℝ) ≤ m := by exact_mod_cast h1
      refine lt_of_lt_of_le ?_ (hdist h1)
      positivity
  have hw0 : (0 : ℝ) ≤ m * (0.9 / 2 ^ 47) / |ζ| := by positivity
  have hw : (m : ℝ) * (0.9 / 2 ^ 47) / |ζ| * |ζ| = m * (0.9 / 2 ^ 47) := div_mul_cancel₀ _ hζ0.ne'
  have hwb : (m : ℝ) * (0.9 / 2 ^ 47) / |ζ| ≤ 1 / 2 ^ 9 := by
    rcases Nat.eq_zero_or_pos m with h1 | h1
    · rw [h1]; simp
    · rw [div_le_div_iff₀ hζ0 (by norm_num)]
      have := hdist h1
      linarith
  have core := tanf_core p r1 r2
  have hpi : (1.57 : ℝ) ≤ Real.pi / 2 := by
    have h1 := pi_near
    have h2 : ((piQ : ℚ) : ℝ) ≥ 3.1415 := by norm_num [piQ]
    rw [abs_le] at h1
    have h3 : (1 : ℝ) / 10 ^ 38 ≤ 0.0001 := by norm_num
    norm_num at h2 h3 ⊢
    linarith [h1.1]
  have hsm : 2 ^ (-100 : ℤ) ≤ |ζ| ∨
      m % 2 = 0 ∧ (div (neg (lit 1)) (add (tanfCoreC p (reduceC p (FP.abs x) (ofInt (2 * m)) DP1F DP2F DP3F)) (ofInt 0))).isFinite = true := by
    rcases Nat.eq_zero_or_pos m with h1 | h1
    · rcases le_or_gt (1 / 2 ^ 100) |x.val| with h2 | h2
      · left
        rw [hζ, h1]
        have : (((1 : ℚ) / 2 ^ 100 : ℚ) : ℝ) ≤ ((|x.val| : ℚ) : ℝ) := by exact_mod_cast h2
        rw [← real_abs] at this
        push_cast at this
        simp only [Nat.cast_zero, zero_mul, sub_zero, abs_abs]
        refine le_trans (le_of_eq ?_) this
        norm_num
      · right
        refine ⟨by omega, ?_⟩
        have hv := r3 h1
        have hq : |(reduceC p (FP.abs x) (ofInt (2 * m)) DP1F DP2F DP3F).val| ≤ 0.787 := by
          rw [hv, abs_abs]; exact h2.le.trans (by norm_num)
        have t := (square_test (c := lit 1.0e-14) (U := 1e-18) r1 hq (by decide +kernel) (by norm_num) (by decide +kernel) (by decide +kernel)
          (by decide +kernel) (by decide +kernel) (by decide +kernel) (by decide +kernel) (by decide +kernel)).1
        have hg : FP.gt (reduceC p (FP.abs x) (ofInt (2 * m)) DP1F DP2F DP3F * reduceC p (FP.abs x) (ofInt (2 * m)) DP1F DP2F DP3F) (lit 1.0e-14) = false := by
          by_contra hc
          rw [Bool.not_eq_false] at hc
          have := t hc
          rw [hv, abs_abs] at this
          norm_num at this h2
          linarith
        rw [tanfCoreC_eq, hg, if_neg (by simp)]
        have a := add_spec r1 tanC32.i0_f (by
          rw [tanC32.i0_v, add_zero]; exact hq.trans (by decide +kernel))
        rw [tanC32.i0_v, add_zero, rnd_val (hq.trans (by decide +kernel)), hv] at a
        have hn := next_mag (n := 2 ^ 21) (x := x) (lt_of_eq_of_lt (by decide +kernel) h0)
        refine inv_finite tanC32 a.1 (q := magVal b32 (2 ^ 21 + 1)) (by decide +kernel) ?_ (by decide +kernel)
        rw [a.2, abs_abs]; exact hn
    · left
      have h2 : (1 : ℝ) ≤ m := by exact_mod_cast h1
      have h3 : ((2 ^ 9) : ℝ) * (1 * (0.9 / 2 ^ 47)) ≤ (2 ^ 9) * (m * (0.9 / 2 ^ 47)) :=
        mul_le_mul_of_nonneg_left (mul_le_mul_of_nonneg_right h2 (by positivity)) (by positivity)
      refine le_trans ?_ (h3.trans (hdist h1))
      norm_num
  have hmx : (m : ℝ) * 1.57 ≤ |x.real| + 0.7863 := by
    rw [abs_le] at r5
    have : (m : ℝ) * 1.57 ≤ m * (Real.pi / 2) := mul_le_mul_of_nonneg_left hpi (by positivity)
    norm_num at r5 ⊢
    linarith [r5.1]
  rw [← hζ] at r5 r6
  have main : ∀ A : ℝ, 0 ≤ A → A ≤ 0.001 → |(tanfCoreC p (reduceC p (FP.abs x) (ofInt (2 * m)) DP1F DP2F DP3F)).real - Real.tan (reduceC p (FP.abs x) (ofInt (2 * m)) DP1F DP2F DP3F).real| ≤
      A * |(reduceC p (FP.abs x) (ofInt (2 * m)) DP1F DP2F DP3F).real| → _ := fun A hA0 hA1 hA =>
    tan_assemble tanC32 p (A := A) (κ := (0.9 / 2 ^ 47)) (w := (m : ℝ) * (0.9 / 2 ^ 47) / |ζ|) hx hx0 hm core.1 r2 (by rw [← hζ]; exact r5) (by rw [← hζ]; exact hζ0)
      (by rw [← hζ, hU]; exact r6) (by rw [← hζ]; exact hw) hw0 hA hA0 (by
        rw [hU]
        have h2 : (1 : ℝ) / 2 ^ 9 ≤ 1 / 2 ^ 9 := by norm_num
        have h3 : (2 : ℝ) ^ (-24 : ℤ) ≤ 1e-6 := by norm_num
        norm_num at h2 h3 hA1 hwb ⊢
        linarith) (hA1.trans (by norm_num)) (by rw [← hζ]; exact hsm)
      (by decide +kernel) (by decide +kernel) (by decide +kernel) (spXOR_signMask · x)
  obtain ⟨t1, t2, t3, -⟩ := main (3.25 * 2 ^ (-24 : ℤ)) (by positivity) (by norm_num) core.2
  refine ⟨_, _, e, t1, hw0, hwb, ?_, ⟨m, hmx, t3⟩, ?_⟩
  · intro ρ X l hρ ok hs h20
    have hρ0 : (0 : ℝ) < ρ := by
      have : (0 : ℚ) < ρ := by linarith
      exact_mod_cast this
    rcases Nat.eq_zero_or_pos m with h1 | h1
    · rw [h1]; simpa using hρ0.le
    · have := dist32 hρ ok hs (r4 h1) h20 h1 (by rw [← hζ]; exact r5)
      rw [← hζ] at this
      rw [div_le_div_iff₀ hζ0 hρ0]
      linarith
  refine t2.trans (mul_le_mul_of_nonneg_right ?_ (abs_nonneg _))
  rw [hU]
  norm_num at hw0 ⊢
  linarith

theorem tan_acc32 {x : F32} (hx : x.isFinite = true) (h0 : p2 (-128) < |x.val|) (h : |x.val| ≤ 8192) :
    ∃ (y : F32) (w : ℝ), fast_tanf x = some y ∧ y.isFinite = true ∧ 0 ≤ w ∧ w ≤ 1 / 2 ^ 9 ∧
      (∀ (ρ X : ℚ) (l : List ℚ), 1 ≤ ρ → covers (distCheck32 ρ) l = true → spans l (1 / 2) X = true → |x.val| ≤ X → w ≤ 1 / (ρ : ℝ)) ∧
      (∃ m : ℕ, (m : ℝ) * 1.57 ≤ |x.real| + 0.7863 ∧ w * |Real.tan x.real| ≤ 1.42 * (m * (0.9 / 2 ^ 47)) * (1 + Real.tan x.real ^ 2)) ∧
      |y.real - Real.tan x.real| ≤ (6.4 * 2 ^ (-24 : ℤ) + 2.04 * w) * |Real.tan x.real| := by
  rw [← fast_tanf_plain]
  exact tanC_acc32 _ hx h0 h


end Vdt
