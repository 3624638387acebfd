import Verif.Lemmas.IsqrtSmall
import Verif.Lemmas.Special
import Verif.Lemmas.Atan2

/-!
# The reciprocal square root and the reciprocal: accuracy (C29, C30, C31), special values and symmetry (C32)
-/

namespace Vdt
open FP details
variable {f : Fmt}

/-! ## Error recurrences -/

/-- Bounds after each Newton step in double precision. -/
noncomputable def err64 : ℕ → ℝ
  | 0 => 0.0354
  | 1 => 0.00191
  | 2 => 0.00000548
  | 3 => 0.0000000000451
  | _ => 6 * b64.u

/-- Bounds after each Newton step in single precision. -/
noncomputable def err32 : ℕ → ℝ
  | 0 => 0.0354
  | 1 => 0.00191
  | _ => 0.0000058

theorem u64_val : (b64.u : ℝ) = 1 / 2 ^ 53 := by
  have : b64.u = 1 / 2 ^ 53 := by decide +kernel
  rw [this]; push_cast; rfl

theorem u32_val : (b32.u : ℝ) = 1 / 2 ^ 24 := by
  have : b32.u = 1 / 2 ^ 24 := by decide +kernel
  rw [this]; push_cast; rfl

theorem err64_step : ∀ i < 4, 3 / 2 * err64 i ^ 2 + err64 i ^ 3 / 2 + 5 * b64.u ≤ err64 (i + 1) := by
  intro i hi
  have : i = 0 ∨ i = 1 ∨ i = 2 ∨ i = 3 := by omega
  rcases this with rfl | rfl | rfl | rfl <;> simp only [err64, u64_val] <;> norm_num

theorem err32_step : ∀ i < 2, 3 / 2 * err32 i ^ 2 + err32 i ^ 3 / 2 + 5 * b32.u ≤ err32 (i + 1) := by
  intro i hi
  have : i = 0 ∨ i = 1 := by omega
  rcases this with rfl | rfl <;> simp only [err32, u32_val] <;> norm_num

theorem err64_small : ∀ i < 4, err64 i ≤ 1 / 20 := by
  intro i hi
  have : i = 0 ∨ i = 1 ∨ i = 2 ∨ i = 3 := by omega
  rcases this with rfl | rfl | rfl | rfl <;> simp only [err64] <;> norm_num

theorem err32_small : ∀ i < 2, err32 i ≤ 1 / 20 := by
  intro i hi
  have : i = 0 ∨ i = 1 := by omega
  rcases this with rfl | rfl <;> simp only [err32] <;> norm_num

theorem isqrt64_normal (p : Policy) {x : F64} (hx : x.Normal) (hs : x.sign = false) {n : ℕ} (hn : n ≤ 4) :
    (fast_isqrt_generalC p x n).isFinite = true ∧ |Real.sqrt x.real * (fast_isqrt_generalC p x n).real - 1| ≤ err64 n := by
  rw [fast_isqrt_generalC_eq p hs]
  exact isqrt_normal newt64 p start64 (by rw [p2_eq]; rfl) hx hs err64 n (by simp only [err64]; norm_num) (fun i hi => err64_step i (by omega))
    (fun i hi => err64_small i (by omega))

theorem isqrt32_normal (p : Policy) {x : F32} (hx : x.Normal) (hs : x.sign = false) {n : ℕ} (hn : n ≤ 2) :
    (fast_isqrtf_generalC p x n).isFinite = true ∧ |Real.sqrt x.real * (fast_isqrtf_generalC p x n).real - 1| ≤ err32 n := by
  rw [fast_isqrtf_generalC_eq p hs]
  exact isqrt_normal newt32 p start32 (by rw [p2_eq]; rfl) hx hs err32 n (by simp only [err32]; norm_num) (fun i hi => err32_step i (by omega))
    (fun i hi => err32_small i (by omega))

theorem rel_of_scaled {S y e : ℝ} (hS : 0 < S) (h : |S * y - 1| ≤ e) : |y - 1 / S| ≤ e * |1 / S| := by
  have e1 : y - 1 / S = (S * y - 1) * (1 / S) := by field_simp
  rw [e1, abs_mul]
  exact mul_le_mul_of_nonneg_right h (abs_nonneg _)

/-! ## C29, C30 -/

theorem isqrtC_accurate (p : Policy) {x : F64} (hx : x.Normal) (hpos : 0 < x.val) :
    (fast_isqrt_generalC p x 4).CloseRel (1 / Real.sqrt x.real) ((2 : ℝ)⁻¹ ^ 50) ∧ (fast_isqrt_generalC p x 3).CloseRel (1 / Real.sqrt x.real) ((2 : ℝ)⁻¹ ^ 34) := by
  have hs := sign_of_pos hpos
  have S0 : 0 < Real.sqrt x.real := Real.sqrt_pos.2 (by unfold FP.real; exact_mod_cast hpos)
  have h4 := isqrt64_normal p hx hs (n := 4) le_rfl
  have h3 := isqrt64_normal p hx hs (n := 3) (by norm_num)
  refine ⟨⟨h4.1, rel_of_scaled S0 (h4.2.trans ?_)⟩, ⟨h3.1, rel_of_scaled S0 (h3.2.trans ?_)⟩⟩
  · simp only [err64, u64_val]; norm_num
  · simp only [err64]; norm_num

/-- **C29.** -/
theorem C29_isqrt_accurate {x : F64} (hx : x.Normal) (hpos : 0 < x.val) :
    (fast_isqrt x).CloseRel (1 / Real.sqrt x.real) ((2 : ℝ)⁻¹ ^ 50) ∧ (fast_approx_isqrt x).CloseRel (1 / Real.sqrt x.real) ((2 : ℝ)⁻¹ ^ 34) := by
  have k := isqrtC_accurate (fun _ => false) hx hpos
  simp only [fast_isqrt_plain] at k
  exact k

/-- The hypotheses are met, for instance, by 3. -/
example : (lit 3 : F64).Normal ∧ 0 < (lit 3 : F64).val := by
  refine ⟨⟨?_, ?_⟩, ?_⟩
  · decide +kernel
  · rw [← p2_eq]; decide +kernel
  · decide +kernel

theorem isqrtfC_accurate (p : Policy) {x : F32} (hx : x.Normal) (hpos : 0 < x.val) :
    (fast_isqrtf_generalC p x 2).CloseRel (1 / Real.sqrt x.real) ((2 : ℝ)⁻¹ ^ 17) ∧ (fast_isqrtf_generalC p x 1).CloseRel (1 / Real.sqrt x.real) ((2 : ℝ)⁻¹ ^ 9) := by
  have hs := sign_of_pos hpos
  have S0 : 0 < Real.sqrt x.real := Real.sqrt_pos.2 (by unfold FP.real; exact_mod_cast hpos)
  have h2 := isqrt32_normal p hx hs (n := 2) le_rfl
  have h1 := isqrt32_normal p hx hs (n := 1) (by norm_num)
  refine ⟨⟨h2.1, rel_of_scaled S0 (h2.2.trans ?_)⟩, ⟨h1.1, rel_of_scaled S0 (h1.2.trans ?_)⟩⟩
  · simp only [err32]; norm_num
  · simp only [err32]; norm_num

/-- **C30.** -/
theorem C30_isqrtf_accurate {x : F32} (hx : x.Normal) (hpos : 0 < x.val) :
    (fast_isqrtf x).CloseRel (1 / Real.sqrt x.real) ((2 : ℝ)⁻¹ ^ 17) ∧ (fast_approx_isqrtf x).CloseRel (1 / Real.sqrt x.real) ((2 : ℝ)⁻¹ ^ 9) := by
  have k := isqrtfC_accurate (fun _ => false) hx hpos
  simp only [fast_isqrtf_plain] at k
  exact k

/-- The hypotheses are met, for instance, by 3. -/
example : (lit 3 : F32).Normal ∧ 0 < (lit 3 : F32).val := by
  refine ⟨⟨?_, ?_⟩, ?_⟩
  · decide +kernel
  · rw [← p2_eq]; decide +kernel
  · decide +kernel

/-! ## Zero and subnormal arguments -/

theorem isqrt64_small (p : Policy) {x : F64} (hs : x.sign = false) (hm : x.mag < 2 ^ 52) {n : ℕ} (hn : n ≤ 4) :
    (fast_isqrt_generalC p x n).isFinite = true ∧ 2 ≤ (fast_isqrt_generalC p x n).real := by
  rw [fast_isqrt_generalC_eq p hs]
  have x1 : x.real ≤ 1 := by
    rw [real_of_pos hs]
    have h1 : magVal b64 x.mag ≤ magVal b64 (2 ^ 52) := magVal_le.2 hm.le
    have h2 : magVal b64 (2 ^ 52) ≤ 1 := by decide +kernel
    exact_mod_cast h1.trans h2
  have q : ((2 : ℕ) : ℚ) ^ (n + 1) ≤ 32 := by
    have : (2 : ℚ) ^ (n + 1) ≤ 2 ^ 5 := pow_le_pow_right₀ (by norm_num) (by omega)
    norm_num at this ⊢; exact this
  refine isqrt_small (hi := ((p2 516 : ℚ) : ℝ)) newt64 p start64 hs hm x1 n ?_ ?_ ?_ ?_ ?_
  · refine q.trans ?_; decide +kernel
  · have h1 : magVal b64 (1534 * 2 ^ b64.mb + 1947582039988729) ≤ p2 512 := by decide +kernel
    have h2 : (2 : ℚ) ^ n ≤ 2 ^ 4 := pow_le_pow_right₀ (by norm_num) hn
    have h3 : p2 516 = p2 512 * 2 ^ 4 := by rw [show (516 : ℤ) = 512 + 4 by norm_num, p2_add]; rfl
    have : magVal b64 (1534 * 2 ^ b64.mb + 1947582039988729) * 2 ^ n ≤ p2 516 := by
      rw [h3]; exact mul_le_mul h1 h2 (by positivity) (p2_pos _).le
    exact (Rat.cast_le (K := ℝ)).2 this
  · decide +kernel
  · have : b64.eta * (p2 516 * p2 516) ≤ 0.00001 := by decide +kernel
    have := (Rat.cast_le (K := ℝ)).2 this
    rw [Rat.cast_mul, Rat.cast_mul] at this
    refine this.trans (le_of_eq (by norm_num))
  · have : 4 * p2 516 ≤ b64.big := by decide +kernel
    have := (Rat.cast_le (K := ℝ)).2 this
    rw [Rat.cast_mul] at this
    exact_mod_cast this

theorem isqrt32_small (p : Policy) {x : F32} (hs : x.sign = false) (hm : x.mag < 2 ^ 23) {n : ℕ} (hn : n ≤ 2) :
    (fast_isqrtf_generalC p x n).isFinite = true ∧ 2 ≤ (fast_isqrtf_generalC p x n).real := by
  rw [fast_isqrtf_generalC_eq p hs]
  have x1 : x.real ≤ 1 := by
    rw [real_of_pos hs]
    have h1 : magVal b32 x.mag ≤ magVal b32 (2 ^ 23) := magVal_le.2 hm.le
    have h2 : magVal b32 (2 ^ 23) ≤ 1 := by decide +kernel
    exact_mod_cast h1.trans h2
  have q : ((2 : ℕ) : ℚ) ^ (n + 1) ≤ 32 := by
    have : (2 : ℚ) ^ (n + 1) ≤ 2 ^ 5 := pow_le_pow_right₀ (by norm_num) (by omega)
    norm_num at this ⊢; exact this
  refine isqrt_small (hi := ((p2 66 : ℚ) : ℝ)) newt32 p start32 hs hm x1 n ?_ ?_ ?_ ?_ ?_
  · refine q.trans ?_; decide +kernel
  · have h1 : magVal b32 (190 * 2 ^ b32.mb + 3627487) ≤ p2 64 := by decide +kernel
    have h2 : (2 : ℚ) ^ n ≤ 2 ^ 2 := pow_le_pow_right₀ (by norm_num) hn
    have h3 : p2 66 = p2 64 * 2 ^ 2 := by rw [show (66 : ℤ) = 64 + 2 by norm_num, p2_add]; rfl
    have : magVal b32 (190 * 2 ^ b32.mb + 3627487) * 2 ^ n ≤ p2 66 := by
      rw [h3]; exact mul_le_mul h1 h2 (by positivity) (p2_pos _).le
    exact (Rat.cast_le (K := ℝ)).2 this
  · decide +kernel
  · have : b32.eta * (p2 66 * p2 66) ≤ 0.00001 := by decide +kernel
    have := (Rat.cast_le (K := ℝ)).2 this
    rw [Rat.cast_mul, Rat.cast_mul] at this
    refine this.trans (le_of_eq (by norm_num))
  · have : 4 * p2 66 ≤ b32.big := by decide +kernel
    have := (Rat.cast_le (K := ℝ)).2 this
    rw [Rat.cast_mul] at this
    exact_mod_cast this

/-- Every non-negative finite argument: the result is finite and positive. -/
theorem isqrt64_pos (p : Policy) {x : F64} (hx : x.isFinite = true) (hs : x.sign = false) {n : ℕ} (hn : n ≤ 4) :
    (fast_isqrt_generalC p x n).isFinite = true ∧ 0 < (fast_isqrt_generalC p x n).val := by
  rcases Nat.lt_or_ge x.mag (2 ^ 52) with hm | hm
  · have h := isqrt64_small p hs hm hn
    refine ⟨h.1, ?_⟩
    have : (0 : ℝ) < (fast_isqrt_generalC p x n).real := by linarith [h.2]
    unfold FP.real at this; exact_mod_cast this
  · have hN : x.Normal := by
      refine ⟨hx, ?_⟩
      rw [abs_val, ← p2_eq]
      refine le_trans ?_ (magVal_le.2 hm)
      decide +kernel
    have h := isqrt64_normal p hN hs hn
    refine ⟨h.1, ?_⟩
    have e : err64 n ≤ 1 / 2 := by
      have : n = 0 ∨ n = 1 ∨ n = 2 ∨ n = 3 ∨ n = 4 := by omega
      rcases this with rfl | rfl | rfl | rfl | rfl <;> simp only [err64, u64_val] <;> norm_num
    have k := abs_le.1 (h.2.trans e)
    by_contra hc
    push Not at hc
    have : (fast_isqrt_generalC p x n).real ≤ 0 := by unfold FP.real; exact_mod_cast hc
    have := mul_nonpos_of_nonneg_of_nonpos (Real.sqrt_nonneg x.real) this
    linarith

theorem isqrt32_pos (p : Policy) {x : F32} (hx : x.isFinite = true) (hs : x.sign = false) {n : ℕ} (hn : n ≤ 2) :
    (fast_isqrtf_generalC p x n).isFinite = true ∧ 0 < (fast_isqrtf_generalC p x n).val := by
  rcases Nat.lt_or_ge x.mag (2 ^ 23) with hm | hm
  · have h := isqrt32_small p hs hm hn
    refine ⟨h.1, ?_⟩
    have : (0 : ℝ) < (fast_isqrtf_generalC p x n).real := by linarith [h.2]
    unfold FP.real at this; exact_mod_cast this
  · have hN : x.Normal := by
      refine ⟨hx, ?_⟩
      rw [abs_val, ← p2_eq]
      refine le_trans ?_ (magVal_le.2 hm)
      decide +kernel
    have h := isqrt32_normal p hN hs hn
    refine ⟨h.1, ?_⟩
    have e : err32 n ≤ 1 / 2 := by
      have : n = 0 ∨ n = 1 ∨ n = 2 := by omega
      rcases this with rfl | rfl | rfl <;> simp only [err32] <;> norm_num
    have k := abs_le.1 (h.2.trans e)
    by_contra hc
    push Not at hc
    have : (fast_isqrtf_generalC p x n).real ≤ 0 := by unfold FP.real; exact_mod_cast hc
    have := mul_nonpos_of_nonneg_of_nonpos (Real.sqrt_nonneg x.real) this
    linarith

/-! ## C31: the reciprocal -/

/-- The reciprocal of `x`, in terms of the square of the reciprocal square root of `|x|`. -/
theorem fast_inv_general_eq (p : Policy) {x : F64} (hx : x.isFinite = true) {n : ℕ} (hn : n ≤ 4) :
    fast_inv_generalC p x n = bif x.sign then neg (mul (fast_isqrt_generalC p (FP.abs x) n) (fast_isqrt_generalC p (FP.abs x) n))
      else mul (fast_isqrt_generalC p (FP.abs x) n) (fast_isqrt_generalC p (FP.abs x) n) := by
  obtain ⟨sf, sp⟩ := isqrt64_pos p (x := FP.abs x) (by simpa using hx) (by simp) hn
  have ss := sign_of_pos sp
  unfold fast_inv_generalC
  dsimp only
  rw [dpOR_signMask]
  generalize fast_isqrt_generalC p (FP.abs x) n = s at *
  cases hsx : x.sign
  · have : (⟨s.sign || false, s.mag, s.bound⟩ : F64) = s := by rw [ss]; cases s; simp_all
    rw [this]; rfl
  · have : (⟨s.sign || true, s.mag, s.bound⟩ : F64) = neg s := by rw [ss]; cases s; simp_all [neg]
    rw [this, mul_def, mul_neg_right sf sf]; rfl

theorem fast_invf_general_eq (p : Policy) {x : F32} (hx : x.isFinite = true) {n : ℕ} (hn : n ≤ 2) :
    fast_invf_generalC p x n = bif x.sign then neg (mul (fast_isqrtf_generalC p (FP.abs x) n) (fast_isqrtf_generalC p (FP.abs x) n))
      else mul (fast_isqrtf_generalC p (FP.abs x) n) (fast_isqrtf_generalC p (FP.abs x) n) := by
  obtain ⟨sf, sp⟩ := isqrt32_pos p (x := FP.abs x) (by simpa using hx) (by simp) hn
  have ss := sign_of_pos sp
  unfold fast_invf_generalC
  dsimp only
  rw [spOR_signMask]
  generalize fast_isqrtf_generalC p (FP.abs x) n = s at *
  cases hsx : x.sign
  · have : (⟨s.sign || false, s.mag, s.bound⟩ : F32) = s := by rw [ss]; cases s; simp_all
    rw [this]; rfl
  · have : (⟨s.sign || true, s.mag, s.bound⟩ : F32) = neg s := by rw [ss]; cases s; simp_all [neg]
    rw [this, mul_def, mul_neg_right sf sf]; rfl

theorem sq_rel_err {P e : ℝ} (h : |P - 1| ≤ e) (he : e ≤ 0.01) : |P * P - 1| ≤ 2.01 * e ∧ P * P ≤ 1.03 := by
  have a := abs_le.1 h
  have e0 : 0 ≤ e := (abs_nonneg _).trans h
  constructor
  · rw [show P * P - 1 = (P - 1) * (P + 1) by ring, abs_mul, mul_comm]
    have : |P + 1| ≤ 2.01 := by rw [abs_le]; constructor <;> linarith
    exact mul_le_mul this h (abs_nonneg _) (by norm_num)
  · nlinarith

/-- Squaring the reciprocal square root. -/
theorem square_acc [f.Ok] {A : ℝ} (ok : NewtOk f A) {X e : ℝ} {s : FP f} (hs : s.isFinite = true) (hX : A ≤ X) (hX2 : A ≤ 1 / X)
    (h : |Real.sqrt X * s.real - 1| ≤ e) (he : e ≤ 0.01) :
    (mul s s).isFinite = true ∧ |(mul s s).real - 1 / X| ≤ (2.01 * e + 1.03 * f.u) * (1 / X) := by
  have X0 : 0 < X := ok.A0.trans_le hX
  have SS := Real.mul_self_sqrt X0.le
  have S0 := Real.sqrt_pos.2 X0
  generalize Real.sqrt X = S at *
  obtain ⟨p1, p2⟩ := sq_rel_err h he
  have iX : 0 < 1 / X := by positivity
  have ev : s.real * s.real = (S * s.real) * (S * s.real) * (1 / X) := by
    rw [← SS]; field_simp
  have s0 : 0 ≤ s.real * s.real := mul_self_nonneg _
  have u0 := ok.u0
  have le : s.real * s.real ≤ 1.03 * (1 / X) := by rw [ev]; exact mul_le_mul_of_nonneg_right p2 iX.le
  have iXA : 1 / X ≤ f.big / 2 := by
    rw [div_le_div_iff₀ X0 (by norm_num)]
    have := ok.big
    have : f.big * A ≤ f.big * X := mul_le_mul_of_nonneg_left hX (by exact_mod_cast (p2_pos _).le)
    linarith
  have e1 : s.real * s.real = ((s.val * s.val : ℚ) : ℝ) := by unfold FP.real; push_cast; rfl
  have hb : |s.val * s.val| ≤ f.big := by
    have : ((|s.val * s.val| : ℚ) : ℝ) ≤ f.big := by rw [Rat.cast_abs, ← e1, abs_of_nonneg s0]; linarith
    exact_mod_cast this
  have sp := mul_spec hs hs hb
  refine ⟨sp.1, ?_⟩
  have e2 : (mul s s).real = ((rnd f (s.val * s.val) : ℚ) : ℝ) := by unfold FP.real; rw [sp.2]
  have r := rnd_real (f := f) (q := s.val * s.val) (M := 1.03 * (1 / X)) (by rw [← e1, abs_of_nonneg s0]; exact le)
    (by rw [ok.eta]; exact mul_le_mul_of_nonneg_left (by linarith) u0.le) hb
  rw [← e2, ← e1] at r
  have d : |s.real * s.real - 1 / X| ≤ 2.01 * e * (1 / X) := by
    have : s.real * s.real - 1 / X = ((S * s.real) * (S * s.real) - 1) * (1 / X) := by rw [ev]; ring
    rw [this, abs_mul, abs_of_pos iX]
    exact mul_le_mul_of_nonneg_right p1 iX.le
  have t : (mul s s).real - 1 / X = ((mul s s).real - s.real * s.real) + (s.real * s.real - 1 / X) := by ring
  rw [t]
  refine (abs_add_le _ _).trans ?_
  linarith

theorem signed_inv {x r : FP f} {ε : ℝ} (h : |r.real - 1 / (|x.real|)| ≤ ε * (1 / |x.real|)) :
    |(bif x.sign then neg r else r).real - 1 / x.real| ≤ ε * |1 / x.real| := by
  rw [abs_div, abs_one]
  cases hs : x.sign
  · have : 0 ≤ x.real := by unfold FP.real; exact_mod_cast val_nonneg_of_sign hs
    rw [abs_of_nonneg this] at h ⊢
    exact h
  · have : x.real ≤ 0 := by
      unfold FP.real
      have : x.val ≤ 0 := by unfold val; rw [hs]; simp [magVal_nonneg]
      exact_mod_cast this
    rw [abs_of_nonpos this] at h ⊢
    have e : (neg r).real = -r.real := by unfold FP.real; rw [val_neg]; push_cast; rfl
    show |(neg r).real - 1 / x.real| ≤ _
    rw [e, show -r.real - 1 / x.real = -(r.real - 1 / -x.real) by rw [div_neg]; ring, abs_neg]
    exact h

theorem inv64_acc (p : Policy) {x : F64} (hx : x.Normal) (hr : (2 : ℚ) ^ b64.emin ≤ |x.val|⁻¹) {n : ℕ} (hn : n ≤ 4) (he : err64 n ≤ 0.01) :
    (fast_inv_generalC p x n).isFinite = true ∧ (fast_inv_generalC p x n).sign = x.sign ∧
    |(fast_inv_generalC p x n).real - 1 / x.real| ≤ (2.01 * err64 n + 1.03 * b64.u) * |1 / x.real| := by
  have hxa : (FP.abs x).Normal := ⟨by simpa using hx.1, by rw [val_abs, abs_abs]; exact hx.2⟩
  have n1 := isqrt64_normal p hxa (by simp) hn
  have p1 := isqrt64_pos p (x := FP.abs x) (by simpa using hx.1) (by simp) hn
  have ra : (FP.abs x).real = |x.real| := by unfold FP.real; rw [val_abs]; push_cast; rfl
  rw [ra] at n1
  have sq := square_acc newt64 (X := |x.real|) n1.1 ?_ ?_ n1.2 he
  · rw [fast_inv_general_eq p hx.1 hn]
    have ms := mul_fin_sign n1.1 n1.1
    rw [Bool.xor_self] at ms
    refine ⟨?_, ?_, signed_inv sq.2⟩
    · cases x.sign <;> simp [sq.1]
    · cases x.sign <;> simp [ms]
  · unfold FP.real; rw [p2_eq]; exact_mod_cast hx.2
  · unfold FP.real; rw [p2_eq, one_div]; exact_mod_cast hr

theorem inv32_acc (p : Policy) {x : F32} (hx : x.Normal) (hr : (2 : ℚ) ^ b32.emin ≤ |x.val|⁻¹) {n : ℕ} (hn : n ≤ 2) (he : err32 n ≤ 0.01) :
    (fast_invf_generalC p x n).isFinite = true ∧ (fast_invf_generalC p x n).sign = x.sign ∧
    |(fast_invf_generalC p x n).real - 1 / x.real| ≤ (2.01 * err32 n + 1.03 * b32.u) * |1 / x.real| := by
  have hxa : (FP.abs x).Normal := ⟨by simpa using hx.1, by rw [val_abs, abs_abs]; exact hx.2⟩
  have n1 := isqrt32_normal p hxa (by simp) hn
  have p1 := isqrt32_pos p (x := FP.abs x) (by simpa using hx.1) (by simp) hn
  have ra : (FP.abs x).real = |x.real| := by unfold FP.real; rw [val_abs]; push_cast; rfl
  rw [ra] at n1
  have sq := square_acc newt32 (X := |x.real|) n1.1 ?_ ?_ n1.2 he
  · rw [fast_invf_general_eq p hx.1 hn]
    have ms := mul_fin_sign n1.1 n1.1
    rw [Bool.xor_self] at ms
    refine ⟨?_, ?_, signed_inv sq.2⟩
    · cases x.sign <;> simp [sq.1]
    · cases x.sign <;> simp [ms]
  · unfold FP.real; rw [p2_eq]; exact_mod_cast hx.2
  · unfold FP.real; rw [p2_eq, one_div]; exact_mod_cast hr

theorem invC_accurate (p : Policy) {x : F64} (hx : x.Normal) (hr : (2 : ℚ) ^ b64.emin ≤ |x.val|⁻¹) :
    ((fast_inv_generalC p x 4).CloseRel (1 / x.real) ((2 : ℝ)⁻¹ ^ 49) ∧ (fast_inv_generalC p x 4).sign = x.sign) ∧
    ((fast_inv_generalC p x 3).CloseRel (1 / x.real) ((2 : ℝ)⁻¹ ^ 33) ∧ (fast_inv_generalC p x 3).sign = x.sign) := by
  obtain ⟨a1, a2, a3⟩ := inv64_acc p hx hr (n := 4) le_rfl (by simp only [err64, u64_val]; norm_num)
  obtain ⟨b1, b2, b3⟩ := inv64_acc p hx hr (n := 3) (by norm_num) (by simp only [err64]; norm_num)
  refine ⟨⟨⟨a1, a3.trans (mul_le_mul_of_nonneg_right ?_ (abs_nonneg _))⟩, a2⟩, ⟨⟨b1, b3.trans (mul_le_mul_of_nonneg_right ?_ (abs_nonneg _))⟩, b2⟩⟩
  · simp only [err64, u64_val]; norm_num
  · simp only [err64, u64_val]; norm_num

/-- **C31**, double precision. -/
theorem C31_inv_accurate {x : F64} (hx : x.Normal) (hr : (2 : ℚ) ^ b64.emin ≤ |x.val|⁻¹) :
    ((fast_inv x).CloseRel (1 / x.real) ((2 : ℝ)⁻¹ ^ 49) ∧ (fast_inv x).sign = x.sign) ∧
    ((fast_approx_inv x).CloseRel (1 / x.real) ((2 : ℝ)⁻¹ ^ 33) ∧ (fast_approx_inv x).sign = x.sign) := by
  have k := invC_accurate (fun _ => false) hx hr
  simp only [fast_inv_plain] at k
  exact k

/-- The hypotheses are met, for instance, by -3. -/
example : (lit (-3) : F64).Normal ∧ (2 : ℚ) ^ b64.emin ≤ |(lit (-3) : F64).val|⁻¹ := by
  refine ⟨⟨?_, ?_⟩, ?_⟩
  · decide +kernel
  · rw [← p2_eq]; decide +kernel
  · rw [← p2_eq]; decide +kernel

theorem invfC_accurate (p : Policy) {x : F32} (hx : x.Normal) (hr : (2 : ℚ) ^ b32.emin ≤ |x.val|⁻¹) :
    ((fast_invf_generalC p x 2).CloseRel (1 / x.real) ((2 : ℝ)⁻¹ ^ 16) ∧ (fast_invf_generalC p x 2).sign = x.sign) ∧
    ((fast_invf_generalC p x 1).CloseRel (1 / x.real) ((2 : ℝ)⁻¹ ^ 8) ∧ (fast_invf_generalC p x 1).sign = x.sign) := by
  obtain ⟨a1, a2, a3⟩ := inv32_acc p hx hr (n := 2) le_rfl (by simp only [err32]; norm_num)
  obtain ⟨b1, b2, b3⟩ := inv32_acc p hx hr (n := 1) (by norm_num) (by simp only [err32]; norm_num)
  refine ⟨⟨⟨a1, a3.trans (mul_le_mul_of_nonneg_right ?_ (abs_nonneg _))⟩, a2⟩, ⟨⟨b1, b3.trans (mul_le_mul_of_nonneg_right ?_ (abs_nonneg _))⟩, b2⟩⟩
  · simp only [err32, u32_val]; norm_num
  · simp only [err32, u32_val]; norm_num

/-- **C31**, single precision. -/
theorem C31_invf_accurate {x : F32} (hx : x.Normal) (hr : (2 : ℚ) ^ b32.emin ≤ |x.val|⁻¹) :
    ((fast_invf x).CloseRel (1 / x.real) ((2 : ℝ)⁻¹ ^ 16) ∧ (fast_invf x).sign = x.sign) ∧
    ((fast_approx_invf x).CloseRel (1 / x.real) ((2 : ℝ)⁻¹ ^ 8) ∧ (fast_approx_invf x).sign = x.sign) := by
  have k := invfC_accurate (fun _ => false) hx hr
  simp only [fast_invf_plain] at k
  exact k

/-- The hypotheses are met, for instance, by -3. -/
example : (lit (-3) : F32).Normal ∧ (2 : ℚ) ^ b32.emin ≤ |(lit (-3) : F32).val|⁻¹ := by
  refine ⟨⟨?_, ?_⟩, ?_⟩
  · decide +kernel
  · rw [← p2_eq]; decide +kernel
  · rw [← p2_eq]; decide +kernel

/-! ## C32: special values and symmetry -/

/-- **C32** as stated for double precision. -/
def IsqrtInvSpecial : Prop :=
  (fast_isqrt pzero).isInf = true ∧ (fast_inv pzero).isInf = true ∧ (fast_inv nzero).isInf = true ∧
  fast_isqrt (inf false) = pzero ∧ fast_inv (inf false) = pzero ∧ fast_inv (inf true) = nzero ∧
  (∀ x : F64, x.val < 0 → x.isFinite = true → (fast_isqrt x).isNaN = true) ∧
  (∀ x : F64, x.isNaN = true → (fast_isqrt x).isNaN = true ∧ (fast_inv x).isNaN = true) ∧
  (∀ x : F64, x.isNaN = false → (fast_inv (neg x)).SignFlipped (fast_inv x))

/-- The reciprocal square root of zero is a finite number, the reciprocal square root and the reciprocal of an infinity are infinite, and
the reciprocal square root of `-1` is a finite positive number. -/
theorem C32_isqrt_inv_violated : ¬ IsqrtInvSpecial ∧
    (fast_isqrt pzero).isFinite = true ∧ (fast_approx_isqrt pzero).isFinite = true ∧ (fast_isqrtf pzero).isFinite = true ∧ (fast_approx_isqrtf pzero).isFinite = true ∧
    fast_isqrt (inf false) = inf false ∧ fast_approx_isqrt (inf false) = inf true ∧ fast_isqrtf (inf false) = inf false ∧ fast_approx_isqrtf (inf false) = inf true ∧
    fast_inv (inf false) = inf false ∧ fast_inv (inf true) = inf true ∧ fast_invf (inf false) = inf false ∧ fast_invf (inf true) = inf true ∧
    fast_approx_inv (inf false) = inf false ∧ fast_approx_inv (inf true) = inf false ∧
    fast_approx_invf (inf false) = inf false ∧ fast_approx_invf (inf true) = inf false ∧
    (fast_isqrt (lit (-1))).isNaN = false ∧ (fast_isqrtf (lit (-1))).isNaN = false := by
  refine ⟨fun h => absurd h.1 ?_, ?_⟩
  · decide +kernel
  · decide +kernel

/-- Zero: the reciprocal functions return the infinity of the sign of the argument. -/
theorem C32_inv_zero (s : Bool) : fast_inv (zero s) = inf s ∧ fast_approx_inv (zero s) = inf s ∧ fast_invf (zero s) = inf s ∧ fast_approx_invf (zero s) = inf s := by
  cases s <;> decide +kernel

theorem loop_nan [f.Ok] (p : Policy) {x2 : FP f} (h : x2.isNaN = true) (n : ℕ) (y : FP f) : (isqrtLoopC p x2 (n + 1) y).isNaN = true := by
  have step : ∀ (c : Bool) (y : FP f), (y * nmad c (x2 * y) y (lit 1.5) : FP f) = nan := by
    intro c y
    have e : (nmad c (x2 * y) y (lit 1.5) : FP f) = nan := by
      rw [mul_def, mul_nan_left h]
      cases c
      · rw [nmad_false, mul_def, sub_def, mul_nan_l, sub_nan_r]
      · simp [nmad, fma, neg_def]
    rw [e, mul_def, mul_nan_r]
  induction n generalizing y with
  | zero => show (y * nmad (p 0) (x2 * y) y (lit 1.5) : FP f).isNaN = true; rw [step]; exact nan_isNaN
  | succ n ih => exact ih _

theorem isqrt_gen_nan (p : Policy) {x : F64} (h : x.isNaN = true) (n : ℕ) : (fast_isqrt_generalC p x (n + 1)).isNaN = true := by
  unfold fast_isqrt_generalC
  exact loop_nan p (by rw [mul_def, mul_nan_left h]; exact nan_isNaN) n _

theorem isqrtf_gen_nan (p : Policy) {x : F32} (h : x.isNaN = true) (n : ℕ) : (fast_isqrtf_generalC p x (n + 1)).isNaN = true := by
  unfold fast_isqrtf_generalC
  exact loop_nan p (by rw [mul_def, mul_nan_left h]; exact nan_isNaN) n _

theorem isqrt_invC_nan (p : Policy) {x : F64} {y : F32} (hx : x.isNaN = true) (hy : y.isNaN = true) :
    (fast_isqrt_generalC p x 4).isNaN = true ∧ (fast_isqrt_generalC p x 3).isNaN = true ∧ (fast_inv_generalC p x 4).isNaN = true ∧ (fast_inv_generalC p x 3).isNaN = true ∧
    (fast_isqrtf_generalC p y 2).isNaN = true ∧ (fast_isqrtf_generalC p y 1).isNaN = true ∧ (fast_invf_generalC p y 2).isNaN = true ∧ (fast_invf_generalC p y 1).isNaN = true := by
  have ax : (FP.abs x).isNaN = true := by simpa using hx
  have ay : (FP.abs y).isNaN = true := by simpa using hy
  refine ⟨isqrt_gen_nan p hx 3, isqrt_gen_nan p hx 2, ?_, ?_, isqrtf_gen_nan p hy 1, isqrtf_gen_nan p hy 0, ?_, ?_⟩
  · unfold fast_inv_generalC
    dsimp only
    rw [mul_def, mul_nan_left (isqrt_gen_nan p ax 3)]; exact nan_isNaN
  · unfold fast_inv_generalC
    dsimp only
    rw [mul_def, mul_nan_left (isqrt_gen_nan p ax 2)]; exact nan_isNaN
  · unfold fast_invf_generalC
    dsimp only
    rw [mul_def, mul_nan_left (isqrtf_gen_nan p ay 1)]; exact nan_isNaN
  · unfold fast_invf_generalC
    dsimp only
    rw [mul_def, mul_nan_left (isqrtf_gen_nan p ay 0)]; exact nan_isNaN

/-- NaN in, NaN out, for all eight functions. -/
theorem C32_isqrt_inv_nan {x : F64} {y : F32} (hx : x.isNaN = true) (hy : y.isNaN = true) :
    (fast_isqrt x).isNaN = true ∧ (fast_approx_isqrt x).isNaN = true ∧ (fast_inv x).isNaN = true ∧ (fast_approx_inv x).isNaN = true ∧
    (fast_isqrtf y).isNaN = true ∧ (fast_approx_isqrtf y).isNaN = true ∧ (fast_invf y).isNaN = true ∧ (fast_approx_invf y).isNaN = true := by
  have k := isqrt_invC_nan (fun _ => false) hx hy
  simp only [fast_isqrt_plain, fast_isqrtf_plain, fast_inv_plain, fast_invf_plain] at k
  exact k

/-- A quiet and a signalling pattern. -/
example : (nan : F64).isNaN = true ∧ (⟨true, b32.infMag + 1, by decide⟩ : F32).isNaN = true := by decide +kernel

theorem neg_flipped (x : FP f) : (neg x).SignFlipped x := by
  constructor
  · simp
  · simp

theorem bif_flipped {r : FP f} (s : Bool) : (bif !s then neg r else r).SignFlipped (bif s then neg r else r) := by
  cases s
  · exact neg_flipped r
  · exact ⟨by simp, by simp⟩

theorem invC_odd (p : Policy) {x : F64} {y : F32} (hx : x.isFinite = true) (hy : y.isFinite = true) :
    (fast_inv_generalC p (neg x) 4).SignFlipped (fast_inv_generalC p x 4) ∧ (fast_inv_generalC p (neg x) 3).SignFlipped (fast_inv_generalC p x 3) ∧
    (fast_invf_generalC p (neg y) 2).SignFlipped (fast_invf_generalC p y 2) ∧ (fast_invf_generalC p (neg y) 1).SignFlipped (fast_invf_generalC p y 1) := by
  have nx : (neg x).isFinite = true := by simpa using hx
  have ny : (neg y).isFinite = true := by simpa using hy
  have ax : FP.abs (neg x) = FP.abs x := by simp [FP.abs, neg]
  have ay : FP.abs (neg y) = FP.abs y := by simp [FP.abs, neg]
  rw [fast_inv_general_eq p hx (n := 4) le_rfl, fast_inv_general_eq p nx (n := 4) le_rfl, fast_inv_general_eq p hx (n := 3) (by norm_num),
    fast_inv_general_eq p nx (n := 3) (by norm_num), fast_invf_general_eq p hy (n := 2) le_rfl, fast_invf_general_eq p ny (n := 2) le_rfl,
    fast_invf_general_eq p hy (n := 1) (by norm_num), fast_invf_general_eq p ny (n := 1) (by norm_num), ax, ay, neg_sign, neg_sign]
  exact ⟨bif_flipped _, bif_flipped _, bif_flipped _, bif_flipped _⟩

/-- The reciprocal functions are odd on all finite numbers, zeros and subnormal numbers included. For the infinities see `C32_inv_odd_inf`;
the two `fast_approx` versions are not odd there, `C32_isqrt_inv_violated`. -/
theorem C32_inv_odd_partial {x : F64} {y : F32} (hx : x.isFinite = true) (hy : y.isFinite = true) :
    (fast_inv (neg x)).SignFlipped (fast_inv x) ∧ (fast_approx_inv (neg x)).SignFlipped (fast_approx_inv x) ∧
    (fast_invf (neg y)).SignFlipped (fast_invf y) ∧ (fast_approx_invf (neg y)).SignFlipped (fast_approx_invf y) := by
  have k := invC_odd (fun _ => false) hx hy
  simp only [fast_inv_plain, fast_invf_plain] at k
  exact k

/-- A subnormal number and a zero. -/
example : (⟨false, 7, by decide⟩ : F64).isFinite = true ∧ (nzero : F32).isFinite = true := by decide +kernel

/-- `fast_inv` and `fast_invf` are odd at the infinities too. -/
theorem C32_inv_odd_inf (s : Bool) : (fast_inv (neg (inf s))).SignFlipped (fast_inv (inf s)) ∧ (fast_invf (neg (inf s))).SignFlipped (fast_invf (inf s)) := by
  cases s <;> unfold SignFlipped <;> decide +kernel

theorem isqrtC_positive (p : Policy) {x : F64} {y : F32} (hx : x.isFinite = true) (hsx : x.sign = false) (hy : y.isFinite = true) (hsy : y.sign = false) :
    ((fast_isqrt_generalC p x 4).isFinite = true ∧ 0 < (fast_isqrt_generalC p x 4).val) ∧ ((fast_isqrt_generalC p x 3).isFinite = true ∧ 0 < (fast_isqrt_generalC p x 3).val) ∧
    ((fast_isqrtf_generalC p y 2).isFinite = true ∧ 0 < (fast_isqrtf_generalC p y 2).val) ∧ ((fast_isqrtf_generalC p y 1).isFinite = true ∧ 0 < (fast_isqrtf_generalC p y 1).val) :=
  ⟨isqrt64_pos p hx hsx le_rfl, isqrt64_pos p hx hsx (by norm_num), isqrt32_pos p hy hsy le_rfl, isqrt32_pos p hy hsy (by norm_num)⟩

/-- On every non-negative finite number, `fast_isqrt` and its variants return a finite positive number. -/
theorem C32_isqrt_positive {x : F64} {y : F32} (hx : x.isFinite = true) (hsx : x.sign = false) (hy : y.isFinite = true) (hsy : y.sign = false) :
    ((fast_isqrt x).isFinite = true ∧ 0 < (fast_isqrt x).val) ∧ ((fast_approx_isqrt x).isFinite = true ∧ 0 < (fast_approx_isqrt x).val) ∧
    ((fast_isqrtf y).isFinite = true ∧ 0 < (fast_isqrtf y).val) ∧ ((fast_approx_isqrtf y).isFinite = true ∧ 0 < (fast_approx_isqrtf y).val) := by
  have k := isqrtC_positive (fun _ => false) hx hsx hy hsy
  simp only [fast_isqrt_plain, fast_isqrtf_plain] at k
  exact k

/-- The smallest subnormal number, and zero. -/
example : (⟨false, 1, by decide⟩ : F64).isFinite = true ∧ (pzero : F32).isFinite = true ∧ (pzero : F32).sign = false := by decide +kernel

end Vdt
