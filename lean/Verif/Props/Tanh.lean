import Verif.Lemmas.TanhAcc
import Verif.Lemmas.TanAcc
import Mathlib.Analysis.Complex.ExponentialBounds

/-!
# The hyperbolic tangent: range, symmetry, saturation, NaN (C16) and accuracy (C17, C18)
-/

namespace Vdt
open FP details
variable {f : Fmt}

/-! ## Shape of the computation -/

theorem triple_facts [f.Ok] (ok : DblOk f) (d1 d2 d3 : Bool) {t : FP f} (ht : t.isFinite = true) (h : |t.val| ≤ 1) :
    (tanhDoubleC d3 (tanhDoubleC d2 (tanhDoubleC d1 t))).isFinite = true ∧ |(tanhDoubleC d3 (tanhDoubleC d2 (tanhDoubleC d1 t))).val| ≤ 1 ∧
    (tanhDoubleC d3 (tanhDoubleC d2 (tanhDoubleC d1 t))).sign = t.sign ∧
    tanhDoubleC d3 (tanhDoubleC d2 (tanhDoubleC d1 (neg t))) = neg (tanhDoubleC d3 (tanhDoubleC d2 (tanhDoubleC d1 t))) := by
  obtain ⟨a1, a2, a3, -, a5⟩ := dbl_range ok d1 ht h
  obtain ⟨b1, b2, b3, -, b5⟩ := dbl_range ok d2 a1 a2
  obtain ⟨c1, c2, c3, -, c5⟩ := dbl_range ok d3 b1 b2
  refine ⟨c1, c2, c3.trans (b3.trans a3), ?_⟩
  rw [neg_def] at a5 b5 c5
  rw [neg_def] at a5 b5 c5
  rw [a5, b5, c5]

theorem tanhPade_facts (p : Policy) {x : F64} (hx : x.isFinite = true) (h : |x.val| ≤ 20) :
    (tanhPadeC p x).isFinite = true ∧ |(tanhPadeC p x).val| ≤ 1 := by
  cases hs : x.sign
  · have := tanh_mid64 p hx hs h
    exact ⟨this.1, this.2.1⟩
  · have h' : |(neg x).val| ≤ 20 := by rw [val_neg, abs_neg]; exact h
    have k := tanh_mid64 p (x := neg x) (by simpa using hx) (by simp [hs]) h'
    have o := (pade64 p hx h).2
    rw [neg_def, neg_def] at o
    rw [o, neg_isFinite, val_neg, abs_neg] at k
    exact ⟨k.1, k.2.1⟩

theorem tanhPadef_facts (p : Policy) {x : F32} (hx : x.isFinite = true) (h : |x.val| ≤ (lit 9.1 : F32).val) :
    (tanhPadefC p x).isFinite = true ∧ |(tanhPadefC p x).val| ≤ 1 := by
  cases hs : x.sign
  · have := tanh_mid32 p hx hs h
    exact ⟨this.1, this.2.1⟩
  · have h' : |(neg x).val| ≤ (lit 9.1 : F32).val := by rw [val_neg, abs_neg]; exact h
    have k := tanh_mid32 p (x := neg x) (by simpa using hx) (by simp [hs]) h'
    have o := (pade32 p hx h).2
    rw [neg_def, neg_def] at o
    rw [o, neg_isFinite, val_neg, abs_neg] at k
    exact ⟨k.1, k.2.1⟩

theorem fast_tanh_mid (p : Policy) {x : F64} (hx : x.isFinite = true) (h : |x.val| ≤ 20) :
    fast_tanhC p x = tanhDoubleC (p 8) (tanhDoubleC (p 7) (tanhDoubleC (p 6) (tanhPadeC p x))) := by
  have hl : (lit 20 : F64).val = 20 := by decide +kernel
  have : FP.gt (FP.abs x) (lit 20) = false := by
    rw [gt_fin (by simpa using hx) (by decide +kernel), val_abs, hl]; simpa using h
  simp [fast_tanhC, this]

theorem fast_tanh_big (p : Policy) {x : F64} (hn : x.isNaN = false) (h : x.isInf = true ∨ 20 < |x.val|) : fast_tanhC p x = FP.copysign (lit 1) x := by
  have : FP.gt (FP.abs x) (lit 20) = true := by
    rcases trichotomy x with hc | hc | hc
    · rw [hc] at hn; cases hn
    · have e : FP.abs x = FP.inf false := eq_inf (x := FP.abs x) (by simpa using hc)
      rw [e]; decide +kernel
    · have hl : (lit 20 : F64).val = 20 := by decide +kernel
      rw [gt_fin (by simpa using hc) (by decide +kernel), val_abs, hl]
      rcases h with h | h
      · rw [(finite_iff.1 hc).2] at h; cases h
      · simpa using h
  simp [fast_tanhC, this]

theorem fast_tanhf_mid (p : Policy) {x : F32} (hx : x.isFinite = true) (h : |x.val| ≤ (lit 9.1 : F32).val) :
    fast_tanhfC p x = tanhDoubleC (p 4) (tanhDoubleC (p 3) (tanhDoubleC (p 2) (tanhPadefC p x))) := by
  have : FP.gt (FP.abs x) (lit 9.1) = false := by
    rw [gt_fin (by simpa using hx) (by decide +kernel), val_abs]
    exact decide_eq_false (not_lt.2 h)
  unfold fast_tanhfC
  rw [if_neg (by rw [this]; exact Bool.false_ne_true)]

theorem fast_tanhf_big (p : Policy) {x : F32} (hn : x.isNaN = false) (h : x.isInf = true ∨ (lit 9.1 : F32).val < |x.val|) :
    fast_tanhfC p x = FP.copysign (lit 1) x := by
  have : FP.gt (FP.abs x) (lit 9.1) = true := by
    rcases trichotomy x with hc | hc | hc
    · rw [hc] at hn; cases hn
    · have e : FP.abs x = FP.inf false := eq_inf (x := FP.abs x) (by simpa using hc)
      rw [e]; decide +kernel
    · rw [gt_fin (by simpa using hc) (by decide +kernel), val_abs]
      rcases h with h | h
      · rw [(finite_iff.1 hc).2] at h; cases h
      · exact decide_eq_true h
  unfold fast_tanhfC
  rw [if_pos this]

theorem copysign_neg (a x : FP f) : FP.copysign a (neg x) = neg (FP.copysign a x) := rfl

/-- Casting a numerical inequality to the reals. -/
theorem cast_le_p2 {k : ℤ} {a q : ℚ} (h : a * q ≤ p2 k) : (a : ℝ) * (q : ℝ) ≤ 2 ^ k := by
  have h' : ((a * q : ℚ) : ℝ) ≤ ((p2 k : ℚ) : ℝ) := Rat.cast_le.2 h
  rw [p2_eq] at h'
  push_cast at h'
  exact h'

theorem copysign_one64 (x : F64) : (FP.copysign (lit 1) x).isFinite = true ∧ (FP.copysign (lit 1) x).sign = x.sign ∧
    (FP.copysign (lit 1) x).val = (if x.sign then -1 else 1) := by
  have e : FP.copysign (lit 1) x = FP.copysign (lit 1) (zero x.sign : F64) := rfl
  have k : ∀ s : Bool, (FP.copysign (lit 1) (zero s : F64)).isFinite = true ∧ (FP.copysign (lit 1) (zero s : F64)).sign = s ∧
      (FP.copysign (lit 1) (zero s : F64)).val = (if s then -1 else 1) := by decide +kernel
  rw [e]; exact k x.sign

theorem copysign_one32 (x : F32) : (FP.copysign (lit 1) x).isFinite = true ∧ (FP.copysign (lit 1) x).sign = x.sign ∧
    (FP.copysign (lit 1) x).val = (if x.sign then -1 else 1) := by
  have e : FP.copysign (lit 1) x = FP.copysign (lit 1) (zero x.sign : F32) := rfl
  have k : ∀ s : Bool, (FP.copysign (lit 1) (zero s : F32)).isFinite = true ∧ (FP.copysign (lit 1) (zero s : F32)).sign = s ∧
      (FP.copysign (lit 1) (zero s : F32)).val = (if s then -1 else 1) := by decide +kernel
  rw [e]; exact k x.sign

/-- Either the argument is finite and at most `c`, or it is infinite or larger. -/
theorem small_or_big {x : FP f} (c : ℚ) (hn : x.isNaN = false) : (x.isFinite = true ∧ |x.val| ≤ c) ∨ (x.isInf = true ∨ c < |x.val|) := by
  rcases trichotomy x with hc | hc | hc
  · rw [hc] at hn; cases hn
  · exact .inr (.inl hc)
  · rcases le_or_gt |x.val| c with h | h
    · exact .inl ⟨hc, h⟩
    · exact .inr (.inr h)

/-! ## C16 -/

theorem tanhC_range (p : Policy) (x : F64) (hn : x.isNaN = false) :
    (fast_tanhC p x).isFinite = true ∧ |(fast_tanhC p x).val| ≤ 1 ∧ (fast_tanhC p x).sign = x.sign := by
  rcases small_or_big 20 hn with ⟨hf, h⟩ | h
  · rw [fast_tanh_mid p hf h]
    have pf := tanhPade_facts p hf h
    have t := triple_facts dblOk64 (p 6) (p 7) (p 8) pf.1 pf.2
    exact ⟨t.1, t.2.1, t.2.2.1.trans (pade64 p hf h).1⟩
  · rw [fast_tanh_big p hn h]
    have c := copysign_one64 x
    refine ⟨c.1, ?_, c.2.1⟩
    rw [c.2.2]; split <;> norm_num

/-- Every double except a NaN, infinities included: the result is a number in `[-1, 1]` whose sign bit is that of the argument. -/
theorem C16_tanh_range (x : F64) (hn : x.isNaN = false) :
    (fast_tanh x).isFinite = true ∧ |(fast_tanh x).val| ≤ 1 ∧ (fast_tanh x).sign = x.sign := by
  rw [← fast_tanh_plain]
  exact tanhC_range _ x hn

theorem tanhC_odd (p : Policy) (x : F64) (hn : x.isNaN = false) : fast_tanhC p (FP.neg x) = FP.neg (fast_tanhC p x) := by
  rcases small_or_big 20 hn with ⟨hf, h⟩ | h
  · have pf := tanhPade_facts p hf h
    have t := triple_facts dblOk64 (p 6) (p 7) (p 8) pf.1 pf.2
    have o := (pade64 p hf h).2
    rw [neg_def, neg_def] at o
    rw [fast_tanh_mid p hf h, fast_tanh_mid p (by simpa using hf) (by rw [val_neg, abs_neg]; exact h), o, t.2.2.2]
  · rw [fast_tanh_big p hn h, fast_tanh_big p (by simpa using hn) (by rw [val_neg, abs_neg]; exact h), copysign_neg]

/-- Flipping the sign bit of the argument flips the sign bit of the result and nothing else. -/
theorem C16_tanh_odd (x : F64) (hn : x.isNaN = false) : fast_tanh (FP.neg x) = FP.neg (fast_tanh x) := by
  rw [← fast_tanh_plain, ← fast_tanh_plain]
  exact tanhC_odd _ x hn

theorem tanhC_saturates (p : Policy) (x : F64) (hn : x.isNaN = false) (h : x.isInf = true ∨ 20 < |x.val|) :
    (fast_tanhC p x).val = (if x.sign then -1 else 1) := by
  rw [fast_tanh_big p hn h]
  exact (copysign_one64 x).2.2

/-- Beyond 20 the result is exactly one, with the sign of the argument. -/
theorem C16_tanh_saturates (x : F64) (hn : x.isNaN = false) (h : x.isInf = true ∨ 20 < |x.val|) :
    (fast_tanh x).val = (if x.sign then -1 else 1) := by
  rw [← fast_tanh_plain]
  exact tanhC_saturates _ x hn h

theorem tanhC_nan (p : Policy) (x : F64) (h : x.isNaN = true) : (fast_tanhC p x).isNaN = true := by
  have : FP.gt (FP.abs x) (lit 20) = false := gt_nan_left (by simpa using h) _
  simp only [fast_tanhC, this]
  have e : tanhPadeC p x = nan := by
    unfold tanhPadeC
    simp only [mul_def, div_def]
    rw [mul_nan_left h]; simp [mul_def, div_def]
  rw [if_neg (by simp), e]
  simp [tanhDoubleC, mul_def, div_def]

theorem C16_tanh_nan (x : F64) (h : x.isNaN = true) : (fast_tanh x).isNaN = true := by
  rw [← fast_tanh_plain]
  exact tanhC_nan _ x h

theorem tanhfC_range (p : Policy) (x : F32) (hn : x.isNaN = false) :
    (fast_tanhfC p x).isFinite = true ∧ |(fast_tanhfC p x).val| ≤ 1 ∧ (fast_tanhfC p x).sign = x.sign := by
  rcases small_or_big (lit 9.1 : F32).val hn with ⟨hf, h⟩ | h
  · rw [fast_tanhf_mid p hf h]
    have pf := tanhPadef_facts p hf h
    have t := triple_facts dblOk32 (p 2) (p 3) (p 4) pf.1 pf.2
    exact ⟨t.1, t.2.1, t.2.2.1.trans (pade32 p hf h).1⟩
  · rw [fast_tanhf_big p hn h]
    have c := copysign_one32 x
    refine ⟨c.1, ?_, c.2.1⟩
    rw [c.2.2]; split <;> norm_num

/-- The same four statements for the single precision function. -/
theorem C16_tanhf_range (x : F32) (hn : x.isNaN = false) :
    (fast_tanhf x).isFinite = true ∧ |(fast_tanhf x).val| ≤ 1 ∧ (fast_tanhf x).sign = x.sign := by
  rw [← fast_tanhf_plain]
  exact tanhfC_range _ x hn

theorem tanhfC_odd (p : Policy) (x : F32) (hn : x.isNaN = false) : fast_tanhfC p (FP.neg x) = FP.neg (fast_tanhfC p x) := by
  rcases small_or_big (lit 9.1 : F32).val hn with ⟨hf, h⟩ | h
  · have pf := tanhPadef_facts p hf h
    have t := triple_facts dblOk32 (p 2) (p 3) (p 4) pf.1 pf.2
    have o := (pade32 p hf h).2
    rw [neg_def, neg_def] at o
    rw [fast_tanhf_mid p hf h, fast_tanhf_mid p (by simpa using hf) (by rw [val_neg, abs_neg]; exact h), o, t.2.2.2]
  · rw [fast_tanhf_big p hn h, fast_tanhf_big p (by simpa using hn) (by rw [val_neg, abs_neg]; exact h), copysign_neg]

theorem C16_tanhf_odd (x : F32) (hn : x.isNaN = false) : fast_tanhf (FP.neg x) = FP.neg (fast_tanhf x) := by
  rw [← fast_tanhf_plain, ← fast_tanhf_plain]
  exact tanhfC_odd _ x hn

theorem tanhfC_saturates (p : Policy) (x : F32) (hn : x.isNaN = false) (h : x.isInf = true ∨ 9542042 / 2 ^ 20 < |x.val|) :
    (fast_tanhfC p x).val = (if x.sign then -1 else 1) := by
  have e : (lit 9.1 : F32).val = 9542042 / 2 ^ 20 := by decide +kernel
  rw [fast_tanhf_big p hn (by rw [e]; exact h)]
  exact (copysign_one32 x).2.2

/-- `9.1f` is the float `9542042 * 2^-20`. -/
theorem C16_tanhf_saturates (x : F32) (hn : x.isNaN = false) (h : x.isInf = true ∨ 9542042 / 2 ^ 20 < |x.val|) :
    (fast_tanhf x).val = (if x.sign then -1 else 1) := by
  rw [← fast_tanhf_plain]
  exact tanhfC_saturates _ x hn h

theorem tanhfC_nan (p : Policy) (x : F32) (h : x.isNaN = true) : (fast_tanhfC p x).isNaN = true := by
  have : FP.gt (FP.abs x) (lit 9.1) = false := gt_nan_left (by simpa using h) _
  simp only [fast_tanhfC, this]
  have e : tanhPadefC p x = nan := by
    unfold tanhPadefC
    simp only [mul_def, div_def]
    rw [mul_nan_left h]; simp [mul_def, div_def]
  rw [if_neg (by simp), e]
  simp [tanhDoubleC, mul_def, div_def]

theorem C16_tanhf_nan (x : F32) (h : x.isNaN = true) : (fast_tanhf x).isNaN = true := by
  rw [← fast_tanhf_plain]
  exact tanhfC_nan _ x h

/-- Numbers, an infinity, a negative zero and a NaN meet the hypotheses. -/
example : (lit 0.5 : F64).isNaN = false ∧ (inf true : F64).isInf = true ∧ 20 < |(lit (-21) : F64).val| ∧
    (nan : F64).isNaN = true ∧ fast_tanh nzero = nzero ∧ (fast_tanh (inf true)).val = -1 ∧
    0 < (fast_tanh (lit 0.5)).val ∧ (fast_tanh (lit 0.5)).val < 1 ∧
    (lit 0.5 : F32).isNaN = false ∧ 9542042 / 2 ^ 20 < |(lit (-9.2) : F32).val| ∧ (nan : F32).isNaN = true ∧
    fast_tanhf nzero = nzero ∧ 0 < (fast_tanhf (lit 0.5)).val ∧ (fast_tanhf (lit 0.5)).val < 1 := by decide +kernel

/-! ## C17 and C18 -/

/-- One minus the tangent beyond `n`. -/
theorem tanh_near_one (n : ℕ) {x : ℝ} (h : (n : ℝ) ≤ x) : |1 - Real.tanh x| ≤ 2 / 2.7 ^ (2 * n) := by
  have hx : 1 - Real.tanh x = 2 / (Real.exp (2 * x) + 1) := by
    have h1 := Real.exp_pos x
    have h2 := Real.exp_pos (-x)
    have e : Real.exp x * Real.exp (-x) = 1 := by rw [← Real.exp_add]; simp
    have e2 : Real.exp (2 * x) = Real.exp x * Real.exp x := by rw [← Real.exp_add]; ring_nf
    rw [Real.tanh_eq, e2, eq_div_iff (by positivity)]
    field_simp
    nlinarith
  have e1 : (2.7 : ℝ) ^ (2 * n) ≤ Real.exp (2 * x) := by
    calc (2.7 : ℝ) ^ (2 * n) ≤ Real.exp 1 ^ (2 * n) := pow_le_pow_left₀ (by norm_num) (by linarith [Real.exp_one_gt_d9]) _
      _ = Real.exp (2 * n) := by rw [← Real.exp_nat_mul]; push_cast; rw [mul_one]
      _ ≤ Real.exp (2 * x) := Real.exp_le_exp.2 (by linarith)
  have p : (0 : ℝ) < 2.7 ^ (2 * n) := by positivity
  rw [hx, abs_of_pos (by positivity)]
  exact div_le_div_of_nonneg_left (by norm_num) p (by linarith)

theorem tanh_mono {a b : ℝ} (h : a ≤ b) : Real.tanh a ≤ Real.tanh b := by
  have h1 := Real.cosh_pos a
  have h2 := Real.cosh_pos b
  rw [Real.tanh_eq_sinh_div_cosh, Real.tanh_eq_sinh_div_cosh, div_le_div_iff₀ h1 h2]
  have := Real.sinh_nonneg_iff.2 (sub_nonneg.2 h)
  rw [Real.sinh_sub] at this
  linarith

theorem tanh_half_le {x : ℝ} (h0 : 0 ≤ x) (h1 : x ≤ 1) : x / 2 ≤ Real.tanh x := by
  have hc := Real.cosh_pos x
  rw [Real.tanh_eq_sinh_div_cosh, le_div_iff₀ hc]
  have hs : x ≤ Real.sinh x := Real.self_le_sinh_iff.2 h0
  have : Real.cosh x ≤ 2 := by
    have h11 : Real.cosh x ≤ Real.cosh 1 := Real.cosh_le_cosh.2 (by rw [abs_of_nonneg h0, abs_of_nonneg (zero_le_one' ℝ)]; exact h1)
    refine h11.trans ?_
    rw [Real.cosh_eq]
    have a := Real.exp_one_lt_d9
    have b : Real.exp (-1) ≤ 1 := Real.exp_le_one_iff.2 (by norm_num)
    linarith
  nlinarith

/-- Both signs, from the statement for nonnegative arguments. -/
theorem tanh_signs {x y : FP f} {g : FP f → FP f} {E H : ℝ} (odd : g (neg x) = neg (g x))
    (pos : ∀ z : FP f, z = x ∨ z = neg x → z.sign = false → |(g z).real - Real.tanh z.real| ≤ E * Real.tanh z.real + H) :
    |(g x).real - Real.tanh x.real| ≤ E * |Real.tanh x.real| + H := by
  cases hs : x.sign
  · have := pos x (.inl rfl) hs
    rwa [abs_of_nonneg (a := Real.tanh x.real) (tanh_nonneg (by unfold FP.real; exact_mod_cast val_nonneg_of_sign hs))]
  · have hs' : (neg x).sign = false := by simp [hs]
    have := pos (neg x) (.inr rfl) hs'
    have n : ∀ z : FP f, (neg z).real = -z.real := fun z => by unfold FP.real; rw [val_neg]; push_cast; rfl
    have t0 : 0 ≤ Real.tanh (neg x).real := tanh_nonneg (by unfold FP.real; exact_mod_cast val_nonneg_of_sign hs')
    rw [odd, n, n, Real.tanh_neg] at this
    rw [n, Real.tanh_neg] at t0
    rw [abs_of_nonpos (a := Real.tanh x.real) (by linarith), ← abs_neg]
    have e : -((g x).real - Real.tanh x.real) = -(g x).real - -Real.tanh x.real := by ring
    rw [e]; exact this

theorem tanh_pos64 (p : Policy) {x : F64} (hx : x.isFinite = true) (hs : x.sign = false) :
    |(fast_tanhC p x).real - Real.tanh x.real| ≤ 15.68 * 2 ^ (-53 : ℤ) * Real.tanh x.real + 24 * (b64.eta : ℝ) := by
  have e0 : (0 : ℝ) < b64.eta := by exact_mod_cast b64.eta_pos
  rcases le_or_gt |x.val| 20 with h | h
  · rw [fast_tanh_mid p hx h]; exact (tanh_mid64 p hx hs h).2.2
  · have v : (fast_tanhC p x).real = 1 := by
      unfold FP.real; rw [tanhC_saturates p x (finite_iff.1 hx).1 (.inr h), hs]; norm_num
    rw [abs_of_nonneg (val_nonneg_of_sign hs)] at h
    have hr : ((20 : ℕ) : ℝ) ≤ x.real := by unfold FP.real; exact_mod_cast h.le
    have k := tanh_near_one 20 hr
    rw [v]
    refine k.trans ?_
    have k2 := (abs_le.1 k).2
    norm_num at k2 ⊢
    linarith

theorem tanh_pos32 (p : Policy) {x : F32} (hx : x.isFinite = true) (hs : x.sign = false) :
    |(fast_tanhfC p x).real - Real.tanh x.real| ≤ 13.95 * 2 ^ (-24 : ℤ) * Real.tanh x.real + 25 * (b32.eta : ℝ) := by
  have e0 : (0 : ℝ) < b32.eta := by exact_mod_cast b32.eta_pos
  have e : (lit 9.1 : F32).val = 9542042 / 2 ^ 20 := by decide +kernel
  rcases le_or_gt |x.val| (lit 9.1 : F32).val with h | h
  · rw [fast_tanhf_mid p hx h]; exact (tanh_mid32 p hx hs h).2.2
  · rw [e] at h
    have v : (fast_tanhfC p x).real = 1 := by
      unfold FP.real; rw [tanhfC_saturates p x (finite_iff.1 hx).1 (.inr h), hs]; norm_num
    rw [abs_of_nonneg (val_nonneg_of_sign hs)] at h
    have h9 : (9 : ℚ) ≤ x.val := le_trans (by norm_num) h.le
    have hr : ((9 : ℕ) : ℝ) ≤ x.real := by unfold FP.real; exact_mod_cast h9
    have k := tanh_near_one 9 hr
    rw [v]
    refine k.trans ?_
    have k2 := (abs_le.1 k).2
    norm_num at k2 ⊢
    linarith

theorem tanhC_accurate (p : Policy) (x : F64) (hx : x.isFinite = true) :
    |(fast_tanhC p x).real - Real.tanh x.real| ≤ 2 ^ (-49 : ℤ) * |Real.tanh x.real| + 2 ^ (-1070 : ℤ) := by
  have b := tanh_signs (y := x) (g := fast_tanhC p) (tanhC_odd p x (finite_iff.1 hx).1)
    (fun z hz hs => tanh_pos64 p (x := z) (by rcases hz with rfl | rfl <;> simpa using hx) hs)
  refine b.trans (add_le_add (mul_le_mul_of_nonneg_right (by norm_num) (abs_nonneg _)) ?_)
  have := cast_le_p2 (a := 24) (q := b64.eta) (k := -1070) (by decide +kernel)
  push_cast at this
  exact this

/-- Every finite double: relative error at most `2^-49`, plus `2^-1070` where the multiplication by an eighth underflows. -/
theorem C17_tanh_accurate (x : F64) (hx : x.isFinite = true) :
    |(fast_tanh x).real - Real.tanh x.real| ≤ 2 ^ (-49 : ℤ) * |Real.tanh x.real| + 2 ^ (-1070 : ℤ) := by
  rw [← fast_tanh_plain]
  exact tanhC_accurate _ x hx

theorem tanhC_accurate_relative (p : Policy) (x : F64) (hx : x.isFinite = true) (h : 2 ^ (-1000 : ℤ) ≤ |x.val|) :
    CloseRel (fast_tanhC p x) (Real.tanh x.real) (15.7 * 2 ^ (-53 : ℤ)) := by
  refine ⟨(tanhC_range p x (finite_iff.1 hx).1).1, ?_⟩
  have b := tanh_signs (y := x) (g := fast_tanhC p) (tanhC_odd p x (finite_iff.1 hx).1)
    (fun z hz hs => tanh_pos64 p (x := z) (by rcases hz with rfl | rfl <;> simpa using hx) hs)
  refine b.trans ?_
  have t : (p2 (-1001) : ℝ) ≤ |Real.tanh x.real| := by
    have hr : (p2 (-1000) : ℝ) ≤ |x.real| := by
      rw [real_abs]; rw [← p2_eq] at h; exact_mod_cast h
    have ht : |Real.tanh x.real| = Real.tanh |x.real| := by
      rcases le_total 0 x.real with hc | hc
      · rw [abs_of_nonneg hc, abs_of_nonneg (tanh_nonneg hc)]
      · have := tanh_nonneg (x := -x.real) (by linarith)
        rw [abs_of_nonpos hc, Real.tanh_neg]
        rw [Real.tanh_neg] at this
        exact abs_of_nonpos (by linarith)
    have e2 : (p2 (-1001) : ℝ) = (p2 (-1000) : ℝ) / 2 := by
      have : p2 (-1001) = p2 (-1000) / 2 := by decide +kernel
      rw [this]; push_cast; rfl
    have e3 : (p2 (-1000) : ℝ) ≤ 1 := by
      have : p2 (-1000) ≤ 1 := by decide +kernel
      exact_mod_cast this
    rw [ht, e2]
    rcases le_total |x.real| 1 with hc | hc
    · exact le_trans (by linarith) (tanh_half_le (abs_nonneg _) hc)
    · have a := tanh_half_le zero_le_one le_rfl
      have m : Real.tanh 1 ≤ Real.tanh |x.real| := tanh_mono hc
      linarith
  have s : (24 : ℝ) * b64.eta ≤ 0.02 * 2 ^ (-53 : ℤ) * (p2 (-1001) : ℝ) := by
    have h : 24 * b64.eta ≤ 0.02 * 2 ^ (-53 : ℤ) * p2 (-1001) := by decide +kernel
    generalize b64.eta = η at h ⊢
    generalize p2 (-1001) = κ at h ⊢
    have := (Rat.cast_le (K := ℝ)).2 h
    push_cast at this
    exact this
  have s2 := mul_le_mul_of_nonneg_left t (show (0 : ℝ) ≤ 0.02 * 2 ^ (-53 : ℤ) by positivity)
  have e : (15.7 : ℝ) * 2 ^ (-53 : ℤ) * |Real.tanh x.real| = 15.68 * 2 ^ (-53 : ℤ) * |Real.tanh x.real| + 0.02 * 2 ^ (-53 : ℤ) * |Real.tanh x.real| := by
    rw [← add_mul, ← add_mul]; norm_num
  rw [e]
  linarith

/-- Away from underflow the error is purely relative, and slightly smaller. -/
theorem C17_tanh_accurate_relative (x : F64) (hx : x.isFinite = true) (h : 2 ^ (-1000 : ℤ) ≤ |x.val|) :
    CloseRel (fast_tanh x) (Real.tanh x.real) (15.7 * 2 ^ (-53 : ℤ)) := by
  rw [← fast_tanh_plain]
  exact tanhC_accurate_relative _ x hx h

/-- The smallest absolute term is not enough: `4 * 2^-1074` is mapped to zero. -/
example : (ofBits 4#64 : F64).isFinite = true ∧ (fast_tanh (ofBits 4#64)).val = 0 ∧ (fast_tanh (lit 1)).val ≠ 0 ∧
    (ofBits 4#64 : F64).val = 4 * p2 (-1074) ∧ p2 (-1000) ≤ |(lit 0.3 : F64).val| ∧ (lit 0.3 : F64).isFinite = true := by decide +kernel

theorem tanhfC_accurate (p : Policy) (x : F32) (hx : x.isFinite = true) :
    |(fast_tanhfC p x).real - Real.tanh x.real| ≤ 2 ^ (-20 : ℤ) * |Real.tanh x.real| + 2 ^ (-145 : ℤ) := by
  have b := tanh_signs (y := x) (g := fast_tanhfC p) (tanhfC_odd p x (finite_iff.1 hx).1)
    (fun z hz hs => tanh_pos32 p (x := z) (by rcases hz with rfl | rfl <;> simpa using hx) hs)
  refine b.trans (add_le_add (mul_le_mul_of_nonneg_right (by norm_num) (abs_nonneg _)) ?_)
  have := cast_le_p2 (a := 25) (q := b32.eta) (k := -145) (by decide +kernel)
  push_cast at this
  exact this

/-- Every finite float: relative error at most `2^-20`, plus `2^-145`. -/
theorem C18_tanhf_accurate (x : F32) (hx : x.isFinite = true) :
    |(fast_tanhf x).real - Real.tanh x.real| ≤ 2 ^ (-20 : ℤ) * |Real.tanh x.real| + 2 ^ (-145 : ℤ) := by
  rw [← fast_tanhf_plain]
  exact tanhfC_accurate _ x hx

example : (ofBits 4#32 : F32).isFinite = true ∧ (fast_tanhf (ofBits 4#32)).val = 0 ∧ (fast_tanhf (lit 1)).val ≠ 0 ∧ (lit 1 : F32).isFinite = true := by
  decide +kernel

end Vdt
