import Verif.Lemmas.TanFinish

/-!
# The tangent: accuracy (C13, C15), no NaN, zeros and symmetry (C14)
-/

namespace Vdt
open FP details

/-! ## C13 -/

/-- The error of `m` times the residue of the reduction constants, from the bound for `m`. -/
theorem tan_residue {m : ℕ} {X κ B t T : ℝ} (hm : (m : ℝ) * 1.57 ≤ X + 0.7863) (hκ : 0 ≤ κ) (hT : 0 ≤ T)
    (ht : t ≤ 1.42 * (m * κ) * T) (hB : 2.04 * 1.42 * ((X + 0.7863) / 1.57) * κ ≤ B) : 2.04 * t ≤ B * T := by
  have h1 : (m : ℝ) ≤ (X + 0.7863) / 1.57 := by rw [le_div_iff₀ (by norm_num)]; exact hm
  have h2 : (m : ℝ) * κ ≤ (X + 0.7863) / 1.57 * κ := mul_le_mul_of_nonneg_right h1 hκ
  have h3 : 2.04 * 1.42 * (m * κ) * T ≤ B * T := mul_le_mul_of_nonneg_right (by
    refine le_trans ?_ hB
    nlinarith) hT
  linarith

theorem tanC_accurate (p : Policy) (x : F64) (hx : x.isFinite = true) (h0 : 2 ^ (-1024 : ℤ) < |x.val|) (h : |x.val| ≤ 2 ^ 27) :
    ∃ y, fast_tanC p x = some y ∧ y.isFinite = true ∧
      |y.real - Real.tan x.real| ≤ 2 ^ (-47 : ℤ) * |Real.tan x.real| + 2 ^ (-78 : ℤ) * (1 + Real.tan x.real ^ 2) ∧
      |y.real - Real.tan x.real| ≤ 2 ^ (-22 : ℤ) * |Real.tan x.real| := by
  rw [← p2_eq] at h0
  obtain ⟨y, w, e, hy, w0, -, w1, ⟨m, hm, hw⟩, b, -⟩ := tanC_acc64 p hx h0 h
  refine ⟨y, e, hy, ?_, ?_⟩
  · have hX : |x.real| ≤ 2 ^ 27 := by
      rw [real_abs]
      have : ((|x.val| : ℚ) : ℝ) ≤ ((2 ^ 27 : ℚ) : ℝ) := by exact_mod_cast h
      push_cast at this ⊢; exact this
    have r := tan_residue (X := 2 ^ 27) (B := 2 ^ (-78 : ℤ)) (hm.trans (by linarith)) (by positivity) (by positivity) hw (by norm_num)
    have k : (36 : ℝ) * 2 ^ (-53 : ℤ) * |Real.tan x.real| ≤ 2 ^ (-47 : ℤ) * |Real.tan x.real| :=
      mul_le_mul_of_nonneg_right (by norm_num) (abs_nonneg _)
    rw [add_mul, mul_assoc 2.04] at b
    exact b.trans (add_le_add k r)
  · refine b.trans (mul_le_mul_of_nonneg_right ?_ (abs_nonneg _))
    have w1 := w1 _ _ _ (by norm_num) distCover64_27 (by decide +kernel) h
    push_cast at w1
    norm_num at w1 ⊢
    linarith

/-- Every double with `2^-1024 < |x| ≤ 2^27`: the call is defined, the result is a finite number with relative error
at most `2^-47` plus the error of the argument reduction, and never a relative error above `2^-22`. -/
theorem C13_tan_accurate (x : F64) (hx : x.isFinite = true) (h0 : 2 ^ (-1024 : ℤ) < |x.val|) (h : |x.val| ≤ 2 ^ 27) :
    ∃ y, fast_tan x = some y ∧ y.isFinite = true ∧
      |y.real - Real.tan x.real| ≤ 2 ^ (-47 : ℤ) * |Real.tan x.real| + 2 ^ (-78 : ℤ) * (1 + Real.tan x.real ^ 2) ∧
      |y.real - Real.tan x.real| ≤ 2 ^ (-22 : ℤ) * |Real.tan x.real| := by
  rw [← fast_tan_plain]
  exact tanC_accurate _ x hx h0 h

theorem tanC_accurate_to_2_20 (p : Policy) (x : F64) (hx : x.isFinite = true) (h0 : 2 ^ (-1024 : ℤ) < |x.val|) (h : |x.val| ≤ 2 ^ 20) :
    ∃ y, fast_tanC p x = some y ∧ y.isFinite = true ∧
      |y.real - Real.tan x.real| ≤ 2 ^ (-47 : ℤ) * |Real.tan x.real| + 2 ^ (-85 : ℤ) * (1 + Real.tan x.real ^ 2) ∧
      |y.real - Real.tan x.real| ≤ 2 ^ (-31 : ℤ) * |Real.tan x.real| ∧
      (2 ^ (-20 : ℤ) ≤ |Real.tan x.real| → |Real.tan x.real| ≤ 2 ^ 20 →
        |y.real - Real.tan x.real| ≤ 2 ^ (-50 : ℤ) * |Real.tan x.real|) := by
  rw [← p2_eq] at h0
  obtain ⟨y, w, e, hy, w0, -, w1, ⟨m, hm, hw⟩, b, b2⟩ := tanC_acc64 p hx h0 (h.trans (by norm_num))
  have w1 := w1 _ _ _ (by norm_num) distCover64_20 (by decide +kernel) h
  have hX : |x.real| ≤ 2 ^ 20 := by
    rw [real_abs]
    have : ((|x.val| : ℚ) : ℝ) ≤ ((2 ^ 20 : ℚ) : ℝ) := by exact_mod_cast h
    push_cast at this ⊢; exact this
  have r := tan_residue (X := 2 ^ 20) (B := 2 ^ (-85 : ℤ)) (hm.trans (by linarith)) (by positivity) (by positivity) hw (by norm_num)
  refine ⟨y, e, hy, ?_, ?_, fun g1 g2 => ?_⟩
  · have k : (36 : ℝ) * 2 ^ (-53 : ℤ) * |Real.tan x.real| ≤ 2 ^ (-47 : ℤ) * |Real.tan x.real| :=
      mul_le_mul_of_nonneg_right (by norm_num) (abs_nonneg _)
    rw [add_mul, mul_assoc 2.04] at b
    exact b.trans (add_le_add k r)
  · refine b.trans (mul_le_mul_of_nonneg_right ?_ (abs_nonneg _))
    push_cast at w1
    norm_num at w1 ⊢
    linarith
  · refine (b2 g1 g2).trans ?_
    rw [add_mul, mul_assoc 2.04]
    rw [← sq_abs] at r
    obtain ⟨T, hT⟩ : ∃ T, T = |Real.tan x.real| := ⟨_, rfl⟩
    rw [← hT] at r g1 g2 ⊢
    have hT0 : 0 ≤ T := by rw [hT]; exact abs_nonneg _
    have k1 : (2 : ℝ) ^ (-85 : ℤ) * 1 ≤ 2 ^ (-65 : ℤ) * T := by
      have := mul_le_mul_of_nonneg_left g1 (by positivity : (0 : ℝ) ≤ 2 ^ (-65 : ℤ))
      refine le_trans (le_of_eq ?_) this; norm_num
    have k2 : (2 : ℝ) ^ (-85 : ℤ) * T ^ 2 ≤ 2 ^ (-65 : ℤ) * T := by
      have := mul_le_mul_of_nonneg_left g2 (by positivity : (0 : ℝ) ≤ 2 ^ (-85 : ℤ) * T)
      have e2 : (2 : ℝ) ^ (-85 : ℤ) * T * 2 ^ 20 = 2 ^ (-65 : ℤ) * T := by
        rw [mul_assoc, mul_comm T, ← mul_assoc]; exact congrArg (· * T) (by norm_num)
      rw [e2] at this; refine le_trans (le_of_eq ?_) this; ring
    have k3 : (7.1 * 2 ^ (-53 : ℤ) + 2 ^ (-65 : ℤ) + 2 ^ (-65 : ℤ)) * T ≤ 2 ^ (-50 : ℤ) * T :=
      mul_le_mul_of_nonneg_right (by norm_num) hT0
    rw [mul_add] at r
    rw [add_mul, add_mul] at k3
    refine le_trans ?_ k3
    rw [add_assoc]
    refine add_le_add le_rfl (r.trans (add_le_add k1 k2))

/-- Up to `2^20` the reduction matters less: `2^-85` instead of `2^-78`, a relative error of at most `2^-31`, and
`2^-50` wherever the tangent is between `2^-20` and `2^20`. -/
theorem C13_tan_accurate_to_2_20 (x : F64) (hx : x.isFinite = true) (h0 : 2 ^ (-1024 : ℤ) < |x.val|) (h : |x.val| ≤ 2 ^ 20) :
    ∃ y, fast_tan x = some y ∧ y.isFinite = true ∧
      |y.real - Real.tan x.real| ≤ 2 ^ (-47 : ℤ) * |Real.tan x.real| + 2 ^ (-85 : ℤ) * (1 + Real.tan x.real ^ 2) ∧
      |y.real - Real.tan x.real| ≤ 2 ^ (-31 : ℤ) * |Real.tan x.real| ∧
      (2 ^ (-20 : ℤ) ≤ |Real.tan x.real| → |Real.tan x.real| ≤ 2 ^ 20 →
        |y.real - Real.tan x.real| ≤ 2 ^ (-50 : ℤ) * |Real.tan x.real|) := by
  rw [← fast_tan_plain]
  exact tanC_accurate_to_2_20 _ x hx h0 h

theorem tanC_relative_to_8192 (p : Policy) (x : F64) (hx : x.isFinite = true) (h0 : 2 ^ (-1024 : ℤ) < |x.val|) (h : |x.val| ≤ 8192) :
    ∃ y, fast_tanC p x = some y ∧ CloseRel y (Real.tan x.real) (2 ^ (-37 : ℤ)) := by
  rw [← p2_eq] at h0
  obtain ⟨y, w, e, hy, -, -, w1, -, b, -⟩ := tanC_acc64 p hx h0 (h.trans (by norm_num))
  refine ⟨y, e, hy, b.trans (mul_le_mul_of_nonneg_right ?_ (abs_nonneg _))⟩
  have w1 := w1 _ _ _ (by norm_num) distCover64_13 (by decide +kernel) h
  push_cast at w1
  norm_num at w1 ⊢
  linarith

/-- Up to 8192 the relative error is at most `2^-37`. -/
theorem C13_tan_relative_to_8192 (x : F64) (hx : x.isFinite = true) (h0 : 2 ^ (-1024 : ℤ) < |x.val|) (h : |x.val| ≤ 8192) :
    ∃ y, fast_tan x = some y ∧ CloseRel y (Real.tan x.real) (2 ^ (-37 : ℤ)) := by
  rw [← fast_tan_plain]
  exact tanC_relative_to_8192 _ x hx h0 h

theorem tanC_relative_to_32 (p : Policy) (x : F64) (hx : x.isFinite = true) (h0 : 2 ^ (-1024 : ℤ) < |x.val|) (h : |x.val| ≤ 32) :
    ∃ y, fast_tanC p x = some y ∧ CloseRel y (Real.tan x.real) (2 ^ (-46 : ℤ)) := by
  rw [← p2_eq] at h0
  obtain ⟨y, w, e, hy, -, -, w1, -, b, -⟩ := tanC_acc64 p hx h0 (h.trans (by norm_num))
  refine ⟨y, e, hy, b.trans (mul_le_mul_of_nonneg_right ?_ (abs_nonneg _))⟩
  have w1 := w1 _ _ _ (by norm_num) distCover64_5 (by decide +kernel) h
  push_cast at w1
  norm_num at w1 ⊢
  linarith

/-- Up to 32 it is at most `2^-46`. -/
theorem C13_tan_relative_to_32 (x : F64) (hx : x.isFinite = true) (h0 : 2 ^ (-1024 : ℤ) < |x.val|) (h : |x.val| ≤ 32) :
    ∃ y, fast_tan x = some y ∧ CloseRel y (Real.tan x.real) (2 ^ (-46 : ℤ)) := by
  rw [← fast_tan_plain]
  exact tanC_relative_to_32 _ x hx h0 h

/-- 100, one million and `2^-1023` are in the domain; the results at 100 and at 22 (near `7π`). -/
example : (lit 1000000 : F64).isFinite = true ∧ 2 ^ (-1024 : ℤ) < |(lit 1000000 : F64).val| ∧ |(lit 1000000 : F64).val| ≤ 2 ^ 20 ∧
    2 ^ (-1024 : ℤ) < |(ofBits (2251799813685248#64) : F64).val| ∧
    (fast_tan (lit 100)).map (·.toBits) = some 13826836409139027255#64 ∧
    (fast_tan (lit 22)).map (·.toBits) = some 4576256254081974008#64 := by decide +kernel

/-! ## C15 -/

theorem tanfC_accurate (p : Policy) (x : F32) (hx : x.isFinite = true) (h0 : 2 ^ (-128 : ℤ) < |x.val|) (h : |x.val| ≤ 8192) :
    ∃ y, fast_tanfC p x = some y ∧ y.isFinite = true ∧
      |y.real - Real.tan x.real| ≤ 2 ^ (-21 : ℤ) * |Real.tan x.real| + 2 ^ (-33 : ℤ) * (1 + Real.tan x.real ^ 2) ∧
      |y.real - Real.tan x.real| ≤ 2 ^ (-9 : ℤ) * |Real.tan x.real| := by
  rw [← p2_eq] at h0
  obtain ⟨y, w, e, hy, w0, -, w1, ⟨m, hm, hw⟩, b⟩ := tanC_acc32 p hx h0 h
  refine ⟨y, e, hy, ?_, ?_⟩
  · have hX : |x.real| ≤ 8192 := by
      rw [real_abs]
      have : ((|x.val| : ℚ) : ℝ) ≤ ((8192 : ℚ) : ℝ) := by exact_mod_cast h
      push_cast at this ⊢; exact this
    have r := tan_residue (X := 8192) (B := 2 ^ (-33 : ℤ)) (hm.trans (by linarith)) (by positivity) (by positivity) hw (by norm_num)
    have k : (6.4 : ℝ) * 2 ^ (-24 : ℤ) * |Real.tan x.real| ≤ 2 ^ (-21 : ℤ) * |Real.tan x.real| :=
      mul_le_mul_of_nonneg_right (by norm_num) (abs_nonneg _)
    rw [add_mul, mul_assoc 2.04] at b
    exact b.trans (add_le_add k r)
  · refine b.trans (mul_le_mul_of_nonneg_right ?_ (abs_nonneg _))
    have w1 := w1 _ _ _ (by norm_num) distCover32_13 (by decide +kernel) h
    push_cast at w1
    norm_num at w1 ⊢
    linarith

/-- Every float with `2^-128 < |x| ≤ 8192`: relative error at most `2^-21` plus the error of the reduction, and never
above `2^-9`. -/
theorem C15_tanf_accurate (x : F32) (hx : x.isFinite = true) (h0 : 2 ^ (-128 : ℤ) < |x.val|) (h : |x.val| ≤ 8192) :
    ∃ y, fast_tanf x = some y ∧ y.isFinite = true ∧
      |y.real - Real.tan x.real| ≤ 2 ^ (-21 : ℤ) * |Real.tan x.real| + 2 ^ (-33 : ℤ) * (1 + Real.tan x.real ^ 2) ∧
      |y.real - Real.tan x.real| ≤ 2 ^ (-9 : ℤ) * |Real.tan x.real| := by
  rw [← fast_tanf_plain]
  exact tanfC_accurate _ x hx h0 h

theorem tanfC_relative_to_128 (p : Policy) (x : F32) (hx : x.isFinite = true) (h0 : 2 ^ (-128 : ℤ) < |x.val|) (h : |x.val| ≤ 128) :
    ∃ y, fast_tanfC p x = some y ∧ CloseRel y (Real.tan x.real) (2 ^ (-14 : ℤ)) := by
  rw [← p2_eq] at h0
  obtain ⟨y, w, e, hy, -, -, w1, -, b⟩ := tanC_acc32 p hx h0 (h.trans (by norm_num))
  refine ⟨y, e, hy, b.trans (mul_le_mul_of_nonneg_right ?_ (abs_nonneg _))⟩
  have w1 := w1 _ _ _ (by norm_num) distCover32_7 (by decide +kernel) h
  push_cast at w1
  norm_num at w1 ⊢
  linarith

/-- Up to 128 the relative error is at most `2^-14`. -/
theorem C15_tanf_relative_to_128 (x : F32) (hx : x.isFinite = true) (h0 : 2 ^ (-128 : ℤ) < |x.val|) (h : |x.val| ≤ 128) :
    ∃ y, fast_tanf x = some y ∧ CloseRel y (Real.tan x.real) (2 ^ (-14 : ℤ)) := by
  rw [← fast_tanf_plain]
  exact tanfC_relative_to_128 _ x hx h0 h

example : (lit 8192 : F32).isFinite = true ∧ 2 ^ (-128 : ℤ) < |(lit 8192 : F32).val| ∧ |(lit 8192 : F32).val| ≤ 8192 ∧
    2 ^ (-128 : ℤ) < |(ofBits (4194304#32) : F32).val| ∧
    (fast_tanf (lit 100)).map (·.toBits) = some 3205911462#32 ∧ (fast_tanf (lit 22)).map (·.toBits) = some 1007748745#32 := by decide +kernel

/-! ## C14 -/

/-- Full statement of C14. -/
def C14_statement : Prop :=
  (∀ x : F64, x.isFinite = true → |x.val| ≤ 2 ^ 20 → ∃ y, fast_tan x = some y ∧ y.isNaN = false ∧
    fast_tan (FP.neg x) = some (FP.neg y)) ∧
  (∀ x : F32, x.isFinite = true → |x.val| ≤ 8192 → ∃ y, fast_tanf x = some y ∧ y.isNaN = false ∧
    fast_tanf (FP.neg x) = some (FP.neg y)) ∧
  (fast_tan pzero = some pzero ∧ fast_tan nzero = some nzero ∧ fast_tanf pzero = some pzero ∧ fast_tanf nzero = some nzero)

/-- The zeros keep their sign. -/
theorem C14_tan_zero : fast_tan pzero = some pzero ∧ fast_tan nzero = some nzero ∧
    fast_tanf pzero = some pzero ∧ fast_tanf nzero = some nzero := by decide +kernel

theorem mul_neg_of_not_nan {f : Fmt} [f.Ok] {a b : FP f} (h : (mul a b).isNaN = false) : mul (neg a) b = neg (mul a b) := by
  have ha : a.isNaN = false := by
    cases ha : a.isNaN
    · rfl
    · rw [mul_nan_left ha, nan_isNaN] at h; cases h
  have hb : b.isNaN = false := by
    cases hb : b.isNaN
    · rfl
    · rw [mul_nan_right a hb, nan_isNaN] at h; cases h
  refine mul_neg_left' ha hb ?_
  rintro ⟨h1, h2⟩
  have e1 : (a.isInf || b.isInf) = true := by simpa using h1
  have e2 : (a.isZero || b.isZero) = true := by simpa using h2
  unfold mul at h
  simp only [ha, hb, Bool.or_false, Bool.false_eq_true, if_false, e1, e2, if_true, nan_isNaN] at h
  cases h

theorem eq_neg_zero {f : Fmt} [f.Ok] {x z : FP f} (hz : z.isFinite = true) (h0 : z.val = 0) : FP.eq (neg x) z = FP.eq x z := by
  rcases trichotomy x with h | h | h
  · rw [eq_nan_left h, eq_nan_left (by simpa using h)]
  · have hx := eq_inf h
    unfold FP.eq
    simp only [neg_isNaN, neg_isInf, h, finite_not_nan hz, finite_not_inf hz]
    simp
  · rw [eq_fin (by simpa using h) hz, eq_fin h hz, val_neg, h0]; simp only [neg_eq_zero]

/-- Negating the argument flips the sign of everything after the reduction. -/
theorem tanFinish_neg {f : Fmt} [f.Ok] (C : TanC f) {x res : FP f} {q : ℤ} {g g' : FP f → FP f}
    (hg : ∀ y, g' y = neg (g y)) (hn : (tanFinish g x res q).isNaN = false) :
    tanFinish g' (neg x) res q = neg (tanFinish g x res q) := by
  unfold tanFinish at hn ⊢
  simp only [eq_neg_zero C.l0_f C.l0_v, hg]
  exact mul_neg_of_not_nan hn

theorem xor_neg64 (x y : F64) : dpXORuint64 y (getSignMask (neg x)) = neg (dpXORuint64 y (getSignMask x)) := by
  rw [dpXOR_signMask, dpXOR_signMask]
  ext <;> simp [neg]

theorem xor_neg32 (x y : F32) : spXORuint32 y (getSignMaskf (neg x)) = neg (spXORuint32 y (getSignMaskf x)) := by
  rw [spXOR_signMask, spXOR_signMask]
  ext <;> simp [neg]

/-- Odd bit for bit, wherever the call is defined and does not produce a NaN. -/
theorem C14_tan_odd_partial (x y : F64) (h : fast_tan x = some y) (hn : y.isNaN = false) :
    fast_tan (FP.neg x) = some (FP.neg y) := by
  unfold fast_tan at h ⊢
  rw [fast_tanM_eq] at h ⊢
  rw [abs_neg']
  cases hq : quadStep strict ONEOPIO4 (FP.abs x) with
  | none => rw [hq] at h; simp at h
  | some q =>
    rw [hq] at h
    simp only [Option.bind_eq_bind, Option.bind_some, Option.pure_def, Option.some.injEq] at h ⊢
    rw [← h] at hn ⊢
    exact tanFinish_neg tanC64 (fun y => xor_neg64 x y) hn

theorem C14_tanf_odd_partial (x y : F32) (h : fast_tanf x = some y) (hn : y.isNaN = false) :
    fast_tanf (FP.neg x) = some (FP.neg y) := by
  unfold fast_tanf at h ⊢
  rw [fast_tanfM_eq] at h ⊢
  rw [abs_neg']
  cases hq : quadStep strict ONEOPIO4F (FP.abs x) with
  | none => rw [hq] at h; simp at h
  | some q =>
    rw [hq] at h
    simp only [Option.bind_eq_bind, Option.bind_some, Option.pure_def, Option.some.injEq] at h ⊢
    rw [← h] at hn ⊢
    exact tanFinish_neg tanC32 (fun y => xor_neg32 x y) hn

example : (fast_tan (lit 1.5)).map (fun y => (y.isNaN, y.sign)) = some (false, false) ∧
    (fast_tanf (lit 1.5)).map (fun y => (y.isNaN, y.sign)) = some (false, false) := by decide +kernel

/-- A reciprocal that overflows turns the selection for an even quadrant into a NaN. -/
theorem tanSel_overflow {f : Fmt} [f.Ok] (C : TanC f) {r : FP f} {q : ℚ} (hr : r.isFinite = true) (h0 : r.val ≠ 0)
    (hq : |r.val| ≤ q) (hd : f.infMag ≤ roundMag f (1 / q)) (hz : (ofInt 0 : FP f).isZero = true) : (tanSel r false).isNaN = true := by
  have hp : 0 < |r.val| := abs_pos.2 h0
  have hI : (div (neg (lit 1)) r).isInf = true := by
    rw [div_fin (by simpa using C.one_f) hr h0, val_neg, C.one_v]
    have h1 : 1 / q ≤ 1 / |r.val| := one_div_le_one_div_of_le hp hq
    have h2 := hd.trans (roundMag_mono f h1)
    have h3 := roundMag_le f (1 / |r.val|)
    have e : |-1 / r.val| = 1 / |r.val| := by rw [abs_div, abs_neg, abs_one]
    unfold ofRat isInf
    simp only [decide_eq_true_eq]
    split
    · rename_i hq; rw [abs_of_neg hq] at e; rw [e]; omega
    · rename_i hq; rw [abs_of_nonneg (not_lt.1 hq)] at e; rw [e]; omega
  have hN : mul (ofInt 0) (div (neg (lit 1)) r) = nan := by
    have a : (div (neg (lit 1)) r).isNaN = false := by rw [eq_inf hI]; simp
    unfold mul
    simp [a, hI, hz, finite_not_nan C.i0_f]
  change (add (mul (ofInt 0) (div (neg (lit 1)) r)) (mul (ofInt 1) r)).isNaN = true
  rw [hN]; simp

/-- For `0 < |x| ≤ 2^-1024` the result is a NaN: `-1/res` overflows and is multiplied by 0. -/
theorem C14_tan_nan (x : F64) (hx : x.isFinite = true) (h0 : x.val ≠ 0) (h : |x.val| ≤ 2 ^ (-1024 : ℤ)) :
    ∃ y, fast_tan x = some y ∧ y.isNaN = true := by
  have h27 : |x.val| ≤ 2 ^ 27 := h.trans (by rw [← p2_eq]; decide +kernel)
  obtain ⟨m, ⟨q1, hq1, hq2⟩, hmN, r1, r2, r3, r4, -, -⟩ := reduce64 hx h27
  have hm : (m : ℚ) ≤ 1073741823 := by linarith
  have hm0 : m = 0 := by
    by_contra hc
    have := r4 (by omega)
    have h2 : (2 : ℚ) ^ (-1024 : ℤ) < 1 / 2 := by rw [← p2_eq]; decide +kernel
    exact absurd (this.trans h) (not_le.2 h2)
  have e : fast_tan x = some (tanFinish (fun r => dpXORuint64 r (getSignMask x)) x (tanCore (reduceWith (FP.abs x) (ofInt (2 * m)))) (2 * m)) := by
    unfold fast_tan
    rw [fast_tanM_eq, hq1]
    simp only [Option.bind_eq_bind, Option.bind_some, Option.pure_def, hq2]
  refine ⟨_, e, ?_⟩
  have hv := r3 hm0
  generalize reduceWith (FP.abs x) (ofInt (2 * m)) = z at *
  have hz1 : |z.val| ≤ 2 ^ (-1024 : ℤ) := by rw [hv, abs_abs]; exact h
  have hz2 : |z.val| ≤ 0.5e-7 := hz1.trans (by rw [← p2_eq]; decide +kernel)
  have t := (square_test (c := lit 1.0e-14) (U := 1e-18) r1 (hz2.trans (by norm_num)) (by decide +kernel) (by norm_num) (by decide +kernel) (by decide +kernel)
    (by decide +kernel) (by decide +kernel) (by decide +kernel) (by decide +kernel) (by decide +kernel)).1
  have hg : FP.gt (z * z) (lit 1.0e-14) = false := by
    by_contra hc
    rw [Bool.not_eq_false] at hc
    have := t hc
    norm_num at this hz2
    linarith
  rw [tanCore_eq, hg, if_neg (by simp)]
  have he : FP.eq x (lit 0) = false := by
    rw [eq_fin hx tanC64.l0_f, tanC64.l0_v, decide_eq_false_iff_not]; exact h0
  rw [tanFinish_eq tanC64 _ he hm, hm0]
  have hb : |z.val| ≤ b64.big := hz2.trans (by decide +kernel)
  have a := add_spec r1 tanC64.i0_f (by rw [tanC64.i0_v, add_zero]; exact hb)
  rw [tanC64.i0_v, add_zero, rnd_val hb] at a
  have n := tanSel_overflow tanC64 (q := p2 (-1024)) a.1 (by rw [a.2, hv]; simpa using h0) (by rw [a.2, p2_eq]; exact hz1)
    (by decide +kernel) (by decide +kernel)
  simp only [Nat.zero_mod, Nat.zero_ne_one, decide_false]
  rw [mul_def, mul_nan_left, nan_isNaN]
  rw [dpXOR_signMask]
  exact n

theorem C14_tanf_nan (x : F32) (hx : x.isFinite = true) (h0 : x.val ≠ 0) (h : |x.val| ≤ 2 ^ (-128 : ℤ)) :
    ∃ y, fast_tanf x = some y ∧ y.isNaN = true := by
  have h27 : |x.val| ≤ 8192 := h.trans (by rw [← p2_eq]; decide +kernel)
  obtain ⟨m, ⟨q1, hq1, hq2⟩, hmN, r1, r2, r3, r4, -, -⟩ := reduce32 hx h27
  have hm : (m : ℚ) ≤ 1073741823 := by linarith
  have hm0 : m = 0 := by
    by_contra hc
    have := r4 (by omega)
    have h2 : (2 : ℚ) ^ (-128 : ℤ) < 1 / 2 := by rw [← p2_eq]; decide +kernel
    exact absurd (this.trans h) (not_le.2 h2)
  have e : fast_tanf x = some (tanFinish (fun r => spXORuint32 r (getSignMaskf x)) x (tanfCore (reduceWithf (FP.abs x) (ofInt (2 * m)))) (2 * m)) := by
    unfold fast_tanf
    rw [fast_tanfM_eq, hq1]
    simp only [Option.bind_eq_bind, Option.bind_some, Option.pure_def, hq2]
  refine ⟨_, e, ?_⟩
  have hv := r3 hm0
  generalize reduceWithf (FP.abs x) (ofInt (2 * m)) = z at *
  have hz1 : |z.val| ≤ 2 ^ (-128 : ℤ) := by rw [hv, abs_abs]; exact h
  have hz2 : |z.val| ≤ 0.5e-7 := hz1.trans (by rw [← p2_eq]; decide +kernel)
  have t := (square_test (c := lit 1.0e-14) (U := 1e-18) r1 (hz2.trans (by norm_num)) (by decide +kernel) (by norm_num) (by decide +kernel) (by decide +kernel)
    (by decide +kernel) (by decide +kernel) (by decide +kernel) (by decide +kernel) (by decide +kernel)).1
  have hg : FP.gt (z * z) (lit 1.0e-14) = false := by
    by_contra hc
    rw [Bool.not_eq_false] at hc
    have := t hc
    norm_num at this hz2
    linarith
  rw [tanfCore_eq, hg, if_neg (by simp)]
  have he : FP.eq x (lit 0) = false := by
    rw [eq_fin hx tanC32.l0_f, tanC32.l0_v, decide_eq_false_iff_not]; exact h0
  rw [tanFinish_eq tanC32 _ he hm, hm0]
  have hb : |z.val| ≤ b32.big := hz2.trans (by decide +kernel)
  have a := add_spec r1 tanC32.i0_f (by rw [tanC32.i0_v, add_zero]; exact hb)
  rw [tanC32.i0_v, add_zero, rnd_val hb] at a
  have n := tanSel_overflow tanC32 (q := p2 (-128)) a.1 (by rw [a.2, hv]; simpa using h0) (by rw [a.2, p2_eq]; exact hz1)
    (by decide +kernel) (by decide +kernel)
  simp only [Nat.zero_mod, Nat.zero_ne_one, decide_false]
  rw [mul_def, mul_nan_left, nan_isNaN]
  rw [spXOR_signMask]
  exact n

/-- The smallest subnormal and `2^-1024` itself. -/
example : (ofBits 1#64 : F64).isFinite = true ∧ (ofBits 1#64 : F64).val ≠ 0 ∧ |(ofBits 1125899906842624#64 : F64).val| = 2 ^ (-1024 : ℤ) ∧
    (fast_tan (ofBits 1125899906842624#64)).map (·.isNaN) = some true ∧ (fast_tan (ofBits 1125899906842625#64)).map (·.isNaN) = some false ∧
    (fast_tanf (ofBits 2097152#32)).map (·.isNaN) = some true ∧ (fast_tanf (ofBits 2097153#32)).map (·.isNaN) = some false := by
  decide +kernel

/-- The statement is false. -/
theorem C14_violated : ¬ C14_statement := by
  intro h
  obtain ⟨y, h1, h2, -⟩ := h.1 (ofBits 1#64) (by decide +kernel) (by decide +kernel)
  have h3 : (fast_tan (ofBits 1#64)).map (·.isNaN) = some true := by decide +kernel
  rw [h1] at h3
  simp only [Option.map_some, Option.some.injEq] at h3
  rw [h2] at h3; cases h3

/-- Exactly the numbers `0 < |x| ≤ 2^-1024` (`2^-128`) give a NaN, on `|x| ≤ 2^27` (8192). Missing from the full
statement: those numbers, which violate it. -/
theorem C14_tan_nan_iff_partial :
    (∀ x : F64, x.isFinite = true → |x.val| ≤ 2 ^ 27 →
      ∃ y, fast_tan x = some y ∧ (y.isNaN = true ↔ x.val ≠ 0 ∧ |x.val| ≤ 2 ^ (-1024 : ℤ))) ∧
    (∀ x : F32, x.isFinite = true → |x.val| ≤ 8192 →
      ∃ y, fast_tanf x = some y ∧ (y.isNaN = true ↔ x.val ≠ 0 ∧ |x.val| ≤ 2 ^ (-128 : ℤ))) := by
  constructor
  · intro x hx h
    rcases lt_or_ge (2 ^ (-1024 : ℤ)) |x.val| with h1 | h1
    · obtain ⟨y, e, hy, -⟩ := C13_tan_accurate x hx h1 h
      refine ⟨y, e, ?_⟩
      rw [finite_not_nan hy]
      exact ⟨fun h => absurd h (by simp), fun h => absurd h.2 (not_le.2 h1)⟩
    · by_cases h0 : x.val = 0
      · have hz := val_eq_zero.1 h0
        have : x = zero x.sign := eq_zero' (by simp [isZero, hz])
        refine ⟨x, ?_, ?_⟩
        · rw [this]
          cases x.sign
          · exact C14_tan_zero.1
          · exact C14_tan_zero.2.1
        · rw [finite_not_nan hx]; simp [h0]
      · obtain ⟨y, e, hy⟩ := C14_tan_nan x hx h0 h1
        exact ⟨y, e, fun _ => ⟨h0, h1⟩, fun _ => hy⟩
  · intro x hx h
    rcases lt_or_ge (2 ^ (-128 : ℤ)) |x.val| with h1 | h1
    · obtain ⟨y, e, hy, -⟩ := C15_tanf_accurate x hx h1 h
      refine ⟨y, e, ?_⟩
      rw [finite_not_nan hy]
      exact ⟨fun h => absurd h (by simp), fun h => absurd h.2 (not_le.2 h1)⟩
    · by_cases h0 : x.val = 0
      · have hz := val_eq_zero.1 h0
        have : x = zero x.sign := eq_zero' (by simp [isZero, hz])
        refine ⟨x, ?_, ?_⟩
        · rw [this]
          cases x.sign
          · exact C14_tan_zero.2.2.1
          · exact C14_tan_zero.2.2.2
        · rw [finite_not_nan hx]; simp [h0]
      · obtain ⟨y, e, hy⟩ := C14_tanf_nan x hx h0 h1
        exact ⟨y, e, fun _ => ⟨h0, h1⟩, fun _ => hy⟩

end Vdt
