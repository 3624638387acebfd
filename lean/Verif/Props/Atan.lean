import Verif.Lemmas.AtanfPos
import Verif.Props.Tanh

/-!
# The arctangent: accuracy (C19, C21), symmetry, infinities and NaN (C20)
-/

namespace Vdt
open FP details
variable {f : Fmt}

/-- The sign of the argument put on a number with a clear sign bit. -/
def signedBy (r : FP f) (s : Bool) : FP f := ⟨s, r.mag, r.bound⟩

theorem fast_atanC_signed (p : Policy) {x : F64} (hx : x.isFinite = true) : fast_atanC p x = signedBy (atanPosC p (FP.abs x)) x.sign := by
  have a := atanPosC_acc p (x := FP.abs x) (by simpa using hx) (by simp)
  show dpORuint64 (atanPosC p (FP.abs x)) (getSignMask x) = _
  rw [dpOR_signMask, a.2.1]
  rfl

theorem fast_atan_signed {x : F64} (hx : x.isFinite = true) : fast_atan x = signedBy (atanPos (FP.abs x)) x.sign := by
  rw [← fast_atan_plain, ← atanPos_plain]
  exact fast_atanC_signed _ hx

theorem fast_atanfC_signed (p : Policy) {x : F32} (hx : x.isFinite = true) : fast_atanfC p x = signedBy (atanfPosC p (FP.abs x)) x.sign := by
  have a := atanfPosC_acc p (x := FP.abs x) (by simpa using hx) (by simp)
  show spORuint32 (atanfPosC p (FP.abs x)) (getSignMaskf x) = _
  rw [spOR_signMask, a.2.1]
  rfl

theorem fast_atanf_signed {x : F32} (hx : x.isFinite = true) : fast_atanf x = signedBy (atanfPos (FP.abs x)) x.sign := by
  rw [← fast_atanf_plain, ← atanfPos_plain]
  exact fast_atanfC_signed _ hx

theorem signedBy_false {r : FP f} (h : r.sign = false) : signedBy r false = r := by
  ext
  · exact h.symm
  · rfl

theorem signedBy_true {r : FP f} (h : r.sign = false) : signedBy r true = neg r := by
  ext
  · simp [signedBy, neg, h]
  · rfl

/-- Odd extension of a bound proved for nonnegative arguments. -/
theorem signed_acc {g : ℝ → ℝ} (hg : ∀ t, g (-t) = -g t) {x r : FP f} (hs : r.sign = false) {C h : ℝ}
    (hb : |r.real - g (FP.abs x).real| ≤ C * |g (FP.abs x).real| + h) : |(signedBy r x.sign).real - g x.real| ≤ C * |g x.real| + h := by
  have e : (FP.abs x).real = |x.real| := by unfold FP.real; rw [val_abs]; push_cast; rfl
  rw [e] at hb
  cases hx : x.sign
  · rw [signedBy_false hs]
    rwa [abs_of_nonneg (real_nonneg hx)] at hb
  · have n : x.real ≤ 0 := by
      have : (neg x).sign = false := by simp [hx]
      have := real_nonneg this
      unfold FP.real at this ⊢
      rw [val_neg] at this
      push_cast at this
      linarith
    rw [signedBy_true hs]
    rw [abs_of_nonpos n, hg, abs_neg] at hb
    have e2 : (neg r).real = -r.real := by unfold FP.real; rw [val_neg]; push_cast; rfl
    rw [e2]
    rw [show -r.real - g x.real = -(r.real - -g x.real) by ring, abs_neg]
    exact hb

theorem signedBy_finite {r : FP f} {s : Bool} : (signedBy r s).isFinite = r.isFinite := rfl
theorem signedBy_abs {r : FP f} {s : Bool} : |(signedBy r s).val| = |r.val| := by rw [abs_val, abs_val]; rfl

/-! ## C19 -/

theorem atanC_acc (p : Policy) (x : F64) (hx : x.isFinite = true) :
    (fast_atanC p x).isFinite = true ∧ |(fast_atanC p x).val| ≤ 884279719003555 / 562949953421312 ∧
    |(fast_atanC p x).real - Real.arctan x.real| ≤ 2 ^ (-51 : ℤ) * |Real.arctan x.real| + 2 ^ (-1073 : ℤ) := by
  obtain ⟨a1, a2, a3, a4⟩ := atanPosC_acc p (x := FP.abs x) (by simpa using hx) (by simp)
  rw [fast_atanC_signed p hx]
  refine ⟨a1, ?_, ?_⟩
  · rw [signedBy_abs, abs_of_nonneg (val_nonneg_of_sign a2)]
    have e : PIO2.val = 884279719003555 / 562949953421312 := by decide +kernel
    rwa [e] at a3
  · apply signed_acc Real.arctan_neg a2
    have a0 : 0 ≤ Real.arctan (FP.abs x).real := Real.arctan_nonneg.2 (real_nonneg (by simp))
    rw [abs_of_nonneg a0]
    refine a4.trans (add_le_add (mul_le_mul_of_nonneg_right (by norm_num) a0) ?_)
    have c : (2.36 : ℚ) * b64.eta ≤ p2 (-1073) := by decide +kernel
    have := cast_le_p2 c
    push_cast at this
    exact this

/-- Every finite double: within two units of relative size `2^-52` of the arctangent, up to two steps of the subnormal grid,
and never beyond the double nearest to `π/2`. -/
theorem C19_atan_accurate (x : F64) (hx : x.isFinite = true) :
    (fast_atan x).isFinite = true ∧ |(fast_atan x).val| ≤ 884279719003555 / 562949953421312 ∧
    |(fast_atan x).real - Real.arctan x.real| ≤ 2 ^ (-51 : ℤ) * |Real.arctan x.real| + 2 ^ (-1073 : ℤ) := by
  rw [← fast_atan_plain]
  exact atanC_acc _ x hx

/-- For arguments clear of the subnormal range the bound is purely relative. -/
theorem C19_atan_accurate_relative (x : F64) (hx : x.isFinite = true) (hn : 2 ^ (-1020 : ℤ) ≤ |x.real|) :
    |(fast_atan x).real - Real.arctan x.real| ≤ 2 ^ (-51 : ℤ) * |Real.arctan x.real| := by
  obtain ⟨a1, a2, a3, a4⟩ := atanPos_acc (x := FP.abs x) (by simpa using hx) (by simp)
  have key : |(signedBy (atanPos (FP.abs x)) x.sign).real - Real.arctan x.real| ≤ 2 ^ (-51 : ℤ) * |Real.arctan x.real| + 0 := by
    apply signed_acc Real.arctan_neg a2
    have a0 : 0 ≤ Real.arctan (FP.abs x).real := Real.arctan_nonneg.2 (real_nonneg (by simp))
    rw [abs_of_nonneg a0, add_zero]
    have e : (FP.abs x).real = |x.real| := by unfold FP.real; rw [val_abs]; push_cast; rfl
    have lo : 0.85 * (2 : ℝ) ^ (-1020 : ℤ) ≤ Real.arctan (FP.abs x).real := by
      have m : Real.arctan (2 ^ (-1020 : ℤ)) ≤ Real.arctan (FP.abs x).real := by
        rw [e]; exact Real.arctan_strictMono.monotone hn
      have p : (0 : ℝ) < 2 ^ (-1020 : ℤ) := by positivity
      have q : (2 : ℝ) ^ (-1020 : ℤ) ≤ 2 ^ (-1 : ℤ) := zpow_le_zpow_right₀ (by norm_num) (by norm_num)
      have := arctan_lower p.le (q.trans (by norm_num))
      linarith
    refine a4.trans ?_
    have c : (2.36 : ℝ) * (b64.eta : ℝ) ≤ 2.36 * 2 ^ (-1075 : ℤ) := by
      have e1 : b64.eta = p2 (-1075) := rfl
      rw [e1, p2_eq]
      push_cast; exact le_rfl
    have c2 : (2.36 : ℝ) * 2 ^ (-1075 : ℤ) = 2.36 * 2 ^ (-55 : ℤ) * 2 ^ (-1020 : ℤ) := by
      rw [mul_assoc, ← zpow_add₀ (by norm_num)]; norm_num
    rw [c2] at c
    generalize (2 : ℝ) ^ (-1020 : ℤ) = t at *
    generalize (b64.eta : ℝ) = η at *
    norm_num at c lo ⊢
    linarith
  rw [fast_atan_signed hx]
  rwa [add_zero] at key

/-- The largest double, one, a value of each reduction interval and the smallest subnormal meet the hypothesis. -/
example : (⟨false, 0x7FEFFFFFFFFFFFFF, by decide⟩ : F64).isFinite = true ∧ (lit 1 : F64).isFinite = true ∧
    (lit 0.3 : F64).isFinite = true ∧ (-lit 7 : F64).isFinite = true ∧ (⟨true, 1, by decide⟩ : F64).isFinite = true ∧
    fast_atan (lit 1) = lit 0.78539816339744830962 ∧ (fast_atan ⟨true, 1, by decide⟩).mag = 1 := by decide +kernel

example : (2 : ℝ) ^ (-1020 : ℤ) ≤ |(lit 0.3 : F64).real| := by
  have h : (1 / 4 : ℚ) ≤ (lit 0.3 : F64).val := by decide +kernel
  have h2 := le_real_iff.2 h
  have q : (2 : ℝ) ^ (-1020 : ℤ) ≤ 2 ^ (-2 : ℤ) := zpow_le_zpow_right₀ (by norm_num) (by norm_num)
  refine (q.trans ?_).trans (le_abs_self _)
  refine le_trans ?_ h2
  norm_num

/-! ## C20 -/

theorem atanPos_inf : atanPos (FP.inf false) = PIO2 := by decide +kernel
theorem atanfPos_inf : atanfPos (FP.inf false) = PIO2F := by decide +kernel

theorem signedBy_neg {r x : FP f} : signedBy r (neg x).sign = neg (signedBy r x.sign) := by
  ext
  · simp [signedBy, neg]
  · rfl

/-- `±π/2` as doubles and floats. -/
theorem C20_atan_inf (s : Bool) : fast_atan (FP.inf s) = signedBy PIO2 s ∧ fast_atanf (FP.inf s) = signedBy PIO2F s ∧
    |PIO2.real - Real.pi / 2| ≤ 2 ^ (-53 : ℤ) ∧ |PIO2F.real - Real.pi / 2| ≤ 2 ^ (-24 : ℤ) ∧
    PIO2.val = 884279719003555 / 562949953421312 ∧ PIO2F.val = 13176795 / 8388608 := by
  refine ⟨?_, ?_, ?_, pi2f_const.trans (by norm_num), by decide +kernel, by decide +kernel⟩
  · show dpORuint64 (atanPos (FP.inf false)) (getSignMask (FP.inf s)) = _
    rw [dpOR_signMask, atanPos_inf]
    have e : PIO2.sign = false := by decide +kernel
    unfold signedBy
    rw [e, Bool.false_or]; rfl
  · show spORuint32 (atanfPos (FP.inf false)) (getSignMaskf (FP.inf s)) = _
    rw [spOR_signMask, atanfPos_inf]
    have e : PIO2F.sign = false := by decide +kernel
    unfold signedBy
    rw [e, Bool.false_or]; rfl
  · have h := pi2_const
    have m : |MOREBITS.val| ≤ 0.9 * p2 (-53) := by decide +kernel
    have m' := (Rat.cast_le (K := ℝ)).2 m
    rw [p2_eq] at m'
    push_cast at m'
    unfold FP.real at *
    generalize PIO2.val = a at *
    generalize MOREBITS.val = b at *
    rw [abs_le] at *
    norm_num at h m' ⊢
    constructor <;> linarith [h.1, h.2, m'.1, m'.2]

/-- Flipping the sign bit of the argument flips the sign bit of the result and nothing else; the sign bit of the result is that of the argument. -/
theorem C20_atan_odd (x : F64) (hn : x.isNaN = false) :
    fast_atan (FP.neg x) = FP.neg (fast_atan x) ∧ (fast_atan x).sign = x.sign := by
  have abn : FP.abs (FP.neg x) = FP.abs x := rfl
  rcases trichotomy x with hc | hc | hc
  · rw [hc] at hn; cases hn
  · have e := eq_inf hc
    rw [e]
    have h : FP.neg (FP.inf x.sign : F64) = FP.inf (!x.sign) := rfl
    rw [h, (C20_atan_inf _).1, (C20_atan_inf _).1]
    exact ⟨rfl, rfl⟩
  · rw [fast_atan_signed hc, fast_atan_signed (by simpa using hc), abn]
    exact ⟨signedBy_neg, rfl⟩

theorem C20_atanf_odd (x : F32) (hn : x.isNaN = false) :
    fast_atanf (FP.neg x) = FP.neg (fast_atanf x) ∧ (fast_atanf x).sign = x.sign := by
  have abn : FP.abs (FP.neg x) = FP.abs x := rfl
  rcases trichotomy x with hc | hc | hc
  · rw [hc] at hn; cases hn
  · have e := eq_inf hc
    rw [e]
    have h : FP.neg (FP.inf x.sign : F32) = FP.inf (!x.sign) := rfl
    rw [h, (C20_atan_inf _).2.1, (C20_atan_inf _).2.1]
    exact ⟨rfl, rfl⟩
  · rw [fast_atanf_signed hc, fast_atanf_signed (by simpa using hc), abn]
    exact ⟨signedBy_neg, rfl⟩

theorem atanPos_nan {x : F64} (h : x.isNaN = true) : (atanPos x).isNaN = true := by
  rw [atanPos_mid (gt_nan_left h _) (le_nan_left h _)]
  have e : x - lit 1.0 = (nan : F64) := sub_nan_left h _
  rw [e]
  have e2 : (nan : F64) / (x + lit 1.0) = nan := div_nan_left (by decide +kernel) _
  rw [e2]
  decide +kernel

theorem atanfPos_nan {x : F32} (h : x.isNaN = true) : (atanfPos x).isNaN = true := by
  rw [atanfPos_small (gt_nan_left h _) (gt_nan_left h _)]
  unfold atanfCore
  rw [add_def, add_def, add_nan_right _ h, add_nan_right _ (by decide +kernel)]
  decide +kernel

theorem C20_atan_nan (x : F64) (h : x.isNaN = true) : (fast_atan x).isNaN = true := by
  show (dpORuint64 (atanPos (FP.abs x)) (getSignMask x)).isNaN = true
  rw [dpOR_signMask]
  exact atanPos_nan (x := FP.abs x) (by simpa using h)

theorem C20_atanf_nan (x : F32) (h : x.isNaN = true) : (fast_atanf x).isNaN = true := by
  show (spORuint32 (atanfPos (FP.abs x)) (getSignMaskf x)).isNaN = true
  rw [spOR_signMask]
  exact atanfPos_nan (x := FP.abs x) (by simpa using h)

/-- Zeros of both signs, ordinary numbers and infinities are not NaNs; a NaN with a payload is one. -/
example : (zero true : F64).isNaN = false ∧ (-lit 7 : F64).isNaN = false ∧ (FP.inf true : F64).isNaN = false ∧
    (zero true : F32).isNaN = false ∧ (FP.inf true : F32).isNaN = false ∧ fast_atan (zero true) = zero true ∧ fast_atanf (zero true) = zero true ∧
    (⟨true, 0x7FF0000000000001, by decide⟩ : F64).isNaN = true ∧ (⟨false, 0x7FC00001, by decide⟩ : F32).isNaN = true := by decide +kernel

/-! ## C21 -/

theorem atanfC_acc (p : Policy) (x : F32) (hx : x.isFinite = true) :
    (fast_atanfC p x).isFinite = true ∧ |(fast_atanfC p x).val| ≤ 13176795 / 8388608 ∧
    |(fast_atanfC p x).real - Real.arctan x.real| ≤ 2 ^ (-21 : ℤ) * |Real.arctan x.real| + 2 ^ (-148 : ℤ) := by
  obtain ⟨a1, a2, a3, a4⟩ := atanfPosC_acc p (x := FP.abs x) (by simpa using hx) (by simp)
  rw [fast_atanfC_signed p hx]
  refine ⟨a1, ?_, ?_⟩
  · rw [signedBy_abs, abs_of_nonneg (val_nonneg_of_sign a2)]
    have e : PIO2F.val = 13176795 / 8388608 := by decide +kernel
    rwa [e] at a3
  · apply signed_acc Real.arctan_neg a2
    have a0 : 0 ≤ Real.arctan (FP.abs x).real := Real.arctan_nonneg.2 (real_nonneg (by simp))
    rw [abs_of_nonneg a0]
    refine a4.trans (add_le_add (mul_le_mul_of_nonneg_right (by norm_num) a0) ?_)
    have c : (2.01 : ℚ) * b32.eta ≤ p2 (-148) := by decide +kernel
    have := cast_le_p2 c
    push_cast at this
    exact this

/-- Every finite float: relative error at most `2^-21` up to two steps of the subnormal grid, and never beyond the float nearest to `π/2`. -/
theorem C21_atanf_accurate (x : F32) (hx : x.isFinite = true) :
    (fast_atanf x).isFinite = true ∧ |(fast_atanf x).val| ≤ 13176795 / 8388608 ∧
    |(fast_atanf x).real - Real.arctan x.real| ≤ 2 ^ (-21 : ℤ) * |Real.arctan x.real| + 2 ^ (-148 : ℤ) := by
  rw [← fast_atanf_plain]
  exact atanfC_acc _ x hx

/-- The largest float, one and the smallest subnormal meet the hypothesis. -/
example : (⟨false, 0x7F7FFFFF, by decide⟩ : F32).isFinite = true ∧ (lit 1 : F32).isFinite = true ∧ (⟨true, 1, by decide⟩ : F32).isFinite = true ∧
    fast_atanf (lit 1) = lit 0.78539816339744830962 ∧ (fast_atanf ⟨true, 1, by decide⟩).mag = 1 := by decide +kernel

end Vdt
