import Verif.Lemmas.LogfOrder
import Verif.Lemmas.LogOrder

/-! # C85: larger arguments do not give smaller results -/

namespace Vdt
open FP details

/-- The order of two patterns without sign is the order of their codes. -/
theorem mag_le_of_le {f : Fmt} [f.Ok] {x y : FP f} (hx : x.sign = false) (hy : y.sign = false) (h : FP.le x y = true) :
    x.isNaN = false ∧ y.isNaN = false ∧ x.mag ≤ y.mag := by
  have hxn : x.isNaN = false := by
    by_contra hc
    simp only [Bool.not_eq_false] at hc
    simp [FP.le, FP.lt, FP.eq, hc] at h
  have hyn : y.isNaN = false := by
    by_contra hc
    simp only [Bool.not_eq_false] at hc
    simp [FP.le, FP.lt, FP.eq, hc] at h
  refine ⟨hxn, hyn, ?_⟩
  have x1 : x.mag ≤ f.infMag := by simpa [FP.isNaN] using hxn
  have y1 : y.mag ≤ f.infMag := by simpa [FP.isNaN] using hyn
  rcases y1.lt_or_eq with y2 | y2
  · have hyf : y.isFinite = true := by simpa [FP.isFinite] using y2
    rcases x1.lt_or_eq with x2 | x2
    · have hxf : x.isFinite = true := by simpa [FP.isFinite] using x2
      rw [le_fin hxf hyf] at h
      have := of_decide_eq_true h
      unfold FP.val at this
      rw [hx, hy] at this
      simp only [Bool.false_eq_true, if_false] at this
      exact magVal_le.1 this
    · exfalso
      have i1 : x.isInf = true := by simpa [FP.isInf] using x2
      have i2 : y.isInf = false := by simpa [FP.isInf] using y2.ne
      simp [FP.le, FP.lt, FP.eq, hxn, hyn, i1, i2, hx] at h
  · rw [y2]; exact x1

/-- Everything that is a number is at most infinity. -/
theorem le_inf {f : Fmt} [f.Ok] {x : FP f} (h : x.isNaN = false) : FP.le x (FP.inf false) = true := by
  have n : (FP.inf false : FP f).isNaN = false := by simp [FP.isNaN, FP.inf]
  have i : (FP.inf false : FP f).isInf = true := by simp [FP.isInf, FP.inf]
  have s : (FP.inf false : FP f).sign = false := rfl
  by_cases hi : x.isInf = true
  · cases hs : x.sign <;> simp [FP.le, FP.lt, FP.eq, h, n, i, s, hi, hs]
  · simp only [Bool.not_eq_true] at hi
    simp [FP.le, FP.lt, h, n, i, s, hi]

theorem not_nan_of_finite {f : Fmt} {x : FP f} (h : x.isFinite = true) : x.isNaN = false := by
  have : x.mag < f.infMag := by simpa [FP.isFinite] using h
  simpa [FP.isNaN] using this.le

theorem inf_or_finite {f : Fmt} {x : FP f} (h : x.isNaN = false) (hs : x.sign = false) :
    x.isFinite = true ∨ x = FP.inf false := by
  have x1 : x.mag ≤ f.infMag := by simpa [FP.isNaN] using h
  rcases x1.lt_or_eq with h2 | h2
  · left; simpa [FP.isFinite] using h2
  · right
    cases x
    simp only at hs h2
    subst hs h2
    rfl

/-- include/log.h:89-126 keeps the order of all non-negative arguments, including the subnormal
numbers and infinity. -/
theorem C85_fast_log (x y : F64) (hx : x.sign = false) (hy : y.sign = false) (h : FP.le x y = true) :
    FP.le (fast_log x) (fast_log y) = true := by
  obtain ⟨xn, yn, hm⟩ := mag_le_of_le hx hy h
  have big : ∀ w : F64, FP.gt w LOG_UPPER_LIMIT = true → w.sign = false → fast_log w = FP.inf false := by
    intro w hg hs
    have hl : FP.lt w LOG_LOWER_LIMIT = false := by
      by_contra hc
      simp only [Bool.not_eq_false] at hc
      have c : LOG_LOWER_LIMIT.isFinite = true ∧ LOG_LOWER_LIMIT.val = 0 ∧ LOG_UPPER_LIMIT.isFinite = true := by decide +kernel
      by_cases hf : w.isFinite = true
      · rw [lt_fin hf c.1, c.2.1] at hc
        have := (val_neg_iff.1 (of_decide_eq_true hc)).1
        rw [hs] at this; cases this
      · have hn : w.isNaN = false := by
          by_contra hc2
          simp only [Bool.not_eq_false] at hc2
          simp [FP.gt, FP.lt, hc2] at hg
        rcases inf_or_finite hn hs with h' | h'
        · exact hf h'
        · rw [h'] at hc; revert hc; decide +kernel
    unfold fast_log
    simp only [hg, hl, Bool.false_eq_true, if_false, if_true]
  by_cases hg : FP.gt y LOG_UPPER_LIMIT = true
  · rw [big y hg hy]
    apply le_inf
    by_cases hgx : FP.gt x LOG_UPPER_LIMIT = true
    · rw [big x hgx hx]; decide +kernel
    · simp only [Bool.not_eq_true] at hgx
      rcases inf_or_finite xn hx with hf | hf
      · obtain ⟨-, -, h2, -⟩ := fast_log_value hx hf hgx
        exact not_nan_of_finite h2
      · rw [hf] at hgx; exact absurd hgx (by decide +kernel)
  · simp only [Bool.not_eq_true] at hg
    rcases inf_or_finite yn hy with hf | hf
    · exact fast_log_order hx hy hf hg hm
    · rw [hf] at hg; exact absurd hg (by decide +kernel)

example : (FP.le (lit 2 : F64) (lit 3) = true ∧ FP.lt (fast_log (lit 2 : F64)) (fast_log (lit 3)) = true) ∧
    FP.le (FP.zero false : F64) (lit 1e-320) = true := by decide +kernel

/-- The same for include/log.h:172-200. -/
theorem C85_fast_logf (x y : F32) (hx : x.sign = false) (hy : y.sign = false) (h : FP.le x y = true) :
    FP.le (fast_logf x) (fast_logf y) = true := by
  obtain ⟨xn, yn, hm⟩ := mag_le_of_le hx hy h
  have big : fast_logf (FP.inf false) = FP.inf false := by decide +kernel
  have nogt : ∀ w : F32, w.isFinite = true → FP.gt w LOGF_UPPER_LIMIT = false := by
    intro w hw
    have c : LOGF_UPPER_LIMIT.isFinite = true ∧ LOGF_UPPER_LIMIT.val = magVal b32 (255 * 2 ^ 23 - 1) ∧ b32.infMag = 255 * 2 ^ 23 := by decide +kernel
    rw [gt_fin hw c.1, c.2.1]
    have h1 : w.mag < b32.infMag := by simpa [FP.isFinite] using hw
    have h2 : |w.val| ≤ magVal b32 (255 * 2 ^ 23 - 1) := by rw [abs_val]; exact magVal_le.2 (by omega)
    simpa using (le_abs_self _).trans h2
  rcases inf_or_finite yn hy with hf | hf
  · exact fast_logf_order hx hy hf (nogt y hf) hm
  · rw [hf, big]
    apply le_inf
    rcases inf_or_finite xn hx with hf | hf
    · obtain ⟨-, -, h2, -⟩ := fast_logf_value hx hf (nogt x hf)
      exact not_nan_of_finite h2
    · rw [hf, big]; decide +kernel

example : FP.le (lit 2 : F32) (lit 3) = true ∧ FP.lt (fast_logf (lit 2 : F32)) (fast_logf (lit 3)) = true := by decide +kernel

end Vdt
