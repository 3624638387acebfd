import Verif.Props.LogAcc
import Verif.Props.ExpAcc

/-!
# `fast_log` inverts `fast_exp` (C36)
-/

namespace Vdt
open FP details

/-- Size of the logarithm of a number next to one. -/
theorem log_near_one {e : ℝ} (h : |e| ≤ 2 ^ (-51 : ℤ)) : |Real.log (1 + e)| ≤ 2 ^ (-51 : ℤ) * (1 + 2 ^ (-45 : ℤ)) := by
  have hc : (2 : ℝ) ^ (-51 : ℤ) = 1 / 2 ^ 51 := by norm_num
  have hd : (2 : ℝ) ^ (-45 : ℤ) = 1 / 2 ^ 45 := by norm_num
  rw [hc] at h ⊢
  rw [hd]
  have h' := abs_le.1 h
  norm_num at h'
  have hp : 0 < 1 + e := by linarith
  have h1 := Real.log_le_sub_one_of_pos hp
  have h2 := Real.one_sub_inv_le_log_of_pos hp
  have h3 : 1 - (1 + e)⁻¹ = e / (1 + e) := by field_simp; ring
  rw [h3] at h2
  have h4 : |e / (1 + e)| ≤ 1 / 2 ^ 51 * (1 + 1 / 2 ^ 45) := by
    rw [abs_div, abs_of_pos hp, div_le_iff₀ hp]
    refine h.trans ?_
    norm_num
    nlinarith
  rw [abs_le] at h4 ⊢
  constructor
  · linarith [h4.1]
  · norm_num; norm_num at h'; linarith

/-- For every double with `|x| ≤ 700` both calls are defined and the composition returns `x` up to
`2^-51 (|x| + 1)`, a relative error of two half-ulps in each of the two functions. -/
theorem C36_log_exp (x : F64) (hx : x.isFinite = true) (h : |x.val| ≤ 700) :
    ∃ y, fast_exp x = some y ∧ CloseAbs (fast_log y) x.real (2 ^ (-51 : ℤ) * (|x.real| + 1 + 2 ^ (-40 : ℤ))) := by
  obtain ⟨y, h1, h2, h3, h4⟩ := C01_exp_accurate x hx (h.trans (by norm_num))
  refine ⟨y, h1, ?_⟩
  have hxr : |x.real| ≤ 700 := by unfold FP.real; exact_mod_cast h
  have hxr' := abs_le.1 hxr
  have l2 := log_two_bounds
  have hE := Real.exp_pos x.real
  -- `y = e^x (1+ε)`
  obtain ⟨ε, hε, hy⟩ : ∃ ε : ℝ, |ε| ≤ 2 ^ (-51 : ℤ) ∧ y.real = Real.exp x.real * (1 + ε) := by
    refine ⟨y.real / Real.exp x.real - 1, ?_, by field_simp; ring⟩
    rw [abs_of_pos hE] at h4
    rw [show y.real / Real.exp x.real - 1 = (y.real - Real.exp x.real) / Real.exp x.real by field_simp, abs_div,
      abs_of_pos hE, div_le_iff₀ hE]
    exact h4
  have hεs : |ε| ≤ 1 / 2 := hε.trans (by norm_num)
  have hε' := abs_le.1 hεs
  have e1 : Real.exp x.real ≤ 2 ^ (1015 : ℝ) := by
    rw [Real.rpow_def_of_pos (by norm_num)]
    apply Real.exp_le_exp.2; linarith
  have e2 : (2 : ℝ) ^ (-1015 : ℝ) ≤ Real.exp x.real := by
    rw [Real.rpow_def_of_pos (by norm_num)]
    apply Real.exp_le_exp.2; linarith
  have e1' : Real.exp x.real ≤ ((2 ^ (1015 : ℕ) : ℚ) : ℝ) := by
    push_cast; rw [← Real.rpow_natCast]; exact_mod_cast e1
  have e2' : ((1 / 2 ^ (1015 : ℕ) : ℚ) : ℝ) ≤ Real.exp x.real := by
    push_cast
    rw [Real.rpow_neg (by norm_num), ← one_div] at e2
    refine le_trans (le_of_eq ?_) e2
    rw [← Real.rpow_natCast]; norm_num
  have hup : y.val ≤ 10 ^ 307 := by
    have h5 : (y.val : ℝ) ≤ ((2 * 2 ^ (1015 : ℕ) : ℚ) : ℝ) := by
      have : (y.val : ℝ) = Real.exp x.real * (1 + ε) := hy
      rw [this, Rat.cast_mul]
      generalize ((2 ^ (1015 : ℕ) : ℚ) : ℝ) = q at *
      push_cast
      nlinarith
    have h6 : y.val ≤ 2 * 2 ^ (1015 : ℕ) := by exact_mod_cast h5
    exact h6.trans (by decide +kernel)
  have hn : y.Normal := by
    refine ⟨h3, ?_⟩
    have h5 : ((1 / 2 * (1 / 2 ^ (1015 : ℕ)) : ℚ) : ℝ) ≤ (y.val : ℝ) := by
      have : (y.val : ℝ) = Real.exp x.real * (1 + ε) := hy
      rw [this, Rat.cast_mul]
      generalize ((1 / 2 ^ (1015 : ℕ) : ℚ) : ℝ) = q at *
      push_cast
      nlinarith
    have h6 : 1 / 2 * (1 / 2 ^ (1015 : ℕ)) ≤ y.val := by exact_mod_cast h5
    rw [abs_of_pos h2]
    refine le_trans ?_ h6
    decide +kernel
  have L := C05_log_accurate y hn h2 hup
  refine ⟨L.1, ?_⟩
  have hlog : Real.log y.real = x.real + Real.log (1 + ε) := by
    rw [hy, Real.log_mul hE.ne' (by linarith), Real.log_exp]
  have hne := log_near_one hε
  have L2 := L.2
  rw [hlog] at L2
  obtain ⟨d, hd⟩ : ∃ d, d = Real.log (1 + ε) := ⟨_, rfl⟩
  rw [← hd] at L2 hne
  have a1 : |x.real + d| ≤ |x.real| + |d| := abs_add_le _ _
  have a2 := abs_add_le ((fast_log y).real - (x.real + d)) d
  rw [show (fast_log y).real - (x.real + d) + d = (fast_log y).real - x.real by ring] at a2
  rw [show (2 : ℝ) ^ (-51 : ℤ) = 1 / 2 ^ 51 by norm_num] at *
  rw [show (2 : ℝ) ^ (-45 : ℤ) = 1 / 2 ^ 45 by norm_num] at *
  rw [show (2 : ℝ) ^ (-40 : ℤ) = 1 / 2 ^ 40 by norm_num] at *
  norm_num at L2 hne ⊢
  linarith

/-- `log(exp(1))` is exactly 1 and `log(exp(-700))` exactly -700 here. -/
example : (lit 1 : F64).isFinite = true ∧ |(lit 1 : F64).val| ≤ 700 ∧
    ((fast_exp (lit 1)).map fast_log).map (·.val) = some 1 ∧
    ((fast_exp (lit (-700))).map fast_log).map (·.val) = some (-700) := by decide +kernel

end Vdt
