import Verif.Lemmas.Nearest
import Verif.Model.Sqrt

/-!
# The wrappers of `stdwrap.h` and the plain reciprocal are correctly rounded (C80)

`FP.Nearest y r` (`Lemmas/Nearest.lean`): `y` is finite, no finite number of the format is nearer to the
real number `r`, and if another one is as near then the last bit of `y` is zero.
-/

namespace Vdt
open FP

variable {f : Fmt}

/-- The number nearest to `r` is determined, up to the sign of zero: the theorems below leave no choice
of result. -/
theorem C80_determined {y z : F64} {r : ℝ} (hy : y.Nearest r) (hz : z.Nearest r) : y.real = z.real := by
  unfold FP.real; rw [nearest_unique hy hz]

theorem C80_determinedf {y z : F32} {r : ℝ} (hy : y.Nearest r) (hz : z.Nearest r) : y.real = z.real := by
  unfold FP.real; rw [nearest_unique hy hz]

/-- The overflow threshold of the formats: half a step above the largest finite number. -/
theorem ovf_b64 : Fmt.ovf b64 = (2 ^ 54 - 1) * 2 ^ 970 := by decide +kernel
theorem ovf_b32 : Fmt.ovf b32 = (2 ^ 25 - 1) * 2 ^ 103 := by decide +kernel

theorem div_round [f.Ok] {x y : FP f} (hx : x.isFinite = true) (hy : y.isFinite = true) (h0 : y.val ≠ 0) :
    (|x.val / y.val| < f.ovf → (x / y).Nearest (x.real / y.real)) ∧
    (f.ovf ≤ |x.val / y.val| → x / y = inf (x.sign ^^ y.sign)) := by
  have e : ((x.val / y.val : ℚ) : ℝ) = x.real / y.real := by unfold FP.real; push_cast; rfl
  rw [div_def, div_fin hx hy h0]
  refine ⟨fun h => by rw [← e]; exact ofRat_nearest f _ h, fun h => ?_⟩
  rw [ofRat_overflow f _ h]
  have x0 : x.val ≠ 0 := by
    intro hc
    rw [hc, zero_div, abs_zero] at h
    have := (rcode_lt_inf f f.big_pos).1 (rcode_big_lt f)
    linarith [f.big_pos]
  congr 1
  have sx : x.sign = decide (x.val < 0) := by
    rcases lt_or_gt_of_ne x0 with h1 | h1
    · rw [(val_neg_iff.1 h1).1]; simp [h1]
    · rw [(val_pos_iff.1 h1).1]; simp [h1.le]
  have sy : y.sign = decide (y.val < 0) := by
    rcases lt_or_gt_of_ne h0 with h1 | h1
    · rw [(val_neg_iff.1 h1).1]; simp [h1]
    · rw [(val_pos_iff.1 h1).1]; simp [h1.le]
  rw [sx, sy]
  rcases lt_or_gt_of_ne x0 with h1 | h1 <;> rcases lt_or_gt_of_ne h0 with h2 | h2
  · rw [decide_eq_true h1, decide_eq_true h2, decide_eq_false (not_lt.2 (div_pos_of_neg_of_neg h1 h2).le)]; rfl
  · rw [decide_eq_true h1, decide_eq_false (not_lt.2 h2.le), decide_eq_true (div_neg_of_neg_of_pos h1 h2)]; rfl
  · rw [decide_eq_false (not_lt.2 h1.le), decide_eq_true h2, decide_eq_true (div_neg_of_pos_of_neg h1 h2)]; rfl
  · rw [decide_eq_false (not_lt.2 h1.le), decide_eq_false (not_lt.2 h2.le), decide_eq_false (not_lt.2 (div_pos h1 h2).le)]; rfl

/-- Sums, differences and products of the model are correctly rounded (the arithmetic all models of
functions are made of). -/
theorem add_round [f.Ok] {x y : FP f} (hx : x.isFinite = true) (hy : y.isFinite = true) (h : |x.val + y.val| < f.ovf) :
    (x + y).Nearest (x.real + y.real) := by
  rw [add_def, add_fin hx hy]
  have := ofRat_nearest f (x.sign && y.sign) h
  push_cast at this; exact this

theorem sub_round [f.Ok] {x y : FP f} (hx : x.isFinite = true) (hy : y.isFinite = true) (h : |x.val - y.val| < f.ovf) :
    (x - y).Nearest (x.real - y.real) := by
  rw [sub_def, sub_fin hx hy]
  have := ofRat_nearest f (x.sign && !y.sign) h
  push_cast at this; exact this

theorem mul_round [f.Ok] {x y : FP f} (hx : x.isFinite = true) (hy : y.isFinite = true) (h : |x.val * y.val| < f.ovf) :
    (x * y).Nearest (x.real * y.real) := by
  rw [mul_def, mul_fin hx hy]
  have := ofRat_nearest f (x.sign ^^ y.sign) h
  push_cast at this; exact this

/-- `fast_div`, double: the number nearest to the quotient; an infinity of the right sign beyond the
overflow threshold. -/
theorem C80_div {x y : F64} (hx : x.isFinite = true) (hy : y.isFinite = true) (h0 : y.real ≠ 0) :
    (|x.val / y.val| < (2 ^ 54 - 1) * 2 ^ 970 → (fast_div x y).Nearest (x.real / y.real)) ∧
    ((2 ^ 54 - 1) * 2 ^ 970 ≤ |x.val / y.val| → fast_div x y = inf (x.sign ^^ y.sign)) := by
  rw [← ovf_b64]
  exact div_round hx hy (by unfold FP.real at h0; exact_mod_cast h0)

theorem C80_divf {x y : F32} (hx : x.isFinite = true) (hy : y.isFinite = true) (h0 : y.real ≠ 0) :
    (|x.val / y.val| < (2 ^ 25 - 1) * 2 ^ 103 → (fast_div x y).Nearest (x.real / y.real)) ∧
    ((2 ^ 25 - 1) * 2 ^ 103 ≤ |x.val / y.val| → fast_div x y = inf (x.sign ^^ y.sign)) := by
  rw [← ovf_b32]
  exact div_round hx hy (by unfold FP.real at h0; exact_mod_cast h0)

/-- Division by zero: an infinity of the right sign, except for zero over zero. -/
theorem C80_div_zero [f.Ok] {x y : FP f} (hx : x.isFinite = true) (hy : y.real = 0) (hy' : y.isFinite = true) :
    (x.real ≠ 0 → fast_div x y = inf (x.sign ^^ y.sign)) ∧ (x.real = 0 → fast_div x y = nan) := by
  have h1 : y.isZero = true := by
    have : y.val = 0 := by unfold FP.real at hy; exact_mod_cast hy
    simpa [isZero] using val_eq_zero.1 this
  have hz : x.isZero = decide (x.real = 0) := by
    unfold FP.real isZero
    rw [decide_eq_decide, ← val_eq_zero]
    exact ⟨fun h => by rw [h]; simp, fun h => by exact_mod_cast h⟩
  have e : fast_div x y = if x.isZero then nan else inf (x.sign ^^ y.sign) := by
    show FP.div x y = _
    unfold FP.div
    simp [finite_not_nan hx, finite_not_nan hy', finite_not_inf hx, finite_not_inf hy', h1]
  rw [e, hz]
  exact ⟨fun h => by simp [h], fun h => by simp [h]⟩

/-- `inv` (inv.h:58 and 86) is the correctly rounded reciprocal. -/
theorem C80_inv {x : F64} (hx : x.isFinite = true) (h0 : x.real ≠ 0) (h : |1 / x.val| < (2 ^ 54 - 1) * 2 ^ 970) :
    (inv x).Nearest (1 / x.real) := by
  have e1 : (lit 1 : F64).isFinite = true := by decide +kernel
  have e2 : (lit 1 : F64).val = 1 := by decide +kernel
  have := (C80_div (x := lit 1) e1 hx h0).1 (by rw [e2]; exact h)
  have e3 : (lit 1 : F64).real = 1 := by unfold FP.real; rw [e2]; simp
  rw [e3] at this
  exact this

theorem C80_invf {x : F32} (hx : x.isFinite = true) (h0 : x.real ≠ 0) (h : |1 / x.val| < (2 ^ 25 - 1) * 2 ^ 103) :
    (invf x).Nearest (1 / x.real) := by
  have e1 : (lit 1 : F32).isFinite = true := by decide +kernel
  have e2 : (lit 1 : F32).val = 1 := by decide +kernel
  have := (C80_divf (x := lit 1) e1 hx h0).1 (by rw [e2]; exact h)
  have e3 : (lit 1 : F32).real = 1 := by unfold FP.real; rw [e2]; simp
  rw [e3] at this
  exact this

/-- `isqrt` (sqrt.h:63 and 93): the root and then its reciprocal are rounded. -/
theorem C80_isqrt {x : F64} (hx : x.isFinite = true) (h0 : 0 < x.real) :
    ∃ s : F64, s.Nearest (Real.sqrt x.real) ∧ (|1 / s.val| < (2 ^ 54 - 1) * 2 ^ 970 → (isqrt x).Nearest (1 / s.real)) := by
  have h := sqrt_nearest (f := b64) (by decide) hx (by unfold FP.real at h0; exact_mod_cast h0)
  refine ⟨FP.sqrt x, h, fun h2 => C80_inv h.1 ?_ h2⟩
  intro hc
  have e := (sqrt_err (f := b64) (by decide) hx (by unfold FP.real at h0; exact_mod_cast h0)).2.2
  rw [hc, zero_sub, abs_neg, abs_of_nonneg (Real.sqrt_nonneg _)] at e
  have u : ((Fmt.u b64 : ℚ) : ℝ) = 1 / 2 ^ 53 := by rw [show Fmt.u b64 = 1 / 2 ^ 53 by decide +kernel]; norm_num
  rw [u] at e
  have := Real.sqrt_pos.2 h0
  nlinarith

theorem C80_isqrtf {x : F32} (hx : x.isFinite = true) (h0 : 0 < x.real) :
    ∃ s : F32, s.Nearest (Real.sqrt x.real) ∧ (|1 / s.val| < (2 ^ 25 - 1) * 2 ^ 103 → (isqrtf x).Nearest (1 / s.real)) := by
  have h := sqrt_nearest (f := b32) (by decide) hx (by unfold FP.real at h0; exact_mod_cast h0)
  refine ⟨FP.sqrt x, h, fun h2 => C80_invf h.1 ?_ h2⟩
  intro hc
  have e := (sqrt_err (f := b32) (by decide) hx (by unfold FP.real at h0; exact_mod_cast h0)).2.2
  rw [hc, zero_sub, abs_neg, abs_of_nonneg (Real.sqrt_nonneg _)] at e
  have u : ((Fmt.u b32 : ℚ) : ℝ) = 1 / 2 ^ 24 := by rw [show Fmt.u b32 = 1 / 2 ^ 24 by decide +kernel]; norm_num
  rw [u] at e
  have := Real.sqrt_pos.2 h0
  nlinarith

theorem fma_round [f.Ok] {x y z : FP f} (hx : x.isFinite = true) (hy : y.isFinite = true) (hz : z.isFinite = true)
    (h : |x.val * y.val + z.val| < f.ovf) : (FP.fma x y z).Nearest (x.real * y.real + z.real) := by
  have e : FP.fma x y z = ofRat f ((x.sign ^^ y.sign) && z.sign) (x.val * y.val + z.val) := by
    unfold FP.fma
    simp [finite_not_nan hx, finite_not_nan hy, finite_not_nan hz, finite_not_inf hx, finite_not_inf hy, finite_not_inf hz]
  rw [e]
  have := ofRat_nearest f ((x.sign ^^ y.sign) && z.sign) h
  push_cast at this; exact this

/-- `fast_fmac`: a single rounding of `x*y+z`, as its comment says. -/
theorem C80_fmac {x y z : F64} (hx : x.isFinite = true) (hy : y.isFinite = true) (hz : z.isFinite = true)
    (h : |x.val * y.val + z.val| < (2 ^ 54 - 1) * 2 ^ 970) : (fast_fmac x y z).Nearest (x.real * y.real + z.real) :=
  fma_round hx hy hz (by rw [ovf_b64]; exact h)

theorem C80_fmacf {x y z : F32} (hx : x.isFinite = true) (hy : y.isFinite = true) (hz : z.isFinite = true)
    (h : |x.val * y.val + z.val| < (2 ^ 25 - 1) * 2 ^ 103) : (fast_fmac x y z).Nearest (x.real * y.real + z.real) :=
  fma_round hx hy hz (by rw [ovf_b32]; exact h)

/-- `fast_fma`, compiled without contraction: the product is rounded, then the sum. -/
theorem C80_fma {x y z : F64} (hx : x.isFinite = true) (hy : y.isFinite = true) (hz : z.isFinite = true)
    (h : |x.val * y.val| < (2 ^ 54 - 1) * 2 ^ 970) :
    ∃ p : F64, p.Nearest (x.real * y.real) ∧
      (|p.val + z.val| < (2 ^ 54 - 1) * 2 ^ 970 → (fast_fma x y z).Nearest (p.real + z.real)) := by
  have hp := mul_round hx hy (by rw [ovf_b64]; exact h)
  exact ⟨x * y, hp, fun h2 => add_round hp.1 hz (by rw [ovf_b64]; exact h2)⟩

theorem C80_fmaf {x y z : F32} (hx : x.isFinite = true) (hy : y.isFinite = true) (hz : z.isFinite = true)
    (h : |x.val * y.val| < (2 ^ 25 - 1) * 2 ^ 103) :
    ∃ p : F32, p.Nearest (x.real * y.real) ∧
      (|p.val + z.val| < (2 ^ 25 - 1) * 2 ^ 103 → (fast_fma x y z).Nearest (p.real + z.real)) := by
  have hp := mul_round hx hy (by rw [ovf_b32]; exact h)
  exact ⟨x * y, hp, fun h2 => add_round hp.1 hz (by rw [ovf_b32]; exact h2)⟩

/-- `fast_sqrt`: the number nearest to the root; zeros are kept, negative numbers give NaN. -/
theorem sqrt_round [f.Ok] (hE : f.emin ≤ -(f.mb : ℤ) - 2) {x : FP f} (hx : x.isFinite = true) :
    (0 ≤ x.real → (fast_sqrt x).Nearest (Real.sqrt x.real)) ∧ (x.real = 0 → fast_sqrt x = x) ∧
    (x.real < 0 → fast_sqrt x = nan) := by
  have hz : x.real = 0 → fast_sqrt x = x := by
    intro h
    have h1 : x.isZero = true := by
      have : x.val = 0 := by unfold FP.real at h; exact_mod_cast h
      simpa [isZero] using val_eq_zero.1 this
    unfold fast_sqrt FP.sqrt
    simp [finite_not_nan hx, h1]
  refine ⟨fun h => ?_, hz, fun h => ?_⟩
  · rcases h.eq_or_lt with h0 | h0
    · rw [hz h0.symm, ← h0, Real.sqrt_zero]
      refine nearest_zero ?_
      have : x.val = 0 := by unfold FP.real at h0; exact_mod_cast h0.symm
      exact val_eq_zero.1 this
    · exact sqrt_nearest hE hx (by unfold FP.real at h0; exact_mod_cast h0)
  · have h1 : x.val < 0 := by unfold FP.real at h; exact_mod_cast h
    obtain ⟨s, m⟩ := val_neg_iff.1 h1
    have hzz : x.isZero = false := by simp [isZero]; omega
    unfold fast_sqrt FP.sqrt
    simp [finite_not_nan hx, hzz, s]

theorem C80_sqrt {x : F64} (hx : x.isFinite = true) :
    (0 ≤ x.real → (fast_sqrt x).Nearest (Real.sqrt x.real)) ∧ (x.real = 0 → fast_sqrt x = x) ∧
    (x.real < 0 → fast_sqrt x = nan) := sqrt_round (by decide) hx

theorem C80_sqrtf {x : F32} (hx : x.isFinite = true) :
    (0 ≤ x.real → (fast_sqrt x).Nearest (Real.sqrt x.real)) ∧ (x.real = 0 → fast_sqrt x = x) ∧
    (x.real < 0 → fast_sqrt x = nan) := sqrt_round (by decide) hx

/-- `(1 + 2^-52)(1 - 2^-53) - 1`: zero with two roundings, not zero with one. -/
example : fast_fma (lit (1 + 1 / 2 ^ 52) : F64) (lit (1 - 1 / 2 ^ 53)) (lit (-1)) ≠
    fast_fmac (lit (1 + 1 / 2 ^ 52) : F64) (lit (1 - 1 / 2 ^ 53)) (lit (-1)) := by decide +kernel

/-- A tie: the largest float plus half a step over one overflows; a little less does not. -/
example : (fast_div (lit (2 ^ 104) : F32) (lit (1 / 2 ^ 24))) = inf false ∧
    |(lit (2 ^ 104) : F32).val / (lit (1 / 2 ^ 24) : F32).val| = 2 ^ 128 ∧
    (fast_sqrt (lit 2 : F32)).val = 11863283 / 2 ^ 23 := by decide +kernel

end Vdt
