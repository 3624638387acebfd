import Verif.Float.Ops
import Verif.Spec
import Verif.Lemmas.Common

/-! # Single rounded operations with a bound on the result -/

namespace Vdt
open FP
variable {f : Fmt} [f.Ok]

theorem add_near {x y : FP f} {M : ℚ} (hx : x.isFinite = true) (hy : y.isFinite = true) (hM : 0 < M)
    (h : |x.val + y.val| ≤ M) (hb : M ≤ f.big) :
    (x + y).isFinite = true ∧ |(x + y).val - (x.val + y.val)| ≤ hulp f M := by
  have s := add_spec hx hy (h.trans hb)
  exact ⟨s.1, by rw [add_def, s.2]; exact rnd_err f hM h hb⟩

theorem sub_near {x y : FP f} {M : ℚ} (hx : x.isFinite = true) (hy : y.isFinite = true) (hM : 0 < M)
    (h : |x.val - y.val| ≤ M) (hb : M ≤ f.big) :
    (x - y).isFinite = true ∧ |(x - y).val - (x.val - y.val)| ≤ hulp f M := by
  have s := sub_spec hx hy (h.trans hb)
  exact ⟨s.1, by rw [sub_def, s.2]; exact rnd_err f hM h hb⟩

theorem mul_near {x y : FP f} {M : ℚ} (hx : x.isFinite = true) (hy : y.isFinite = true) (hM : 0 < M)
    (h : |x.val * y.val| ≤ M) (hb : M ≤ f.big) :
    (x * y).isFinite = true ∧ |(x * y).val - (x.val * y.val)| ≤ hulp f M := by
  have s := mul_spec hx hy (h.trans hb)
  exact ⟨s.1, by rw [mul_def, s.2]; exact rnd_err f hM h hb⟩

theorem div_near {x y : FP f} {M : ℚ} (hx : x.isFinite = true) (hy : y.isFinite = true) (h0 : y.val ≠ 0) (hM : 0 < M)
    (h : |x.val / y.val| ≤ M) (hb : M ≤ f.big) :
    (x / y).isFinite = true ∧ |(x / y).val - (x.val / y.val)| ≤ hulp f M := by
  have s := div_spec hx hy h0 (h.trans hb)
  exact ⟨s.1, by rw [div_def, s.2]; exact rnd_err f hM h hb⟩

theorem mul_exact {x y : FP f} (hx : x.isFinite = true) (hy : y.isFinite = true)
    (h : Rep f (x.val * y.val)) (hb : |x.val * y.val| ≤ f.big) :
    (x * y).isFinite = true ∧ (x * y).val = x.val * y.val := by
  have s := mul_spec hx hy hb
  exact ⟨s.1, by rw [mul_def, s.2]; exact rnd_exact f h hb⟩

theorem sub_exact {x y : FP f} (hx : x.isFinite = true) (hy : y.isFinite = true)
    (h : Rep f (x.val - y.val)) (hb : |x.val - y.val| ≤ f.big) :
    (x - y).isFinite = true ∧ (x - y).val = x.val - y.val := by
  have s := sub_spec hx hy hb
  exact ⟨s.1, by rw [sub_def, s.2]; exact rnd_exact f h hb⟩

theorem add_exact {x y : FP f} (hx : x.isFinite = true) (hy : y.isFinite = true)
    (h : Rep f (x.val + y.val)) (hb : |x.val + y.val| ≤ f.big) :
    (x + y).isFinite = true ∧ (x + y).val = x.val + y.val := by
  have s := add_spec hx hy hb
  exact ⟨s.1, by rw [add_def, s.2]; exact rnd_exact f h hb⟩

/-- The rounding of a conversion to `int` plus the correction for negative numbers. -/
theorem floor_step {a : FP f} (h : |a.val| < 2147483647) :
    let n := wrap32 (truncRat a.val - (if a.sign then 1 else 0))
    a.val - 1 ≤ n ∧ (n : ℚ) ≤ a.val := by
  have hb := trunc_bounds (q := a.val) (h.trans (by norm_num))
  have e := trunc_sub_sign a
  have hw : wrap32 (truncRat a.val - (if a.sign then 1 else 0)) = truncRat a.val - (if a.sign then 1 else 0) := by
    rw [abs_lt] at h
    apply wrap32_id
    · rw [e]
      have : (-2147483647 : ℤ) ≤ ⌊a.val⌋ := by rw [Int.le_floor]; push_cast; linarith
      split <;> omega
    · have := hb.2; split <;> omega
  simp only
  rw [hw, e]
  have h1 := Int.floor_le a.val
  have h2 := Int.lt_floor_add_one a.val
  split
  · rename_i hc
    have : (⌊a.val⌋ : ℚ) = a.val := by
      have hi := hc.2
      obtain ⟨m, hm⟩ : ∃ m : ℤ, a.val = m := ⟨a.val.num, by
        rw [Rat.isInt] at hi
        have hd : a.val.den = 1 := by simpa using hi
        conv_lhs => rw [← Rat.num_div_den a.val, hd]
        simp⟩
      rw [hm, Int.floor_intCast]
    push_cast
    constructor <;> linarith
  · constructor <;> linarith

end Vdt
