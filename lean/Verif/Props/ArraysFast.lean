import Verif.Model.ArrayFns
import Verif.Props.Arrays
import Verif.Props.LogAcc
import Verif.Props.ExpAcc

/-!
# The array functions and the accuracy of what they store (C37)
-/

namespace Vdt.Arr
open FP

/-- `fast_expv` on an array of numbers in `[-708, 708]`: the call is defined, every element of the
output is the exponential of the corresponding input up to `2^-51`, no other cell changes. -/
theorem C37_fast_expv_accurate (size : BitVec 32) (ia oa : Nat) (m : Mem F64) (x : Nat → F64)
    (hal : ∀ j k, j < k → k < size.toNat → ia + k ≠ oa + j)
    (hin : ∀ k < size.toNat, m (ia + k) = some (x k))
    (hx : ∀ k < size.toNat, (x k).isFinite = true ∧ |(x k).val| ≤ 708)
    (hout : ∀ k < size.toNat, (m (oa + k)).isSome = true) :
    ∃ m', fast_expv size ia oa m = some m' ∧
      (∀ k < size.toNat, ∃ y, m' (oa + k) = some y ∧ CloseRel y (Real.exp (x k).real) (2 ^ (-51 : ℤ))) ∧
      ∀ p, (∀ k < size.toNat, p ≠ oa + k) → m' p = m p := by
  have hy : ∀ k, ∃ y, k < size.toNat → fast_exp (x k) = some y ∧ CloseRel y (Real.exp (x k).real) (2 ^ (-51 : ℤ)) := by
    intro k
    by_cases hk : k < size.toNat
    · obtain ⟨y, h1, -, h2⟩ := C01_exp_accurate (x k) (hx k hk).1 (hx k hk).2
      exact ⟨y, fun _ => ⟨h1, h2⟩⟩
    · exact ⟨x k, fun h => absurd h hk⟩
  choose y hy using hy
  obtain ⟨m', h1, h2, h3⟩ := C37_array_elementwise fast_exp size ia oa m x y hal hin (fun k hk => (hy k hk).1) hout
  exact ⟨m', h1, fun k hk => ⟨y k, h2 k hk, (hy k hk).2⟩, h3⟩

/-- `fast_logv` on an array of positive normal numbers up to `1e307`. -/
theorem C37_fast_logv_accurate (size : BitVec 32) (ia oa : Nat) (m : Mem F64) (x : Nat → F64)
    (hal : ∀ j k, j < k → k < size.toNat → ia + k ≠ oa + j)
    (hin : ∀ k < size.toNat, m (ia + k) = some (x k))
    (hx : ∀ k < size.toNat, (x k).Normal ∧ 0 < (x k).val ∧ (x k).val ≤ 10 ^ 307)
    (hout : ∀ k < size.toNat, (m (oa + k)).isSome = true) :
    ∃ m', fast_logv size ia oa m = some m' ∧
      (∀ k < size.toNat, ∃ y, m' (oa + k) = some y ∧ CloseRel y (Real.log (x k).real) (2 ^ (-51 : ℤ))) ∧
      ∀ p, (∀ k < size.toNat, p ≠ oa + k) → m' p = m p := by
  obtain ⟨m', h1, h2, h3⟩ := C37_array_elementwise (fun x => some (fast_log x)) size ia oa m x
    (fun k => fast_log (x k)) hal hin (fun k hk => rfl) hout
  exact ⟨m', h1, fun k hk => ⟨_, h2 k hk, C05_log_accurate _ (hx k hk).1 (hx k hk).2.1 (hx k hk).2.2⟩, h3⟩

/-- Hypotheses met by two elements `2, 2` at 0 with output at 2. -/
example : (∀ k < (2 : BitVec 32).toNat, (fun p : Nat => if p < 4 then some (lit 2 : F64) else none) (0 + k) = some (lit 2)) ∧
    (lit 2 : F64).isFinite = true ∧ |(lit 2 : F64).val| ≤ 708 ∧ (lit 2 : F64).Normal ∧ 0 < (lit 2 : F64).val ∧
    (lit 2 : F64).val ≤ 10 ^ 307 := by
  rw [normal_iff64]
  refine ⟨?_, by decide +kernel⟩
  intro k hk
  have : k < 2 := hk
  simp; omega

end Vdt.Arr
