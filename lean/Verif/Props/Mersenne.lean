import Verif.Lemmas.Mersenne
import Verif.Props.Random

/-!
# C111: different seeds give different random numbers
-/

namespace Vdt.Mt
open FP Rand

/-- Two engines of pools whose seeds differ give a different output within the first 312 calls, for
all pairs of the `2^32` seeds. -/
theorem C111_seeds (s t : BitVec 32) (h : s ≠ t) : ∃ k < 312, ofInt32 s k ≠ ofInt32 t k := by
  by_contra hc
  push Not at hc
  have e : s.signExtend 64 = t.signExtend 64 := seed_eq hc
  apply h
  refine BitVec.eq_of_getLsbD_eq fun i hi => ?_
  have := congrArg (fun b => BitVec.getLsbD b i) e
  simp only [BitVec.getLsbD_signExtend, hi, show i < 64 by omega, decide_true, Bool.true_and, if_true] at this
  exact this

/-- The engines of the deprecated pool likewise. -/
theorem C111_seeds_old (s t : BitVec 32) (h : s ≠ t) : ∃ k < 312, ofUInt32 s k ≠ ofUInt32 t k := by
  by_contra hc
  push Not at hc
  have e : s.setWidth 64 = t.setWidth 64 := seed_eq hc
  apply h
  have := congrArg (BitVec.setWidth 32) e
  simpa using this

/-- Any engine seed, of all `2^64`. -/
theorem C111_engine (s t : BitVec 64) (h : s ≠ t) : ∃ k < 312, engine s k ≠ engine t k := by
  by_contra hc
  push Not at hc
  exact h (seed_eq hc)

/-- On the unit interval the numbers before the conversion to the type of the pool are different real
numbers somewhere within the first 312. -/
theorem C111_unit_interval {f : Fmt} (hf : f = b64 ∨ f = b32) (s t : BitVec 32) (h : s ≠ t) :
    ∃ k < 312, (uniform (lit 0 : FP f) (lit 1) (ofInt32 s k)).val ≠ (uniform (lit 0 : FP f) (lit 1) (ofInt32 t k)).val := by
  obtain ⟨k, hk, hne⟩ := C111_seeds s t h
  refine ⟨k, hk, fun e => hne ?_⟩
  have fl : ∀ q : ℚ, q = 0 ∨ q = 1 → (lit q : FP f).isFinite = true ∧ (lit q : FP f).val = q := by
    rintro q (rfl | rfl) <;> rcases hf with rfl | rfl <;> decide +kernel
  have v : ∀ g, (uniform (lit 0 : FP f) (lit 1) g).val = (g.toNat : ℚ) / 2 ^ 64 := by
    intro g
    obtain ⟨-, hv, -⟩ := uniform_eq hf (fl 0 (Or.inl rfl)).1 (fl 1 (Or.inr rfl)).1
      (by rw [(fl 0 (Or.inl rfl)).2, (fl 1 (Or.inr rfl)).2]; norm_num) g
    have hr := rnd_fin (canonical_val g).1
    rw [(canonical_val g).2] at hr
    rw [hv, (fl 0 (Or.inl rfl)).2, (fl 1 (Or.inr rfl)).2, sub_zero, show rnd b80 1 = 1 by decide +kernel, mul_one, add_zero, hr, hr]
  rw [v, v, div_left_inj' (by norm_num)] at e
  exact BitVec.eq_of_toNat_eq (by exact_mod_cast e)

/-- The engine is the one of the C++ standard: first output for the default seed. -/
example : engine 5489 0 = 14514284786278117030 := by decide +kernel

example : ofInt32 1 0 = 2469588189546311528 ∧ ofInt32 2 0 ≠ 2469588189546311528 := by decide +kernel

end Vdt.Mt
