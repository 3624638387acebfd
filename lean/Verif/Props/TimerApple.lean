import Verif.Model.TimerApple

/-!
# C52: the timer on Apple's systems
-/

namespace Vdt.Diag

/-- C52 for Apple's clock: the difference of the readings in whole nanoseconds, also if the counter wrapped around. -/
def C52_apple_statement : Prop :=
  ∀ (numer denom : BitVec 32) (time1 : BitVec 64) (ticks : Nat), denom ≠ 0 → ticks * numer.toNat / denom.toNat < 2 ^ 64 →
    ticks < 2 ^ 64 →
    (elapsedApple numer denom time1 (time1 + BitVec.ofNat 64 ticks)).map BitVec.toNat = some (ticks * numer.toNat / denom.toNat)

/-- What is computed: the product of ticks and numerator is reduced modulo `2^64` before the division. -/
theorem elapsedApple_eq (numer denom : BitVec 32) (time1 : BitVec 64) (ticks : Nat) (hd : denom ≠ 0) :
    (elapsedApple numer denom time1 (time1 + BitVec.ofNat 64 ticks)).map BitVec.toNat =
      some (ticks * numer.toNat % 2 ^ 64 / denom.toNat) := by
  unfold elapsedApple
  have h1 : time1 + BitVec.ofNat 64 ticks - time1 = BitVec.ofNat 64 ticks := by
    rw [BitVec.add_comm, BitVec.add_sub_cancel]
  have hn : numer.toNat < 2 ^ 64 := lt_trans numer.isLt (by decide)
  have hm : denom.toNat < 2 ^ 64 := lt_trans denom.isLt (by decide)
  rw [h1, if_neg hd]
  simp only [Option.map_some, BitVec.toNat_udiv, BitVec.toNat_mul, BitVec.toNat_ofNat, BitVec.toNat_setWidth, Nat.mod_eq_of_lt hn,
    Nat.mod_eq_of_lt hm, Nat.mod_mul_mod]

/-- Partial C52 on Apple's systems: right as long as the product of the ticks and the numerator is below `2^64`, whether or
not the counter wrapped around.  Missing: longer times (refuted). -/
theorem C52_apple_partial (numer denom : BitVec 32) (time1 : BitVec 64) (ticks : Nat) (hd : denom ≠ 0)
    (h : ticks * numer.toNat < 2 ^ 64) :
    (elapsedApple numer denom time1 (time1 + BitVec.ofNat 64 ticks)).map BitVec.toNat = some (ticks * numer.toNat / denom.toNat) := by
  rw [elapsedApple_eq _ _ _ _ hd, Nat.mod_eq_of_lt h]

/-- Beyond this the reported time is always too small. -/
theorem C52_apple_too_small (numer denom : BitVec 32) (time1 : BitVec 64) (ticks : Nat) (hd : denom ≠ 0)
    (h : 2 ^ 64 ≤ ticks * numer.toNat) :
    ∃ n, (elapsedApple numer denom time1 (time1 + BitVec.ofNat 64 ticks)).map BitVec.toNat = some n ∧
      n < ticks * numer.toNat / denom.toNat := by
  refine ⟨_, elapsedApple_eq _ _ _ _ hd, ?_⟩
  have h0 : 0 < denom.toNat := by
    rcases Nat.eq_zero_or_pos denom.toNat with h | h
    · exact absurd (BitVec.eq_of_toNat_eq (by simpa using h)) hd
    · exact h
  have h1 : ticks * numer.toNat % 2 ^ 64 + 2 ^ 64 ≤ ticks * numer.toNat := by omega
  have h2 : denom.toNat ≤ 2 ^ 64 := le_of_lt (lt_trans denom.isLt (by decide))
  refine lt_of_lt_of_le (Nat.lt_succ_self _) ?_
  rw [Nat.succ_eq_add_one, ← Nat.add_div_right _ h0]
  exact Nat.div_le_div_right (by omega)

/-- C52 does not hold on Apple's systems: with a counter of 33.3 MHz (numerator 1000000000, denominator 33333335) a measurement
of 600 seconds is reported as 46.6 seconds. -/
theorem C52_apple_violated : ¬ C52_apple_statement := by
  intro h
  have := h 1000000000#32 33333335#32 0#64 20000001000 (by decide) (by decide) (by decide)
  rw [elapsedApple_eq _ _ _ _ (by decide)] at this
  revert this
  decide

example : (elapsedApple 1000000000#32 33333335#32 0#64 20000001000#64).map BitVec.toNat = some 46597705458 ∧
    (elapsedApple 125#32 3#32 (0#64 - 5#64) 7#64).map BitVec.toNat = some 500 := by decide

end Vdt.Diag
