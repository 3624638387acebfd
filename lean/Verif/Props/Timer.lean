import Verif.Lemmas.Diag

/-!
# The timer (C52)
-/

namespace Vdt.Diag
open Vdt.FP

/-- A reading of the clock: `clock_gettime` promises `0 ≤ tv_nsec < 10^9`. -/
def Timespec.Ok (t : Timespec) : Prop := 0 ≤ t.nsec ∧ t.nsec < 1000000000 ∧ 0 ≤ t.sec

/-- The reading in nanoseconds. -/
def Timespec.ns (t : Timespec) : ℤ := 1000000000 * t.sec + t.nsec

/-- C52 in full: for readings in order, the elapsed time is the difference. -/
def C52_statement : Prop :=
  ∀ t1 t2 : Timespec, t1.Ok → t2.Ok → t1.ns ≤ t2.ns → t2.ns < 2 ^ 63 → (elapsed t1 t2).map (fun n => (n : ℤ)) = some (t2.ns - t1.ns)

theorem ofInt_nat (n : ℕ) : (FP.ofInt (n : ℤ) : F64) = ofNat n := by
  unfold FP.ofInt ofNat
  rw [Int.cast_natCast]

theorem lit_e9 : (lit 1000000000 : F64).isFinite = true ∧ (lit 1000000000 : F64).val = 1000000000 := by decide +kernel

/-- What the arithmetic gives: the `double` sum of the two parts, if both differences are exact. -/
theorem elapsed_eq {t1 t2 : Timespec} {e s : ℕ} (he : (BitVec.ofInt 64 (t2.nsec - t1.nsec)).toNat = e) (hs : t2.sec - t1.sec = s) :
    elapsed t1 t2 = toUInt 64 (ofNat e + lit 1000000000 * ofNat s) := by
  unfold elapsed
  dsimp only
  rw [he, hs, ofInt_nat]

/-- Partial C52: right whenever the nanosecond field did not decrease and the elapsed time is below
`2^53` nanoseconds (104 days).  Missing: readings whose nanosecond field wrapped around (refuted). -/
theorem C52_elapsed_partial (t1 t2 : Timespec) (h1 : t1.Ok) (h2 : t2.Ok) (h : t1.ns ≤ t2.ns) (hn : t1.nsec ≤ t2.nsec)
    (hb : t2.ns - t1.ns < 2 ^ 53) : (elapsed t1 t2).map (fun n => (n : ℤ)) = some (t2.ns - t1.ns) := by
  unfold Timespec.Ok at h1 h2
  unfold Timespec.ns at *
  obtain ⟨s, hs⟩ : ∃ s : ℕ, t2.sec - t1.sec = s := ⟨(t2.sec - t1.sec).toNat, by omega⟩
  obtain ⟨e, he⟩ : ∃ e : ℕ, t2.nsec - t1.nsec = e := ⟨(t2.nsec - t1.nsec).toNat, by omega⟩
  have hbv : (BitVec.ofInt 64 (t2.nsec - t1.nsec)).toNat = e := by
    rw [he, BitVec.ofInt_natCast, BitVec.toNat_ofNat, Nat.mod_eq_of_lt (by omega)]
  rw [elapsed_eq hbv hs]
  have hsum : e + 1000000000 * s ≤ 2 ^ 53 := by omega
  have hp : (lit 1000000000 * ofNat s : F64).isFinite = true ∧ (lit 1000000000 * ofNat s : F64).val = 1000000000 * s := by
    have hv : (lit 1000000000 : F64).val * (ofNat s).val = ((1000000000 * s : ℕ) : ℚ) := by
      rw [lit_e9.2, ofNat_exact (by omega)]; push_cast; ring
    have := mul_exact lit_e9.1 (ofNat_fin (n := s) (by omega)) (by rw [hv]; exact rep_nat (by omega)) (by rw [hv]; exact abs_nat_big (by omega))
    refine ⟨this.1, ?_⟩
    rw [this.2, hv]; push_cast; ring
  have hq : (ofNat e).val + (lit 1000000000 * ofNat s : F64).val = ((e + 1000000000 * s : ℕ) : ℚ) := by
    rw [hp.2, ofNat_exact (by omega)]; push_cast; ring
  have ha := add_exact (ofNat_fin (n := e) (by omega)) hp.1 (by rw [hq]; exact rep_nat hsum) (by rw [hq]; exact abs_nat_big (by omega))
  rw [toUInt_some (n := e + 1000000000 * s) ha.1 (by rw [ha.2, hq]) (by rw [ha.2, hq]; linarith) (by omega)]
  show some ((e + 1000000000 * s : ℕ) : ℤ) = _
  refine congrArg some ?_
  push_cast
  omega

/-- If the nanosecond field decreased (the second wrapped during the measurement), the value is too
large for the `uint64_t` it is converted to: undefined behaviour, for every such pair of readings. -/
theorem C52_elapsed_wraps (t1 t2 : Timespec) (h1 : t1.Ok) (h2 : t2.Ok) (h : t1.ns ≤ t2.ns) (hn : t2.nsec < t1.nsec)
    (hb : t2.ns < 2 ^ 63) : elapsed t1 t2 = none := by
  unfold Timespec.Ok at h1 h2
  unfold Timespec.ns at *
  obtain ⟨s, hs⟩ : ∃ s : ℕ, t2.sec - t1.sec = s := ⟨(t2.sec - t1.sec).toNat, by omega⟩
  obtain ⟨d, hd⟩ : ∃ d : ℕ, t2.nsec - t1.nsec = -(d : ℤ) := ⟨(t1.nsec - t2.nsec).toNat, by omega⟩
  have hs1 : 1 ≤ s := by omega
  have hd1 : 1 ≤ d ∧ d ≤ 999999999 := by omega
  have hbv : (BitVec.ofInt 64 (t2.nsec - t1.nsec)).toNat = 2 ^ 64 - d := by
    rw [hd, BitVec.toNat_ofInt]; omega
  rw [elapsed_eq hbv hs]
  -- the converted first part
  have hlo : (2 : ℚ) ^ 64 - 999999488 ≤ (ofNat (2 ^ 64 - d)).val := by
    have e1 : (ofNat (2 ^ 64 - 999999999)).val = (2 : ℚ) ^ 64 - 999999488 := by decide +kernel
    rw [← e1, ofNat_val, ofNat_val]
    exact rnd_mono _ (by exact_mod_cast (by omega : 2 ^ 64 - 999999999 ≤ 2 ^ 64 - d))
  have hhi : (ofNat (2 ^ 64 - d)).val ≤ 2 ^ 64 := by
    rw [ofNat_val, ← rep_pow 64 le_rfl]
    exact rnd_mono _ (by exact_mod_cast (by omega : 2 ^ 64 - d ≤ 2 ^ 64))
  have hsb : s ≤ 2 ^ 53 := by omega
  have hsr : (1 : ℚ) ≤ s ∧ (s : ℚ) ≤ 2 ^ 53 := ⟨by exact_mod_cast hs1, by exact_mod_cast hsb⟩
  have hpb : |(lit 1000000000 : F64).val * (ofNat s).val| ≤ 2 ^ 100 := by
    rw [lit_e9.2, ofNat_exact hsb, abs_of_nonneg (by positivity)]
    nlinarith
  have hp := mul_spec lit_e9.1 (ofNat_fin (n := s) (by omega)) (hpb.trans (le_trans (by norm_num) big64_ge))
  rw [← mul_def] at hp
  have hplo : (1000000000 : ℚ) ≤ (lit 1000000000 * ofNat s : F64).val := by
    have he9 : rnd b64 (1000000000 : ℚ) = 1000000000 := by decide +kernel
    rw [hp.2, lit_e9.2, ofNat_exact hsb]
    exact he9.ge.trans (rnd_mono _ (by linarith))
  have hphi : (lit 1000000000 * ofNat s : F64).val ≤ 2 ^ 101 := by
    rw [hp.2]
    have h100 : rnd b64 ((2 : ℚ) ^ 100) = 2 ^ 100 := by decide +kernel
    have := rnd_mono b64 (le_of_abs_le hpb)
    rw [h100] at this
    exact this.trans (by norm_num)
  have hsb2 : |(ofNat (2 ^ 64 - d)).val + (lit 1000000000 * ofNat s : F64).val| ≤ b64.big := by
    rw [abs_of_nonneg (by linarith)]
    refine le_trans ?_ big64_ge
    linarith
  have ha := add_spec (ofNat_fin (n := 2 ^ 64 - d) (by omega)) hp.1 hsb2
  rw [← add_def] at ha
  refine toUInt_none_of_ge ?_
  rw [ha.2, ← rep_pow 64 le_rfl]
  refine rnd_mono _ ?_
  linarith

/-- C52 does not hold: a measurement that starts one nanosecond before a full second and lasts one
nanosecond. -/
theorem C52_violated : ¬ C52_statement := by
  intro h
  have := h ⟨0, 999999999⟩ ⟨1, 0⟩ (by unfold Timespec.Ok; decide) (by unfold Timespec.Ok; decide) (by decide) (by decide)
  rw [C52_elapsed_wraps ⟨0, 999999999⟩ ⟨1, 0⟩ (by unfold Timespec.Ok; decide) (by unfold Timespec.Ok; decide) (by decide) (by decide) (by decide)] at this
  simp at this

/-- Even without wrap-around, long times are rounded to a `double`: `2^53 + 1` nanoseconds are
reported as `2^53`. -/
theorem C52_long_times_rounded : elapsed ⟨0, 0⟩ ⟨9007199, 254740993⟩ = some 9007199254740992 := by decide +kernel

example : (⟨5, 100⟩ : Timespec).Ok ∧ (⟨7, 250⟩ : Timespec).Ok ∧ elapsed ⟨5, 100⟩ ⟨7, 250⟩ = some 2000000150 :=
  ⟨by unfold Timespec.Ok; decide, by unfold Timespec.Ok; decide, by decide +kernel⟩

end Vdt.Diag
