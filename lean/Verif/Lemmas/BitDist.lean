import Verif.Props.Diffbit
import Verif.Spec
import Verif.Lemmas.AsinAcc

/-!
# From relative errors to distances of bit patterns
-/

namespace Vdt
open FP Diag

/-- Neighbouring magnitudes are not closer than the last place. -/
theorem magVal_step (f : Fmt) (c : ℕ) : magVal f c ≤ 2 ^ (f.mb + 1) * (magVal f (c + 1) - magVal f c) := by
  obtain ⟨e, k, he, hk, hn, rfl⟩ := code_cases f c
  rw [magVal_code f he hk.le hn]
  have := magVal_code f (e := e) (k := k + 1) he (by omega) (by rcases hn with h | h; exact Or.inl (by omega); exact Or.inr h)
  rw [Nat.add_assoc, this]
  have hp := p2_pos (e - f.mb)
  have hk' : (k : ℚ) ≤ 2 ^ (f.mb + 1) := by exact_mod_cast hk.le
  push_cast
  have := mul_le_mul_of_nonneg_right hk' hp.le
  linarith

theorem magVal_gap (f : Fmt) (a n : ℕ) : magVal f a * n ≤ 2 ^ (f.mb + 1) * (magVal f (a + n) - magVal f a) := by
  induction n with
  | zero => simp
  | succ n ih =>
    have h1 := magVal_step f (a + n)
    have h2 : magVal f a ≤ magVal f (a + n) := magVal_le.2 (Nat.le_add_right a n)
    rw [← Nat.add_assoc]
    push_cast
    linarith

/-- The sign of a number that is relatively close to a nonzero real. -/
theorem close_sign {f : Fmt} {x : FP f} {r α : ℝ} (hx : x.CloseRel r α) (hr : r ≠ 0) (hα : α < 1) :
    x.sign = decide (r < 0) ∧ (1 - α) * |r| ≤ |x.real| := by
  have h := hx.2
  have h0 := abs_pos.2 hr
  have h1 : α * |r| < |r| := by nlinarith
  refine ⟨?_, ?_⟩
  · rcases lt_or_gt_of_ne hr with h2 | h2
    · rw [abs_of_neg h2] at h h1
      have h3 : x.real < 0 := by have := (abs_le.1 h).2; linarith
      have h4 : x.val < 0 := by unfold FP.real at h3; exact_mod_cast h3
      simp only [h2, decide_true]
      cases hs : x.sign
      · exact absurd (val_nonneg_of_sign hs) (not_le.2 h4)
      · rfl
    · rw [abs_of_pos h2] at h h1
      have h3 : 0 < x.real := by have := (abs_le.1 h).1; linarith
      have h4 : 0 < x.val := by unfold FP.real at h3; exact_mod_cast h3
      simp only [not_lt.2 h2.le, decide_false]
      exact (val_pos_iff.1 h4).1
  · have h2 : |r| - |x.real| ≤ |x.real - r| := by rw [abs_sub_comm]; exact abs_sub_abs_le_abs_sub r x.real
    linarith

theorem real_abs_mag {f : Fmt} (x : FP f) : |x.real| = (magVal f x.mag : ℝ) := by
  unfold FP.real; rw [← abs_val]; push_cast; rfl

/-- Two numbers that are relatively close to the same nonzero real have neighbouring bit patterns. -/
theorem patDist_close {f : Fmt} {a b : FP f} {r α β γ : ℝ} (ha : a.CloseRel r α) (hb : b.CloseRel r β) (hr : r ≠ 0)
    (hα : α ≤ γ) (hβ : β ≤ γ) (hγ : γ < 1) : (patDist a b : ℝ) * (1 - γ) ≤ 2 ^ (f.mb + 1) * (α + β) := by
  have h0 := abs_pos.2 hr
  obtain ⟨s1, l1⟩ := close_sign ha hr (by linarith)
  obtain ⟨s2, l2⟩ := close_sign hb hr (by linarith)
  have l1' : (1 - γ) * |r| ≤ |a.real| := le_trans (by nlinarith) l1
  have l2' : (1 - γ) * |r| ≤ |b.real| := le_trans (by nlinarith) l2
  have d : |(|a.real| - |b.real|)| ≤ (α + β) * |r| := by
    have h1 := abs_abs_sub_abs_le_abs_sub a.real b.real
    have h2 := abs_sub_le a.real r b.real
    have h3 := hb.2
    rw [abs_sub_comm] at h3
    linarith [ha.2]
  have hp : patDist a b = ((a.mag : ℤ) - b.mag).natAbs := by
    unfold patDist
    rw [toBits_toNat, toBits_toNat, s1, s2]
    push_cast
    congr 1
    ring
  rw [real_abs_mag, real_abs_mag] at d
  rw [real_abs_mag] at l1' l2'
  have key : ∀ m n : ℕ, (1 - γ) * |r| ≤ (magVal f m : ℝ) → (magVal f (m + n) : ℝ) - magVal f m ≤ (α + β) * |r| →
      (n : ℝ) * (1 - γ) ≤ 2 ^ (f.mb + 1) * (α + β) := by
    intro m n h1 h2
    have h3 : (magVal f m : ℝ) * n ≤ 2 ^ (f.mb + 1) * ((magVal f (m + n) : ℝ) - magVal f m) := by exact_mod_cast magVal_gap f m n
    have h4 := mul_le_mul_of_nonneg_right h1 (Nat.cast_nonneg (α := ℝ) n)
    have h5 := mul_le_mul_of_nonneg_left h2 (show (0 : ℝ) ≤ 2 ^ (f.mb + 1) by positivity)
    have h6 : (n : ℝ) * (1 - γ) * |r| ≤ 2 ^ (f.mb + 1) * (α + β) * |r| := by linarith
    exact le_of_mul_le_mul_right h6 h0
  rw [hp]
  rcases le_total a.mag b.mag with h | h
  · obtain ⟨n, hn⟩ := Nat.exists_eq_add_of_le h
    have e : ((a.mag : ℤ) - b.mag).natAbs = n := by omega
    rw [e]
    refine key a.mag n l1' ?_
    rw [← hn]
    have := (abs_le.1 d).1; linarith
  · obtain ⟨n, hn⟩ := Nat.exists_eq_add_of_le h
    have e : ((a.mag : ℤ) - b.mag).natAbs = n := by omega
    rw [e]
    refine key b.mag n l2' ?_
    rw [← hn]
    exact (abs_le.1 d).2

/-- The bound as an integer. -/
theorem patDist_le {f : Fmt} {a b : FP f} {r α β γ : ℝ} {m : ℕ} (ha : a.CloseRel r α) (hb : b.CloseRel r β) (hr : r ≠ 0)
    (hα : α ≤ γ) (hβ : β ≤ γ) (hγ : γ < 1) (hm : 2 ^ (f.mb + 1) * (α + β) < (m + 1) * (1 - γ)) : patDist a b ≤ m := by
  have h := (patDist_close ha hb hr hα hβ hγ).trans_lt hm
  have h1 : (patDist a b : ℝ) < m + 1 := lt_of_mul_lt_mul_right h (by linarith)
  have h2 : patDist a b < m + 1 := by exact_mod_cast h1
  omega

theorem patDist_self {f : Fmt} (a : FP f) : patDist a a = 0 := by unfold patDist; simp

theorem patDist_comm {f : Fmt} (a b : FP f) : patDist a b = patDist b a := by unfold patDist; omega

end Vdt
