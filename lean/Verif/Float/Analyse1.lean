import Verif.Float.Analyse
import Verif.Real.Poly

/-! # The analyser for code with one floating point input -/

namespace Vdt
open FP Ab
variable {f : Fmt}

/-- Variable 0 is the input seen as a number in `[a,b]`, variable 1 is the same input seen as
`z^1 * 1`. -/
def env1 (a b : ℚ) : ℕ → Option Ab
  | 0 => some ⟨0, a, b, 0, 0⟩
  | 1 => some ⟨1, 1, 1, 0, 0⟩
  | _ => none

def an1 (f : Fmt) (e : E f) (a b : ℚ) : Option Ab := an f (max |a| |b|) (env1 a b) e

theorem abs_le_max {a b : ℚ} {x : ℝ} (h1 : (a : ℝ) ≤ x) (h2 : x ≤ b) : |x| ≤ ((max |a| |b| : ℚ) : ℝ) := by
  push_cast
  rcases le_total 0 x with h | h
  · rw [abs_of_nonneg h]; exact h2.trans ((le_abs_self _).trans (le_max_right _ _))
  · rw [abs_of_nonpos h]; exact (neg_le_neg h1).trans ((neg_le_abs _).trans (le_max_left _ _))

theorem an1_sound [f.Ok] [EtaOk f] {e : E f} {a b : ℚ} {r : Ab} (h : an1 f e a b = some r) {x : FP f}
    (hx : x.isFinite = true) (h1 : (a : ℝ) ≤ x.real) (h2 : x.real ≤ b) :
    Ab.Sound f x.real r (e.evalF fun _ => x) (e.evalR fun _ => x.real) := by
  refine an_sound (abs_le_max h1 h2) ?_ e r h
  intro i s hs
  match i, hs with
  | 0, hs =>
    cases hs
    exact ⟨hx, ⟨x.real, by simp, h1, h2⟩, le_rfl, le_rfl, by simp⟩
  | 1, hs =>
    cases hs
    exact ⟨hx, ⟨1, by simp, by simp, by simp⟩, le_rfl, le_rfl, by simp⟩

/-- The absolute error is at most `C` (including underflow). -/
def okAbs (f : Fmt) (e : E f) (C : ℚ) (a b : ℚ) : Bool :=
  match an1 f e a b with
  | some r => decide (r.err * (max |a| |b|) ^ r.k + r.h * etaUp ≤ C)
  | none => false

theorem okAbs_sound [f.Ok] [EtaOk f] {e : E f} {a b C : ℚ} (h : okAbs f e C a b = true) {x : FP f}
    (hx : x.isFinite = true) (h1 : (a : ℝ) ≤ x.real) (h2 : x.real ≤ b) :
    (e.evalF fun _ => x).isFinite = true ∧ |(e.evalF fun _ => x).real - e.evalR fun _ => x.real| ≤ C := by
  unfold okAbs at h
  split at h
  · rename_i r hr
    simp only [decide_eq_true_eq] at h
    have s := an1_sound hr hx h1 h2
    refine ⟨s.fin, s.bound.trans ?_⟩
    have h3 : ((r.err * (max |a| |b|) ^ r.k + r.h * etaUp : ℚ) : ℝ) ≤ C := by exact_mod_cast h
    rw [Rat.cast_add, Rat.cast_mul, Rat.cast_pow, Rat.cast_mul] at h3
    have h4 := pow_le_pow_left₀ (abs_nonneg _) (abs_le_max h1 h2) r.k
    have h5 := mul_le_mul_of_nonneg_left h4 (show (0 : ℝ) ≤ r.err by exact_mod_cast s.err0)
    have := mul_le_mul_of_nonneg_left (eta_le (f := f)) (show (0 : ℝ) ≤ r.h by exact_mod_cast s.h0)
    linarith
  · cases h

/-- The error relative to the (positive) exact value is at most `C`. -/
def okRel (f : Fmt) (e : E f) (C : ℚ) (a b : ℚ) : Bool :=
  match an1 f e a b with
  | some r => r.k == 0 && decide (r.err + r.h * etaUp ≤ C * r.lo)
  | none => false

theorem okRel_sound [f.Ok] [EtaOk f] {e : E f} {a b C : ℚ} (hC : 0 ≤ C) (h : okRel f e C a b = true) {x : FP f}
    (hx : x.isFinite = true) (h1 : (a : ℝ) ≤ x.real) (h2 : x.real ≤ b) :
    (e.evalF fun _ => x).isFinite = true ∧
      |(e.evalF fun _ => x).real - e.evalR fun _ => x.real| ≤ C * e.evalR fun _ => x.real := by
  unfold okRel at h
  split at h
  · rename_i r hr
    simp only [Bool.and_eq_true, beq_iff_eq, decide_eq_true_eq] at h
    have s := an1_sound hr hx h1 h2
    refine ⟨s.fin, s.bound.trans ?_⟩
    rw [h.1, pow_zero, mul_one]
    have h3 : ((r.err + r.h * etaUp : ℚ) : ℝ) ≤ ((C * r.lo : ℚ) : ℝ) := by exact_mod_cast h.2
    push_cast at h3
    have := mul_le_mul_of_nonneg_left (eta_le (f := f)) (show (0 : ℝ) ≤ r.h by exact_mod_cast s.h0)
    obtain ⟨v, hv, hlo, _⟩ := s.ex
    rw [h.1, pow_zero, one_mul] at hv
    rw [hv]
    have h4 : (C : ℝ) * r.lo ≤ C * v := mul_le_mul_of_nonneg_left hlo (by exact_mod_cast hC)
    linarith
  · cases h

/-- The error is at most `C |x| + H eta`. -/
def okLin (f : Fmt) (e : E f) (C H : ℚ) (a b : ℚ) : Bool :=
  match an1 f e a b with
  | some r => r.k == 1 && decide (r.err ≤ C) && decide (r.h ≤ H)
  | none => false

theorem okLin_sound [f.Ok] [EtaOk f] {e : E f} {a b C H : ℚ} (h : okLin f e C H a b = true) {x : FP f}
    (hx : x.isFinite = true) (h1 : (a : ℝ) ≤ x.real) (h2 : x.real ≤ b) :
    (e.evalF fun _ => x).isFinite = true ∧
      |(e.evalF fun _ => x).real - e.evalR fun _ => x.real| ≤ C * |x.real| + H * f.eta := by
  unfold okLin at h
  split at h
  · rename_i r hr
    simp only [Bool.and_eq_true, beq_iff_eq, decide_eq_true_eq] at h
    have s := an1_sound hr hx h1 h2
    refine ⟨s.fin, s.bound.trans ?_⟩
    rw [h.1.1, pow_one]
    have h3 : (r.err : ℝ) ≤ C := by exact_mod_cast h.1.2
    have h4 : (r.h : ℝ) ≤ H := by exact_mod_cast h.2
    exact add_le_add (mul_le_mul_of_nonneg_right h3 (abs_nonneg _)) (mul_le_mul_of_nonneg_right h4 (etaR_pos f).le)
  · cases h

end Vdt
