import Verif.Float.Analyse1

/-! # Relative error bounds for odd functions -/

namespace Vdt
open FP Ab
variable {f : Fmt}

/-- The error relative to the exact value, which is proportional to the input, is at most `C` apart from underflow. -/
def okRel1 (f : Fmt) (e : E f) (C H : ℚ) (a b : ℚ) : Bool :=
  match an1 f e a b with
  | some r => r.k == 1 && decide (0 ≤ r.lo) && decide (r.err ≤ C * r.lo) && decide (r.h ≤ H)
  | none => false

theorem okRel1_sound [f.Ok] [EtaOk f] {e : E f} {a b C H : ℚ} (hC : 0 ≤ C) (h : okRel1 f e C H a b = true) {x : FP f}
    (hx : x.isFinite = true) (h1 : (a : ℝ) ≤ x.real) (h2 : x.real ≤ b) :
    (e.evalF fun _ => x).isFinite = true ∧
      |(e.evalF fun _ => x).real - e.evalR fun _ => x.real| ≤ C * |e.evalR fun _ => x.real| + H * f.eta := by
  unfold okRel1 at h
  split at h
  · rename_i r hr
    simp only [Bool.and_eq_true, beq_iff_eq, decide_eq_true_eq] at h
    obtain ⟨⟨⟨hk, hlo⟩, herr⟩, hh⟩ := h
    have s := an1_sound hr hx h1 h2
    refine ⟨s.fin, s.bound.trans ?_⟩
    obtain ⟨v, hv, hl, _⟩ := s.ex
    rw [hk, pow_one] at hv ⊢
    have h3 : (r.err : ℝ) ≤ C * r.lo := by exact_mod_cast herr
    have h4 : (r.h : ℝ) ≤ H := by exact_mod_cast hh
    have h5 : (0 : ℝ) ≤ r.lo := by exact_mod_cast hlo
    have hC' : (0 : ℝ) ≤ C := by exact_mod_cast hC
    refine add_le_add ?_ (mul_le_mul_of_nonneg_right h4 (etaR_pos f).le)
    rw [hv, abs_mul, abs_of_nonneg (h5.trans hl)]
    calc (r.err : ℝ) * |x.real| ≤ C * r.lo * |x.real| := mul_le_mul_of_nonneg_right h3 (abs_nonneg _)
      _ ≤ C * v * |x.real| := mul_le_mul_of_nonneg_right (mul_le_mul_of_nonneg_left hl hC') (abs_nonneg _)
      _ = C * (|x.real| * v) := by ring
  · cases h

end Vdt
