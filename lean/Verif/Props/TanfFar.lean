import Verif.Lemmas.TanfFar
import Verif.Props.SincosfFar

/-!
# C113: the tangent, single precision, beyond 8192
-/

namespace Vdt
open FP details

/-- From 8192 up to `2^17`, whatever is fused and not too close to a zero or a pole: the error is `1 + tan^2`, by which the tangent grows, times
the error of the reduction, which grows with the argument as it does for sine and cosine. -/
theorem C113_tanf (p : Policy) (x : F32) (hx : x.isFinite = true) (h8 : 8192 ≤ |x.val|) (h : |x.val| ≤ 2 ^ 17)
    (t0 : 2 ^ (-12 : ℤ) ≤ |Real.tan x.real|) (t1 : |Real.tan x.real| ≤ 2 ^ 12) :
    ∃ y, fast_tanfC p x = some y ∧
      CloseAbs y (Real.tan x.real) ((9 * 2 ^ (-24 : ℤ) + 1.3 * 2 ^ (-36 : ℤ) * |x.real|) * (1 + Real.tan x.real ^ 2)) := by
  have x0 : (0 : ℝ) ≤ |x.real| := abs_nonneg _
  have x1 : |x.real| ≤ 131072 := by
    have := (Rat.cast_le (K := ℝ)).2 h
    rw [real_abs]; norm_num at this ⊢; exact this
  obtain ⟨y, e, f, b⟩ := tanfC_mid p hx (fun h => by rw [h] at h8; norm_num at h8) (mid p hx h8 (h.trans (by norm_num))) (by norm_num; linarith) t0 t1
  refine ⟨y, e, f, b.trans (mul_le_mul_of_nonneg_right ?_ (by positivity))⟩
  norm_num
  linarith

/-- An argument of the theorem. -/
example : (lit 20000 : F32).isFinite = true ∧ 8192 ≤ |(lit 20000 : F32).val| ∧ |(lit 20000 : F32).val| ≤ 2 ^ 17 ∧
    2 ^ (-12 : ℤ) ≤ |Real.tan (lit 20000 : F32).real| ∧ |Real.tan (lit 20000 : F32).real| ≤ 2 ^ 12 := by
  refine ⟨by decide +kernel, by decide +kernel, by decide +kernel, ?_⟩
  obtain ⟨s, c, e, ⟨-, S⟩, ⟨-, C⟩⟩ := C95_sincosf (fun _ => false) (lit 20000) (by decide +kernel) (by decide +kernel)
  rw [fast_sincosf_plain] at e
  have d : (fast_sincosf (lit 20000)).map (fun a => decide (0.5 ≤ a.1.val ∧ a.1.val ≤ 0.6 ∧ 0.8 ≤ a.2.val ∧ a.2.val ≤ 0.9)) = some true := by
    decide +kernel
  rw [e, Option.map_some, Option.some.injEq, decide_eq_true_eq] at d
  have hv : |(lit 20000 : F32).real| ≤ 20000 := by
    unfold FP.real; rw [show (lit 20000 : F32).val = 20000 by decide +kernel]; norm_num
  generalize (lit 20000 : F32) = x at *
  obtain ⟨d1, d2, d3, d4⟩ := d
  have cast : ∀ a b : ℚ, a ≤ b → (a : ℝ) ≤ b := fun a b h => (Rat.cast_le (K := ℝ)).2 h
  have d1 := cast _ _ d1
  have d2 := cast _ _ d2
  have d3 := cast _ _ d3
  have d4 := cast _ _ d4
  unfold FP.real at *
  push_cast at d1 d2 d3 d4
  rw [abs_le] at S C
  norm_num at S C d1 d2 d3 d4 hv
  have hc : 0 < Real.cos (x.val : ℝ) := by linarith
  have hs : 0 < Real.sin (x.val : ℝ) := by linarith
  rw [Real.tan_eq_sin_div_cos, abs_of_pos (div_pos hs hc), le_div_iff₀ hc, div_le_iff₀ hc]
  norm_num
  exact ⟨by linarith, by linarith⟩

/-- A lower bound of the error of the float tangent from sine and cosine in double precision. -/
theorem tan_witness {x : F32} {B : ℚ} (hx : x.isFinite = true) (h : |x.val| ≤ 2 ^ 27) (hc : Real.cos x.real ≠ 0)
    (d : (fast_tanf x).bind (fun y => (fast_sincos (convert b64 x)).map fun b =>
      decide (B * |b.2.val| + (B + |y.val| + 1) * 2 ^ (-51 : ℤ) < |y.val * b.2.val - b.1.val| ∧ 0 ≤ B)) = some true) :
    ∃ y, fast_tanf x = some y ∧ (B : ℝ) < |y.real - Real.tan x.real| := by
  obtain ⟨wf, wv, wr⟩ := widen hx
  obtain ⟨s', c', e2, ⟨-, S'⟩, ⟨-, C'⟩, -⟩ := C76_sincos (fun _ => false) (convert b64 x) wf (by rw [wv]; exact h)
  rw [fast_sincos_plain] at e2
  rw [wr] at S' C'
  rw [e2] at d
  cases e : fast_tanf x with
  | none => rw [e] at d; cases d
  | some y =>
    rw [e] at d
    simp only [Option.bind_some, Option.map_some, Option.some.injEq, decide_eq_true_eq] at d
    obtain ⟨d, B0⟩ := d
    refine ⟨y, rfl, ?_⟩
    have d' := (Rat.cast_lt (K := ℝ)).2 d
    have B0' : (0 : ℝ) ≤ B := by exact_mod_cast B0
    push_cast at d'
    change _ < |y.real * c'.real - s'.real| at d'
    change (B : ℝ) * |c'.real| + (B + |y.real| + 1) * 2 ^ (-51 : ℤ) < _ at d'
    generalize (2 : ℝ) ^ (-51 : ℤ) = k at *
    have e3 : (y.real - Real.tan x.real) * Real.cos x.real = y.real * Real.cos x.real - Real.sin x.real := by
      rw [Real.tan_eq_sin_div_cos]; field_simp
    have t : |y.real * c'.real - s'.real| ≤ |y.real * Real.cos x.real - Real.sin x.real| + (|y.real| * k + k) := by
      have e4 : y.real * c'.real - s'.real = (y.real * Real.cos x.real - Real.sin x.real) + (y.real * (c'.real - Real.cos x.real) - (s'.real - Real.sin x.real)) := by ring
      rw [e4]
      refine (abs_add_le _ _).trans (add_le_add le_rfl ((abs_sub _ _).trans (add_le_add ?_ S')))
      rw [abs_mul]
      exact mul_le_mul_of_nonneg_left C' (abs_nonneg _)
    rw [← e3, abs_mul] at t
    have cc : |Real.cos x.real| ≤ |c'.real| + k := by
      have := abs_sub_abs_le_abs_sub (Real.cos x.real) c'.real
      rw [abs_sub_comm] at this
      linarith
    have hcp : 0 < |Real.cos x.real| := abs_pos.2 hc
    by_contra hcon
    push Not at hcon
    have h1 := mul_le_mul_of_nonneg_right hcon hcp.le
    have h2 := mul_le_mul_of_nonneg_left cc B0'
    linarith

theorem cos_ne_zero_of {x : F32} (hx : x.isFinite = true) (h : |x.val| ≤ 2 ^ 27)
    (d : (fast_sincos (convert b64 x)).map (fun b => decide (2 ^ (-51 : ℤ) < |b.2.val|)) = some true) : Real.cos x.real ≠ 0 := by
  obtain ⟨wf, wv, wr⟩ := widen hx
  obtain ⟨s', c', e2, -, ⟨-, C'⟩, -⟩ := C76_sincos (fun _ => false) (convert b64 x) wf (by rw [wv]; exact h)
  rw [fast_sincos_plain] at e2
  rw [wr] at C'
  rw [e2] at d
  simp only [Option.map_some, Option.some.injEq, decide_eq_true_eq] at d
  have d' := (Rat.cast_lt (K := ℝ)).2 d
  push_cast at d'
  change _ < |c'.real| at d'
  intro h0
  rw [h0, sub_zero] at C'
  linarith

/-- The bound is not far from the truth: at 103936.171875, where the tangent is -0.287, the error is 0.83 times the bound without `1 + tan^2`; and it
ends at `2^17`: at 240198.328125 the tangent is -128 and the result is above 600000. -/
theorem C113_sharp : (∃ y, fast_tanf (lit 103936.171875) = some y ∧
      0.83 * (9 * 2 ^ (-24 : ℤ) + 1.3 * 2 ^ (-36 : ℤ) * 103936.171875) < |y.real - Real.tan 103936.171875|) ∧
    ∃ y, fast_tanf (lit 240198.328125) = some y ∧ 600000 < y.real ∧ 600000 < |y.real - Real.tan 240198.328125| := by
  have r1 : (lit 103936.171875 : F32).real = 103936.171875 := by
    unfold FP.real; rw [show (lit 103936.171875 : F32).val = 103936.171875 by decide +kernel]; norm_num
  have r2 : (lit 240198.328125 : F32).real = 240198.328125 := by
    unfold FP.real; rw [show (lit 240198.328125 : F32).val = 240198.328125 by decide +kernel]; norm_num
  have w1 := tan_witness (x := lit 103936.171875) (B := 0.83 * (9 * 2 ^ (-24 : ℤ) + 1.3 * 2 ^ (-36 : ℤ) * 103936.171875)) (by decide +kernel)
    (by decide +kernel) (cos_ne_zero_of (by decide +kernel) (by decide +kernel) (by decide +kernel)) (by decide +kernel)
  obtain ⟨y, e, w2⟩ := tan_witness (x := lit 240198.328125) (B := 600000) (by decide +kernel)
    (by decide +kernel) (cos_ne_zero_of (by decide +kernel) (by decide +kernel) (by decide +kernel)) (by decide +kernel)
  rw [r1] at w1
  rw [r2] at w2
  push_cast at w1 w2
  refine ⟨w1, y, e, ?_, w2⟩
  have hb : (fast_tanf (lit 240198.328125)).map (fun y => decide ((600000 : ℚ) < y.val)) = some true := by decide +kernel
  rw [e] at hb
  simp only [Option.map_some, Option.some.injEq, decide_eq_true_eq] at hb
  unfold FP.real
  exact_mod_cast hb

end Vdt
