import Verif.Lemmas.ReducefMid
import Verif.Props.Precisions

/-!
# C95: sine and cosine, single precision, beyond 8192
-/

namespace Vdt
open FP details

/-- Up to `2^17`, whatever is fused: the error grows by 1.263 times `2^-36` for each unit of the argument. -/
theorem C95_sincosf (p : Policy) (x : F32) (hx : x.isFinite = true) (h : |x.val| ≤ 2 ^ 17) :
    ∃ s c, fast_sincosfC p x = some (s, c) ∧
      CloseAbs s (Real.sin x.real) (7 * 2 ^ (-24 : ℤ) + 1.263 * 2 ^ (-36 : ℤ) * |x.real|) ∧
      CloseAbs c (Real.cos x.real) (7 * 2 ^ (-24 : ℤ) + 1.263 * 2 ^ (-36 : ℤ) * |x.real|) := by
  have x0 : (0 : ℝ) ≤ |x.real| := abs_nonneg _
  rcases le_total |x.val| 8192 with h1 | h1
  · obtain ⟨s, c, e, ⟨f1, S⟩, ⟨f2, C⟩, -⟩ := C76_sincosf p x hx h1
    refine ⟨s, c, e, ⟨f1, S.trans ?_⟩, ⟨f2, C.trans ?_⟩⟩ <;> norm_num <;> linarith
  obtain ⟨s, c, e, f1, f2, S, C⟩ := sincosfC_mid p hx (mid p hx h1 (h.trans (by norm_num)))
  refine ⟨s, c, e, ⟨f1, S.trans (le_of_eq ?_)⟩, ⟨f2, C.trans (le_of_eq ?_)⟩⟩ <;> norm_num <;> ring

/-- Beyond, up to `2^20`, whatever is fused: the error may be as large as the last digit of the argument, because the
product with the first part of `π/4` is rounded. -/
theorem C95_sincosf_far (p : Policy) (x : F32) (hx : x.isFinite = true) (h0 : 2 ^ 17 ≤ |x.val|) (h : |x.val| ≤ 2 ^ 20) :
    ∃ s c, fast_sincosfC p x = some (s, c) ∧
      CloseAbs s (Real.sin x.real) (1.01 * 2 ^ (-23 : ℤ) * |x.real|) ∧ CloseAbs c (Real.cos x.real) (1.01 * 2 ^ (-23 : ℤ) * |x.real|) := by
  have cast : ∀ q : ℚ, q ≤ |x.val| → (q : ℝ) ≤ |x.real| := fun q hq => by unfold FP.real; exact_mod_cast hq
  have g1 := cast _ h0
  push_cast at g1
  rcases le_total |x.val| 262144 with h2 | h2
  · obtain ⟨s, c, e, f1, f2, S, C⟩ := far18 p hx h2
    refine ⟨s, c, e, ⟨f1, S.trans ?_⟩, ⟨f2, C.trans ?_⟩⟩ <;> norm_num <;> linarith
  have g2 := cast _ h2
  push_cast at g2
  rcases le_total |x.val| 524288 with h3 | h3
  · obtain ⟨s, c, e, f1, f2, S, C⟩ := far19 p hx h3
    refine ⟨s, c, e, ⟨f1, S.trans ?_⟩, ⟨f2, C.trans ?_⟩⟩ <;> norm_num <;> linarith
  have g3 := cast _ h3
  push_cast at g3
  obtain ⟨s, c, e, f1, f2, S, C⟩ := far20 p hx (h.trans (by norm_num))
  refine ⟨s, c, e, ⟨f1, S.trans ?_⟩, ⟨f2, C.trans ?_⟩⟩ <;> norm_num <;> linarith

/-- A difference between the two precisions is an error of the float function. -/
theorem far_witness {x : F32} {B : ℚ} (hx : x.isFinite = true) (h : |x.val| ≤ 2 ^ 27)
    (d : (fast_sincosf x).bind (fun a => (fast_sincos (convert b64 x)).map fun b =>
      decide (B + 2 ^ (-51 : ℤ) < |a.1.val - b.1.val| ∨ B + 2 ^ (-51 : ℤ) < |a.2.val - b.2.val|)) = some true) :
    ∃ s c, fast_sincosf x = some (s, c) ∧ ((B : ℝ) < |s.real - Real.sin x.real| ∨ (B : ℝ) < |c.real - Real.cos x.real|) := by
  obtain ⟨wf, wv, wr⟩ := widen hx
  obtain ⟨s', c', e2, ⟨-, S'⟩, ⟨-, C'⟩, -⟩ := C76_sincos (fun _ => false) (convert b64 x) wf (by rw [wv]; exact h)
  rw [fast_sincos_plain] at e2
  rw [wr] at S' C'
  rw [e2] at d
  cases e : fast_sincosf x with
  | none => rw [e] at d; cases d
  | some a =>
    rw [e] at d
    simp only [Option.bind_some, Option.map_some, Option.some.injEq, decide_eq_true_eq] at d
    refine ⟨a.1, a.2, rfl, ?_⟩
    have cast : ∀ u v : ℚ, B + 2 ^ (-51 : ℤ) < |u - v| → (B : ℝ) + 2 ^ (-51 : ℤ) < |(u : ℝ) - v| := fun u v k => by
      have := (Rat.cast_lt (K := ℝ)).2 k
      push_cast at this; exact this
    rcases d with d | d
    · left
      have := cast _ _ d
      have t := abs_sub_le a.1.real (Real.sin x.real) s'.real
      rw [abs_sub_comm (Real.sin x.real)] at t
      unfold FP.real at *
      linarith
    · right
      have := cast _ _ d
      have t := abs_sub_le a.2.real (Real.cos x.real) c'.real
      rw [abs_sub_comm (Real.cos x.real)] at t
      unfold FP.real at *
      linarith

/-- The bounds are not far from the truth: at 103911.296875 the error is 0.82 times the bound, at 262257.03125 it is 0.99 times `2^-24` of the
argument. -/
theorem C95_sharp : (∃ s c, fast_sincosf (lit 103911.296875) = some (s, c) ∧
      (0.82 * (7 * 2 ^ (-24 : ℤ) + 1.263 * 2 ^ (-36 : ℤ) * 103911.296875) < |s.real - Real.sin 103911.296875| ∨
        0.82 * (7 * 2 ^ (-24 : ℤ) + 1.263 * 2 ^ (-36 : ℤ) * 103911.296875) < |c.real - Real.cos 103911.296875|)) ∧
    ∃ s c, fast_sincosf (lit 262257.03125) = some (s, c) ∧
      (0.99 * 2 ^ (-24 : ℤ) * 262257.03125 < |s.real - Real.sin 262257.03125| ∨
        0.99 * 2 ^ (-24 : ℤ) * 262257.03125 < |c.real - Real.cos 262257.03125|) := by
  have r1 : (lit 103911.296875 : F32).real = 103911.296875 := by
    unfold FP.real; rw [show (lit 103911.296875 : F32).val = 103911.296875 by decide +kernel]; norm_num
  have r2 : (lit 262257.03125 : F32).real = 262257.03125 := by
    unfold FP.real; rw [show (lit 262257.03125 : F32).val = 262257.03125 by decide +kernel]; norm_num
  have w1 := far_witness (x := lit 103911.296875) (B := 0.82 * (7 * 2 ^ (-24 : ℤ) + 1.263 * 2 ^ (-36 : ℤ) * 103911.296875)) (by decide +kernel)
    (by decide +kernel) (by decide +kernel)
  have w2 := far_witness (x := lit 262257.03125) (B := 0.99 * 2 ^ (-24 : ℤ) * 262257.03125) (by decide +kernel) (by decide +kernel)
    (by decide +kernel)
  rw [r1] at w1
  rw [r2] at w2
  push_cast at w1 w2
  exact ⟨w1, w2⟩

/-- Arguments of both theorems. -/
example : (lit 100000 : F32).isFinite = true ∧ |(lit 100000 : F32).val| ≤ 2 ^ 17 ∧ (fast_sincosf (lit 100000)).isSome = true ∧
    2 ^ 17 ≤ |(lit 1000000 : F32).val| ∧ |(lit 1000000 : F32).val| ≤ 2 ^ 20 ∧ (fast_sincosf (lit 1000000)).isSome = true := by decide +kernel

end Vdt
