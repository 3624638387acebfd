import Verif.Model.Fatlib
import Verif.Props.Rounding
import Verif.Lemmas.Atan2

/-!
# C92: the multiply-add functions of the multi-target library
-/

namespace Vdt.Fatlib
open FP

/-- Fused or not: the error of `x*y+z`. -/
theorem mad_err {f : Fmt} [f.Ok] (hu : f.u ≤ 1 / 4) (b : Bool) {x y z : FP f} (hx : x.isFinite = true) (hy : y.isFinite = true) (hz : z.isFinite = true)
    (h : 2 * |x.val * y.val| + |z.val| + f.eta ≤ f.big) :
    (mad b x y z).isFinite = true ∧
    |(mad b x y z).val - (x.val * y.val + z.val)| ≤ f.u * |x.val * y.val + z.val| + 2 * f.u * |x.val * y.val| + 3 * f.eta := by
  have e0 := f.eta_pos
  have u0 := f.u_pos
  have a0 := abs_nonneg (x.val * y.val)
  have a1 := abs_nonneg z.val
  have hb : |x.val * y.val| ≤ f.big := by linarith
  obtain ⟨w, hw, k⟩ := mad_split b hx hy hz hb
  have we : |w - x.val * y.val| ≤ f.u * |x.val * y.val| + f.eta := by
    rcases hw with rfl | rfl
    · rw [sub_self, abs_zero]; positivity
    · exact rnd_err_add f hb
  have wb : |w| ≤ |w - x.val * y.val| + |x.val * y.val| := by
    have := abs_add_le (w - x.val * y.val) (x.val * y.val); rwa [sub_add_cancel] at this
  have wz : |w + z.val| ≤ |w| + |z.val| := abs_add_le _ _
  have m1 : f.u * |x.val * y.val| ≤ 1 / 4 * |x.val * y.val| := mul_le_mul_of_nonneg_right hu a0
  have hs : |w + z.val| ≤ f.big := by linarith
  obtain ⟨fin, v⟩ := k hs
  refine ⟨fin, ?_⟩
  rw [v]
  have r := rnd_err_add f hs
  have t1 : |w + z.val| ≤ |x.val * y.val + z.val| + |w - x.val * y.val| := by
    have := abs_add_le (x.val * y.val + z.val) (w - x.val * y.val)
    rwa [show x.val * y.val + z.val + (w - x.val * y.val) = w + z.val by ring] at this
  have t2 : |rnd f (w + z.val) - (x.val * y.val + z.val)| ≤ |rnd f (w + z.val) - (w + z.val)| + |w - x.val * y.val| := by
    have := abs_add_le (rnd f (w + z.val) - (w + z.val)) (w - x.val * y.val)
    rwa [show rnd f (w + z.val) - (w + z.val) + (w - x.val * y.val) = rnd f (w + z.val) - (x.val * y.val + z.val) by ring] at this
  have m2 : f.u * |w + z.val| ≤ f.u * (|x.val * y.val + z.val| + (f.u * |x.val * y.val| + f.eta)) := mul_le_mul_of_nonneg_left (by linarith) u0.le
  have m3 : f.u * (f.u * |x.val * y.val| + f.eta) ≤ 1 / 4 * (f.u * |x.val * y.val| + f.eta) := mul_le_mul_of_nonneg_right hu (by positivity)
  have m4 : 0 ≤ f.u * |x.val * y.val| := by positivity
  nlinarith

/-- `myfmaF` on every target: the error is that of two roundings at most. -/
theorem C92_fmaF (fuse : Target → Bool) (t : Target) {x y z : F32} (hx : x.isFinite = true) (hy : y.isFinite = true) (hz : z.isFinite = true)
    (h1 : |x.val * y.val| ≤ 10 ^ 37) (h2 : |z.val| ≤ 10 ^ 37) :
    (myfmaF fuse t x y z).isFinite = true ∧
    |(myfmaF fuse t x y z).val - (x.val * y.val + z.val)| ≤ 2⁻¹ ^ 24 * |x.val * y.val + z.val| + 2⁻¹ ^ 23 * |x.val * y.val| + 3 * 2⁻¹ ^ 150 := by
  have hb : (3 : ℚ) * 10 ^ 37 + Fmt.eta b32 ≤ Fmt.big b32 := by decide +kernel
  obtain ⟨k1, k2⟩ := mad_err (f := b32) (by decide +kernel) (t.hasFma && fuse t) hx hy hz (by linarith)
  refine ⟨k1, k2.trans (le_of_eq ?_)⟩
  rw [show Fmt.u b32 = 2⁻¹ ^ 24 by decide +kernel, show Fmt.eta b32 = 2⁻¹ ^ 150 by decide +kernel]
  ring

/-- If the product is itself a number of the format, every target gives the correctly rounded result. -/
theorem C92_fmaF_exact (fuse : Target → Bool) (t : Target) {x y z w : F32} (hx : x.isFinite = true) (hy : y.isFinite = true) (hz : z.isFinite = true)
    (hw : w.isFinite = true) (hp : w.val = x.val * y.val) (h1 : |x.val * y.val| < (2 ^ 25 - 1) * 2 ^ 103) (h2 : |x.val * y.val + z.val| < (2 ^ 25 - 1) * 2 ^ 103) :
    (myfmaF fuse t x y z).Nearest (x.real * y.real + z.real) := by
  show (mad _ x y z).Nearest _
  cases (t.hasFma && fuse t)
  · rw [mad_false]
    have m := mul_round hx hy (by rw [ovf_b32]; exact h1)
    have e : (x * y).val = x.val * y.val := by rw [mul_def, mul_fin hx hy, val_ofRat, ← hp, rnd_fin hw]
    have r := add_round (f := b32) m.1 hz (by rw [e, ovf_b32]; exact h2)
    have er : (x * y).real = x.real * y.real := by unfold FP.real; rw [e]; push_cast; rfl
    rwa [er] at r
  · exact fma_round hx hy hz (by rw [ovf_b32]; exact h2)

/-- Without the instruction the targets agree bit for bit. -/
theorem C92_without (fuse fuse' : Target → Bool) (t t' : Target) (h : t.hasFma = false) (h' : t'.hasFma = false) (x y z : F32) (x' y' z' : F64) :
    myfmaF fuse t x y z = myfmaF fuse' t' x y z ∧ myfmaD fuse t x' y' z' = myfmaD fuse' t' x' y' z' := by
  unfold myfmaF myfmaD myfmaCPP
  rw [h, h']; exact ⟨rfl, rfl⟩

/-- The text of every target, as the macro of src/fatlib.h:15-25 makes it, and the targets on which `x*y+z` can be one instruction. -/
theorem C92_targets : ([.default, .sse3, .corei7, .bdver1, .avx2fma, .avx, .avx512f] : List Target).map (fun t => (String.ofList (vdt_arch t), t.hasFma)) =
    [("target is \"default\"", false), ("target is \"sse3\"", false), ("target is \"arch=corei7\"", false), ("target is \"arch=bdver1\"", true),
      ("target is \"avx2\",\"fma\"", true), ("target is \"avx\"", false), ("target is \"avx512f\"", true)] := by decide +kernel

/-- `vdt_arch` names the target whose code runs. -/
theorem C92_arch (t t' : Target) : vdt_arch t = vdt_arch t' ↔ t = t' := by
  refine ⟨fun h => ?_, fun h => by rw [h]⟩
  revert h
  unfold vdt_arch
  cases t <;> cases t' <;> decide

/-- What `myfmaD` achieves: single precision.  Missing: the precision of its arguments, see below. -/
theorem C92_fmaD_partial (fuse : Target → Bool) (t : Target) {x y z : F64} (hx : x.isFinite = true) (hy : y.isFinite = true) (hz : z.isFinite = true)
    (h1 : |x.val * y.val| ≤ 10 ^ 37) (h2 : |z.val| ≤ 10 ^ 37) :
    (myfmaD fuse t x y z).isFinite = true ∧
    |(myfmaD fuse t x y z).val - (x.val * y.val + z.val)| ≤ 2⁻¹ ^ 23 * |x.val * y.val + z.val| + 2⁻¹ ^ 51 * |x.val * y.val| + 2⁻¹ ^ 149 := by
  have hb : (3 : ℚ) * 10 ^ 37 + Fmt.eta b64 ≤ Fmt.big b64 := by decide +kernel
  obtain ⟨k1, k2⟩ := mad_err (f := b64) (by decide +kernel) (t.hasFma && fuse t) hx hy hz (by linarith)
  rw [show Fmt.u b64 = 2⁻¹ ^ 53 by decide +kernel] at k2
  have heta : Fmt.eta b64 ≤ 2⁻¹ ^ 155 := by decide +kernel
  have hs : |x.val * y.val + z.val| ≤ |x.val * y.val| + |z.val| := abs_add_le _ _
  unfold myfmaD myfmaCPP theFMA
  generalize mad (t.hasFma && fuse t) x y z = m at *
  have e : convert b32 m = ofRat b32 m.sign m.val := by unfold convert; simp [finite_not_nan k1, finite_not_inf k1]
  rw [e, val_ofRat]
  generalize x.val * y.val = p at *
  generalize hq : p + z.val = q at *
  have a0 := abs_nonneg p
  have a1 := abs_nonneg q
  have tm : |m.val| ≤ |m.val - q| + |q| := by
    have := abs_add_le (m.val - q) q; rwa [sub_add_cancel] at this
  have n1 : (2⁻¹ : ℚ) ^ 53 * |q| ≤ 2⁻¹ ^ 53 * (2 * 10 ^ 37) := mul_le_mul_of_nonneg_left (by linarith) (by positivity)
  have n2 : 2 * (2⁻¹ : ℚ) ^ 53 * |p| ≤ 2 * 2⁻¹ ^ 53 * 10 ^ 37 := mul_le_mul_of_nonneg_left (by linarith) (by positivity)
  have big : (2 : ℚ) * 10 ^ 37 + (2⁻¹ ^ 53 * (2 * 10 ^ 37) + 2 * 2⁻¹ ^ 53 * 10 ^ 37 + 3 * 2⁻¹ ^ 155) ≤ Fmt.big b32 := by decide +kernel
  have mb : |m.val| ≤ b32.big := by linarith
  refine ⟨finite_ofRat _ mb, ?_⟩
  have r := rnd_err_add b32 mb
  rw [show Fmt.u b32 = 2⁻¹ ^ 24 by decide +kernel, show Fmt.eta b32 = 2⁻¹ ^ 150 by decide +kernel] at r
  have tt : |rnd b32 m.val - q| ≤ |rnd b32 m.val - m.val| + |m.val - q| := by
    have := abs_add_le (rnd b32 m.val - m.val) (m.val - q); rwa [sub_add_sub_cancel] at this
  have s1 : (2⁻¹ : ℚ) ^ 24 * |m.val| ≤ 2⁻¹ ^ 24 * (|m.val - q| + |q|) := mul_le_mul_of_nonneg_left tm (by positivity)
  norm_num at s1 r k2 heta ⊢
  linarith

/-- The full statement for `myfmaD`: the accuracy of `C92_fmaF`, in double precision. -/
def C92_statement (fuse : Target → Bool) (t : Target) : Prop := ∀ x y z : F64, x.isFinite = true → y.isFinite = true → z.isFinite = true →
  |x.val * y.val| ≤ 10 ^ 37 → |z.val| ≤ 10 ^ 37 →
  |(myfmaD fuse t x y z).val - (x.val * y.val + z.val)| ≤ 2⁻¹ ^ 53 * |x.val * y.val + z.val| + 2⁻¹ ^ 52 * |x.val * y.val| + 3 * 2⁻¹ ^ 1075

/-- On no target does it hold: `1*1 + 2^-30` is returned as 1. -/
theorem C92_violated (fuse : Target → Bool) (t : Target) : ¬ C92_statement fuse t := by
  intro h
  have k := h (lit 1) (lit 1) (lit (1 / 2 ^ 30)) (by decide +kernel) (by decide +kernel) (by decide +kernel) (by decide +kernel) (by decide +kernel)
  have e : (myfmaD fuse t (lit 1) (lit 1) (lit (1 / 2 ^ 30))).val = 1 := by
    unfold myfmaD myfmaCPP theFMA
    cases (t.hasFma && fuse t) <;> decide +kernel
  rw [e] at k
  revert k
  decide +kernel

/-- 3 * 5 + 1/2 meets the hypotheses, the product included. -/
example : (lit 3 : F32).isFinite = true ∧ (lit 5 : F32).isFinite = true ∧ (lit 0.5 : F32).isFinite = true ∧ (lit 15 : F32).isFinite = true ∧
    (lit 15 : F32).val = (lit 3 : F32).val * (lit 5 : F32).val ∧ |(lit 3 : F32).val * (lit 5 : F32).val| ≤ 10 ^ 37 ∧ |(lit 0.5 : F32).val| ≤ 10 ^ 37 ∧
    |(lit 3 : F32).val * (lit 5 : F32).val| < (2 ^ 25 - 1) * 2 ^ 103 ∧
    |(lit 3 : F32).val * (lit 5 : F32).val + (lit 0.5 : F32).val| < (2 ^ 25 - 1) * 2 ^ 103 := by decide +kernel

end Vdt.Fatlib
