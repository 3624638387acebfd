import Mathlib.Analysis.Real.Pi.Bounds
import Verif.Lemmas.DirAsin
import Verif.Lemmas.DirAtan
import Verif.Lemmas.DirAtan2
import Verif.Lemmas.DirExact
import Verif.Lemmas.DirLog
import Verif.Lemmas.DirNewton
import Verif.Lemmas.DirTan
import Verif.Lemmas.DirTanh
import Verif.Lemmas.DirTrig
import Verif.Props.Tan

/-!
# C115 and C116: the rounding direction of the processor

C115: whatever direction the processor rounds in (`fesetround`), each function is as near to its real function as some small
multiple of the unit in the last place.  `Mode.Dir` asks of an operation only that its result is one of the two numbers around
the exact result, so the direction may even change from one operation to the next.

C116: in every direction the results stay in the range of the function.  Violated by the cosine (above 1), the arc sine and the arc
tangent (above half of π) and the arc cosine (below 0).
-/

namespace Vdt
open FP details Flush

/-- `fast_exp` in every rounding direction. -/
theorem C115_exp {m : Mode} (hm : m.Dir) {x : F64} (hx : x.isFinite = true) (h : |x.val| ≤ 708) :
    ∃ y, Flush.fast_exp m x = some y ∧ y.isFinite = true ∧ |y.real - Real.exp x.real| ≤ 7 * 2 ^ (-53 : ℤ) * Real.exp x.real := by
  obtain ⟨y, a, b, -, c⟩ := exp_dir hm hx h
  exact ⟨y, a, b, c⟩

/-- `fast_expf` in every rounding direction. -/
theorem C115_expf {m : Mode} (hm : m.Dir) {x : F32} (hx : x.isFinite = true) (h : |x.val| ≤ 86.5) :
    ∃ y, Flush.fast_expf m x = some y ∧ y.isFinite = true ∧ |y.real - Real.exp x.real| ≤ 6 * 2 ^ (-24 : ℤ) * Real.exp x.real := by
  obtain ⟨y, a, b, -, c⟩ := expf_dir hm hx h
  exact ⟨y, a, b, c⟩

/-- `fast_atan` in every rounding direction. -/
theorem C115_atan {m : Mode} (hm : m.Dir) {x : F64} (hx : x.isFinite = true) (h : 2 ^ (-1000 : ℤ) ≤ |x.real|) :
    (Flush.fast_atan m x).isFinite = true ∧
    |(Flush.fast_atan m x).real - Real.arctan x.real| ≤ 6.4 * 2 ^ (-53 : ℤ) * |Real.arctan x.real| := atan_dir hm hx h

/-- `fast_atanf` in every rounding direction. -/
theorem C115_atanf {m : Mode} (hm : m.Dir) {x : F32} (hx : x.isFinite = true) (h : 2 ^ (-110 : ℤ) ≤ |x.real|) :
    (Flush.fast_atanf m x).isFinite = true ∧
    |(Flush.fast_atanf m x).real - Real.arctan x.real| ≤ 10 * 2 ^ (-24 : ℤ) * |Real.arctan x.real| := atanf_dir hm hx h

/-- `fast_log` in every rounding direction. -/
theorem C115_log {m : Mode} (hm : m.Dir) {x : F64} (hn : x.Normal) (hs : x.sign = false) (h : x.val ≤ 10 ^ 307) (h1 : x.val ≠ 1) :
    (Flush.fast_log m x).isFinite = true ∧ |(Flush.fast_log m x).real - Real.log x.real| ≤ 10 * 2 ^ (-53 : ℤ) * |Real.log x.real| :=
  log_dir hm hn hs h h1

/-- `fast_logf` in every rounding direction. -/
theorem C115_logf {m : Mode} (hm : m.Dir) {x : F32} (hn : x.Normal) (hs : x.sign = false) (h1 : x.val ≠ 1) :
    (Flush.fast_logf m x).isFinite = true ∧ |(Flush.fast_logf m x).real - Real.log x.real| ≤ 10 * 2 ^ (-24 : ℤ) * |Real.log x.real| :=
  logf_dir hm hn hs h1

/-- `fast_sincos` in every rounding direction. -/
theorem C115_sincos {m : Mode} (hm : m.Dir) {x : F64} (hx : x.isFinite = true) (h : |x.val| ≤ 2 ^ 27) :
    ∃ s c, Flush.fast_sincos m x = some (s, c) ∧ s.isFinite = true ∧ c.isFinite = true ∧
      |s.real - Real.sin x.real| ≤ 5.7 * 2 ^ (-53 : ℤ) ∧ |c.real - Real.cos x.real| ≤ 5.7 * 2 ^ (-53 : ℤ) :=
  sincos_dir hm hx h

/-- `fast_sincosf` in every rounding direction. -/
theorem C115_sincosf {m : Mode} (hm : m.Dir) {x : F32} (hx : x.isFinite = true) (h : |x.val| ≤ 8192) :
    ∃ s c, Flush.fast_sincosf m x = some (s, c) ∧ s.isFinite = true ∧ c.isFinite = true ∧
      |s.real - Real.sin x.real| ≤ 4.1 * 2 ^ (-24 : ℤ) ∧ |c.real - Real.cos x.real| ≤ 4.1 * 2 ^ (-24 : ℤ) :=
  sincosf_dir hm hx h

/-- `fast_asin` and `fast_acos` in every rounding direction. -/
theorem C115_asin {m : Mode} (hm : m.Dir) {x : F64} (hx : x.isFinite = true) (h : |x.real| ≤ 1) :
    ((Flush.fast_asin m x).isFinite = true ∧ |(Flush.fast_asin m x).real - Real.arcsin x.real| ≤ 6.4 * 2 ^ (-53 : ℤ) * |Real.arcsin x.real|) ∧
    (Flush.fast_acos m x).isFinite = true ∧ |(Flush.fast_acos m x).real - Real.arccos x.real| ≤ 9.8 * 2 ^ (-53 : ℤ) :=
  ⟨⟨(asin_dir hm hx h).1, (asin_dir hm hx h).2.1⟩, acos_dir hm hx h⟩

/-- `fast_asinf` and `fast_acosf` in every rounding direction. -/
theorem C115_asinf {m : Mode} (hm : m.Dir) {x : F32} (hx : x.isFinite = true) (h : |x.real| ≤ 1) :
    ((Flush.fast_asinf m x).isFinite = true ∧ |(Flush.fast_asinf m x).real - Real.arcsin x.real| ≤ 16 * 2 ^ (-24 : ℤ) * |Real.arcsin x.real|) ∧
    (Flush.fast_acosf m x).isFinite = true ∧ |(Flush.fast_acosf m x).real - Real.arccos x.real| ≤ 13.2 * 2 ^ (-24 : ℤ) :=
  ⟨⟨(asinf_dir hm hx h).1, (asinf_dir hm hx h).2.1⟩, acosf_dir hm hx h⟩

/-- `fast_tanh` in every rounding direction. -/
theorem C115_tanh {m : Mode} (hm : m.Dir) {x : F64} (hx : x.isFinite = true) (h0 : 2 ^ (-1000 : ℤ) ≤ |x.real|) :
    (Flush.fast_tanh m x).isFinite = true ∧ |(Flush.fast_tanh m x).real - Real.tanh x.real| ≤ 31 * 2 ^ (-53 : ℤ) * |Real.tanh x.real| :=
  ⟨(tanh_dir hm hx h0).1, (tanh_dir hm hx h0).2.2⟩

/-- `fast_tanhf` in every rounding direction. -/
theorem C115_tanhf {m : Mode} (hm : m.Dir) {x : F32} (hx : x.isFinite = true) (h0 : 2 ^ (-110 : ℤ) ≤ |x.real|) :
    (Flush.fast_tanhf m x).isFinite = true ∧ |(Flush.fast_tanhf m x).real - Real.tanh x.real| ≤ 26.3 * 2 ^ (-24 : ℤ) * |Real.tanh x.real| :=
  ⟨(tanhf_dir hm hx h0).1, (tanhf_dir hm hx h0).2.2⟩

example : |(Flush.fast_tanh downward (lit (-1.5))).real - Real.tanh (lit (-1.5) : F64).real| ≤ 31 * 2 ^ (-53 : ℤ) * |Real.tanh (lit (-1.5) : F64).real| := by
  refine (C115_tanh downward_dir (by decide +kernel) ?_).2
  have h : p2 (-1000) ≤ |(lit (-1.5) : F64).val| := by decide +kernel
  have := (Rat.cast_le (K := ℝ)).2 h
  rw [p2_real] at this
  unfold FP.real
  exact_mod_cast this

example : |(Flush.fast_tanhf upward (lit 0.25)).real - Real.tanh (lit 0.25 : F32).real| ≤ 26.3 * 2 ^ (-24 : ℤ) * |Real.tanh (lit 0.25 : F32).real| := by
  refine (C115_tanhf upward_dir (by decide +kernel) ?_).2
  have h : p2 (-110) ≤ |(lit 0.25 : F32).val| := by decide +kernel
  have := (Rat.cast_le (K := ℝ)).2 h
  rw [p2_real] at this
  unfold FP.real
  exact_mod_cast this

/-- `fast_isqrt` and `fast_approx_isqrt` (four and three Newton steps) in every rounding direction. -/
theorem C115_isqrt {m : Mode} (hm : m.Dir) {x : F64} (hx : x.Normal) (hpos : 0 < x.val) :
    (Flush.fast_isqrt_general m x 4).v.CloseRel (1 / Real.sqrt x.real) (11 * 2 ^ (-53 : ℤ)) ∧
    (Flush.fast_isqrt_general m x 3).v.CloseRel (1 / Real.sqrt x.real) (2 ^ (-34 : ℤ)) := isqrt_dir hm hx hpos

/-- `fast_isqrtf` and `fast_approx_isqrtf` (two and one Newton steps) in every rounding direction. -/
theorem C115_isqrtf {m : Mode} (hm : m.Dir) {x : F32} (hx : x.Normal) (hpos : 0 < x.val) :
    (Flush.fast_isqrtf_general m x 2).v.CloseRel (1 / Real.sqrt x.real) (2 ^ (-17 : ℤ)) ∧
    (Flush.fast_isqrtf_general m x 1).v.CloseRel (1 / Real.sqrt x.real) (2 ^ (-9 : ℤ)) := isqrtf_dir hm hx hpos

/-- `fast_inv` and `fast_approx_inv` in every rounding direction. -/
theorem C115_inv {m : Mode} (hm : m.Dir) {x : F64} (hx : x.Normal) (hr : (2 : ℚ) ^ b64.emin ≤ |x.val|⁻¹) :
    (Flush.fast_inv_general m x 4).v.CloseRel (1 / x.real) (25 * 2 ^ (-53 : ℤ)) ∧
    (Flush.fast_inv_general m x 3).v.CloseRel (1 / x.real) (2 ^ (-33 : ℤ)) := inv_dir hm hx hr

/-- `fast_invf` and `fast_approx_invf` in every rounding direction. -/
theorem C115_invf {m : Mode} (hm : m.Dir) {x : F32} (hx : x.Normal) (hr : (2 : ℚ) ^ b32.emin ≤ |x.val|⁻¹) :
    (Flush.fast_invf_general m x 2).v.CloseRel (1 / x.real) (2 ^ (-16 : ℤ)) ∧
    (Flush.fast_invf_general m x 1).v.CloseRel (1 / x.real) (2 ^ (-8 : ℤ)) := invf_dir hm hx hr

example : (Flush.fast_isqrt_general upward (lit 3) 4).v.CloseRel (1 / Real.sqrt (lit 3 : F64).real) (11 * 2 ^ (-53 : ℤ)) :=
  (C115_isqrt upward_dir (by unfold FP.Normal; decide +kernel) (by decide +kernel)).1

example : (Flush.fast_isqrtf_general downward (lit 3) 2).v.CloseRel (1 / Real.sqrt (lit 3 : F32).real) (2 ^ (-17 : ℤ)) :=
  (C115_isqrtf downward_dir (by unfold FP.Normal; decide +kernel) (by decide +kernel)).1

example : (Flush.fast_inv_general towardZero (lit (-7)) 4).v.CloseRel (1 / (lit (-7) : F64).real) (25 * 2 ^ (-53 : ℤ)) :=
  (C115_inv towardZero_dir (by unfold FP.Normal; decide +kernel) (by decide +kernel)).1

example : (Flush.fast_invf_general upward (lit (-7)) 1).v.CloseRel (1 / (lit (-7) : F32).real) (2 ^ (-8 : ℤ)) :=
  (C115_invf upward_dir (by unfold FP.Normal; decide +kernel) (by decide +kernel)).2

/-- `fast_tan` in every rounding direction, for `2^-100 ≤ |x| ≤ 2^27`: 39 units of `2^-53` of the value, 13.3 for values between `2^-20`
and `2^20`, plus the error of the argument reduction. -/
theorem C115_tan {m : Mode} (hm : m.Dir) {x : F64} (hx : x.isFinite = true) (h0 : 1 / 2 ^ 100 ≤ |x.val|) (h : |x.val| ≤ 2 ^ 27) :
    ∃ y, Flush.fast_tan m x = some y ∧ y.isFinite = true ∧
      |y.real - Real.tan x.real| ≤ 39 * 2 ^ (-53 : ℤ) * |Real.tan x.real| + 2 ^ (-77 : ℤ) * (1 + Real.tan x.real ^ 2) ∧
      |y.real - Real.tan x.real| ≤ 2 ^ (-21 : ℤ) * |Real.tan x.real| ∧
      (2 ^ (-20 : ℤ) ≤ |Real.tan x.real| → |Real.tan x.real| ≤ 2 ^ 20 →
        |y.real - Real.tan x.real| ≤ 13.3 * 2 ^ (-53 : ℤ) * |Real.tan x.real| + 2 ^ (-77 : ℤ) * (1 + Real.tan x.real ^ 2)) := by
  obtain ⟨y, w, e, hy, w0, w1, ⟨n, hn, hw⟩, b, b2⟩ := tan_accD hm hx h0 h
  have hX : |x.real| ≤ 2 ^ 27 := by
    rw [real_abs]
    have : ((|x.val| : ℚ) : ℝ) ≤ ((2 ^ 27 : ℚ) : ℝ) := by exact_mod_cast h
    push_cast at this ⊢; exact this
  have r := tan_residue (X := 2 ^ 27 + 0.001) (B := 2 ^ (-77 : ℤ)) (hn.trans (by norm_num at hX ⊢; linarith)) (by positivity) (by positivity) hw
    (by norm_num)
  rw [add_mul, mul_assoc 2.04] at b
  refine ⟨y, e, hy, b.trans (add_le_add le_rfl r), ?_, fun g1 g2 => ?_⟩
  · rw [← mul_assoc, ← add_mul] at b
    refine b.trans (mul_le_mul_of_nonneg_right ?_ (abs_nonneg _))
    norm_num at w1 ⊢
    linarith
  · have c := b2 g1 g2
    rw [add_mul, mul_assoc 2.04] at c
    exact c.trans (add_le_add le_rfl r)

/-- `fast_tanf` in every rounding direction, for `2^-100 ≤ |x| ≤ 8192`. -/
theorem C115_tanf {m : Mode} (hm : m.Dir) {x : F32} (hx : x.isFinite = true) (h0 : 1 / 2 ^ 100 ≤ |x.val|) (h : |x.val| ≤ 8192) :
    ∃ y, Flush.fast_tanf m x = some y ∧ y.isFinite = true ∧
      |y.real - Real.tan x.real| ≤ 11.8 * 2 ^ (-24 : ℤ) * |Real.tan x.real| + 2 ^ (-32 : ℤ) * (1 + Real.tan x.real ^ 2) ∧
      |y.real - Real.tan x.real| ≤ 2 ^ (-8 : ℤ) * |Real.tan x.real| := by
  obtain ⟨y, w, e, hy, w0, w1, ⟨n, hn, hw⟩, b⟩ := tanf_accD hm hx h0 h
  have hX : |x.real| ≤ 8192 := by
    rw [real_abs]
    have : ((|x.val| : ℚ) : ℝ) ≤ ((8192 : ℚ) : ℝ) := by exact_mod_cast h
    push_cast at this ⊢; exact this
  have r := tan_residue (X := 8192 + 0.001) (B := 2 ^ (-32 : ℤ)) (hn.trans (by norm_num at hX ⊢; linarith)) (by positivity) (by positivity) hw
    (by norm_num)
  rw [add_mul, mul_assoc 2.04] at b
  refine ⟨y, e, hy, b.trans (add_le_add le_rfl r), ?_⟩
  rw [← mul_assoc, ← add_mul] at b
  refine b.trans (mul_le_mul_of_nonneg_right ?_ (abs_nonneg _))
  norm_num at w1 ⊢
  linarith

example : ∃ y, Flush.fast_tan upward (lit 100000) = some y ∧ y.isFinite = true ∧
    |y.real - Real.tan (lit 100000 : F64).real| ≤ 2 ^ (-21 : ℤ) * |Real.tan (lit 100000 : F64).real| := by
  obtain ⟨y, a, b, -, c, -⟩ := C115_tan upward_dir (x := lit 100000) (by decide +kernel) (by decide +kernel) (by decide +kernel)
  exact ⟨y, a, b, c⟩

example : ∃ y, Flush.fast_tanf downward (lit (-1000)) = some y ∧ y.isFinite = true ∧
    |y.real - Real.tan (lit (-1000) : F32).real| ≤ 2 ^ (-8 : ℤ) * |Real.tan (lit (-1000) : F32).real| := by
  obtain ⟨y, a, b, -, c⟩ := C115_tanf downward_dir (x := lit (-1000)) (by decide +kernel) (by decide +kernel) (by decide +kernel)
  exact ⟨y, a, b, c⟩

/-- `fast_atan2` in every rounding direction, for all finite pairs other than `(0, 0)` up to `2^1023`: 13.8 units of `2^-53`, and as much relative to
the angle up to seven steps of the subnormal grid. -/
theorem C115_atan2 {m : Mode} (hm : m.Dir) (y x : F64) (hy : y.isFinite = true) (hx : x.isFinite = true) (h : x.val ≠ 0 ∨ y.val ≠ 0)
    (yb : |y.val| ≤ 2 ^ (1023 : ℤ)) (xb : |x.val| ≤ 2 ^ (1023 : ℤ)) :
    (Flush.fast_atan2 m y x).isFinite = true ∧
    |(Flush.fast_atan2 m y x).real - Complex.arg ⟨x.real, y.real⟩| ≤ 13.8 * 2 ^ (-53 : ℤ) ∧
    |(Flush.fast_atan2 m y x).real - Complex.arg ⟨x.real, y.real⟩| ≤ 13.8 * 2 ^ (-53 : ℤ) * |Complex.arg ⟨x.real, y.real⟩| + 2 ^ (-1070 : ℤ) := by
  have e : (2 : ℚ) ^ (1023 : ℤ) = b64.big := by rw [← p2_eq]; decide +kernel
  rw [e] at yb xb
  obtain ⟨a, b, c⟩ := atan2_dir hm y x hy hx h yb xb
  refine ⟨a, b, c.trans (add_le_add le_rfl ?_)⟩
  have k : (14 : ℚ) * b64.eta ≤ p2 (-1070) := by decide +kernel
  have := (Rat.cast_le (K := ℝ)).2 k
  rw [p2_real] at this
  push_cast at this
  exact this

/-- `fast_atan2f` in every rounding direction, for all finite pairs other than `(0, 0)`. -/
theorem C115_atan2f {m : Mode} (hm : m.Dir) (y x : F32) (hy : y.isFinite = true) (hx : x.isFinite = true) (h : x.val ≠ 0 ∨ y.val ≠ 0) :
    (Flush.fast_atan2f m y x).isFinite = true ∧
    |(Flush.fast_atan2f m y x).real - Complex.arg ⟨x.real, y.real⟩| ≤ 15.8 * 2 ^ (-24 : ℤ) ∧
    |(Flush.fast_atan2f m y x).real - Complex.arg ⟨x.real, y.real⟩| ≤ 15.8 * 2 ^ (-24 : ℤ) * |Complex.arg ⟨x.real, y.real⟩| + 2 ^ (-145 : ℤ) := by
  obtain ⟨a, b, c⟩ := atan2f_dir hm y x hy hx h
  refine ⟨a, b, c.trans (add_le_add le_rfl ?_)⟩
  have k : (14 : ℚ) * b32.eta ≤ p2 (-145) := by decide +kernel
  have := (Rat.cast_le (K := ℝ)).2 k
  rw [p2_real] at this
  push_cast at this
  exact this

example : |(Flush.fast_atan2 upward (lit (-2)) (lit (-3))).real - Complex.arg ⟨(lit (-3) : F64).real, (lit (-2) : F64).real⟩| ≤ 13.8 * 2 ^ (-53 : ℤ) :=
  (C115_atan2 upward_dir (lit (-2)) (lit (-3)) (by decide +kernel) (by decide +kernel) (by decide +kernel)
    (by rw [← p2_eq]; decide +kernel) (by rw [← p2_eq]; decide +kernel)).2.1

example : |(Flush.fast_atan2f towardZero (lit 1e-30) (lit (-3))).real - Complex.arg ⟨(lit (-3) : F32).real, (lit 1e-30 : F32).real⟩| ≤ 15.8 * 2 ^ (-24 : ℤ) :=
  (C115_atan2f towardZero_dir (lit 1e-30) (lit (-3)) (by decide +kernel) (by decide +kernel) (by decide +kernel)).2.1

/-- At one the logarithm is zero in the four directions. -/
theorem C115_log_one : ∀ m ∈ [nearest, upward, downward, towardZero],
    (Flush.fast_log m (lit 1)).val = 0 ∧ (Flush.fast_logf m (lit 1)).val = 0 := by
  simp only [List.mem_cons, List.not_mem_nil, or_false]
  rintro m (rfl | rfl | rfl | rfl) <;> decide +kernel

/-- The four directions of the processor are among those covered. -/
theorem C115_directions : nearest.Dir ∧ upward.Dir ∧ downward.Dir ∧ towardZero.Dir :=
  ⟨nearest_dir, upward_dir, downward_dir, towardZero_dir⟩

/-- Rounding upward: each operation returns the least number that is not below the exact result. -/
theorem C115_upward {f : Fmt} [f.Ok] {x y w : FP f} {t : ℝ} (hx : x.isFinite = true) (hy : y.isFinite = true) (h : Computes upward x y w t) :
    w.isFinite = true ∧ t ≤ w.real ∧ ∀ z : FP f, z.isFinite = true → t ≤ z.real → w.real ≤ z.real := by
  obtain ⟨o, y', r, rfl, R⟩ := h.rounded (fun _ => rfl) hx hy
  exact R.upward

/-- Rounding downward: the greatest number that is not above. -/
theorem C115_downward {f : Fmt} [f.Ok] {x y w : FP f} {t : ℝ} (hx : x.isFinite = true) (hy : y.isFinite = true) (h : Computes downward x y w t) :
    w.isFinite = true ∧ w.real ≤ t ∧ ∀ z : FP f, z.isFinite = true → z.real ≤ t → z.real ≤ w.real := by
  obtain ⟨o, y', r, rfl, R⟩ := h.rounded (fun _ => rfl) hx hy
  exact R.downward

/-- Rounding toward zero: the largest number in magnitude that is not beyond the exact result. -/
theorem C115_towardZero {f : Fmt} [f.Ok] {x y w : FP f} {t : ℝ} (hx : x.isFinite = true) (hy : y.isFinite = true) (h : Computes towardZero x y w t) :
    w.isFinite = true ∧
    (0 ≤ t → w.real ≤ t ∧ ∀ z : FP f, z.isFinite = true → z.real ≤ t → z.real ≤ w.real) ∧
    (t ≤ 0 → t ≤ w.real ∧ ∀ z : FP f, z.isFinite = true → t ≤ z.real → w.real ≤ z.real) := by
  obtain ⟨o, y', r, rfl, R⟩ := h.rounded (fun _ => rfl) hx hy
  refine ⟨?_, fun h => (R.towardZero.1 h).2, fun h => (R.towardZero.2 h).2⟩
  rcases le_total 0 t with h | h
  · exact (R.towardZero.1 h).1
  · exact (R.towardZero.2 h).1

/-- Rounding to nearest: no number is nearer. -/
theorem C115_nearest {f : Fmt} [f.Ok] {x y w : FP f} {t : ℝ} (hx : x.isFinite = true) (hy : y.isFinite = true) (h : Computes nearest x y w t) :
    w.isFinite = true ∧ ∀ z : FP f, z.isFinite = true → |w.real - t| ≤ |z.real - t| := by
  obtain ⟨o, y', r, rfl, R⟩ := h.rounded (fun _ => rfl) hx hy
  exact ⟨R.near.1, R.near.2.1⟩

/-- The conversion from double to float, whose sign `fpfloor` reads, in the four directions. -/
theorem C115_convert {x : F64} (hx : x.isFinite = true) (h : |x.val| ≤ b32.big) :
    (∀ z : F32, z.isFinite = true → |(nearest.cvt x (convert b32 x)).real - x.real| ≤ |z.real - x.real|) ∧
    Least (upward.cvt x (convert b32 x)) x.real ∧ Greatest (downward.cvt x (convert b32 x)) x.real ∧
    (0 ≤ x.real → Greatest (towardZero.cvt x (convert b32 x)) x.real) ∧ (x.real ≤ 0 → Least (towardZero.cvt x (convert b32 x)) x.real) :=
  ⟨(nearest_convert hx h).2.1, convert_directions hx h⟩

example : (1 / 3 : ℝ) ≤ (of (lit 1) / of (lit 3) : Z upward b64).v.real ∧ (of (lit 1) / of (lit 3) : Z downward b64).v.real ≤ 1 / 3 := by
  have e1 : (lit 1 : F64).real = 1 := by unfold FP.real; rw [show (lit 1 : F64).val = 1 by decide +kernel]; simp
  have e3 : (lit 3 : F64).real = 3 := by unfold FP.real; rw [show (lit 3 : F64).val = 3 by decide +kernel]; norm_num
  have a := (C115_upward (x := (lit 1 : F64)) (y := lit 3) (by decide +kernel) (by decide +kernel) (.div (by decide +kernel) (by decide +kernel))).2.1
  have b := (C115_downward (x := (lit 1 : F64)) (y := lit 3) (by decide +kernel) (by decide +kernel) (.div (by decide +kernel) (by decide +kernel))).2.1
  rw [e1, e3] at a b
  exact ⟨a, b⟩

example : Real.sqrt 2 ≤ (of (lit 2) : Z upward b32).sqrt.v.real ∧ (of (lit 2) : Z towardZero b32).sqrt.v.real ≤ Real.sqrt 2 := by
  have e2 : (lit 2 : F32).real = 2 := by unfold FP.real; rw [show (lit 2 : F32).val = 2 by decide +kernel]; simp
  have a := (C115_upward (x := (lit 2 : F32)) (y := lit 2) (by decide +kernel) (by decide +kernel) (.sqrt (by decide +kernel) (by decide +kernel) (by decide +kernel))).2.1
  have b := ((C115_towardZero (x := (lit 2 : F32)) (y := lit 2) (by decide +kernel) (by decide +kernel)
    (.sqrt (by decide +kernel) (by decide +kernel) (by decide +kernel))).2.1 (Real.sqrt_nonneg _)).1
  rw [e2] at a b
  exact ⟨a, b⟩

example : (nearest.cvt (lit 0.1) (convert b32 (lit 0.1 : F64))) ≠ downward.cvt (lit 0.1) (convert b32 (lit 0.1 : F64)) ∧
    (lit 0.1 : F64).isFinite = true ∧ |(lit 0.1 : F64).val| ≤ b32.big := by decide +kernel

/-- The directions do change results. -/
theorem C115_differs : Flush.fast_exp upward (lit 1) ≠ Flush.fast_exp downward (lit 1) ∧
    Flush.fast_expf upward (lit 1) ≠ Flush.fast_expf downward (lit 1) ∧
    Flush.fast_log upward (lit 10) ≠ Flush.fast_log downward (lit 10) ∧
    Flush.fast_atan upward (lit 1e300) ≠ Flush.fast_atan downward (lit 1e300) ∧
    Flush.fast_atanf upward (lit 1e30) ≠ Flush.fast_atanf downward (lit 1e30) ∧
    Flush.fast_asin upward (lit 0.9) ≠ Flush.fast_asin downward (lit 0.9) ∧
    Flush.fast_tanh towardZero (lit (-0.75)) ≠ Flush.fast_tanh downward (lit (-0.75)) ∧
    Flush.fast_tan upward (lit 1000) ≠ Flush.fast_tan downward (lit 1000) ∧
    (Flush.fast_isqrt_general upward (lit 3) 4).v ≠ (Flush.fast_isqrt_general nearest (lit 3) 4).v := by
  decide +kernel

example : ∃ y, Flush.fast_exp upward (lit 1) = some y ∧ y.isFinite = true ∧
    |y.real - Real.exp (lit 1 : F64).real| ≤ 7 * 2 ^ (-53 : ℤ) * Real.exp (lit 1 : F64).real :=
  C115_exp upward_dir (by decide +kernel) (by decide +kernel)

example : ∃ y, Flush.fast_expf towardZero (lit (-80.5)) = some y ∧ y.isFinite = true ∧
    |y.real - Real.exp (lit (-80.5) : F32).real| ≤ 6 * 2 ^ (-24 : ℤ) * Real.exp (lit (-80.5) : F32).real :=
  C115_expf towardZero_dir (by decide +kernel) (by decide +kernel)

example : |(Flush.fast_log downward (lit 1e-300)).real - Real.log (lit 1e-300 : F64).real| ≤
    10 * 2 ^ (-53 : ℤ) * |Real.log (lit 1e-300 : F64).real| :=
  (C115_log downward_dir (by unfold FP.Normal; decide +kernel) (by decide +kernel) (by decide +kernel) (by decide +kernel)).2

example : |(Flush.fast_logf upward (lit 0.999)).real - Real.log (lit 0.999 : F32).real| ≤
    10 * 2 ^ (-24 : ℤ) * |Real.log (lit 0.999 : F32).real| :=
  (C115_logf upward_dir (by unfold FP.Normal; decide +kernel) (by decide +kernel) (by decide +kernel)).2

example : ∃ s c, Flush.fast_sincos upward (lit 1e8) = some (s, c) ∧ |c.real - Real.cos (lit 1e8 : F64).real| ≤ 5.7 * 2 ^ (-53 : ℤ) := by
  obtain ⟨s, c, h1, -, -, -, h2⟩ := C115_sincos upward_dir (x := lit 1e8) (by decide +kernel) (by decide +kernel)
  exact ⟨s, c, h1, h2⟩

example : ∃ s c, Flush.fast_sincosf downward (lit (-8191.5)) = some (s, c) ∧ |s.real - Real.sin (lit (-8191.5) : F32).real| ≤ 4.1 * 2 ^ (-24 : ℤ) := by
  obtain ⟨s, c, h1, -, -, h2, -⟩ := C115_sincosf downward_dir (x := lit (-8191.5)) (by decide +kernel) (by decide +kernel)
  exact ⟨s, c, h1, h2⟩

example : |(Flush.fast_acos upward (lit 1)).real - Real.arccos (lit 1 : F64).real| ≤ 9.8 * 2 ^ (-53 : ℤ) :=
  (C115_asin upward_dir (by decide +kernel) (by
    have : |(lit 1 : F64).val| ≤ 1 := by decide +kernel
    unfold FP.real; exact_mod_cast this)).2.2

example : |(Flush.fast_asinf downward (lit (-0.75))).real - Real.arcsin (lit (-0.75) : F32).real| ≤ 16 * 2 ^ (-24 : ℤ) * |Real.arcsin (lit (-0.75) : F32).real| :=
  (C115_asinf downward_dir (by decide +kernel) (by
    have : |(lit (-0.75) : F32).val| ≤ 1 := by decide +kernel
    unfold FP.real; exact_mod_cast this)).1.2

/-- The full statement of C116 for four of the functions. -/
def C116_statement : Prop := ∀ m, m = nearest ∨ m = upward ∨ m = downward ∨ m = towardZero →
  (∀ (x : F64) (s c : F64), x.isFinite = true → |x.val| ≤ 1 → Flush.fast_sincos m x = some (s, c) → |s.val| ≤ 1 ∧ |c.val| ≤ 1) ∧
  (∀ x : F64, |x.val| ≤ 1 → x.isFinite = true → 0 ≤ (Flush.fast_acos m x).val)

/-- Rounding upward the cosine of `10^-9` is above 1, the arc cosine of 1 is negative, and the arc sine of 1 and the arc tangent of
`10^300` are above half of π. -/
theorem C116_witness : (∃ s c : F64, Flush.fast_sincos upward (lit 1e-9) = some (s, c) ∧ 1 < c.val) ∧
    (Flush.fast_acos upward (lit 1)).val = -p2 (-52) ∧
    Real.pi / 2 < (Flush.fast_asin upward (lit 1)).real ∧ Real.pi / 2 < (Flush.fast_atan upward (lit 1e300)).real := by
  have pi : ∀ {y : F64}, (1.5707963267948967 : ℚ) ≤ y.val → Real.pi / 2 < y.real := by
    intro y h
    have := le_real_iff.2 h
    push_cast at this
    have := Real.pi_lt_d20
    norm_num at *
    linarith
  refine ⟨?_, by decide +kernel, pi (by decide +kernel), pi (by decide +kernel)⟩
  · have h : (match Flush.fast_sincos upward (lit 1e-9) with | some p => decide (1 < p.2.val) | none => false) = true := by decide +kernel
    generalize Flush.fast_sincos upward (lit 1e-9) = o at h ⊢
    rcases o with _ | ⟨s, c⟩
    · cases h
    · exact ⟨s, c, rfl, of_decide_eq_true h⟩

theorem C116_violated : ¬ C116_statement := by
  intro h
  have t := (h upward (Or.inr (Or.inl rfl))).2 (lit 1) (by decide +kernel) (by decide +kernel)
  rw [C116_witness.2.1] at t
  exact absurd t (by decide +kernel)

/-- Exponentials are positive in every direction; arc tangents have the sign of the argument and leave the range by no more than
`10.2*2^-53` (float: `16*2^-24`). -/
theorem C116_range_partial {m : Mode} (hm : m.Dir) :
    (∀ x : F64, x.isFinite = true → |x.val| ≤ 708 → ∃ y, Flush.fast_exp m x = some y ∧ 0 < y.val) ∧
    (∀ x : F32, x.isFinite = true → |x.val| ≤ 86.5 → ∃ y, Flush.fast_expf m x = some y ∧ 0 < y.val) ∧
    (∀ x : F64, x.isFinite = true → 2 ^ (-1000 : ℤ) ≤ |x.real| → |(Flush.fast_atan m x).real| ≤ Real.pi / 2 + 10.2 * 2 ^ (-53 : ℤ) ∧
      0 < (Flush.fast_atan m x).real * x.real) ∧
    (∀ x : F32, x.isFinite = true → 2 ^ (-110 : ℤ) ≤ |x.real| → |(Flush.fast_atanf m x).real| ≤ Real.pi / 2 + 16 * 2 ^ (-24 : ℤ) ∧
      0 < (Flush.fast_atanf m x).real * x.real) := by
  have key : ∀ {y x c : ℝ}, |y - Real.arctan x| ≤ c * |Real.arctan x| → c < 1 → 0 ≤ c → x ≠ 0 → |y| ≤ Real.pi / 2 + c * 1.5708 ∧ 0 < y * x := by
    intro y x c h c1 c0 hx
    have hp := Real.pi_lt_d4
    have a1 := Real.arctan_lt_pi_div_two x
    have a2 := Real.neg_pi_div_two_lt_arctan x
    have ha : |Real.arctan x| ≤ Real.pi / 2 := abs_le.2 ⟨a2.le, a1.le⟩
    constructor
    · have := abs_sub_abs_le_abs_sub y (Real.arctan x)
      have := mul_le_mul_of_nonneg_left (show |Real.arctan x| ≤ 1.5708 by norm_num at hp ⊢; linarith) c0
      linarith
    · rcases lt_or_gt_of_ne hx with hn | hn
      · have : Real.arctan x < 0 := by have := Real.arctan_strictMono hn; rwa [Real.arctan_zero] at this
        rw [abs_of_neg this] at h
        have := (abs_le.1 h).2
        exact mul_pos_of_neg_of_neg (by nlinarith) hn
      · have : 0 < Real.arctan x := by have := Real.arctan_strictMono hn; rwa [Real.arctan_zero] at this
        rw [abs_of_pos this] at h
        have := (abs_le.1 h).1
        exact mul_pos (by nlinarith) hn
  have ne : ∀ {x : ℝ} {n : ℤ}, (2 : ℝ) ^ n ≤ |x| → x ≠ 0 := fun {x n} h e => by
    rw [e, abs_zero] at h
    exact absurd h (not_le.2 (by positivity))
  refine ⟨fun x hx h => ?_, fun x hx h => ?_, fun x hx h => ?_, fun x hx h => ?_⟩
  · obtain ⟨y, a, -, b, -⟩ := exp_dir hm hx h
    exact ⟨y, a, b⟩
  · obtain ⟨y, a, -, b, -⟩ := expf_dir hm hx h
    exact ⟨y, a, b⟩
  · have := key (atan_dir hm hx h).2 (by norm_num) (by positivity) (ne h)
    refine ⟨this.1.trans ?_, this.2⟩
    norm_num
  · have := key (atanf_dir hm hx h).2 (by norm_num) (by positivity) (ne h)
    refine ⟨this.1.trans ?_, this.2⟩
    norm_num

/-- Sine and cosine leave the range by no more than `5.7*2^-53` (float: `4.1*2^-24`). -/
theorem C116_sincos_partial {m : Mode} (hm : m.Dir) :
    (∀ x : F64, x.isFinite = true → |x.val| ≤ 2 ^ 27 → ∃ s c, Flush.fast_sincos m x = some (s, c) ∧
      |s.real| ≤ 1 + 5.7 * 2 ^ (-53 : ℤ) ∧ |c.real| ≤ 1 + 5.7 * 2 ^ (-53 : ℤ)) ∧
    (∀ x : F32, x.isFinite = true → |x.val| ≤ 8192 → ∃ s c, Flush.fast_sincosf m x = some (s, c) ∧
      |s.real| ≤ 1 + 4.1 * 2 ^ (-24 : ℤ) ∧ |c.real| ≤ 1 + 4.1 * 2 ^ (-24 : ℤ)) := by
  have key : ∀ {y v c : ℝ}, |v| ≤ 1 → |y - v| ≤ c → |y| ≤ 1 + c := fun {y v c} hv h => by
    have := abs_sub_abs_le_abs_sub y v
    linarith
  refine ⟨fun x hx h => ?_, fun x hx h => ?_⟩
  · obtain ⟨s, c, e, -, -, h1, h2⟩ := C115_sincos hm hx h
    exact ⟨s, c, e, key (Real.abs_sin_le_one _) h1, key (Real.abs_cos_le_one _) h2⟩
  · obtain ⟨s, c, e, -, -, h1, h2⟩ := C115_sincosf hm hx h
    exact ⟨s, c, e, key (Real.abs_sin_le_one _) h1, key (Real.abs_cos_le_one _) h2⟩

/-- The arc sine leaves the range by no more than `5.2*2^-53` (float: `8.4*2^-24`) and the arc cosine by no more than `9.8*2^-53`
(float: `13.2*2^-24`). -/
theorem C116_asin_partial {m : Mode} (hm : m.Dir) :
    (∀ x : F64, x.isFinite = true → |x.real| ≤ 1 → |(Flush.fast_asin m x).real| ≤ Real.pi / 2 + 5.2 * 2 ^ (-53 : ℤ) ∧
      -9.8 * 2 ^ (-53 : ℤ) ≤ (Flush.fast_acos m x).real ∧ (Flush.fast_acos m x).real ≤ Real.pi + 9.8 * 2 ^ (-53 : ℤ)) ∧
    (∀ x : F32, x.isFinite = true → |x.real| ≤ 1 → |(Flush.fast_asinf m x).real| ≤ Real.pi / 2 + 8.4 * 2 ^ (-24 : ℤ) ∧
      -13.2 * 2 ^ (-24 : ℤ) ≤ (Flush.fast_acosf m x).real ∧ (Flush.fast_acosf m x).real ≤ Real.pi + 13.2 * 2 ^ (-24 : ℤ)) := by
  have key : ∀ {y x c : ℝ}, |y - Real.arcsin x| ≤ c → |y| ≤ Real.pi / 2 + c := fun {y x c} h => by
    have a1 := Real.arcsin_le_pi_div_two x
    have a2 := Real.neg_pi_div_two_le_arcsin x
    rw [abs_le] at *
    constructor <;> linarith [h.1, h.2]
  have key2 : ∀ {y x c : ℝ}, |y - Real.arccos x| ≤ c → -c ≤ y ∧ y ≤ Real.pi + c := fun {y x c} h => by
    have a1 := Real.arccos_nonneg x
    have a2 := Real.arccos_le_pi x
    rw [abs_le] at *
    constructor <;> linarith [h.1, h.2]
  refine ⟨fun x hx h => ?_, fun x hx h => ?_⟩
  · rw [neg_mul]
    exact ⟨key (asin_dir hm hx h).2.2, key2 (acos_dir hm hx h).2⟩
  · rw [neg_mul]
    exact ⟨key (asinf_dir hm hx h).2.2, key2 (acosf_dir hm hx h).2⟩

/-- The hyperbolic tangent stays in `[-1, 1]` for every argument that is no NaN, although numerator and denominator of its doublings are rounded in any way. -/
theorem C116_tanh_partial {m : Mode} (hm : m.Dir) :
    (∀ x : F64, x.isNaN = false → (Flush.fast_tanh m x).isFinite = true ∧ |(Flush.fast_tanh m x).val| ≤ 1) ∧
    (∀ x : F32, x.isNaN = false → (Flush.fast_tanhf m x).isFinite = true ∧ |(Flush.fast_tanhf m x).val| ≤ 1) :=
  ⟨fun _ h => tanh_range_dir hm h, fun _ h => tanhf_range_dir hm h⟩

/-- The angle of two arguments leaves `[-π, π]` by no more than `13.8*2^-53` (float: `15.8*2^-24`). -/
theorem C116_atan2_partial {m : Mode} (hm : m.Dir) :
    (∀ y x : F64, y.isFinite = true → x.isFinite = true → (x.val ≠ 0 ∨ y.val ≠ 0) → |y.val| ≤ 2 ^ (1023 : ℤ) → |x.val| ≤ 2 ^ (1023 : ℤ) →
      |(Flush.fast_atan2 m y x).real| ≤ Real.pi + 13.8 * 2 ^ (-53 : ℤ)) ∧
    (∀ y x : F32, y.isFinite = true → x.isFinite = true → (x.val ≠ 0 ∨ y.val ≠ 0) →
      |(Flush.fast_atan2f m y x).real| ≤ Real.pi + 15.8 * 2 ^ (-24 : ℤ)) := by
  have key : ∀ {y c : ℝ} {z : ℂ}, |y - Complex.arg z| ≤ c → |y| ≤ Real.pi + c := fun {y c z} h => by
    have := abs_sub_abs_le_abs_sub y (Complex.arg z)
    linarith [Complex.abs_arg_le_pi z]
  exact ⟨fun y x a b c d e => key (C115_atan2 hm y x a b c d e).2.1, fun y x a b c => key (C115_atan2f hm y x a b c).2.1⟩

example : |(Flush.fast_atan2 upward (lit 1e-300) (lit (-1))).real| ≤ Real.pi + 13.8 * 2 ^ (-53 : ℤ) :=
  (C116_atan2_partial upward_dir).1 _ _ (by decide +kernel) (by decide +kernel) (by decide +kernel)
    (by rw [← p2_eq]; decide +kernel) (by rw [← p2_eq]; decide +kernel)

/-- The denominators are rounded as well: downward the bound is attained, upward it is not. -/
example : (Flush.fast_tanh downward (lit 19.9)).val = 1 ∧ (Flush.fast_tanh upward (lit 19.9)).val < 1 ∧
    |(Flush.fast_tanh upward (inf true)).val| ≤ 1 ∧ |(Flush.fast_tanhf downward (lit (-9))).val| ≤ 1 :=
  ⟨by decide +kernel, by decide +kernel, ((C116_tanh_partial upward_dir).1 _ (by decide +kernel)).2,
    ((C116_tanh_partial downward_dir).2 _ (by decide +kernel)).2⟩

example : -9.8 * 2 ^ (-53 : ℤ) ≤ (Flush.fast_acos upward (lit 1)).real ∧ (Flush.fast_acos upward (lit 1)).val < 0 := by
  refine ⟨((C116_asin_partial upward_dir).1 (lit 1) (by decide +kernel) ?_).2.1, by rw [C116_witness.2.1]; decide +kernel⟩
  have : |(lit 1 : F64).val| ≤ 1 := by decide +kernel
  unfold FP.real; exact_mod_cast this

example : ∃ s c, Flush.fast_sincos upward (lit 1e-9) = some (s, c) ∧ 1 < c.val ∧ |c.real| ≤ 1 + 5.7 * 2 ^ (-53 : ℤ) := by
  obtain ⟨s, c, e, h⟩ := C116_witness.1
  obtain ⟨s', c', e', -, h'⟩ := (C116_sincos_partial upward_dir).1 (lit 1e-9) (by decide +kernel) (by decide +kernel)
  rw [e] at e'
  obtain ⟨rfl, rfl⟩ := Prod.mk.inj (Option.some.inj e')
  exact ⟨s, c, e, h, h'⟩

example : ∃ y, Flush.fast_exp downward (lit (-700)) = some y ∧ 0 < y.val :=
  (C116_range_partial downward_dir).1 _ (by decide +kernel) (by decide +kernel)

example : |(Flush.fast_atan upward (lit 1e300)).real| ≤ Real.pi / 2 + 10.2 * 2 ^ (-53 : ℤ) := by
  refine ((C116_range_partial upward_dir).2.2.1 (lit 1e300) (by decide +kernel) ?_).1
  have h : p2 (-1000) ≤ |(lit 1e300 : F64).val| := by decide +kernel
  have := (Rat.cast_le (K := ℝ)).2 h
  rw [p2_real] at this
  unfold FP.real
  exact_mod_cast this

end Vdt
