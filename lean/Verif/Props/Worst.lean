import Verif.Real.Encl
import Verif.Props.ExpAcc
import Verif.Props.LogAcc
import Verif.Props.SincosAcc
import Verif.Props.Tan
import Verif.Props.Tanh
import Verif.Props.Atan
import Verif.Props.Asin

/-!
# The error bounds are not far above the largest error (C106)

The accuracy theorems bound the error of each function over a whole range of arguments. Here each bound is paired with one argument of the range at which the error is more than
a quarter of it, so no implementation detail that costs a factor of four is hidden in a bound, and no claim of an accuracy four times better is tenable.
-/

namespace Vdt
open FP details
variable {f : Fmt}

/-- Over the arguments of `D` the result of `g` is finite and within `tol` of `h`, and at one of them the error is more than a quarter of `tol`. The tolerance may depend on the exact
value. -/
def TightBound (D : FP f → Prop) (g : FP f → Option (FP f)) (h : ℝ → ℝ) (tol : ℝ → ℝ) : Prop :=
  (∀ x, D x → ∃ y, g x = some y ∧ y.isFinite = true ∧ |y.real - h x.real| ≤ tol (h x.real)) ∧
  ∃ x y, D x ∧ g x = some y ∧ y.isFinite = true ∧ tol (h x.real) / 4 < |y.real - h x.real|

/-- An error of more than a quarter of the tolerance `ε|r| + δ r² + τ`, from an enclosure of the exact value. -/
theorem far_quarter {y : FP f} {r : ℝ} {a b M ε δ τ : ℚ} (h : (a : ℝ) ≤ r ∧ r ≤ b) (ha : -M ≤ a) (hb : b ≤ M) (hε : 0 ≤ ε) (hδ : 0 ≤ δ)
    (hy : y.val + (ε * M + δ * M ^ 2 + τ) / 4 < a ∨ b + (ε * M + δ * M ^ 2 + τ) / 4 < y.val) :
    ((ε : ℝ) * |r| + δ * r ^ 2 + τ) / 4 < |y.real - r| := by
  have ha' := (Rat.cast_le (K := ℝ)).2 ha
  have hb' := (Rat.cast_le (K := ℝ)).2 hb
  push_cast at ha'
  have hM : |r| ≤ M := abs_le.2 ⟨by linarith [h.1], by linarith [h.2]⟩
  have hε' : (0 : ℝ) ≤ ε := by exact_mod_cast hε
  have hδ' : (0 : ℝ) ≤ δ := by exact_mod_cast hδ
  have k1 := mul_le_mul_of_nonneg_left hM hε'
  have k2 : (δ : ℝ) * r ^ 2 ≤ δ * M ^ 2 := by
    refine mul_le_mul_of_nonneg_left ?_ hδ'
    rw [← sq_abs]
    exact pow_le_pow_left₀ (abs_nonneg _) hM 2
  have hy' : y.real + ((ε : ℝ) * M + δ * M ^ 2 + τ) / 4 < a ∨ (b : ℝ) + (ε * M + δ * M ^ 2 + τ) / 4 < y.real := by
    rcases hy with hy | hy
    · left; have := (Rat.cast_lt (K := ℝ)).2 hy; push_cast at this; exact this
    · right; have := (Rat.cast_lt (K := ℝ)).2 hy; push_cast at this; exact this
  rcases hy' with hy' | hy'
  · have := neg_le_abs (y.real - r); linarith [h.1]
  · have := le_abs_self (y.real - r); linarith [h.2]

/-- The exponential function in double precision. -/
theorem C106_exp : TightBound (f := b64) (fun x => x.isFinite = true ∧ |x.val| ≤ 708) (fast_exp) Real.exp (fun r => 2 ^ (-51 : ℤ) * |r|) := by
  refine ⟨fun x hx => by obtain ⟨y, e, _, c1, c2⟩ := C01_exp_accurate x hx.1 hx.2; exact ⟨y, e, c1, c2⟩, (⟨true, 4599267741542880360, by decide⟩ : F64), (⟨false, 4604777248511634412, by decide⟩ : F64), by decide +kernel, by decide +kernel, by decide +kernel, ?_⟩
  have h := far_quarter (y := (⟨false, 4604777248511634412, by decide⟩ : F64)) (M := 1) (ε := 2^(-51:ℤ)) (δ := 0) (τ := 0) (exp_encl (x := FP.val (⟨true, 4599267741542880360, by decide⟩ : F64)) (a := (7329724567692871602310 / 10 ^ 22)) (b := (7329724567692871602311 / 10 ^ 22)) 25 (by decide +kernel) (by decide +kernel) (by decide +kernel) (by decide +kernel))
    (by decide +kernel) (by decide +kernel) (by decide +kernel) (by decide +kernel) (by decide +kernel)
  simp only [FP.real]
  push_cast at h
  refine lt_of_le_of_lt (le_of_eq ?_) h
  ring

/-- The exponential function in single precision. -/
theorem C106_expf : TightBound (f := b32) (fun x => x.isFinite = true ∧ -87.25 ≤ x.val ∧ x.val ≤ 88.35) (fast_expf) Real.exp (fun r => 2 ^ (-22 : ℤ) * |r|) := by
  refine ⟨fun x hx => by obtain ⟨y, e, _, c1, c2⟩ := C03_expf_accurate x hx.1 hx.2.1 hx.2.2; exact ⟨y, e, c1, c2⟩, (⟨false, 1016392543, by decide⟩ : F32), (⟨false, 1065507103, by decide⟩ : F32), by decide +kernel, by decide +kernel, by decide +kernel, ?_⟩
  have h := far_quarter (y := (⟨false, 1065507103, by decide⟩ : F32)) (M := 1.02) (ε := 2^(-22:ℤ)) (δ := 0) (τ := 0) (exp_encl (x := FP.val (⟨false, 1016392543, by decide⟩ : F32)) (a := (1018344877203 / 10 ^ 12)) (b := (1018344877204 / 10 ^ 12)) 15 (by decide +kernel) (by decide +kernel) (by decide +kernel) (by decide +kernel))
    (by decide +kernel) (by decide +kernel) (by decide +kernel) (by decide +kernel) (by decide +kernel)
  simp only [FP.real]
  push_cast at h
  refine lt_of_le_of_lt (le_of_eq ?_) h
  ring

/-- The logarithm in double precision. -/
theorem C106_log : TightBound (f := b64) (fun x => x.Normal ∧ 0 < x.val ∧ x.val ≤ 10 ^ 307) (fun x => some (fast_log x)) Real.log (fun r => 2 ^ (-51 : ℤ) * |r|) := by
  refine ⟨fun x hx => ⟨_, rfl, C05_log_accurate x hx.1 hx.2.1 hx.2.2⟩, (⟨false, 4610129654266295664, by decide⟩ : F64), (⟨false, 4602709886128868740, by decide⟩ : F64), by refine ⟨?_, by decide +kernel⟩; rw [normal_iff64]; decide +kernel, by decide +kernel, by decide +kernel, ?_⟩
  have h := far_quarter (y := (⟨false, 4602709886128868740, by decide⟩ : F64)) (M := 0.51) (ε := 2^(-51:ℤ)) (δ := 0) (τ := 0) (log_encl (x := FP.val (⟨false, 4610129654266295664, by decide⟩ : F64)) (a := (5034491250102494479035 / 10 ^ 22)) (b := (5034491250102494479036 / 10 ^ 22)) 25 (by decide +kernel) (by decide +kernel) (by decide +kernel) (by decide +kernel) (by decide +kernel) (by decide +kernel))
    (by decide +kernel) (by decide +kernel) (by decide +kernel) (by decide +kernel) (by decide +kernel)
  simp only [FP.real]
  push_cast at h
  refine lt_of_le_of_lt (le_of_eq ?_) h
  ring

/-- The logarithm in single precision. -/
theorem C106_logf : TightBound (f := b32) (fun x => x.Normal ∧ 0 < x.val) (fun x => some (fast_logf x)) Real.log (fun r => 2 ^ (-22 : ℤ) * |r|) := by
  refine ⟨fun x hx => ⟨_, rfl, C07_logf_accurate x hx.1 hx.2⟩, (⟨false, 1058700480, by decide⟩ : F32), (⟨true, 1057049594, by decide⟩ : F32), by refine ⟨?_, by decide +kernel⟩; rw [normal_iff32]; decide +kernel, by decide +kernel, by decide +kernel, ?_⟩
  have h := far_quarter (y := (⟨true, 1057049594, by decide⟩ : F32)) (M := 0.51) (ε := 2^(-22:ℤ)) (δ := 0) (τ := 0) (log_encl (x := FP.val (⟨false, 1058700480, by decide⟩ : F32)) (a := (-505065521826 / 10 ^ 12)) (b := (-505065521825 / 10 ^ 12)) 18 (by decide +kernel) (by decide +kernel) (by decide +kernel) (by decide +kernel) (by decide +kernel) (by decide +kernel))
    (by decide +kernel) (by decide +kernel) (by decide +kernel) (by decide +kernel) (by decide +kernel)
  simp only [FP.real]
  push_cast at h
  refine lt_of_le_of_lt (le_of_eq ?_) h
  ring

/-- The sine in double precision, with an absolute tolerance. -/
theorem C106_sin : TightBound (f := b64) (fun x => x.isFinite = true ∧ |x.val| ≤ 2 ^ 27) (fast_sin) Real.sin (fun _ => 2 ^ (-51 : ℤ)) := by
  refine ⟨fun x hx => by obtain ⟨s, c, e1, e2, c1, c2⟩ := C08_sin_cos_accurate x hx.1 hx.2; exact ⟨_, e1, c1⟩, (⟨false, 4612348813665650034, by decide⟩ : F64), (⟨false, 4604925793184323592, by decide⟩ : F64), by decide +kernel, by decide +kernel, by decide +kernel, ?_⟩
  have h := far_quarter (y := (⟨false, 4604925793184323592, by decide⟩ : F64)) (M := 1) (ε := 0) (δ := 0) (τ := 2^(-51:ℤ)) (sin_encl (x := FP.val (⟨false, 4612348813665650034, by decide⟩ : F64)) (a := (7494642283497803897183 / 10 ^ 22)) (b := (7494642283497803897184 / 10 ^ 22)) 26 (by decide +kernel) (by decide +kernel))
    (by decide +kernel) (by decide +kernel) (by decide +kernel) (by decide +kernel) (by decide +kernel)
  simp only [FP.real]
  push_cast at h
  refine lt_of_le_of_lt (le_of_eq ?_) h
  ring

/-- The sine in single precision, with an absolute tolerance. -/
theorem C106_sinf : TightBound (f := b32) (fun x => x.isFinite = true ∧ |x.val| ≤ 8192) (fast_sinf) Real.sin (fun _ => 2 ^ (-22 : ℤ)) := by
  refine ⟨fun x hx => by obtain ⟨s, c, e1, e2, c1, c2⟩ := C10_sinf_cosf_accurate x hx.1 hx.2; exact ⟨_, e1, c1⟩, (⟨false, 1081967023, by decide⟩ : F32), (⟨true, 1060836266, by decide⟩ : F32), by decide +kernel, by decide +kernel, by decide +kernel, ?_⟩
  have h := far_quarter (y := (⟨true, 1060836266, by decide⟩ : F32)) (M := 1) (ε := 0) (δ := 0) (τ := 2^(-22:ℤ)) (sin_encl (x := FP.val (⟨false, 1081967023, by decide⟩ : F32)) (a := (-730768862487 / 10 ^ 12)) (b := (-730768862486 / 10 ^ 12)) 18 (by decide +kernel) (by decide +kernel))
    (by decide +kernel) (by decide +kernel) (by decide +kernel) (by decide +kernel) (by decide +kernel)
  simp only [FP.real]
  push_cast at h
  refine lt_of_le_of_lt (le_of_eq ?_) h
  ring

/-- The cosine in double precision, with an absolute tolerance. -/
theorem C106_cos : TightBound (f := b64) (fun x => x.isFinite = true ∧ |x.val| ≤ 2 ^ 27) (fast_cos) Real.cos (fun _ => 2 ^ (-51 : ℤ)) := by
  refine ⟨fun x hx => by obtain ⟨s, c, e1, e2, c1, c2⟩ := C08_sin_cos_accurate x hx.1 hx.2; exact ⟨_, e2, c2⟩, (⟨false, 4617925127017442635, by decide⟩ : F64), (⟨false, 4604816152627569046, by decide⟩ : F64), by decide +kernel, by decide +kernel, by decide +kernel, ?_⟩
  have h := far_quarter (y := (⟨false, 4604816152627569046, by decide⟩ : F64)) (M := 1) (ε := 0) (δ := 0) (τ := 2^(-51:ℤ)) (cos_encl (x := FP.val (⟨false, 4617925127017442635, by decide⟩ : F64)) (a := (7372916812956185801552 / 10 ^ 22)) (b := (7372916812956185801553 / 10 ^ 22)) 26 (by decide +kernel) (by decide +kernel))
    (by decide +kernel) (by decide +kernel) (by decide +kernel) (by decide +kernel) (by decide +kernel)
  simp only [FP.real]
  push_cast at h
  refine lt_of_le_of_lt (le_of_eq ?_) h
  ring

/-- The cosine in single precision, with an absolute tolerance. -/
theorem C106_cosf : TightBound (f := b32) (fun x => x.isFinite = true ∧ |x.val| ≤ 8192) (fast_cosf) Real.cos (fun _ => 2 ^ (-22 : ℤ)) := by
  refine ⟨fun x hx => by obtain ⟨s, c, e1, e2, c1, c2⟩ := C10_sinf_cosf_accurate x hx.1 hx.2; exact ⟨_, e2, c2⟩, (⟨false, 1081666760, by decide⟩ : F32), (⟨true, 1060876156, by decide⟩ : F32), by decide +kernel, by decide +kernel, by decide +kernel, ?_⟩
  have h := far_quarter (y := (⟨true, 1060876156, by decide⟩ : F32)) (M := 1) (ε := 0) (δ := 0) (τ := 2^(-22:ℤ)) (cos_encl (x := FP.val (⟨false, 1081666760, by decide⟩ : F32)) (a := (-733146356974 / 10 ^ 12)) (b := (-733146356973 / 10 ^ 12)) 18 (by decide +kernel) (by decide +kernel))
    (by decide +kernel) (by decide +kernel) (by decide +kernel) (by decide +kernel) (by decide +kernel)
  simp only [FP.real]
  push_cast at h
  refine lt_of_le_of_lt (le_of_eq ?_) h
  ring

/-- The tangent in double precision, away from its zeros and poles. -/
theorem C106_tan : TightBound (f := b64) (fun x => x.isFinite = true ∧ 2 ^ (-1024 : ℤ) < |x.val| ∧ |x.val| ≤ 2 ^ 20 ∧ 2 ^ (-20 : ℤ) ≤ |Real.tan x.real| ∧ |Real.tan x.real| ≤ 2 ^ 20)
    fast_tan Real.tan (fun r => 2 ^ (-50 : ℤ) * |r|) := by
  have k := tan_encl (x := FP.val (⟨false, 4606533979712429164, by decide⟩ : F64)) (a := (13353173921860059240455 / 10 ^ 22)) (b := (13353173921860059240456 / 10 ^ 22)) 14 (by decide +kernel) (by decide +kernel) (by decide +kernel) (by decide +kernel) (by decide +kernel)
  refine ⟨fun x hx => by obtain ⟨y, e, c1, _, _, c2⟩ := C13_tan_accurate_to_2_20 x hx.1 hx.2.1 hx.2.2.1; exact ⟨y, e, c1, c2 hx.2.2.2.1 hx.2.2.2.2⟩,
    (⟨false, 4606533979712429164, by decide⟩ : F64), (⟨false, 4608692554082517149, by decide⟩ : F64), ⟨by decide +kernel, by rw [← p2_eq]; decide +kernel, by decide +kernel, ?_⟩, by decide +kernel, by decide +kernel, ?_⟩
  · simp only [FP.real]
    generalize Real.tan _ = r at *
    push_cast at k
    rw [abs_of_pos (by linarith [k.1] : 0 < r)]
    constructor
    · norm_num; linarith [k.1]
    · norm_num; linarith [k.2]
  have h := far_quarter (y := (⟨false, 4608692554082517149, by decide⟩ : F64)) (M := 1.34) (ε := 2^(-50:ℤ)) (δ := 0) (τ := 0) k (by decide +kernel) (by decide +kernel) (by decide +kernel) (by decide +kernel) (by decide +kernel)
  simp only [FP.real]
  push_cast at h
  refine lt_of_le_of_lt (le_of_eq ?_) h
  ring

/-- The tangent in single precision; the second term of the tolerance is the error of the argument reduction. -/
theorem C106_tanf : TightBound (f := b32) (fun x => x.isFinite = true ∧ 2 ^ (-128 : ℤ) < |x.val| ∧ |x.val| ≤ 8192) (fast_tanf) Real.tan (fun r => 2 ^ (-21 : ℤ) * |r| + 2 ^ (-33 : ℤ) * (1 + r ^ 2)) := by
  refine ⟨fun x hx => by obtain ⟨y, e, c1, c2, _⟩ := C15_tanf_accurate x hx.1 hx.2.1 hx.2.2; exact ⟨y, e, c1, c2⟩, (⟨false, 1063083500, by decide⟩ : F32), (⟨false, 1066801863, by decide⟩ : F32), by decide +kernel, by decide +kernel, by decide +kernel, ?_⟩
  have h := far_quarter (y := (⟨false, 1066801863, by decide⟩ : F32)) (M := 1.18) (ε := 2^(-21:ℤ)) (δ := 2^(-33:ℤ)) (τ := 2^(-33:ℤ)) (tan_encl (x := FP.val (⟨false, 1063083500, by decide⟩ : F32)) (a := (1172692009646 / 10 ^ 12)) (b := (1172692009647 / 10 ^ 12)) 12 (by decide +kernel) (by decide +kernel) (by decide +kernel) (by decide +kernel) (by decide +kernel))
    (by decide +kernel) (by decide +kernel) (by decide +kernel) (by decide +kernel) (by decide +kernel)
  simp only [FP.real]
  push_cast at h
  refine lt_of_le_of_lt (le_of_eq ?_) h
  ring

/-- The hyperbolic tangent in double precision. -/
theorem C106_tanh : TightBound (f := b64) (fun x => x.isFinite = true ∧ 2 ^ (-1000 : ℤ) ≤ |x.val|) (fun x => some (fast_tanh x)) Real.tanh (fun r => 15.7 * 2 ^ (-53 : ℤ) * |r|) := by
  refine ⟨fun x hx => ⟨_, rfl, C17_tanh_accurate_relative x hx.1 hx.2⟩, (⟨false, 4598530362173611380, by decide⟩ : F64), (⟨false, 4598415874650086799, by decide⟩ : F64), by decide +kernel, by decide +kernel, by decide +kernel, ?_⟩
  have h := far_quarter (y := (⟨false, 4598415874650086799, by decide⟩ : F64)) (M := 0.264) (ε := 15.7 * 2^(-53:ℤ)) (δ := 0) (τ := 0) (tanh_encl (x := FP.val (⟨false, 4598530362173611380, by decide⟩ : F64)) (a := (2633590419177032201860 / 10 ^ 22)) (b := (2633590419177032201861 / 10 ^ 22)) 25 (by decide +kernel) (by decide +kernel) (by decide +kernel) (by decide +kernel) (by decide +kernel) (by decide +kernel))
    (by decide +kernel) (by decide +kernel) (by decide +kernel) (by decide +kernel) (by decide +kernel)
  simp only [FP.real]
  push_cast at h
  refine lt_of_le_of_lt (le_of_eq ?_) h
  ring

/-- The hyperbolic tangent in single precision; the second term of the tolerance is for subnormal results. -/
theorem C106_tanhf : TightBound (f := b32) (fun x => x.isFinite = true) (fun x => some (fast_tanhf x)) Real.tanh (fun r => 2 ^ (-20 : ℤ) * |r| + 2 ^ (-145 : ℤ)) := by
  refine ⟨fun x hx => ⟨_, rfl, (C16_tanhf_range x (finite_not_nan hx)).1, C18_tanhf_accurate x hx⟩, (⟨false, 1049076737, by decide⟩ : F32), (⟨false, 1048874453, by decide⟩ : F32), by decide +kernel, by decide +kernel, by decide +kernel, ?_⟩
  have h := far_quarter (y := (⟨false, 1048874453, by decide⟩ : F32)) (M := 0.26) (ε := 2^(-20:ℤ)) (δ := 0) (τ := 2^(-145:ℤ)) (tanh_encl (x := FP.val (⟨false, 1049076737, by decide⟩ : F32)) (a := (258894503485 / 10 ^ 12)) (b := (258894503486 / 10 ^ 12)) 18 (by decide +kernel) (by decide +kernel) (by decide +kernel) (by decide +kernel) (by decide +kernel) (by decide +kernel))
    (by decide +kernel) (by decide +kernel) (by decide +kernel) (by decide +kernel) (by decide +kernel)
  simp only [FP.real]
  push_cast at h
  refine lt_of_le_of_lt (le_of_eq ?_) h
  ring

/-- The arc tangent in double precision. -/
theorem C106_atan : TightBound (f := b64) (fun x => x.isFinite = true ∧ 2 ^ (-1020 : ℤ) ≤ |x.val|) (fun x => some (fast_atan x)) Real.arctan (fun r => 2 ^ (-51 : ℤ) * |r|) := by
  refine ⟨fun x hx => ⟨_, rfl, (C19_atan_accurate x hx.1).1, C19_atan_accurate_relative x hx.1 (by have h := (Rat.cast_le (K := ℝ)).2 hx.2; rw [Rat.cast_abs, Rat.cast_zpow, Rat.cast_ofNat] at h; exact h)⟩, (⟨false, 4604355566610115589, by decide⟩ : F64), (⟨false, 4603591918433807630, by decide⟩ : F64), by decide +kernel, by decide +kernel, by decide +kernel, ?_⟩
  have h := far_quarter (y := (⟨false, 4603591918433807630, by decide⟩ : F64)) (M := 0.61) (ε := 2^(-51:ℤ)) (δ := 0) (τ := 0) (atan_encl (x := FP.val (⟨false, 4604355566610115589, by decide⟩ : F64)) (a := (6013743823508849278369 / 10 ^ 22)) (b := (6013743823508849278370 / 10 ^ 22)) 16 (by decide +kernel) (by decide +kernel) (by decide +kernel) (by decide +kernel) (by decide +kernel) (by decide +kernel) (by decide +kernel))
    (by decide +kernel) (by decide +kernel) (by decide +kernel) (by decide +kernel) (by decide +kernel)
  simp only [FP.real]
  push_cast at h
  refine lt_of_le_of_lt (le_of_eq ?_) h
  ring

/-- The arc tangent in single precision; the second term of the tolerance is for subnormal results. -/
theorem C106_atanf : TightBound (f := b32) (fun x => x.isFinite = true) (fun x => some (fast_atanf x)) Real.arctan (fun r => 2 ^ (-21 : ℤ) * |r| + 2 ^ (-148 : ℤ)) := by
  refine ⟨fun x hx => ⟨_, rfl, (C21_atanf_accurate x hx).1, (C21_atanf_accurate x hx).2.2⟩, (⟨false, 1054823931, by decide⟩ : F32), (⟨false, 1053989043, by decide⟩ : F32), by decide +kernel, by decide +kernel, by decide +kernel, ?_⟩
  have h := far_quarter (y := (⟨false, 1053989043, by decide⟩ : F32)) (M := 0.42) (ε := 2^(-21:ℤ)) (δ := 0) (τ := 2^(-148:ℤ)) (atan_encl (x := FP.val (⟨false, 1054823931, by decide⟩ : F32)) (a := (411321171055 / 10 ^ 12)) (b := (411321171056 / 10 ^ 12)) 10 (by decide +kernel) (by decide +kernel) (by decide +kernel) (by decide +kernel) (by decide +kernel) (by decide +kernel) (by decide +kernel))
    (by decide +kernel) (by decide +kernel) (by decide +kernel) (by decide +kernel) (by decide +kernel)
  simp only [FP.real]
  push_cast at h
  refine lt_of_le_of_lt (le_of_eq ?_) h
  ring

/-- The arc sine in double precision. -/
theorem C106_asin : TightBound (f := b64) (fun x => x.isFinite = true ∧ |x.val| ≤ 1) (fun x => some (fast_asin x)) Real.arcsin (fun r => 2 ^ (-51 : ℤ) * |r|) := by
  refine ⟨fun x hx => ⟨_, rfl, (C26_asin_accurate x hx.1 hx.2).1⟩, (⟨false, 4606886995388211864, by decide⟩ : F64), (⟨false, 4608596421297993934, by decide⟩ : F64), by decide +kernel, by decide +kernel, by decide +kernel, ?_⟩
  have h := far_quarter (y := (⟨false, 4608596421297993934, by decide⟩ : F64)) (M := 1.32) (ε := 2^(-51:ℤ)) (δ := 0) (τ := 0) (asin_encl (x := FP.val (⟨false, 4606886995388211864, by decide⟩ : F64)) (a := (13139716260262053286039 / 10 ^ 22)) (b := (13139716260262053286040 / 10 ^ 22)) 20 (by decide +kernel) (by decide +kernel) (by decide +kernel) (by decide +kernel) (by decide +kernel) (by decide +kernel) (by decide +kernel))
    (by decide +kernel) (by decide +kernel) (by decide +kernel) (by decide +kernel) (by decide +kernel)
  simp only [FP.real]
  push_cast at h
  refine lt_of_le_of_lt (le_of_eq ?_) h
  ring

/-- The arc sine in single precision. -/
theorem C106_asinf : TightBound (f := b32) (fun x => x.isFinite = true ∧ |x.val| ≤ 1) (fun x => some (fast_asinf x)) Real.arcsin (fun r => 2 ^ (-20 : ℤ) * |r|) := by
  refine ⟨fun x hx => ⟨_, rfl, (C28_asinf_accurate x hx.1 hx.2).1⟩, (⟨false, 1056990840, by decide⟩ : F32), (⟨false, 1057390838, by decide⟩ : F32), by decide +kernel, by decide +kernel, by decide +kernel, ?_⟩
  have h := far_quarter (y := (⟨false, 1057390838, by decide⟩ : F32)) (M := 0.53) (ε := 2^(-20:ℤ)) (δ := 0) (τ := 0) (asin_encl (x := FP.val (⟨false, 1056990840, by decide⟩ : F32)) (a := (525405149443 / 10 ^ 12)) (b := (525405149444 / 10 ^ 12)) 12 (by decide +kernel) (by decide +kernel) (by decide +kernel) (by decide +kernel) (by decide +kernel) (by decide +kernel) (by decide +kernel))
    (by decide +kernel) (by decide +kernel) (by decide +kernel) (by decide +kernel) (by decide +kernel)
  simp only [FP.real]
  push_cast at h
  refine lt_of_le_of_lt (le_of_eq ?_) h
  ring

/-- The consequence: a bound four times smaller fails, here for the exponential function. -/
example : ¬ ∀ x : F64, x.isFinite = true → |x.val| ≤ 708 → ∀ y, fast_exp x = some y → |y.real - Real.exp x.real| ≤ 2 ^ (-53 : ℤ) * |Real.exp x.real| := by
  intro h
  obtain ⟨x, y, hx, e, _, k⟩ := C106_exp.2
  have := h x hx.1 hx.2 y e
  norm_num at this k
  linarith

/-- The arguments of the witnesses are ordinary numbers: here those of the exponential function and of the arc sine, about `-0.31` and `0.97`. -/
example : |(⟨true, 4599267741542880360, by decide⟩ : F64).val + 0.31| ≤ 0.01 ∧ |(⟨false, 4606886995388211864, by decide⟩ : F64).val - 0.97| ≤ 0.01 := by decide +kernel

end Vdt
