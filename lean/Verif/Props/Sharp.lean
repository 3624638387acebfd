import Verif.Props.Isqrt

/-!
# The error of the reciprocal square root and of the reciprocal, up to a few percent (C104)

The number of correct digits of these functions is set by the starting value (`include/sqrt.h:43-45`): its relative error is at most `0.0344`, and each Newton step
squares it and multiplies by `3/2`. The bounds below hold at every normal argument, and for each of them there is an argument at which nearly the whole bound is used.
-/

namespace Vdt
open FP details
variable {f : Fmt}

/-! ## The first step -/

theorem sqrt_near_tight {X Y : ℝ} (hX : 0 < X) (hY : 0 ≤ Y) (h1 : 0.93243 ≤ X * (Y * Y)) (h2 : X * (Y * Y) ≤ 1.06913) :
    0.965624 ≤ Real.sqrt X * Y ∧ Real.sqrt X * Y ≤ 1.033988 := by
  have SS := Real.mul_self_sqrt hX.le
  have S0 := Real.sqrt_nonneg X
  generalize Real.sqrt X = S at *
  have e : X * (Y * Y) = (S * Y) * (S * Y) := by rw [← SS]; ring
  rw [e] at h1 h2
  have z0 : 0 ≤ S * Y := mul_nonneg S0 hY
  generalize S * Y = z at *
  constructor <;> nlinarith

/-- The exact iteration, starting within the range of `sqrt_near_tight`. -/
theorem newton_first {P : ℝ} (h1 : 0.965624 ≤ P) (h2 : P ≤ 1.033988) : |P * (3 / 2 - P * P / 2) - 1| ≤ 0.0017525 := by
  obtain ⟨d, rfl⟩ : ∃ d, P = 1 + d := ⟨P - 1, by ring⟩
  have e : (1 + d) * (3 / 2 - (1 + d) * (1 + d) / 2) - 1 = -(d * d * (3 + d) / 2) := by ring
  have k0 : 0 ≤ d * d * (3 + d) / 2 := by
    have := mul_nonneg (mul_self_nonneg d) (by linarith : (0 : ℝ) ≤ 3 + d)
    linarith
  rw [e, abs_neg, abs_of_nonneg k0]
  rcases le_total 0 d with hd | hd
  · have a : d * d ≤ 0.033988 * 0.033988 := mul_le_mul (by linarith) (by linarith) hd (by norm_num)
    have b : d * d * (3 + d) ≤ 0.033988 * 0.033988 * (3 + 0.033988) := mul_le_mul a (by linarith) (by linarith) (by norm_num)
    norm_num at b ⊢
    linarith
  · obtain ⟨t, rfl⟩ : ∃ t, d = -t := ⟨-d, by ring⟩
    have t0 : 0 ≤ t := by linarith
    have t1 : 0 ≤ 0.034376 - t := by linarith
    have k : 0 ≤ (0.034376 - t) * (3 * (0.034376 + t) - (0.034376 * 0.034376 + 0.034376 * t + t * t)) := by
      refine mul_nonneg t1 ?_
      nlinarith
    have : (0.034376 - t) * (3 * (0.034376 + t) - (0.034376 * 0.034376 + 0.034376 * t + t * t)) = 0.034376 * 0.034376 * (3 - 0.034376) - (-t) * (-t) * (3 + -t) := by ring
    norm_num at this k ⊢
    linarith

/-- All normal arguments, with at least one step. -/
theorem isqrt_normal_tight [f.Ok] {A : ℝ} {B Km : ℕ} (ok : NewtOk f A) (p : Policy) (st : StartOk f B Km) (hA : ((2 : ℚ) ^ f.emin : ℚ) = A) {x : FP f} (hx : x.Normal)
    (hs : x.sign = false) (e : ℕ → ℝ) (n : ℕ) (h0 : 0.0017525 + 5 * f.u ≤ e 0) (hes : ∀ i < n, 3 / 2 * e i ^ 2 + e i ^ 3 / 2 + 5 * f.u ≤ e (i + 1))
    (heb : ∀ i < n, e i ≤ 1 / 20) :
    (isqrtLoopC p (x * lit 0.5) (n + 1) (isqrtStart st x)).isFinite = true ∧
    |Real.sqrt x.real * (isqrtLoopC p (x * lit 0.5) (n + 1) (isqrtStart st x)).real - 1| ≤ e n := by
  have hm := mag_of_normal hx
  have v0 := val_nonneg_of_sign hs
  have lo : A ≤ x.real := by
    rw [← hA]; unfold FP.real
    have := hx.2
    rw [abs_of_nonneg v0] at this
    exact_mod_cast this
  have hi : x.real ≤ 2 * f.big := by
    have := finite_le_big hx.1
    rw [abs_of_nonneg v0] at this
    unfold FP.real
    exact_mod_cast this
  obtain ⟨hf, hp⟩ := half_err ok hx.1 hs lo
  obtain ⟨s1, s2, s3⟩ := start_prod_tight st hm.1 hm.2
  have yr : (isqrtStart st x).real = ((magVal f (B * 2 ^ f.mb + Km - x.mag / 2) : ℚ) : ℝ) := real_of_pos rfl
  have y0 : 0 ≤ (isqrtStart st x).real := by rw [yr]; exact_mod_cast magVal_nonneg _ _
  push_cast at s2 s3
  rw [← yr, ← real_of_pos hs] at s2 s3
  obtain ⟨q1, q2⟩ := sqrt_near_tight (ok.A0.trans_le lo) y0 s2 s3
  obtain ⟨r1, r2⟩ := newton_round ok (p n) lo hi hf hp (y := isqrtStart st x) (decide_eq_true s1) (by rw [abs_le]; constructor <;> linarith)
  have r3 := newton_first q1 q2
  refine newton_loop ok p lo hi hf hp e n hes heb _ r1 (le_trans ?_ h0)
  generalize Real.sqrt x.real * (isqrtStart st x).real = P at *
  generalize Real.sqrt x.real * (isqrtStart st x * nmad (p n) (x * lit 0.5 * isqrtStart st x) (isqrtStart st x) (lit 1.5)).real = R at *
  rw [show R - 1 = (P * (3 / 2 - P * P / 2) - 1) + (R - P * (3 / 2 - P * P / 2)) by ring]
  refine (abs_add_le _ _).trans ?_
  linarith

/-! ## The sequences of bounds -/

/-- Bounds after one, two, three and four steps in double precision. -/
noncomputable def tight64 : ℕ → ℝ
  | 0 => 0.001752501
  | 1 => 0.0000046096
  | 2 => 0.00000000003188
  | _ => 0.0000000000000005552

/-- Bounds after one and two steps in single precision. -/
noncomputable def tight32 : ℕ → ℝ
  | 0 => 0.0017528
  | _ => 0.00000491

theorem tight64_step : ∀ i < 3, 3 / 2 * tight64 i ^ 2 + tight64 i ^ 3 / 2 + 5 * b64.u ≤ tight64 (i + 1) := by
  intro i hi
  have : i = 0 ∨ i = 1 ∨ i = 2 := by omega
  rcases this with rfl | rfl | rfl <;> simp only [tight64, u64_val] <;> norm_num

theorem tight32_step : ∀ i < 1, 3 / 2 * tight32 i ^ 2 + tight32 i ^ 3 / 2 + 5 * b32.u ≤ tight32 (i + 1) := by
  intro i hi
  have : i = 0 := by omega
  subst this
  simp only [tight32, u32_val]; norm_num

theorem isqrt64_tight (p : Policy) {x : F64} (hx : x.Normal) (hs : x.sign = false) {n : ℕ} (hn : n ≤ 3) :
    (fast_isqrt_generalC p x (n + 1)).isFinite = true ∧ |Real.sqrt x.real * (fast_isqrt_generalC p x (n + 1)).real - 1| ≤ tight64 n := by
  rw [fast_isqrt_generalC_eq p hs]
  refine isqrt_normal_tight newt64 p start64 (by rw [p2_eq]; rfl) hx hs tight64 n (by simp only [tight64, u64_val]; norm_num) (fun i hi => tight64_step i (by omega))
    (fun i hi => ?_)
  have : i = 0 ∨ i = 1 ∨ i = 2 := by omega
  rcases this with rfl | rfl | rfl <;> simp only [tight64] <;> norm_num

theorem isqrt32_tight (p : Policy) {x : F32} (hx : x.Normal) (hs : x.sign = false) {n : ℕ} (hn : n ≤ 1) :
    (fast_isqrtf_generalC p x (n + 1)).isFinite = true ∧ |Real.sqrt x.real * (fast_isqrtf_generalC p x (n + 1)).real - 1| ≤ tight32 n := by
  rw [fast_isqrtf_generalC_eq p hs]
  refine isqrt_normal_tight newt32 p start32 (by rw [p2_eq]; rfl) hx hs tight32 n (by simp only [tight32, u32_val]; norm_num) (fun i hi => tight32_step i (by omega))
    (fun i hi => ?_)
  have : i = 0 := by omega
  subst this
  simp only [tight32]; norm_num

theorem inv64_tight (p : Policy) {x : F64} (hx : x.Normal) (hr : (2 : ℚ) ^ b64.emin ≤ |x.val|⁻¹) {n : ℕ} (hn : n ≤ 3) (he : tight64 n ≤ 0.01) :
    (fast_inv_generalC p x (n + 1)).isFinite = true ∧
    |(fast_inv_generalC p x (n + 1)).real - 1 / x.real| ≤ (2.01 * tight64 n + 1.03 * b64.u) * |1 / x.real| := by
  have hxa : (FP.abs x).Normal := ⟨by simpa using hx.1, by rw [val_abs, abs_abs]; exact hx.2⟩
  have n1 := isqrt64_tight p hxa (by simp) hn
  have ra : (FP.abs x).real = |x.real| := by unfold FP.real; rw [val_abs]; push_cast; rfl
  rw [ra] at n1
  have sq := square_acc newt64 (X := |x.real|) n1.1 ?_ ?_ n1.2 he
  · rw [fast_inv_general_eq p hx.1 (by omega)]
    refine ⟨?_, signed_inv sq.2⟩
    cases x.sign <;> simp [sq.1]
  · unfold FP.real; rw [p2_eq]; exact_mod_cast hx.2
  · unfold FP.real; rw [p2_eq, one_div]; exact_mod_cast hr

theorem inv32_tight (p : Policy) {x : F32} (hx : x.Normal) (hr : (2 : ℚ) ^ b32.emin ≤ |x.val|⁻¹) {n : ℕ} (hn : n ≤ 1) (he : tight32 n ≤ 0.01) :
    (fast_invf_generalC p x (n + 1)).isFinite = true ∧
    |(fast_invf_generalC p x (n + 1)).real - 1 / x.real| ≤ (2.01 * tight32 n + 1.03 * b32.u) * |1 / x.real| := by
  have hxa : (FP.abs x).Normal := ⟨by simpa using hx.1, by rw [val_abs, abs_abs]; exact hx.2⟩
  have n1 := isqrt32_tight p hxa (by simp) hn
  have ra : (FP.abs x).real = |x.real| := by unfold FP.real; rw [val_abs]; push_cast; rfl
  rw [ra] at n1
  have sq := square_acc newt32 (X := |x.real|) n1.1 ?_ ?_ n1.2 he
  · rw [fast_invf_general_eq p hx.1 (by omega)]
    refine ⟨?_, signed_inv sq.2⟩
    cases x.sign <;> simp [sq.1]
  · unfold FP.real; rw [p2_eq]; exact_mod_cast hx.2
  · unfold FP.real; rw [p2_eq, one_div]; exact_mod_cast hr

/-! ## Witnesses -/

/-- A number whose square times the argument is too small is far from the reciprocal square root. -/
theorem far_isqrt {x y : FP f} {ε : ℚ} (h0 : 0 < x.val) (h1 : x.val * (y.val * y.val) < (1 - ε) * (1 - ε)) (he : ε < 1) :
    ¬ y.CloseRel (1 / Real.sqrt x.real) ε := by
  rintro ⟨-, h⟩
  have x0 : 0 < x.real := by unfold FP.real; exact_mod_cast h0
  have S0 := Real.sqrt_pos.2 x0
  have SS := Real.mul_self_sqrt x0.le
  have h1' : x.real * (y.real * y.real) < (1 - ε) * (1 - ε) := by unfold FP.real; exact_mod_cast h1
  have he' : (ε : ℝ) < 1 := by exact_mod_cast he
  rw [← SS] at h1'
  generalize Real.sqrt x.real = S at *
  generalize y.real = Y at *
  rw [abs_of_pos (by positivity : 0 < 1 / S)] at h
  have k := (abs_le.1 h).1
  have k2 : 1 - ε ≤ S * Y := by
    have := mul_le_mul_of_nonneg_left k S0.le
    have e1 : S * -(ε * (1 / S)) = -ε := by field_simp
    have e2 : S * (Y - 1 / S) = S * Y - 1 := by field_simp
    rw [e1, e2] at this
    linarith
  have k3 : (1 - ε) * (1 - ε) ≤ (S * Y) * (S * Y) := mul_le_mul k2 k2 (by linarith) (by linarith)
  have : (S * Y) * (S * Y) = S * S * (Y * Y) := by ring
  linarith

/-- A number whose product with the argument is too small is far from the reciprocal. -/
theorem far_inv {x y : FP f} {ε : ℚ} (h0 : 0 < x.val) (h1 : x.val * y.val < 1 - ε) :
    ¬ y.CloseRel (1 / x.real) ε := by
  rintro ⟨-, h⟩
  have x0 : 0 < x.real := by unfold FP.real; exact_mod_cast h0
  have h1' : x.real * y.real < 1 - ε := by unfold FP.real; exact_mod_cast h1
  generalize x.real = X at *
  generalize y.real = Y at *
  rw [abs_of_pos (by positivity : 0 < 1 / X)] at h
  have k := (abs_le.1 h).1
  have := mul_le_mul_of_nonneg_left k x0.le
  have e1 : X * -(ε * (1 / X)) = -ε := by field_simp
  have e2 : X * (Y - 1 / X) = X * Y - 1 := by field_simp
  rw [e1, e2] at this
  linarith

/-! ## C104 -/

/-- The largest relative error of an approximation `g` of the function `h`, over the arguments in `D`, lies between `lo` and `hi`. -/
def WorstError (D : FP f → Prop) (g : FP f → FP f) (h : ℝ → ℝ) (lo hi : ℝ) : Prop :=
  (∀ x, D x → (g x).CloseRel (h x.real) hi) ∧ ∃ x, D x ∧ ¬ (g x).CloseRel (h x.real) lo

/-- Positive normal numbers. -/
def PosNormal (x : FP f) : Prop := x.Normal ∧ 0 < x.val

/-- Normal numbers whose reciprocal is no smaller than the smallest normal number. -/
def Invertible (x : FP f) : Prop := x.Normal ∧ (2 : ℚ) ^ f.emin ≤ |x.val|⁻¹

/-- **C104**, the reciprocal square root in single precision. -/
theorem C104_isqrtf :
    WorstError PosNormal fast_approx_isqrtf (fun x => 1 / Real.sqrt x) 0.00175233 0.0017528 ∧
    WorstError PosNormal fast_isqrtf (fun x => 1 / Real.sqrt x) 0.00000473 0.00000491 := by
  refine ⟨⟨fun x hx => ?_, ⟨false, 1080996800, by decide⟩, ?_, ?_⟩, ⟨fun x hx => ?_, ⟨false, 1081001760, by decide⟩, ?_, ?_⟩⟩
  · have k := isqrt32_tight (fun _ => false) hx.1 (sign_of_pos hx.2) (n := 0) (by norm_num)
    simp only [fast_isqrtf_plain] at k
    exact ⟨k.1, rel_of_scaled (Real.sqrt_pos.2 (by unfold FP.real; exact_mod_cast hx.2)) k.2⟩
  · refine ⟨⟨by decide +kernel, ?_⟩, by decide +kernel⟩
    rw [← p2_eq]; decide +kernel
  · have k := far_isqrt (f := b32) (x := ⟨false, 1080996800, by decide⟩) (y := fast_approx_isqrtf ⟨false, 1080996800, by decide⟩) (ε := 0.00175233)
      (by decide +kernel) (by decide +kernel) (by norm_num)
    push_cast at k
    exact k
  · have k := isqrt32_tight (fun _ => false) hx.1 (sign_of_pos hx.2) (n := 1) le_rfl
    simp only [fast_isqrtf_plain] at k
    exact ⟨k.1, rel_of_scaled (Real.sqrt_pos.2 (by unfold FP.real; exact_mod_cast hx.2)) k.2⟩
  · refine ⟨⟨by decide +kernel, ?_⟩, by decide +kernel⟩
    rw [← p2_eq]; decide +kernel
  · have k := far_isqrt (f := b32) (x := ⟨false, 1081001760, by decide⟩) (y := fast_isqrtf ⟨false, 1081001760, by decide⟩) (ε := 0.00000473)
      (by decide +kernel) (by decide +kernel) (by norm_num)
    push_cast at k
    exact k

/-- **C104**, the reciprocal square root in double precision. -/
theorem C104_isqrt :
    WorstError PosNormal fast_approx_isqrt (fun x => 1 / Real.sqrt x) 0.0000000000317 0.00000000003188 ∧
    WorstError PosNormal fast_isqrt (fun x => 1 / Real.sqrt x) 0.00000000000000027 0.0000000000000005552 := by
  refine ⟨⟨fun x hx => ?_, ⟨false, 4612984214981872320, by decide⟩, ?_, ?_⟩, ⟨fun x hx => ?_, ⟨false, 4616064902904769334, by decide⟩, ?_, ?_⟩⟩
  · have k := isqrt64_tight (fun _ => false) hx.1 (sign_of_pos hx.2) (n := 2) (by norm_num)
    simp only [fast_isqrt_plain] at k
    exact ⟨k.1, rel_of_scaled (Real.sqrt_pos.2 (by unfold FP.real; exact_mod_cast hx.2)) k.2⟩
  · refine ⟨⟨by decide +kernel, ?_⟩, by decide +kernel⟩
    rw [← p2_eq]; decide +kernel
  · have k := far_isqrt (f := b64) (x := ⟨false, 4612984214981872320, by decide⟩) (y := fast_approx_isqrt ⟨false, 4612984214981872320, by decide⟩) (ε := 0.0000000000317)
      (by decide +kernel) (by decide +kernel) (by norm_num)
    push_cast at k
    exact k
  · have k := isqrt64_tight (fun _ => false) hx.1 (sign_of_pos hx.2) (n := 3) le_rfl
    simp only [fast_isqrt_plain] at k
    exact ⟨k.1, rel_of_scaled (Real.sqrt_pos.2 (by unfold FP.real; exact_mod_cast hx.2)) k.2⟩
  · refine ⟨⟨by decide +kernel, ?_⟩, by decide +kernel⟩
    rw [← p2_eq]; decide +kernel
  · have k := far_isqrt (f := b64) (x := ⟨false, 4616064902904769334, by decide⟩) (y := fast_isqrt ⟨false, 4616064902904769334, by decide⟩) (ε := 0.00000000000000027)
      (by decide +kernel) (by decide +kernel) (by norm_num)
    push_cast at k
    exact k

/-- **C104**, the reciprocal in single precision. -/
theorem C104_invf :
    WorstError Invertible fast_approx_invf (fun x => 1 / x) 0.0035015 0.0035232 ∧
    WorstError Invertible fast_invf (fun x => 1 / x) 0.0000095 0.000009931 := by
  refine ⟨⟨fun x hx => ?_, ⟨false, 1080996800, by decide⟩, ?_, ?_⟩, ⟨fun x hx => ?_, ⟨false, 1081001760, by decide⟩, ?_, ?_⟩⟩
  · have k := inv32_tight (fun _ => false) hx.1 hx.2 (n := 0) (by norm_num) (by simp only [tight32]; norm_num)
    simp only [fast_invf_plain] at k
    refine ⟨k.1, k.2.trans (mul_le_mul_of_nonneg_right ?_ (abs_nonneg _))⟩
    simp only [tight32, u32_val]; norm_num
  · refine ⟨⟨by decide +kernel, ?_⟩, ?_⟩ <;> (rw [← p2_eq]; decide +kernel)
  · have k := far_inv (f := b32) (x := ⟨false, 1080996800, by decide⟩) (y := fast_approx_invf ⟨false, 1080996800, by decide⟩) (ε := 0.0035015)
      (by decide +kernel) (by decide +kernel)
    push_cast at k
    exact k
  · have k := inv32_tight (fun _ => false) hx.1 hx.2 (n := 1) le_rfl (by simp only [tight32]; norm_num)
    simp only [fast_invf_plain] at k
    refine ⟨k.1, k.2.trans (mul_le_mul_of_nonneg_right ?_ (abs_nonneg _))⟩
    simp only [tight32, u32_val]; norm_num
  · refine ⟨⟨by decide +kernel, ?_⟩, ?_⟩ <;> (rw [← p2_eq]; decide +kernel)
  · have k := far_inv (f := b32) (x := ⟨false, 1081001760, by decide⟩) (y := fast_invf ⟨false, 1081001760, by decide⟩) (ε := 0.0000095)
      (by decide +kernel) (by decide +kernel)
    push_cast at k
    exact k

/-- **C104**, the reciprocal in double precision. -/
theorem C104_inv :
    WorstError Invertible fast_approx_inv (fun x => 1 / x) 0.0000000000634 0.00000000006409 ∧
    WorstError Invertible fast_inv (fun x => 1 / x) 0.00000000000000061 0.000000000000001231 := by
  refine ⟨⟨fun x hx => ?_, ⟨false, 4612984214981872320, by decide⟩, ?_, ?_⟩, ⟨fun x hx => ?_, ⟨false, 4615202735127115992, by decide⟩, ?_, ?_⟩⟩
  · have k := inv64_tight (fun _ => false) hx.1 hx.2 (n := 2) (by norm_num) (by simp only [tight64]; norm_num)
    simp only [fast_inv_plain] at k
    refine ⟨k.1, k.2.trans (mul_le_mul_of_nonneg_right ?_ (abs_nonneg _))⟩
    simp only [tight64, u64_val]; norm_num
  · refine ⟨⟨by decide +kernel, ?_⟩, ?_⟩ <;> (rw [← p2_eq]; decide +kernel)
  · have k := far_inv (f := b64) (x := ⟨false, 4612984214981872320, by decide⟩) (y := fast_approx_inv ⟨false, 4612984214981872320, by decide⟩) (ε := 0.0000000000634)
      (by decide +kernel) (by decide +kernel)
    push_cast at k
    exact k
  · have k := inv64_tight (fun _ => false) hx.1 hx.2 (n := 3) le_rfl (by simp only [tight64]; norm_num)
    simp only [fast_inv_plain] at k
    refine ⟨k.1, k.2.trans (mul_le_mul_of_nonneg_right ?_ (abs_nonneg _))⟩
    simp only [tight64, u64_val]; norm_num
  · refine ⟨⟨by decide +kernel, ?_⟩, ?_⟩ <;> (rw [← p2_eq]; decide +kernel)
  · have k := far_inv (f := b64) (x := ⟨false, 4615202735127115992, by decide⟩) (y := fast_inv ⟨false, 4615202735127115992, by decide⟩) (ε := 0.00000000000000061)
      (by decide +kernel) (by decide +kernel)
    push_cast at k
    exact k

end Vdt
