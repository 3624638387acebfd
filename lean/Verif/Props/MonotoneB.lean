import Verif.Props.ExpAcc
import Verif.Props.Tanh
import Verif.Props.Isqrt

/-!
C85 for the functions that do **not** keep the order of their arguments: the exponential, the
hyperbolic tangent, the inverse square root and the reciprocal.  Each has two neighbouring arguments
whose results are in the wrong order, so the property fails; what remains true is that arguments a few
units in the last place apart are never exchanged (exponential, inverse square root, reciprocal), or
that the results are exchanged by no more than the error bound (hyperbolic tangent).
-/

namespace Vdt

open FP

/-- Order preservation and order reversal, for a function that may be undefined. -/
def KeepsOrder {f : Fmt} (g : FP f → Option (FP f)) : Prop :=
  ∀ x y a b : FP f, FP.le x y = true → g x = some a → g y = some b → FP.le a b = true

def ReversesOrder {f : Fmt} (g : FP f → Option (FP f)) : Prop :=
  ∀ x y a b : FP f, 0 < x.val → FP.le x y = true → g x = some a → g y = some b → FP.le b a = true

/-- Four functions that should be increasing and four that should be decreasing on the positive
numbers, each with a pair of neighbouring arguments (about 0.3466, 0.2983 and 1.4142) that they
exchange. -/
theorem C85_violated :
    ¬ KeepsOrder fast_exp ∧ ¬ KeepsOrder fast_expf ∧
    ¬ KeepsOrder (fun x => some (fast_tanh x)) ∧ ¬ KeepsOrder (fun x => some (fast_tanhf x)) ∧
    ¬ ReversesOrder (fun x => some (fast_isqrt x)) ∧ ¬ ReversesOrder (fun x => some (fast_isqrtf x)) ∧
    ¬ ReversesOrder (fun x => some (fast_inv x)) ∧ ¬ ReversesOrder (fun x => some (fast_invf x)) := by
  have e : ∀ {f : Fmt} (g : FP f → Option (FP f)) (x y : FP f) (d : FP f),
      (FP.le x y = true ∧ (g x).isSome = true ∧ (g y).isSome = true ∧ FP.le ((g x).getD d) ((g y).getD d) = false) → ¬ KeepsOrder g := by
    intro f g x y d ⟨h1, h2, h3, h4⟩ k
    obtain ⟨a, ha⟩ := Option.isSome_iff_exists.mp h2
    obtain ⟨b, hb⟩ := Option.isSome_iff_exists.mp h3
    have := k x y a b h1 ha hb
    rw [ha, hb] at h4
    simp only [Option.getD_some] at h4
    rw [h4] at this
    exact absurd this (by decide)
  have r : ∀ {f : Fmt} (g : FP f → FP f) (x y : FP f),
      (0 < x.val ∧ FP.le x y = true ∧ FP.le (g y) (g x) = false) → ¬ ReversesOrder (fun x => some (g x)) := by
    intro f g x y ⟨h0, h1, h4⟩ k
    have := k x y _ _ h0 h1 rfl rfl
    rw [h4] at this
    exact absurd this (by decide)
  refine ⟨e _ (ofBits 4599914934686071286#64) (ofBits 4599914934686071287#64) pzero (by decide +kernel),
    e _ (ofBits 1051828848#32) (ofBits 1051828849#32) pzero (by decide +kernel),
    e _ (ofBits 4599075939729751292#64) (ofBits 4599075939729751293#64) pzero (by decide +kernel),
    e _ (ofBits 1050254691#32) (ofBits 1050254692#32) pzero (by decide +kernel),
    r _ (ofBits 4608533498689228560#64) (ofBits 4608533498689228561#64) (by decide +kernel),
    r _ (ofBits 1067869934#32) (ofBits 1067869935#32) (by decide +kernel),
    r _ (ofBits 4608533498689228560#64) (ofBits 4608533498689228561#64) (by decide +kernel),
    r _ (ofBits 1067869934#32) (ofBits 1067869935#32) (by decide +kernel)⟩

/-- Approximations of two positive numbers with a ratio above `1 + d` are in the right order. -/
theorem le_of_gap {a b A B e d : ℝ} (ha : |a - A| ≤ e * |A|) (hb : |b - B| ≤ e * |B|) (hA : 0 < A) (h : A * (1 + d) ≤ B)
    (he : 0 ≤ e) (he1 : e ≤ 1) (hd : 0 ≤ d) (hed : 2 * e + e * d ≤ d) : a ≤ b := by
  have hB : 0 < B := lt_of_lt_of_le (by positivity) h
  rw [abs_of_pos hA] at ha
  rw [abs_of_pos hB] at hb
  have h1 := (abs_le.mp ha).2
  have h2 := (abs_le.mp hb).1
  have h3 : (1 - e) * (A * (1 + d)) ≤ (1 - e) * B := mul_le_mul_of_nonneg_left h (by linarith)
  have h4 : A * (2 * e + e * d) ≤ A * d := mul_le_mul_of_nonneg_left hed hA.le
  nlinarith

theorem le_of_real {f : Fmt} {a b : FP f} (ha : a.isFinite = true) (hb : b.isFinite = true) (h : a.real ≤ b.real) : FP.le a b = true :=
  (le_fin ha hb).trans (decide_eq_true (by unfold FP.real at h; exact_mod_cast h))

theorem exp_gap {x y d : ℝ} (h : x + d ≤ y) : Real.exp x * (1 + d) ≤ Real.exp y := by
  have h1 : Real.exp x * (1 + d) ≤ Real.exp x * Real.exp d :=
    mul_le_mul_of_nonneg_left (by linarith [Real.add_one_le_exp d]) (Real.exp_pos _).le
  rw [← Real.exp_add] at h1
  exact h1.trans (Real.exp_le_exp.mpr h)

/-- Arguments of `fast_exp` that differ by `2^-49` are kept in order. -/
theorem C85_exp_partial (x y : F64) (hx : x.isFinite = true) (hy : y.isFinite = true) (h1 : |x.val| ≤ 708) (h2 : |y.val| ≤ 708)
    (h : x.val + 2 ^ (-49 : ℤ) ≤ y.val) : ∃ a b, fast_exp x = some a ∧ fast_exp y = some b ∧ FP.le a b = true := by
  obtain ⟨a, ha, _, hac⟩ := C01_exp_accurate x hx h1
  obtain ⟨b, hb, _, hbc⟩ := C01_exp_accurate y hy h2
  have hg : x.real + 2 ^ (-49 : ℤ) ≤ y.real := by
    refine le_trans (le_of_eq ?_) (Rat.cast_le.mpr h)
    unfold FP.real
    norm_num
  refine ⟨a, b, ha, hb, le_of_real hac.1 hbc.1 (le_of_gap hac.2 hbc.2 (Real.exp_pos _) (exp_gap hg) ?_ ?_ ?_ ?_)⟩ <;> norm_num

/-- Arguments of `fast_expf` that differ by `2^-20` are kept in order. -/
theorem C85_expf_partial (x y : F32) (hx : x.isFinite = true) (hy : y.isFinite = true) (h1 : -87.25 ≤ x.val) (h2 : y.val ≤ 88.35)
    (h : x.val + 2 ^ (-20 : ℤ) ≤ y.val) : ∃ a b, fast_expf x = some a ∧ fast_expf y = some b ∧ FP.le a b = true := by
  have h0 : (0 : ℚ) < 2 ^ (-20 : ℤ) := by norm_num
  obtain ⟨a, ha, _, hac⟩ := C03_expf_accurate x hx h1 (by linarith)
  obtain ⟨b, hb, _, hbc⟩ := C03_expf_accurate y hy (by linarith) h2
  have hg : x.real + 2 ^ (-20 : ℤ) ≤ y.real := by
    refine le_trans (le_of_eq ?_) (Rat.cast_le.mpr h)
    unfold FP.real
    norm_num
  refine ⟨a, b, ha, hb, le_of_real hac.1 hbc.1 (le_of_gap hac.2 hbc.2 (Real.exp_pos _) (exp_gap hg) ?_ ?_ ?_ ?_)⟩ <;> norm_num

theorem isqrt_gap {x y d : ℝ} (hx : 0 < x) (hd : 0 ≤ d) (h : x * (1 + d) ^ 2 ≤ y) : 1 / Real.sqrt y * (1 + d) ≤ 1 / Real.sqrt x := by
  have h1 : Real.sqrt x * (1 + d) ≤ Real.sqrt y := by
    have := Real.sqrt_le_sqrt h
    rwa [Real.sqrt_mul hx.le, Real.sqrt_sq (by linarith)] at this
  have h2 := Real.sqrt_pos.mpr hx
  have h3 : 0 < Real.sqrt y := lt_of_lt_of_le (by positivity) h1
  rw [div_mul_eq_mul_div, one_mul, div_le_div_iff₀ h3 h2]
  linarith

/-- Positive normal arguments of `fast_isqrt` with a ratio of at least `(1 + 2^-48)^2`, that is about
`1 + 2^-47`, are reversed by it. -/
theorem C85_isqrt_partial {x y : F64} (hx : x.Normal) (hy : y.Normal) (hpos : 0 < x.val) (h : x.val * (1 + 2⁻¹ ^ 48) ^ 2 ≤ y.val) :
    FP.le (fast_isqrt y) (fast_isqrt x) = true := by
  have hpy : 0 < y.val := lt_of_lt_of_le (by positivity) h
  have ha := (C29_isqrt_accurate hx hpos).1
  have hb := (C29_isqrt_accurate hy hpy).1
  have hg : x.real * (1 + 2⁻¹ ^ 48) ^ 2 ≤ y.real := by
    refine le_trans (le_of_eq ?_) (Rat.cast_le.mpr h)
    unfold FP.real
    norm_num
  have h0 : 0 < x.real := by unfold FP.real; exact_mod_cast hpos
  have h1 : 0 < y.real := by unfold FP.real; exact_mod_cast hpy
  refine le_of_real hb.1 ha.1 (le_of_gap hb.2 ha.2 (by positivity) (isqrt_gap h0 (by norm_num) hg) ?_ ?_ ?_ ?_) <;> norm_num

/-- The same for `fast_isqrtf`, with a ratio of about `1 + 2^-14`. -/
theorem C85_isqrtf_partial {x y : F32} (hx : x.Normal) (hy : y.Normal) (hpos : 0 < x.val) (h : x.val * (1 + 2⁻¹ ^ 15) ^ 2 ≤ y.val) :
    FP.le (fast_isqrtf y) (fast_isqrtf x) = true := by
  have hpy : 0 < y.val := lt_of_lt_of_le (by positivity) h
  have ha := (C30_isqrtf_accurate hx hpos).1
  have hb := (C30_isqrtf_accurate hy hpy).1
  have hg : x.real * (1 + 2⁻¹ ^ 15) ^ 2 ≤ y.real := by
    refine le_trans (le_of_eq ?_) (Rat.cast_le.mpr h)
    unfold FP.real
    norm_num
  have h0 : 0 < x.real := by unfold FP.real; exact_mod_cast hpos
  have h1 : 0 < y.real := by unfold FP.real; exact_mod_cast hpy
  refine le_of_real hb.1 ha.1 (le_of_gap hb.2 ha.2 (by positivity) (isqrt_gap h0 (by norm_num) hg) ?_ ?_ ?_ ?_) <;> norm_num

theorem inv_gap {x y d : ℝ} (hx : 0 < x) (hd : 0 ≤ d) (h : x * (1 + d) ≤ y) : 1 / y * (1 + d) ≤ 1 / x := by
  have h3 : 0 < y := lt_of_lt_of_le (by positivity) h
  rw [div_mul_eq_mul_div, one_mul, div_le_div_iff₀ h3 hx]
  linarith

/-- Positive normal arguments of `fast_inv` with normal reciprocals and a ratio of at least `1 + 2^-47`
are reversed by it. -/
theorem C85_inv_partial {x y : F64} (hx : x.Normal) (hy : y.Normal) (hpos : 0 < x.val) (hr : (2 : ℚ) ^ b64.emin ≤ |y.val|⁻¹)
    (h : x.val * (1 + 2⁻¹ ^ 47) ≤ y.val) : FP.le (fast_inv y) (fast_inv x) = true := by
  have hpy : 0 < y.val := lt_of_lt_of_le (by positivity) h
  have hxy : x.val ≤ y.val := le_trans (le_mul_of_one_le_right hpos.le (by norm_num)) h
  have hrx : (2 : ℚ) ^ b64.emin ≤ |x.val|⁻¹ := by
    refine hr.trans (inv_anti₀ (abs_pos.mpr hpos.ne') ?_)
    rwa [abs_of_pos hpos, abs_of_pos hpy]
  have ha := (C31_inv_accurate hx hrx).1.1
  have hb := (C31_inv_accurate hy hr).1.1
  have hg : x.real * (1 + 2⁻¹ ^ 47) ≤ y.real := by
    refine le_trans (le_of_eq ?_) (Rat.cast_le.mpr h)
    unfold FP.real
    norm_num
  have h0 : 0 < x.real := by unfold FP.real; exact_mod_cast hpos
  have h1 : 0 < y.real := by unfold FP.real; exact_mod_cast hpy
  refine le_of_real hb.1 ha.1 (le_of_gap hb.2 ha.2 (by positivity) (inv_gap h0 (by norm_num) hg) ?_ ?_ ?_ ?_) <;> norm_num

/-- The same for `fast_invf`, with a ratio of at least `1 + 2^-14`. -/
theorem C85_invf_partial {x y : F32} (hx : x.Normal) (hy : y.Normal) (hpos : 0 < x.val) (hr : (2 : ℚ) ^ b32.emin ≤ |y.val|⁻¹)
    (h : x.val * (1 + 2⁻¹ ^ 14) ≤ y.val) : FP.le (fast_invf y) (fast_invf x) = true := by
  have hpy : 0 < y.val := lt_of_lt_of_le (by positivity) h
  have hxy : x.val ≤ y.val := le_trans (le_mul_of_one_le_right hpos.le (by norm_num)) h
  have hrx : (2 : ℚ) ^ b32.emin ≤ |x.val|⁻¹ := by
    refine hr.trans (inv_anti₀ (abs_pos.mpr hpos.ne') ?_)
    rwa [abs_of_pos hpos, abs_of_pos hpy]
  have ha := (C31_invf_accurate hx hrx).1.1
  have hb := (C31_invf_accurate hy hr).1.1
  have hg : x.real * (1 + 2⁻¹ ^ 14) ≤ y.real := by
    refine le_trans (le_of_eq ?_) (Rat.cast_le.mpr h)
    unfold FP.real
    norm_num
  have h0 : 0 < x.real := by unfold FP.real; exact_mod_cast hpos
  have h1 : 0 < y.real := by unfold FP.real; exact_mod_cast hpy
  refine le_of_real hb.1 ha.1 (le_of_gap hb.2 ha.2 (by positivity) (inv_gap h0 (by norm_num) hg) ?_ ?_ ?_ ?_) <;> norm_num

/-- The hyperbolic tangent exchanges two results by no more than its error bound. -/
theorem C85_tanh_partial (x y : F64) (hx : x.isFinite = true) (hy : y.isFinite = true) (h : x.val ≤ y.val) :
    (fast_tanh x).val ≤ (fast_tanh y).val + 2 ^ (-48 : ℤ) + 2 ^ (-1069 : ℤ) := by
  have ha := C17_tanh_accurate x hx
  have hb := C17_tanh_accurate y hy
  have hm : Real.tanh x.real ≤ Real.tanh y.real :=
    tanh_mono (by unfold FP.real; exact_mod_cast h)
  have t1 := (Real.abs_tanh_lt_one x.real).le
  have t2 := (Real.abs_tanh_lt_one y.real).le
  have e : (0 : ℝ) < 2 ^ (-49 : ℤ) := by positivity
  have hs : (2 : ℝ) ^ (-48 : ℤ) = 2 * 2 ^ (-49 : ℤ) := by norm_num
  have ht : (2 : ℝ) ^ (-1069 : ℤ) = 2 * 2 ^ (-1070 : ℤ) := by
    rw [show (-1069 : ℤ) = 1 + (-1070) by norm_num, zpow_add₀ (by norm_num), zpow_one]
  have k : (fast_tanh x).real ≤ (fast_tanh y).real + 2 ^ (-48 : ℤ) + 2 ^ (-1069 : ℤ) := by
    rw [hs, ht]
    generalize (2 : ℝ) ^ (-1070 : ℤ) = z at *
    have := mul_le_mul_of_nonneg_left t1 e.le
    have := mul_le_mul_of_nonneg_left t2 e.le
    have := (abs_le.mp ha).2
    have := (abs_le.mp hb).1
    linarith
  refine (Rat.cast_le (K := ℝ)).mp (k.trans (le_of_eq ?_))
  unfold FP.real
  generalize (-1069 : ℤ) = z
  push_cast
  rfl

/-- The same for `fast_tanhf`. -/
theorem C85_tanhf_partial (x y : F32) (hx : x.isFinite = true) (hy : y.isFinite = true) (h : x.val ≤ y.val) :
    (fast_tanhf x).val ≤ (fast_tanhf y).val + 2 ^ (-19 : ℤ) + 2 ^ (-144 : ℤ) := by
  have ha := C18_tanhf_accurate x hx
  have hb := C18_tanhf_accurate y hy
  have hm : Real.tanh x.real ≤ Real.tanh y.real :=
    tanh_mono (by unfold FP.real; exact_mod_cast h)
  have t1 := (Real.abs_tanh_lt_one x.real).le
  have t2 := (Real.abs_tanh_lt_one y.real).le
  have e : (0 : ℝ) < 2 ^ (-20 : ℤ) := by positivity
  have hs : (2 : ℝ) ^ (-19 : ℤ) = 2 * 2 ^ (-20 : ℤ) := by norm_num
  have ht : (2 : ℝ) ^ (-144 : ℤ) = 2 * 2 ^ (-145 : ℤ) := by
    rw [show (-144 : ℤ) = 1 + (-145) by norm_num, zpow_add₀ (by norm_num), zpow_one]
  have k : (fast_tanhf x).real ≤ (fast_tanhf y).real + 2 ^ (-19 : ℤ) + 2 ^ (-144 : ℤ) := by
    rw [hs, ht]
    generalize (2 : ℝ) ^ (-145 : ℤ) = z at *
    have := mul_le_mul_of_nonneg_left t1 e.le
    have := mul_le_mul_of_nonneg_left t2 e.le
    have := (abs_le.mp ha).2
    have := (abs_le.mp hb).1
    linarith
  refine (Rat.cast_le (K := ℝ)).mp (k.trans (le_of_eq ?_))
  unfold FP.real
  generalize (-144 : ℤ) = z
  push_cast
  rfl

/-- Numbers a few units apart meet the hypotheses of the eight statements. -/
example : (lit 1 : F64).val + 2 ^ (-49 : ℤ) ≤ (ofBits 4607182418800017416#64 : F64).val ∧
    (lit 1 : F32).val + 2 ^ (-20 : ℤ) ≤ (ofBits 1065353224#32 : F32).val ∧
    (lit 1 : F64).val * (1 + 2⁻¹ ^ 48) ^ 2 ≤ (ofBits 4607182418800017441#64 : F64).val ∧
    (lit 1 : F32).val * (1 + 2⁻¹ ^ 15) ^ 2 ≤ (ofBits 1065353729#32 : F32).val ∧
    (lit 1 : F64).val * (1 + 2⁻¹ ^ 47) ≤ (ofBits 4607182418800017440#64 : F64).val ∧
    (lit 1 : F32).val * (1 + 2⁻¹ ^ 14) ≤ (ofBits 1065353728#32 : F32).val ∧
    (ofBits 4607182418800017441#64 : F64).val < 1 + 2⁻¹ ^ 46 ∧ (ofBits 1065353729#32 : F32).val < 1 + 2⁻¹ ^ 13 ∧
    (fast_tanh (ofBits 4599075939729751292#64)).val ≤ (fast_tanh (ofBits 4599075939729751293#64)).val + 2 ^ (-53 : ℤ) := by
  decide +kernel

example : (lit 1 : F64).Normal ∧ (ofBits 4607182418800017441#64 : F64).Normal ∧ (2 : ℚ) ^ b64.emin ≤ |(ofBits 4607182418800017441#64 : F64).val|⁻¹ ∧
    (lit 1 : F32).Normal ∧ (ofBits 1065353729#32 : F32).Normal ∧ (2 : ℚ) ^ b32.emin ≤ |(ofBits 1065353729#32 : F32).val|⁻¹ := by
  unfold FP.Normal
  decide +kernel

end Vdt
