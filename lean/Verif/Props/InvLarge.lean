import Verif.Props.Isqrt

/-!
# C31, continued: arguments whose reciprocal is subnormal

The largest normal numbers have subnormal reciprocals.  There the relative error grows, as it must, but the absolute error is the
relative error of the iteration plus half of the smallest positive number.
-/

namespace Vdt
open FP details
variable {f : Fmt}

theorem square_acc_all [f.Ok] {A : ℝ} (ok : NewtOk f A) {X e : ℝ} {s : FP f} (hs : s.isFinite = true) (hX : A ≤ X)
    (h : |Real.sqrt X * s.real - 1| ≤ e) (he : e ≤ 0.01) :
    (mul s s).isFinite = true ∧ |(mul s s).real - 1 / X| ≤ (2.01 * e + 1.03 * f.u) * (1 / X) + (f.eta : ℝ) := by
  have X0 : 0 < X := ok.A0.trans_le hX
  have SS := Real.mul_self_sqrt X0.le
  have S0 := Real.sqrt_pos.2 X0
  generalize Real.sqrt X = S at *
  obtain ⟨p1, p2⟩ := sq_rel_err h he
  have iX : 0 < 1 / X := by positivity
  have ev : s.real * s.real = (S * s.real) * (S * s.real) * (1 / X) := by
    rw [← SS]; field_simp
  have s0 : 0 ≤ s.real * s.real := mul_self_nonneg _
  have u0 := ok.u0
  have le : s.real * s.real ≤ 1.03 * (1 / X) := by rw [ev]; exact mul_le_mul_of_nonneg_right p2 iX.le
  have iXA : 1 / X ≤ f.big / 2 := by
    rw [div_le_div_iff₀ X0 (by norm_num)]
    have := ok.big
    have : f.big * A ≤ f.big * X := mul_le_mul_of_nonneg_left hX (by exact_mod_cast (p2_pos _).le)
    linarith
  have e1 : s.real * s.real = ((s.val * s.val : ℚ) : ℝ) := by unfold FP.real; push_cast; rfl
  have hb : |s.val * s.val| ≤ f.big := by
    have : ((|s.val * s.val| : ℚ) : ℝ) ≤ f.big := by rw [Rat.cast_abs, ← e1, abs_of_nonneg s0]; linarith
    exact_mod_cast this
  have sp := mul_spec hs hs hb
  refine ⟨sp.1, ?_⟩
  have e2 : (mul s s).real = ((rnd f (s.val * s.val) : ℚ) : ℝ) := by unfold FP.real; rw [sp.2]
  have r : |((rnd f (s.val * s.val) - s.val * s.val : ℚ) : ℝ)| ≤ f.u * |((s.val * s.val : ℚ) : ℝ)| + f.eta := by exact_mod_cast rnd_err_add f hb
  rw [Rat.cast_sub, ← e2, ← e1, abs_of_nonneg s0] at r
  have d : |s.real * s.real - 1 / X| ≤ 2.01 * e * (1 / X) := by
    have : s.real * s.real - 1 / X = ((S * s.real) * (S * s.real) - 1) * (1 / X) := by rw [ev]; ring
    rw [this, abs_mul, abs_of_pos iX]
    exact mul_le_mul_of_nonneg_right p1 iX.le
  have le' := mul_le_mul_of_nonneg_left le u0.le
  calc |(mul s s).real - 1 / X| ≤ |(mul s s).real - s.real * s.real| + |s.real * s.real - 1 / X| := abs_sub_le _ _ _
    _ ≤ _ := by linarith

/-- `signed_inv` with an absolute part. -/
theorem signed_inv_abs {x r : FP f} {ε η : ℝ} (x0 : 0 < |x.real|) (h : |r.real - 1 / (|x.real|)| ≤ ε * (1 / |x.real|) + η) :
    |(bif x.sign then neg r else r).real - 1 / x.real| ≤ ε * |1 / x.real| + η := by
  have e : (ε + η * |x.real|) * (1 / |x.real|) = ε * (1 / |x.real|) + η := by field_simp
  have := signed_inv (x := x) (r := r) (ε := ε + η * |x.real|) (by rw [e]; exact h)
  rwa [abs_div, abs_one, e] at *

theorem inv64_all (p : Policy) {x : F64} (hx : x.Normal) {n : ℕ} (hn : n ≤ 4) (he : err64 n ≤ 0.01) :
    (fast_inv_generalC p x n).isFinite = true ∧ (fast_inv_generalC p x n).sign = x.sign ∧
    |(fast_inv_generalC p x n).real - 1 / x.real| ≤ (2.01 * err64 n + 1.03 * b64.u) * |1 / x.real| + (b64.eta : ℝ) := by
  have hxa : (FP.abs x).Normal := ⟨by simpa using hx.1, by rw [val_abs, abs_abs]; exact hx.2⟩
  have n1 := isqrt64_normal p hxa (by simp) hn
  have p1 := isqrt64_pos p (x := FP.abs x) (by simpa using hx.1) (by simp) hn
  have ra : (FP.abs x).real = |x.real| := by unfold FP.real; rw [val_abs]; push_cast; rfl
  rw [ra] at n1
  have sq := square_acc_all newt64 (X := |x.real|) n1.1 ?_ n1.2 he
  · rw [fast_inv_general_eq p hx.1 hn]
    have ms := mul_fin_sign n1.1 n1.1
    rw [Bool.xor_self] at ms
    have x0 : 0 < |x.real| := by
      unfold FP.real
      have : 0 < |x.val| := lt_of_lt_of_le (by positivity) hx.2
      exact_mod_cast this
    refine ⟨?_, ?_, signed_inv_abs x0 sq.2⟩
    · cases x.sign <;> simp [sq.1]
    · cases x.sign <;> simp [ms]
  · unfold FP.real; rw [p2_eq]; exact_mod_cast hx.2

theorem inv32_all (p : Policy) {x : F32} (hx : x.Normal) {n : ℕ} (hn : n ≤ 2) (he : err32 n ≤ 0.01) :
    (fast_invf_generalC p x n).isFinite = true ∧ (fast_invf_generalC p x n).sign = x.sign ∧
    |(fast_invf_generalC p x n).real - 1 / x.real| ≤ (2.01 * err32 n + 1.03 * b32.u) * |1 / x.real| + (b32.eta : ℝ) := by
  have hxa : (FP.abs x).Normal := ⟨by simpa using hx.1, by rw [val_abs, abs_abs]; exact hx.2⟩
  have n1 := isqrt32_normal p hxa (by simp) hn
  have p1 := isqrt32_pos p (x := FP.abs x) (by simpa using hx.1) (by simp) hn
  have ra : (FP.abs x).real = |x.real| := by unfold FP.real; rw [val_abs]; push_cast; rfl
  rw [ra] at n1
  have sq := square_acc_all newt32 (X := |x.real|) n1.1 ?_ n1.2 he
  · rw [fast_invf_general_eq p hx.1 hn]
    have ms := mul_fin_sign n1.1 n1.1
    rw [Bool.xor_self] at ms
    have x0 : 0 < |x.real| := by
      unfold FP.real
      have : 0 < |x.val| := lt_of_lt_of_le (by positivity) hx.2
      exact_mod_cast this
    refine ⟨?_, ?_, signed_inv_abs x0 sq.2⟩
    · cases x.sign <;> simp [sq.1]
    · cases x.sign <;> simp [ms]
  · unfold FP.real; rw [p2_eq]; exact_mod_cast hx.2

/-- **C31**, all normal numbers of double precision, with any choice of contracted operations: the relative errors of `C31_inv_accurate` and
half of the smallest positive number. -/
theorem C31_inv_all (p : Policy) {x : F64} (hx : x.Normal) :
    ((fast_inv_generalC p x 4).isFinite = true ∧ |(fast_inv_generalC p x 4).real - 1 / x.real| ≤ (2 : ℝ)⁻¹ ^ 49 * |1 / x.real| + 2 ^ (-1075 : ℤ)) ∧
    (fast_inv_generalC p x 4).sign = x.sign ∧
    ((fast_inv_generalC p x 3).isFinite = true ∧ |(fast_inv_generalC p x 3).real - 1 / x.real| ≤ (2 : ℝ)⁻¹ ^ 33 * |1 / x.real| + 2 ^ (-1075 : ℤ)) ∧
    (fast_inv_generalC p x 3).sign = x.sign := by
  obtain ⟨a1, a2, a3⟩ := inv64_all p hx (n := 4) le_rfl (by simp only [err64, u64_val]; norm_num)
  obtain ⟨b1, b2, b3⟩ := inv64_all p hx (n := 3) (by norm_num) (by simp only [err64]; norm_num)
  have e : (b64.eta : ℝ) = 2 ^ (-1075 : ℤ) := by
    unfold Fmt.eta
    rw [show b64.emin - b64.mb - 1 = -1075 by decide, p2_eq]
    push_cast
    rfl
  rw [e] at a3 b3
  generalize (2 : ℝ) ^ (-1075 : ℤ) = η at *
  refine ⟨⟨a1, a3.trans (add_le_add_left (mul_le_mul_of_nonneg_right ?_ (abs_nonneg _)) _)⟩, a2,
    ⟨b1, b3.trans (add_le_add_left (mul_le_mul_of_nonneg_right ?_ (abs_nonneg _)) _)⟩, b2⟩
  · simp only [err64, u64_val]; norm_num
  · simp only [err64, u64_val]; norm_num

/-- **C31**, all normal numbers of single precision. -/
theorem C31_invf_all (p : Policy) {x : F32} (hx : x.Normal) :
    ((fast_invf_generalC p x 2).isFinite = true ∧ |(fast_invf_generalC p x 2).real - 1 / x.real| ≤ (2 : ℝ)⁻¹ ^ 16 * |1 / x.real| + 2 ^ (-150 : ℤ)) ∧
    (fast_invf_generalC p x 2).sign = x.sign ∧
    ((fast_invf_generalC p x 1).isFinite = true ∧ |(fast_invf_generalC p x 1).real - 1 / x.real| ≤ (2 : ℝ)⁻¹ ^ 8 * |1 / x.real| + 2 ^ (-150 : ℤ)) ∧
    (fast_invf_generalC p x 1).sign = x.sign := by
  obtain ⟨a1, a2, a3⟩ := inv32_all p hx (n := 2) le_rfl (by simp only [err32]; norm_num)
  obtain ⟨b1, b2, b3⟩ := inv32_all p hx (n := 1) (by norm_num) (by simp only [err32]; norm_num)
  have e : (b32.eta : ℝ) = 2 ^ (-150 : ℤ) := by
    unfold Fmt.eta
    rw [show b32.emin - b32.mb - 1 = -150 by decide, p2_eq]
    push_cast
    rfl
  rw [e] at a3 b3
  generalize (2 : ℝ) ^ (-150 : ℤ) = η at *
  refine ⟨⟨a1, a3.trans (add_le_add_left (mul_le_mul_of_nonneg_right ?_ (abs_nonneg _)) _)⟩, a2,
    ⟨b1, b3.trans (add_le_add_left (mul_le_mul_of_nonneg_right ?_ (abs_nonneg _)) _)⟩, b2⟩
  · simp only [err32, u32_val]; norm_num
  · simp only [err32, u32_val]; norm_num

/-- The largest double precision number: its reciprocal is subnormal, the result is the number next to it and not zero. -/
example : (ofBits 0x7fefffffffffffff#64 : F64).isFinite = true ∧ p2 b64.emin ≤ |(ofBits 0x7fefffffffffffff#64 : F64).val| ∧
    ¬p2 b64.emin ≤ |(ofBits 0x7fefffffffffffff#64 : F64).val|⁻¹ ∧ (fast_inv (ofBits 0x7fefffffffffffff#64)).val = p2 (-1024) := by decide +kernel

end Vdt
