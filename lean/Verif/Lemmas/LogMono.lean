import Verif.Lemmas.LogNormal
import Verif.Real.Slope
import Verif.Lemmas.LogBound

/-! # The logarithm preserves the order: one range of the reduced argument -/

namespace Vdt
open FP details

/-- The sums of the logarithm, as nested roundings, and the error of the part that is added to the
reduced argument. -/
theorem log_seg {f : Fmt} [f.Ok] {z r1 c1 : FP f} {g g4 : FP f → FP f} {t1 a h : ℚ} {K : ℤ} {T eT eh : ℝ}
    (hz : z.isFinite = true) (hK : |K| ≤ 1100) (hz1 : -0.293 ≤ z.val) (hz2 : z.val ≤ 0.4143) (hc1 : |c1.val| ≤ 0.6934)
    (hbig : 2000 ≤ f.big) (u1 : hulp f 0.24 = f.u / 8) (u2 : hulp f 0.49 = f.u / 4) (hu : f.u ≤ 1 / 2 ^ 24)
    (htT : |(t1 : ℝ) - T| ≤ eT * f.u) (ht : |t1| ≤ 0.0192) (ha : |a| ≤ 0.2185)
    (hh : |(h : ℝ) - z.real ^ 2 / 2| ≤ eh * f.u) (hhb : |h| ≤ 0.09)
    (H1 : |t1 - a| ≤ f.big → r1.isFinite = true ∧ r1.val = rnd f (t1 - a))
    (H2 : ∀ s : FP f, s.isFinite = true → |s.val - h| ≤ f.big → (g s).isFinite = true ∧ (g s).val = rnd f (s.val - h))
    (H4 : ∀ s : FP f, s.isFinite = true → |s.val + K * c1.val| ≤ f.big →
      (g4 s).isFinite = true ∧ (g4 s).val = rnd f (s.val + K * c1.val)) :
    (g4 (z + g r1)).isFinite = true ∧
    (g4 (z + g r1)).val = rnd f (rnd f (z.val + rnd f (rnd f (t1 - a) - h)) + K * c1.val) ∧
    |((rnd f (rnd f (t1 - a) - h) : ℚ) : ℝ) - (T - z.real ^ 2 / 2 - a)| ≤ (eT + eh + 3 / 8) * f.u := by
  have hup := f.u_pos
  have b1 : |t1 - a| ≤ 0.24 := by rw [abs_le] at *; constructor <;> linarith
  have s1 := H1 (b1.trans (by linarith))
  have e1 := rnd_err f (by norm_num) b1 (by linarith)
  rw [u1] at e1
  have b2 : |rnd f (t1 - a) - h| ≤ 0.49 := by rw [abs_le] at *; constructor <;> linarith
  have s2 := H2 r1 s1.1 (by rw [s1.2]; linarith)
  have e2 := rnd_err f (by norm_num) b2 (by linarith)
  rw [u2] at e2
  rw [s1.2] at s2
  have b3 : |z.val + rnd f (rnd f (t1 - a) - h)| ≤ 1 := by rw [abs_le] at *; constructor <;> linarith
  have s3 := addS hz s2.1 (by rw [s2.2]; linarith)
  rw [s2.2] at s3
  have e3 := rnd_err_rel f (b3.trans (by linarith))
  have b4 : |rnd f (z.val + rnd f (rnd f (t1 - a) - h))| ≤ 2 := by
    have h1 : rnd f 2 = 2 := rnd_exact f (by
      have := rep_int f (n := 2) (by
        have : (2 : ℤ) ^ 1 ≤ 2 ^ (f.mb + 1) := pow_le_pow_right₀ (by norm_num) (by omega)
        simpa using this) (by
          have := ‹f.Ok›.eb2
          unfold Fmt.emin; have : (2 : ℤ) ^ 1 ≤ 2 ^ (f.eb - 1) := pow_le_pow_right₀ (by norm_num) (by omega)
          push_cast at *; omega)
      simpa using this) (by rw [abs_of_nonneg (by norm_num)]; linarith)
    rw [abs_le] at b3 ⊢
    constructor
    · rw [← h1, ← rnd_neg]; exact rnd_mono f (by linarith)
    · have := rnd_mono f (show z.val + rnd f (rnd f (t1 - a) - h) ≤ 2 by linarith)
      rwa [h1] at this
  have b5 : |(K : ℚ) * c1.val| ≤ 1000 := by
    rw [abs_mul, ← Int.cast_abs]
    have : ((|K| : ℤ) : ℚ) ≤ 1100 := by exact_mod_cast hK
    nlinarith [abs_nonneg c1.val]
  have s4 := H4 _ s3.1 (by rw [s3.2]; rw [abs_le] at b4 b5 ⊢; constructor <;> linarith)
  rw [s3.2] at s4
  refine ⟨s4.1, s4.2, ?_⟩
  have e1' : |((rnd f (t1 - a) : ℚ) : ℝ) - ((t1 : ℝ) - a)| ≤ (f.u : ℝ) / 8 := by
    have : ((|rnd f (t1 - a) - (t1 - a)| : ℚ) : ℝ) ≤ ((f.u / 8 : ℚ) : ℝ) := by exact_mod_cast e1
    push_cast at this; exact this
  have e2' : |((rnd f (rnd f (t1 - a) - h) : ℚ) : ℝ) - (((rnd f (t1 - a) : ℚ) : ℝ) - h)| ≤ (f.u : ℝ) / 4 := by
    have : ((|rnd f (rnd f (t1 - a) - h) - (rnd f (t1 - a) - h)| : ℚ) : ℝ) ≤ ((f.u / 4 : ℚ) : ℝ) := by exact_mod_cast e2
    push_cast at this; exact this
  rw [abs_le] at *
  constructor <;> linarith

/-- Half the square. -/
theorem log_half_sq {f : Fmt} [f.Ok] {z M M2 e1 e2 : ℚ} (b : Bool) (hM : 0 < M) (hM2 : 0 < M2) (hz : z * z ≤ M) (hbig : 2000 ≤ f.big) (hMb : M ≤ 1)
    (h1 : hulp f M = e1) (h2 : hulp f M2 = e2) (he : 1 / 2 * (M + e1) ≤ M2) (hM2b : M2 + e2 ≤ 0.09) :
    |pw f b (1 / 2 * rnd f (z * z))| ≤ 0.09 ∧ |((pw f b (1 / 2 * rnd f (z * z)) : ℚ) : ℝ) - (z : ℝ) ^ 2 / 2| ≤ ((e1 / 2 + e2 : ℚ) : ℝ) := by
  have hz0 : 0 ≤ z * z := mul_self_nonneg z
  have a1 := rnd_err f hM (by rwa [abs_of_nonneg hz0]) (by linarith)
  rw [h1] at a1
  have a2 : |1 / 2 * rnd f (z * z)| ≤ M2 := by rw [abs_le] at a1 ⊢; constructor <;> linarith
  have hp2 := hulp_pos f M2
  rw [h2] at hp2
  have a3 : |pw f b (1 / 2 * rnd f (z * z)) - 1 / 2 * rnd f (z * z)| ≤ e2 := by
    rcases pw_or f b (1 / 2 * rnd f (z * z)) with h | h
    · rw [h, sub_self, abs_zero]; exact hp2.le
    · rw [h, ← h2]; exact rnd_err f hM2 a2 (by linarith)
  constructor
  · rw [abs_le] at a2 a3 ⊢; constructor <;> linarith
  · have : |pw f b (1 / 2 * rnd f (z * z)) - z ^ 2 / 2| ≤ e1 / 2 + e2 := by
      rw [abs_le] at a1 a3 ⊢; constructor <;> nlinarith
    have h5 : ((|pw f b (1 / 2 * rnd f (z * z)) - z ^ 2 / 2| : ℚ) : ℝ) ≤ ((e1 / 2 + e2 : ℚ) : ℝ) := by exact_mod_cast this
    push_cast at h5 ⊢
    exact h5

/-- The order of two sums of one exponent: the exact function grows by more than the errors. -/
theorem seg_order {R : ℝ → ℝ} {u a z z' w w' nA nB nC : ℝ} (hu : 0 < u) (hu2 : u ≤ 1 / 2 ^ 24)
    (kA : 2 * nA ≤ 1.23) (kB : 2 * nB ≤ 0.999) (kC : 2 * nC ≤ 1.414)
    (h1 : -0.293 ≤ z) (hlt : z < z') (h2 : z' ≤ 0.4143)
    (d1 : z' ≤ 0 → u ≤ z' - z) (d2 : 0 ≤ z → 2 * u ≤ z' - z) (d3 : z < 0 → z ≤ -u) (d4 : 0 < z' → 2 * u ≤ z')
    (gA : ∀ x y : ℝ, -0.293 ≤ x → x ≤ y → y ≤ -0.19 → 1.23 * (y - x) ≤ R y - R x)
    (gB : ∀ x y : ℝ, -0.2 ≤ x → x ≤ y → y ≤ 0 → 0.999 * (y - x) ≤ R y - R x)
    (gC : ∀ x y : ℝ, 0 ≤ x → x ≤ y → y ≤ 0.4143 → 0.707 * (y - x) ≤ R y - R x)
    (eA : z ≤ -0.19 → |w - (R z - a)| ≤ nA * u) (eB : -0.2 ≤ z → z ≤ 0 → |w - (R z - a)| ≤ nB * u)
    (eC : |w - (R z - a)| ≤ nC * u)
    (eA' : z' ≤ -0.19 → |w' - (R z' - a)| ≤ nA * u) (eB' : -0.2 ≤ z' → z' ≤ 0 → |w' - (R z' - a)| ≤ nB * u)
    (eC' : |w' - (R z' - a)| ≤ nC * u) : w ≤ w' := by
  have fin : ∀ m m' : ℝ, |w - (R z - a)| ≤ m * u → |w' - (R z' - a)| ≤ m' * u → (m + m') * u ≤ R z' - R z → w ≤ w' := by
    intro m m' x1 x2 x3
    rw [abs_le] at x1 x2; nlinarith
  rcases le_or_gt 0 z with hz | hz
  · refine fin nC nC eC eC' ?_
    have := gC z z' hz hlt.le h2
    nlinarith [d2 hz]
  · have hz3 := d3 hz
    rcases le_or_gt z' 0 with hz' | hz'
    · have hd := d1 hz'
      rcases le_or_gt z' (-0.19) with hA | hA
      · refine fin nA nA (eA (hlt.le.trans hA)) (eA' hA) ?_
        have := gA z z' h1 hlt.le hA
        nlinarith
      · rcases le_or_gt (-0.2) z with hB | hB
        · refine fin nB nB (eB hB hz.le) (eB' (hB.trans hlt.le) hz') ?_
          have := gB z z' hB hlt.le hz'
          nlinarith
        · refine fin nC nC eC eC' ?_
          have a1 := gA z (-0.195) h1 (by linarith) (by norm_num)
          have a2 := gB (-0.195) z' (by norm_num) (by linarith) hz'
          have : (nC + nC) * u ≤ 0.001 := by
            have := mul_le_mul_of_nonneg_right kC hu.le
            norm_num at hu2 this ⊢
            linarith
          nlinarith
    · have b2 := gC 0 z' le_rfl hz'.le h2
      have hd := d4 hz'
      refine fin nC nC eC eC' ?_
      rcases le_or_gt (-0.2) z with hB | hB
      · have b1 := gB z 0 hB hz.le le_rfl
        nlinarith
      · have a1 := gA z (-0.195) h1 (by linarith) (by norm_num)
        have a2 := gB (-0.195) 0 (by norm_num) (by norm_num) le_rfl
        nlinarith

end Vdt
