import Verif.Lemmas.LogAcc
import Verif.Float.Fused

/-! # The logarithm's final sum in floating point, for both precisions -/

namespace Vdt
open FP

section
variable {f : Fmt} [f.Ok] {x y : FP f}
theorem addS (hx : x.isFinite = true) (hy : y.isFinite = true) (h : |x.val + y.val| ≤ f.big) :
    (x + y).isFinite = true ∧ (x + y).val = rnd f (x.val + y.val) := add_spec hx hy h
theorem subS (hx : x.isFinite = true) (hy : y.isFinite = true) (h : |x.val - y.val| ≤ f.big) :
    (x - y).isFinite = true ∧ (x - y).val = rnd f (x.val - y.val) := sub_spec hx hy h
theorem mulS (hx : x.isFinite = true) (hy : y.isFinite = true) (h : |x.val * y.val| ≤ f.big) :
    (x * y).isFinite = true ∧ (x * y).val = rnd f (x.val * y.val) := mul_spec hx hy h
theorem divS (hx : x.isFinite = true) (hy : y.isFinite = true) (h0 : y.val ≠ 0) (h : |x.val / y.val| ≤ f.big) :
    (x / y).isFinite = true ∧ (x / y).val = rnd f (x.val / y.val) := div_spec hx hy h0 h
end

/-- The product inside a sum: exact when it is fused, rounded when it is not. -/
def pw (f : Fmt) (b : Bool) (q : ℚ) : ℚ := if b then q else rnd f q

theorem pw_or (f : Fmt) (b : Bool) (q : ℚ) : pw f b q = q ∨ pw f b q = rnd f q := by
  cases b
  · exact Or.inr rfl
  · exact Or.inl rfl

section
variable {f : Fmt} [f.Ok] {x y z : FP f}

theorem nmad_pw (b : Bool) (hx : x.isFinite = true) (hy : y.isFinite = true) (hz : z.isFinite = true)
    (h : |x.val * y.val| ≤ f.big) (h2 : |z.val - pw f b (x.val * y.val)| ≤ f.big) :
    (nmad b x y z).isFinite = true ∧ (nmad b x y z).val = rnd f (z.val - pw f b (x.val * y.val)) := by
  cases b
  · have m := mulS hx hy h
    rw [nmad_false]
    show _ ∧ _ = rnd f (z.val - rnd f (x.val * y.val))
    change |z.val - rnd f (x.val * y.val)| ≤ f.big at h2
    rw [← m.2] at h2 ⊢
    exact subS hz m.1 h2
  · show (fma (-x) y z).isFinite = true ∧ (fma (-x) y z).val = rnd f (z.val - x.val * y.val)
    change |z.val - x.val * y.val| ≤ f.big at h2
    have e : z.val - x.val * y.val = (-x).val * y.val + z.val := by rw [neg_def, val_neg]; ring
    rw [e] at h2 ⊢
    exact fma_spec (by rw [neg_def]; simpa using hx) hy hz h2

theorem madR_pw (b : Bool) (hx : x.isFinite = true) (hy : y.isFinite = true) (hz : z.isFinite = true)
    (h : |x.val * y.val| ≤ f.big) (h2 : |z.val + pw f b (x.val * y.val)| ≤ f.big) :
    (madR b x y z).isFinite = true ∧ (madR b x y z).val = rnd f (z.val + pw f b (x.val * y.val)) := by
  cases b
  · have m := mulS hx hy h
    rw [madR_false]
    show _ ∧ _ = rnd f (z.val + rnd f (x.val * y.val))
    change |z.val + rnd f (x.val * y.val)| ≤ f.big at h2
    rw [← m.2] at h2 ⊢
    exact addS hz m.1 h2
  · show (fma x y z).isFinite = true ∧ (fma x y z).val = rnd f (z.val + x.val * y.val)
    change |z.val + x.val * y.val| ≤ f.big at h2
    rw [add_comm] at h2 ⊢
    exact fma_spec hx hy hz h2
end

/-- The same for the floating point operations: `r1` is the first difference, `g` subtracts half the
square and `g4` adds the main part of the exponent, each of them fused or not. -/
theorem log_fp {f : Fmt} [f.Ok] {z t r1 c1 c2 : FP f} {g g4 : FP f → FP f} {t1 a h : ℚ} {K : ℤ} {T : ℝ}
    (hz : z.isFinite = true) (hK : |K| ≤ 1100)
    (hz1 : -0.293 ≤ z.val) (hz2 : z.val ≤ 0.4143)
    (hz0 : z.val = 0 ∨ p2 (-(f.mb + 1)) ≤ |z.val|) (hne : ¬(z.val = 0 ∧ K = 0))
    (hc2 : 0 ≤ c2.val) (hc2' : c2.val ≤ 0.000213) (hc1 : 0 ≤ c1.val) (hc1' : c1.val ≤ 0.6934)
    (hc : |((c1.val - c2.val : ℚ) : ℝ) - Real.log 2| ≤ 0.001 * f.u)
    (hbig : 2000 ≤ f.big) (he : f.eta ≤ f.u / 10 ^ 8) (he2 : 10000 * f.eta ≤ f.u * p2 (-(f.mb + 1))) (hu : f.u ≤ 1 / 2 ^ 24)
    (ht : t.isFinite = true) (htv : t.val = rnd f t1) (htT : |(t1 : ℝ) - T| ≤ 0.2 * f.u)
    (hT : |T| ≤ 0.0189 ∧ |T - z.real ^ 2 / 2| ≤ 0.0683 ∧ |z.real + (T - z.real ^ 2 / 2)| ≤ 0.3470)
    (ha : |z.real - z.real ^ 2 / 2 + T - Real.log (1 + z.real)| ≤ 0.401 * f.u * |z.real|)
    (da : a = K * c2.val ∨ a = rnd f (K * c2.val))
    (dh : h = 1 / 2 * rnd f (z.val * z.val) ∨ h = rnd f (1 / 2 * rnd f (z.val * z.val)))
    (H1 : |K * c2.val| ≤ f.big → |t1 - a| ≤ f.big → r1.isFinite = true ∧ r1.val = rnd f (t1 - a))
    (H2 : ∀ s : FP f, s.isFinite = true → |s.val - h| ≤ f.big → (g s).isFinite = true ∧ (g s).val = rnd f (s.val - h))
    (H4 : ∀ s : FP f, s.isFinite = true → |K * c1.val| ≤ f.big → |s.val + K * c1.val| ≤ f.big →
      (g4 s).isFinite = true ∧ (g4 s).val = rnd f (s.val + K * c1.val))
    (hlin : |(z + g t).real - (z.real + (T - z.real ^ 2 / 2))| ≤ 2.5 * f.u * |z.real| + 100 * f.eta) :
    (g4 (z + g r1)).isFinite = true ∧
    |(g4 (z + g r1)).real - (Real.log (1 + z.real) + K * Real.log 2)| ≤
      4 * f.u * |Real.log (1 + z.real) + K * Real.log 2| := by
  have b0 : |t1| ≤ 1 := by
    have h3 : |(t1 : ℝ)| ≤ 1 := by
      have hu3 : ((f.u : ℚ) : ℝ) ≤ ((1 / 2 ^ 24 : ℚ) : ℝ) := by exact_mod_cast hu
      have h4 := hT.1
      have h5 := htT
      push_cast at hu3
      rw [abs_le] at h4 h5 ⊢
      norm_num at h4 h5 hu3 ⊢
      constructor <;> linarith
    exact_mod_cast h3
  have hup := f.u_pos
  have b1 : |t.val| ≤ 2 := by
    have := rnd_err_sum (f := f) b0 (by linarith)
    rw [htv]
    rw [abs_le] at this b0 ⊢
    constructor <;> linarith
  have hzz : |z.val * z.val| ≤ 1 := by rw [abs_le]; constructor <;> nlinarith
  have hx2 : |rnd f (z.val * z.val)| ≤ 2 := by
    have := rnd_err_sum (f := f) hzz (by linarith)
    rw [abs_le] at this hzz ⊢
    constructor <;> linarith
  have hh : |h| ≤ 2 := by
    have h3 : |1 / 2 * rnd f (z.val * z.val)| ≤ 1 := by
      rw [abs_mul, show |(1 / 2 : ℚ)| = 1 / 2 by norm_num]; linarith
    rcases dh with dh | dh
    · rw [dh]; linarith
    · have := rnd_err_sum (f := f) h3 (by linarith)
      rw [dh]
      rw [abs_le] at this h3 ⊢
      constructor <;> linarith
  have hlin' : |((rnd f (z.val + rnd f (rnd f t1 - h)) : ℚ) : ℝ) -
      ((z.val : ℝ) + (T - (z.val : ℝ) ^ 2 / 2))| ≤ 2.5 * f.u * |(z.val : ℝ)| + 100 * f.eta := by
    have h3 : |t.val - h| ≤ 4 := by
      rw [abs_le] at b1 hh ⊢; constructor <;> linarith
    have s3 := H2 t ht (h3.trans (by linarith))
    have h4 : |rnd f (t.val - h)| ≤ 5 := by
      have := rnd_err_sum (f := f) h3 (by linarith)
      rw [abs_le] at this h3 ⊢
      constructor <;> linarith
    have s4 := addS hz s3.1 (by rw [s3.2]; rw [abs_le] at h4 ⊢; constructor <;> linarith)
    have e : (z + g t).val = rnd f (z.val + rnd f (rnd f t1 - h)) := by
      rw [s4.2, s3.2, htv]
    unfold FP.real at hlin
    rw [e] at hlin
    exact hlin
  have M := log_core (f := f) (z := z.val) (t1 := t1) (c1 := c1.val) (c2 := c2.val) (K := K) (T := T)
    hz1 hz2 hz0 hne hK hc2 hc2' hc1 hc1' hc hbig he he2 hu htT hT ha da rfl rfl dh rfl rfl hlin'
  obtain ⟨⟨m1, m2, m3, -, -, m6, m7, m8⟩, m9⟩ := M
  have s3 := H1 m1 m3
  rw [← s3.2] at m6 m7 m8 m9
  have s4 := H2 r1 s3.1 m6
  rw [← s4.2] at m7 m8 m9
  have s5 := addS hz s4.1 m7
  rw [← s5.2] at m8 m9
  have s6 := H4 _ s5.1 m2 m8
  refine ⟨s6.1, ?_⟩
  unfold FP.real
  rw [s6.2]
  exact m9

/-- The product of the exponent and the short constant `355/512` is exact. -/
theorem log_c1_exact (f : Fmt) [f.Ok] {K : ℤ} (hK : |K| ≤ 1100) (hmb : 20 ≤ f.mb) (hem : f.emin - f.mb ≤ -9)
    (hbig : 2000 ≤ f.big) : rnd f (K * (355 / 512)) = K * (355 / 512) := by
  apply rnd_exact
  · refine ⟨K * 355, -9, ?_, ?_, hem⟩
    · rw [show p2 (-9) = 1 / 512 by decide +kernel]; push_cast; ring
    · have h1 : (2 : ℤ) ^ 21 ≤ 2 ^ (f.mb + 1) := pow_le_pow_right₀ (by norm_num) (by omega)
      rw [abs_mul]
      norm_num at *
      linarith
  · rw [abs_mul, ← Int.cast_abs, show |(355 / 512 : ℚ)| = 355 / 512 by norm_num]
    have : ((|K| : ℤ) : ℚ) ≤ 1100 := by exact_mod_cast hK
    linarith

end Vdt
