import Verif.Lemmas.Special
import Verif.Model.Sincos

/-! # Structure of the sine/cosine code: quadrants, undefined conversions -/

namespace Vdt
open FP details

theorem mag_lt_of_val_lt {f : Fmt} {x : FP f} {n : ℕ} {q : ℚ} (hq : magVal f n = q) (h : |x.val| < q) : x.mag < n := by
  rw [abs_val, ← hq, magVal_lt] at h; exact h

theorem mag_ge_of_val_ge {f : Fmt} {x : FP f} {n : ℕ} {q : ℚ} (hq : magVal f n = q) (h : q ≤ |x.val|) : n ≤ x.mag := by
  rw [abs_val, ← hq, magVal_le] at h; exact h

theorem truncRat_mono_nonneg {q r : ℚ} (h0 : 0 ≤ q) (h : q ≤ r) : truncRat q ≤ truncRat r := by
  rw [truncRat_nonneg h0, truncRat_nonneg (h0.trans h)]; exact Int.floor_le_floor h

theorem truncRat_nonneg' {q : ℚ} (h0 : 0 ≤ q) : 0 ≤ truncRat q := by
  rw [truncRat_nonneg h0]; exact Int.floor_nonneg.2 h0

/-- The quadrant computation of `sincos.h:110-112`, on `|x|`, with the constant as a parameter. -/
def quadStep {f : Fmt} {m : Type → Type} [Monad m] (M : Machine m) (c x : FP f) : m Int := do
  let quad ← M.f2i (c * x)
  M.i32 (quad + 1)

/-- If `c*X` truncates to at most `2^31-2` the quadrant is defined for all `|x| ≤ X`. -/
theorem quadStep_some {f : Fmt} [f.Ok] {c x : FP f} {n : ℕ} (hc : c.isFinite = true) (hc0 : 0 ≤ c.val)
    (hx : x.isFinite = true) (hx0 : 0 ≤ x.val) (hn : x.mag ≤ n) (hb : c.val * magVal f n ≤ f.big)
    (ht : truncRat (rnd f (c.val * magVal f n)) + 1 < 2147483648) :
    quadStep strict c x = some (truncRat (rnd f (c.val * x.val)) + 1) := by
  have hxv : x.val ≤ magVal f n := by rw [← abs_of_nonneg hx0, abs_val, magVal_le]; exact hn
  have hle : c.val * x.val ≤ c.val * magVal f n := mul_le_mul_of_nonneg_left hxv hc0
  have h0 : 0 ≤ c.val * x.val := mul_nonneg hc0 hx0
  have hm := mul_spec hc hx (by rw [abs_of_nonneg h0]; exact hle.trans hb)
  have hr0 : 0 ≤ rnd f (c.val * x.val) := rnd_nonneg f h0
  have h1 : truncRat (rnd f (c.val * x.val)) ≤ truncRat (rnd f (c.val * magVal f n)) :=
    truncRat_mono_nonneg hr0 (rnd_mono f hle)
  have h2 := truncRat_nonneg' hr0
  have hi : inI32 (truncRat (FP.mul c x).val) = true := by rw [hm.2]; simp [inI32]; omega
  unfold quadStep
  rw [mul_def, strict_f2i hm.1 hi]
  simp only [Option.bind_eq_bind, Option.bind_some, hm.2]
  have hi2 : inI32 (truncRat (rnd f (c.val * x.val)) + 1) = true := by simp [inI32]; omega
  simp [strict, hi2]

theorem quadStep_none {f : Fmt} [f.Ok] {c x : FP f} {n : ℕ} (hc : c.isFinite = true) (hc0 : 0 ≤ c.val)
    (hx : x.isFinite = true) (hx0 : 0 ≤ x.val) (hn : n ≤ x.mag)
    (ht : 2147483648 ≤ truncRat (rnd f (c.val * magVal f n)) + 1) :
    quadStep strict c x = none := by
  have hxv : magVal f n ≤ x.val := by rw [← abs_of_nonneg hx0, abs_val, magVal_le]; exact hn
  have hle : c.val * magVal f n ≤ c.val * x.val := mul_le_mul_of_nonneg_left hxv hc0
  have h1 : truncRat (rnd f (c.val * magVal f n)) ≤ truncRat (rnd f (c.val * x.val)) :=
    truncRat_mono_nonneg (rnd_nonneg f (mul_nonneg hc0 (magVal_nonneg f n))) (rnd_mono f hle)
  have hv : (FP.mul c x).val = rnd f (c.val * x.val) := by rw [mul_fin hc hx, val_ofRat]
  unfold quadStep
  rw [mul_def]
  by_cases hd : f2iDefined (FP.mul c x) = true
  · simp only [strict, hd, if_true, Option.bind_eq_bind, Option.bind_some]
    have : inI32 (truncRat (FP.mul c x).val + 1) = false := by
      rw [hv]; simp [inI32]; omega
    simp [this]
  · rw [strict_f2i_none (by simpa using hd)]; rfl

theorem quadStep_nonfinite {f : Fmt} [f.Ok] {c x : FP f} (hc : c.isFinite = true) (hc0 : 0 < c.val)
    (hx : x.isFinite = false) : quadStep strict c x = none := by
  have hd : f2iDefined (FP.mul c x) = false := by
    unfold f2iDefined
    have : (FP.mul c x).isFinite = false := by
      rcases trichotomy x with h | h | h
      · rw [mul_nan_right _ h]
        have := nan_isNaN (f := f)
        simp [isFinite, isNaN] at *; omega
      · have hcz : c.isZero = false := by
          have := (val_pos_iff.1 hc0).2; simp [isZero]; omega
        have hxz : x.isZero = false := by
          have := zero_finite (f := f) false
          simp [isInf, isZero, isFinite, FP.zero] at *; omega
        have hxn : x.isNaN = false := by simp [isInf, isNaN] at *; omega
        simp [FP.mul, finite_not_nan hc, hxn, h, hcz, hxz, FP.inf, isFinite]
      · rw [h] at hx; cases hx
    simp [this]
  unfold quadStep
  rw [mul_def, strict_f2i_none hd]; rfl

theorem abs_val_nonneg {f : Fmt} (x : FP f) : 0 ≤ (FP.abs x).val := by rw [val_abs]; exact abs_nonneg _

/-- Everything after the quadrant `j` and the reduced argument `r` are known (sincos.h:138-158);
`neg` is the outcome of the test `xx < 0`. -/
def sincosTail {f : Fmt} (sc : FP f × FP f) (j : ℤ) (neg : Bool) : FP f × FP f :=
  let s := if andI (j - 2) 2 = 0 then sc.2 else sc.1
  let c := if andI (j - 2) 2 = 0 then sc.1 else sc.2
  let c := if andI (j - 2) 4 = 0 then FP.neg c else c
  let s := if andI j 4 ≠ 0 then FP.neg s else s
  (if neg then FP.neg s else s, c)

section
variable {m : Type → Type} [Monad m] [LawfulMonad m]

theorem fast_sincosM_eq (M : Machine m) (x : F64) : fast_sincosM M x =
    (quadStep M ONEOPIO4 (FP.abs x)) >>= fun q1 => pure (sincosTail
      (fast_sincos_m45_45 (reduceWith (FP.abs x) (ofInt (clearLow q1)))) (clearLow q1) (FP.lt x (lit 0))) := by
  simp only [fast_sincosM, reduce2quadrant, quadrant, quadStep, bind_assoc, pure_bind, sincosTail, neg_def]

theorem fast_sincosfM_eq (M : Machine m) (x : F32) : fast_sincosfM M x =
    (quadStep M ONEOPIO4F (FP.abs x)) >>= fun q1 => pure (sincosTail
      (fast_sincosf_m45_45 (reduceWithf (FP.abs x) (ofInt (clearLow q1)))) (clearLow q1) (FP.lt x (ofInt 0))) := by
  simp only [fast_sincosfM, reduce2quadrantf, quadrantf, quadStep, bind_assoc, pure_bind, sincosTail, neg_def]
end

theorem quad64_defined_iff (x : F64) : (quadStep strict ONEOPIO4 (FP.abs x)).isSome = true ↔
    x.isFinite = true ∧ |x.val| < 7074237748734241 / 4194304 := by
  have hc : ONEOPIO4.isFinite = true := by decide +kernel
  have hc0 : 0 < ONEOPIO4.val := by decide +kernel
  have hX : magVal b64 4744861045742496033 = 7074237748734241 / 4194304 := by decide +kernel
  by_cases hf : x.isFinite = true
  · by_cases hx : |x.val| < 7074237748734241 / 4194304
    · have := mag_lt_of_val_lt hX hx
      rw [quadStep_some (n := 4744861045742496032) hc hc0.le (by simpa using hf) (abs_val_nonneg x)
        (by simp only [abs_mag]; omega) (by decide +kernel) (by decide +kernel)]
      simp [hf, hx]
    · have := mag_ge_of_val_ge hX (not_lt.1 hx)
      rw [quadStep_none (n := 4744861045742496033) hc hc0.le (by simpa using hf) (abs_val_nonneg x)
        (by simpa using this) (by decide +kernel)]
      simp [hx]
  · rw [quadStep_nonfinite hc hc0 (by simpa using hf)]
    simp [hf]

theorem quad32_defined_iff (x : F32) : (quadStep strict ONEOPIO4F (FP.abs x)).isSome = true ↔
    x.isFinite = true ∧ |x.val| < 1686629760 := by
  have hc : ONEOPIO4F.isFinite = true := by decide +kernel
  have hc0 : 0 < ONEOPIO4F.val := by decide +kernel
  have hX : magVal b32 1321799643 = 1686629760 := by decide +kernel
  by_cases hf : x.isFinite = true
  · by_cases hx : |x.val| < 1686629760
    · have := mag_lt_of_val_lt hX hx
      rw [quadStep_some (n := 1321799642) hc hc0.le (by simpa using hf) (abs_val_nonneg x)
        (by simp only [abs_mag]; omega) (by decide +kernel) (by decide +kernel)]
      simp [hf, hx]
    · have := mag_ge_of_val_ge hX (not_lt.1 hx)
      rw [quadStep_none (n := 1321799643) hc hc0.le (by simpa using hf) (abs_val_nonneg x)
        (by simpa using this) (by decide +kernel)]
      simp [hx]
  · rw [quadStep_nonfinite hc hc0 (by simpa using hf)]
    simp [hf]

end Vdt
