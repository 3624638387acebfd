import Verif.Lemmas.Sincos
import Verif.Model.Exp

/-! # Structure of the exponential: conversion steps -/

namespace Vdt
open FP details

theorem wrap32_bound (n : ℤ) : -2147483648 ≤ wrap32 n ∧ wrap32 n < 2147483648 := by
  unfold wrap32; rw [Int.bmod_def]; split <;> omega

theorem ofInt32_f2i64 {n : ℤ} (h : -2147483648 ≤ n ∧ n < 2147483648) : strict.f2i (ofInt n : F64) = some n := by
  have hs := ofInt_spec64 (n := n) (by rw [abs_le]; omega)
  rw [strict_f2i hs.1 (by rw [hs.2, truncRat_int]; simp [inI32]; omega), hs.2, truncRat_int]

/-- The integer `floor(log2(e)*x + 0.5)` as the code computes it from the intermediate `a`. -/
def expN {f : Fmt} (a : FP f) (s : Bool) : ℤ := wrap32 (truncRat a.val - (if s then 1 else 0))

/-- `fast_exp` after both conversions. -/
def expTail (x : F64) (n : ℤ) : F64 :=
  let r := expCore (expReduce x (ofInt n)) * pow2n n
  let r := if FP.gt x EXP_LIMIT then inf false else r
  if FP.lt x (-EXP_LIMIT) then lit 0 else r

theorem fast_exp_eq (x : F64) : fast_exp x =
    if f2iDefined (LOG2E * x + lit 0.5) then
      some (expTail x (expN (LOG2E * x + lit 0.5) (LOG2E * x + lit 0.5).sign))
    else none := by
  unfold fast_exp fast_expM fpfloor
  dsimp only
  generalize LOG2E * x + lit 0.5 = a
  by_cases h : f2iDefined a = true
  · have hf : a.isFinite = true := by unfold f2iDefined at h; simp at h; exact h.1
    rw [if_pos h]
    simp only [strict, h, if_true, Option.pure_def, Option.bind_eq_bind, Option.bind_some]
    rw [sp_signbit, convert_sign (finite_not_nan hf)]
    have hn := ofInt32_f2i64 (wrap32_bound (truncRat a.val - (if a.sign then 1 else 0)))
    simp only [strict] at hn
    rw [hn]
    rfl
  · rw [if_neg h]
    have : f2iDefined a = false := by simpa using h
    simp [strict, this]

/-- `x ↦ fl(fl(c*x) + d)` is monotone; its finite values are given by `rnd`. -/
theorem affine_cases {f : Fmt} [f.Ok] {c d x : FP f} (hc : c.isFinite = true) (hd : d.isFinite = true) (hx : x.isFinite = true) :
    (c * x + d).isFinite = false ∨ (c * x + d).val = rnd f (rnd f (c.val * x.val) + d.val) := by
  simp only [add_def, mul_def]
  by_cases h : (FP.mul c x).isFinite = true
  · right
    rw [add_fin h hd, val_ofRat, mul_fin hc hx, val_ofRat]
  · left
    have hn : (FP.mul c x).isNaN = false := by rw [mul_fin hc hx]; exact ofRat_not_nan _ _
    have hi : (FP.mul c x).isInf = true := by
      rcases trichotomy (FP.mul c x) with a | a | a
      · rw [hn] at a; cases a
      · exact a
      · exact absurd a h
    have : FP.add (FP.mul c x) d = FP.mul c x := by
      simp [FP.add, hn, finite_not_nan hd, hi, finite_not_inf hd]
    rw [this]; simpa using h

theorem affine_finite {f : Fmt} [f.Ok] {c d x : FP f} (hc : c.isFinite = true) (hd : d.isFinite = true) (hx : x.isFinite = true)
    (h1 : |c.val * x.val| ≤ f.big) (h2 : |rnd f (c.val * x.val) + d.val| ≤ f.big) :
    (c * x + d).isFinite = true := by
  simp only [add_def, mul_def]
  have hm := mul_spec hc hx h1
  exact (add_spec hm.1 hd (by rw [hm.2]; exact h2)).1

theorem f2i_false_of_ge {f : Fmt} {a : FP f} {q : ℚ} (h : a.isFinite = false ∨ q ≤ a.val) (hq : 2147483648 ≤ q) :
    f2iDefined a = false := by
  unfold f2iDefined
  rcases h with h | h
  · simp [h]
  · have : (2147483648 : ℤ) ≤ truncRat a.val := by
      rw [truncRat_nonneg (by linarith), Int.le_floor]; push_cast; linarith
    have : inI32 (truncRat a.val) = false := by simp [inI32]; omega
    simp [this]

theorem f2i_false_of_le {f : Fmt} {a : FP f} {q : ℚ} (h : a.isFinite = false ∨ a.val ≤ q) (hq : q ≤ -2147483649) :
    f2iDefined a = false := by
  unfold f2iDefined
  rcases h with h | h
  · simp [h]
  · have : truncRat a.val ≤ -2147483649 := by
      rw [truncRat_nonpos (by linarith), Int.ceil_le]; push_cast; linarith
    have : inI32 (truncRat a.val) = false := by simp [inI32]; omega
    simp [this]

theorem f2i_true {f : Fmt} {a : FP f} (hf : a.isFinite = true) (h1 : -2147483649 < a.val) (h2 : a.val < 2147483648) :
    f2iDefined a = true := by
  unfold f2iDefined
  rw [hf, Bool.true_and]
  unfold inI32
  rw [decide_eq_true_eq]
  rcases le_total 0 a.val with h | h
  · rw [truncRat_nonneg h]
    constructor
    · have := Int.floor_nonneg.2 h; omega
    · rw [Int.floor_lt]; exact_mod_cast h2
  · rw [truncRat_nonpos h]
    constructor
    · have : (-2147483649 : ℤ) < ⌈a.val⌉ := by rw [Int.lt_ceil]; exact_mod_cast h1
      omega
    · have : ⌈a.val⌉ ≤ 0 := Int.ceil_le.2 (by exact_mod_cast h)
      omega

theorem nonfinite_affine {f : Fmt} [f.Ok] {c d x : FP f} (hc : c.isFinite = true) (hc0 : 0 < c.val) (hd : d.isFinite = true)
    (hx : x.isFinite = false) : (c * x + d).isFinite = false := by
  simp only [add_def, mul_def]
  rcases trichotomy x with h | h | h
  · rw [mul_nan_right _ h, add_nan_l]
    have := nan_isNaN (f := f)
    simp [isFinite, isNaN] at *; omega
  · have hcz : c.isZero = false := by
      have := (val_pos_iff.1 hc0).2; simp [isZero]; omega
    have hxz : x.isZero = false := by
      have := zero_finite (f := f) false
      simp [isInf, isZero, isFinite, FP.zero] at *; omega
    have hxn : x.isNaN = false := by simp [isInf, isNaN] at *; omega
    have hm : FP.mul c x = inf (c.sign ^^ x.sign) := by
      simp [FP.mul, finite_not_nan hc, hxn, h, hcz, hxz]
    rw [hm]
    have : FP.add (inf (c.sign ^^ x.sign)) d = inf (c.sign ^^ x.sign) := by
      simp [FP.add, finite_not_nan hd, finite_not_inf hd]
    rw [this]; simp [FP.inf, isFinite]
  · rw [h] at hx; cases hx

/-- Exactly when the first conversion of `fast_exp` is in range. -/
theorem exp_arg_defined (x : F64) : f2iDefined (LOG2E * x + lit 0.5) = true ↔
    x.isFinite = true ∧ -(780414346565783 / 524288) < x.val ∧ x.val < 1560828691677931 / 1048576 := by
  have hc : LOG2E.isFinite = true := by decide +kernel
  have hc0 : 0 < LOG2E.val := by decide +kernel
  have hd : (lit 0.5 : F64).isFinite = true := by decide +kernel
  by_cases hx : x.isFinite = true
  · have key := affine_cases hc hd hx
    have hX : magVal b64 4744030122760473516 = 1560828691677931 / 1048576 := by decide +kernel
    have hY : magVal b64 4744030122766288056 = 780414346565783 / 524288 := by decide +kernel
    rcases le_or_gt (1560828691677931 / 1048576) x.val with h1 | h1
    · have hm : 1560828691677931 / 1048576 * LOG2E.val ≤ LOG2E.val * x.val := by
        rw [mul_comm]; exact mul_le_mul_of_nonneg_left h1 hc0.le
      have := f2i_false_of_ge (a := LOG2E * x + lit 0.5)
        (q := rnd b64 (rnd b64 (1560828691677931 / 1048576 * LOG2E.val) + (lit 0.5 : F64).val))
        (key.imp id (fun h => by rw [h]; exact rnd_mono _ (add_le_add_left (rnd_mono _ hm) _)))
        (by decide +kernel)
      rw [this]; simp [not_lt.2 h1]
    · rcases le_or_gt x.val (-(780414346565783 / 524288)) with h2 | h2
      · have hm : LOG2E.val * x.val ≤ -(780414346565783 / 524288) * LOG2E.val := by
          rw [mul_comm]; exact mul_le_mul_of_nonneg_right h2 hc0.le
        have := f2i_false_of_le (a := LOG2E * x + lit 0.5)
          (q := rnd b64 (rnd b64 (-(780414346565783 / 524288) * LOG2E.val) + (lit 0.5 : F64).val))
          (key.imp id (fun h => by rw [h]; exact rnd_mono _ (add_le_add_left (rnd_mono _ hm) _)))
          (by decide +kernel)
        rw [this]; simp [not_lt.2 h2]
      · simp only [hx, h1, h2, and_self, iff_true]
        -- bounds by the neighbouring doubles
        have hup : x.val ≤ magVal b64 4744030122760473515 := by
          rcases le_or_gt x.val 0 with h0 | h0
          · exact h0.trans (magVal_nonneg _ _)
          · have := mag_lt_of_val_lt (x := x) hX (by rwa [abs_of_pos h0])
            rw [← abs_of_pos h0, abs_val, magVal_le]; omega
        have hlo : -magVal b64 4744030122766288055 ≤ x.val := by
          rcases le_or_gt 0 x.val with h0 | h0
          · have := magVal_nonneg b64 4744030122766288055; linarith
          · have := mag_lt_of_val_lt (x := x) hY (by rw [abs_of_neg h0]; linarith)
            have : |x.val| ≤ magVal b64 4744030122766288055 := by rw [abs_val, magVal_le]; omega
            rw [abs_of_neg h0] at this; linarith
        have h3 : LOG2E.val * x.val ≤ LOG2E.val * magVal b64 4744030122760473515 := mul_le_mul_of_nonneg_left hup hc0.le
        have h4 : LOG2E.val * (-magVal b64 4744030122766288055) ≤ LOG2E.val * x.val := mul_le_mul_of_nonneg_left hlo hc0.le
        have h5 := rnd_mono b64 h3
        have h6 := rnd_mono b64 h4
        have e5 : rnd b64 (LOG2E.val * magVal b64 4744030122760473515) ≤ 2 ^ 40 := by decide +kernel
        have e6 : -2 ^ 40 ≤ rnd b64 (LOG2E.val * (-magVal b64 4744030122766288055)) := by decide +kernel
        have e3 : LOG2E.val * magVal b64 4744030122760473515 ≤ 2 ^ 40 := by decide +kernel
        have e4 : -2 ^ 40 ≤ LOG2E.val * (-magVal b64 4744030122766288055) := by decide +kernel
        have e7 : (lit 0.5 : F64).val = 1 / 2 := by decide +kernel
        have hbig : (2 : ℚ) ^ 41 ≤ b64.big := by decide +kernel
        have hfin : (LOG2E * x + lit 0.5).isFinite = true := by
          apply affine_finite hc hd hx
          · rw [abs_le]; constructor <;> norm_num at * <;> linarith
          · rw [abs_le, e7]; constructor <;> norm_num at * <;> linarith
        have hval : (LOG2E * x + lit 0.5).val = rnd b64 (rnd b64 (LOG2E.val * x.val) + (lit 0.5 : F64).val) := by
          rcases key with h | h
          · rw [hfin] at h; cases h
          · exact h
        apply f2i_true hfin
        · rw [hval]
          refine lt_of_lt_of_le ?_ (rnd_mono b64 (add_le_add_left h6 _))
          decide +kernel
        · rw [hval]
          refine lt_of_le_of_lt (rnd_mono b64 (add_le_add_left h5 _)) ?_
          decide +kernel
  · have : f2iDefined (LOG2E * x + lit 0.5) = false := by
      unfold f2iDefined
      rw [nonfinite_affine hc hc0 hd (by simpa using hx)]; rfl
    rw [this]; simp [hx]

end Vdt
