import Verif.Lemmas.AsinfPos
import Verif.Props.Atan
import Verif.Props.Isqrt

/-!
# Arcsine and arccosine: NaN, symmetry (C25), accuracy (C26, C27, C28)
-/

namespace Vdt
open FP details
variable {f : Fmt}

/-! ## Arguments outside `[-1,1]` -/

theorem sqrt_nan_of_neg {x : FP f} (hs : x.sign = true) (h0 : x.isZero = false) : FP.sqrt x = nan := by
  unfold FP.sqrt; simp [hs, h0]

theorem sqrt_nan_of_nan {x : FP f} (h : x.isNaN = true) : FP.sqrt x = nan := by
  unfold FP.sqrt; simp [h]

/-- Negative and not a zero (a number, an infinity or a NaN). -/
def NegNZ (x : FP f) : Prop := x.sign = true ∧ x.isZero = false

theorem neg_ofRat {q : ℚ} {s : Bool} (h : rnd f q < 0) : NegNZ (ofRat f s q) := by
  have hq : q < 0 := by
    by_contra hc
    push Not at hc
    exact absurd (rnd_nonneg f hc) (not_le.2 h)
  refine ⟨by rw [ofRat_sign_ne hq.ne]; simpa using hq, ?_⟩
  cases hz : (ofRat f s q).isZero
  · rfl
  · have : (ofRat f s q).val = 0 := val_eq_zero.2 (by simpa [isZero] using hz)
    rw [val_ofRat] at this
    rw [this] at h; exact absurd h (lt_irrefl _)

/-- The next number above one. -/
theorem val_gt_one [f.Ok] (hE : f.emin ≤ 0) {o a : FP f} (ho : o.val = 1) (os : o.sign = false) (as : a.sign = false) (h : 1 < a.val) : 1 + p2 (-f.mb) ≤ a.val := by
  have e : ∀ x : FP f, x.sign = false → x.val = magVal f x.mag := fun x hx => by
    rw [← abs_val, abs_of_nonneg (val_nonneg_of_sign hx)]
  rw [e a as] at h ⊢
  rw [e o os] at ho
  rw [← ho] at h
  have h1 := (magVal_lt (f := f)).1 h
  have h2 : magVal f (o.mag + 1) ≤ magVal f a.mag := magVal_le.2 h1
  have c := magVal_code f (e := 0) (k := 2 ^ f.mb) hE (Nat.pow_le_pow_right (by norm_num) (by omega)) (.inl le_rfl)
  have c2 := magVal_code f (e := 0) (k := 2 ^ f.mb + 1) hE (by have := Nat.one_le_two_pow (n := f.mb); rw [pow_succ]; omega) (.inl (by omega))
  have p : p2 ((f.mb : ℕ) : ℤ) * p2 (0 - f.mb) = 1 := by
    rw [← p2_add, show ((f.mb : ℕ) : ℤ) + (0 - f.mb) = 0 by ring, p2_eq]; norm_num
  rw [p2_nat] at p
  have om : o.mag = (0 - f.emin).toNat * 2 ^ f.mb + 2 ^ f.mb := by
    apply (magVal_inj (f := f)).1
    rw [ho, c]; push_cast; exact p.symm
  rw [om, add_assoc, c2] at h2
  push_cast at h2
  rw [add_mul, p, one_mul, zero_sub] at h2
  exact h2

theorem sub_neg_of_gt [f.Ok] (hE : f.emin ≤ 0) {o a : FP f} (of : o.isFinite = true) (ho : o.val = 1) (os : o.sign = false) (as : a.sign = false)
    (hr : rnd f (-p2 (-f.mb)) < 0) (h : a.isInf = true ∨ (a.isFinite = true ∧ 1 < a.val)) :
    NegNZ (o - a) ∧ ((o - a).isFinite = true → (o - a).val ≤ rnd f (-p2 (-f.mb))) ∧ (o - a).isNaN = false := by
  rcases h with h | ⟨af, h⟩
  · have e := eq_inf h
    rw [as] at e
    have : o - a = inf true := by
      rw [e, sub_def]
      unfold sub add
      have n : neg (inf false : FP f) = inf true := rfl
      rw [n]
      simp [finite_not_nan of, finite_not_inf of]
    rw [this]
    have inz : (inf true : FP f).isInf = true := inf_isInf true
    refine ⟨⟨rfl, ?_⟩, fun hf => ?_, inf_isNaN true⟩
    · cases hz : (inf true : FP f).isZero
      · rfl
      · have zf := zero_finite (f := f) (inf true : FP f).sign
        rw [← eq_zero' hz] at zf
        rw [finite_not_inf zf] at inz; cases inz
    · rw [finite_not_inf hf] at inz; cases inz
  · have g := val_gt_one hE ho os as h
    have m : rnd f (o.val - a.val) ≤ rnd f (-p2 (-f.mb)) := rnd_mono f (by rw [ho]; linarith)
    rw [sub_def, sub_fin of af]
    exact ⟨neg_ofRat (m.trans_lt hr), fun _ => by rw [val_ofRat]; exact m, ofRat_not_nan _ _⟩

theorem add_self_neg [f.Ok] {d : FP f} (h : NegNZ d) (hn : d.isNaN = false) : NegNZ (d + d) := by
  rcases trichotomy d with hc | hc | hc
  · rw [hc] at hn; cases hn
  · have e : d + d = d := by
      rw [add_def]; unfold add; simp [hn, hc]
    rw [e]; exact h
  · rw [add_def, add_fin hc hc]
    apply neg_ofRat
    have v : d.val < 0 := by
      have : d.val ≠ 0 := fun h0 => by
        have := zero_of_val h0
        rw [h.2] at this; cases this
      have hp : (neg d).sign = false := by simp [h.1]
      have := val_nonneg_of_sign hp
      rw [val_neg] at this
      exact lt_of_le_of_ne (by linarith) (by assumption)
    have := rnd_mono f (by linarith : d.val + d.val ≤ d.val)
    rw [rnd_fin hc] at this
    linarith

theorem lit1f : (lit 1 : F32).isFinite = true ∧ (lit 1 : F32).val = 1 ∧ (lit 1 : F32).sign = false := by decide +kernel

/-- What makes the result a NaN. -/
def Outside (a : FP f) : Prop := a.isNaN = true ∨ a.isInf = true ∨ (a.isFinite = true ∧ 1 < |a.val|)

theorem outside_abs {a : FP f} : Outside (FP.abs a) ↔ Outside a := by
  unfold Outside; rw [val_abs, abs_abs]; simp

theorem outside_iff {a : FP f} : Outside a ↔ ¬ (a.isFinite = true ∧ |a.val| ≤ 1) := by
  unfold Outside
  constructor
  · rintro (h | h | ⟨h1, h2⟩) ⟨h3, h4⟩
    · rw [finite_not_nan h3] at h; cases h
    · rw [finite_not_inf h3] at h; cases h
    · linarith
  · intro h
    rcases trichotomy a with hc | hc | hc
    · exact .inl hc
    · exact .inr (.inl hc)
    · refine .inr (.inr ⟨hc, ?_⟩)
      by_contra hh
      exact h ⟨hc, not_lt.1 hh⟩

theorem lt_outside [f.Ok] {a c : FP f} (as : a.sign = false) (h : Outside a) (cf : c.isFinite = true) (hc : c.val ≤ 1) : FP.lt a c = false := by
  rcases h with h | h | ⟨h1, h2⟩
  · exact lt_nan_left h _
  · have hn : a.isNaN = false := by
      cases hb : a.isNaN
      · rfl
      · simp [isNaN, isInf] at hb h; omega
    unfold FP.lt; simp [hn, finite_not_nan cf, h, as]
  · rw [lt_fin h1 cf]
    rw [abs_of_nonneg (val_nonneg_of_sign as)] at h2
    simpa using by linarith

theorem gt_outside [f.Ok] {a c : FP f} (as : a.sign = false) (h : Outside a) (hn : a.isNaN = false) (cf : c.isFinite = true) (hc : c.val ≤ 1) : FP.gt a c = true := by
  rcases h with h | h | ⟨h1, h2⟩
  · rw [h] at hn; cases hn
  · unfold FP.gt FP.lt; simp [hn, finite_not_nan cf, finite_not_inf cf, h, as]
  · rw [gt_fin h1 cf]
    rw [abs_of_nonneg (val_nonneg_of_sign as)] at h2
    simpa using by linarith

theorem asinPos_outside {a : F64} (as : a.sign = false) (h : Outside a) : asinPos a = nan := by
  have L : (lit 0.625 : F64).isFinite = true ∧ (lit 0.625 : F64).val ≤ 1 ∧ (lit 1e-8 : F64).isFinite = true ∧ (lit 1e-8 : F64).val ≤ 1 ∧ rnd b64 (-p2 (-b64.mb)) < 0 := by decide +kernel
  obtain ⟨l1, l2, l3, l4, l5⟩ := L
  have s : FP.sqrt ((lit 1.0 - a) + (lit 1.0 - a)) = nan := by
    rcases h with h | h
    · have : lit 1.0 - a = nan := sub_nan_right _ h
      rw [this]; decide +kernel
    · have o := lit1_64
      rw [abs_of_nonneg (val_nonneg_of_sign as)] at h
      have k := sub_neg_of_gt (by decide) o.1 o.2.1 o.2.2 as l5 h
      have := add_self_neg k.1 k.2.2
      exact sqrt_nan_of_neg this.1 this.2
  unfold asinPos asinLarge
  simp only [lt_outside as h l1 l2, lt_outside as h l3 l4, s, Bool.false_eq_true, if_false]
  simp only [sub_def, add_def, sub_nan_r, sub_nan_l, add_nan_l]

theorem asinfPoly_nan (z x : F32) (h : x.isNaN = true) : asinfPoly z x = nan := by
  unfold asinfPoly; exact add_nan_right _ h

theorem asinfPos_outside {a : F32} (as : a.sign = false) (h : Outside a) : asinfPos a = nan := by
  have L : (lit 0.5 : F32).isFinite = true ∧ (lit 0.5 : F32).val ≤ 1 ∧ (lit 1e-4 : F32).isFinite = true ∧ (lit 1e-4 : F32).val ≤ 1 ∧ rnd b32 (-p2 (-b32.mb)) < 0 := by decide +kernel
  obtain ⟨l1, l2, l3, l4, l5⟩ := L
  have fin : ∀ (o n : F32), (PIO2F - (nan + nan)) * o + n * nan = (nan : F32) := fun o n => by
    simp only [sub_def, add_def, mul_def, sub_nan_r, mul_nan_r, mul_nan_l, add_nan_l]
  cases hn : a.isNaN
  · have hb := gt_outside as h hn l1 l2
    have s : FP.sqrt (lit 0.5 * (lit 1 - a)) = nan := by
      rcases h with h | h
      · rw [h] at hn; cases hn
      · have o := lit1f
        rw [abs_of_nonneg (val_nonneg_of_sign as)] at h
        have k := sub_neg_of_gt (by decide) o.1 o.2.1 o.2.2 as l5 h
        have hl := lits32
        obtain ⟨-, -, -, m1, m2, m3, -⟩ := hl
        generalize lit 1 - a = D at *
        have : NegNZ (lit 0.5 * D) := by
          rcases trichotomy D with hc | hc | hc
          · rw [hc] at k; exact absurd k.2.2 (by simp)
          · have e := eq_inf hc
            rw [k.1.1] at e
            rw [e]; unfold NegNZ; decide +kernel
          · rw [mul_def, mul_fin m1 hc]
            apply neg_ofRat
            have v := k.2.1 hc
            have c : rnd b32 (1 / 2 * rnd b32 (-p2 (-b32.mb))) < 0 := by decide +kernel
            exact (rnd_mono b32 (by rw [m2]; exact mul_le_mul_of_nonneg_left v (by norm_num))).trans_lt c
        exact sqrt_nan_of_neg this.1 this.2
    unfold asinfPos
    simp only [hb, lt_outside as h l3 l4, s, if_true, Bool.false_eq_true, if_false, asinfPoly_nan _ _ nan_isNaN]
    exact fin _ _
  · unfold asinfPos
    simp only [gt_nan_left hn, lt_nan_left hn, Bool.false_eq_true, if_false, asinfPoly_nan _ _ hn]
    exact fin _ _

/-! ## Inside -/

theorem inside_abs {x : FP f} (hx : x.isFinite = true) (h : |x.val| ≤ 1) : (FP.abs x).isFinite = true ∧ (FP.abs x).sign = false ∧ (FP.abs x).val ≤ 1 := by
  rw [val_abs]; exact ⟨by simpa using hx, by simp, h⟩

theorem fast_asinC_signed (p : Policy) {x : F64} (hx : x.isFinite = true) (h : |x.val| ≤ 1) : fast_asinC p x = signedBy (asinPosC p (FP.abs x)) x.sign := by
  obtain ⟨i1, i2, i3⟩ := inside_abs hx h
  have a := asinPosC_acc p i1 i2 i3
  show dpORuint64 (asinPosC p (FP.abs x)) (getSignMask x) = _
  rw [dpOR_signMask, a.2.1]; rfl

theorem fast_asin_signed {x : F64} (hx : x.isFinite = true) (h : |x.val| ≤ 1) : fast_asin x = signedBy (asinPos (FP.abs x)) x.sign := by
  rw [← fast_asin_plain, ← asinPos_plain]
  exact fast_asinC_signed _ hx h

theorem fast_asinfC_signed (p : Policy) {x : F32} (hx : x.isFinite = true) (h : |x.val| ≤ 1) : fast_asinfC p x = signedBy (asinfPosC p (FP.abs x)) x.sign := by
  obtain ⟨i1, i2, i3⟩ := inside_abs hx h
  have a := asinfPosC_acc p i1 i2 i3
  show spORuint32 (asinfPosC p (FP.abs x)) (getSignMaskf x) = _
  rw [spOR_signMask, a.2.1]; rfl

theorem fast_asinf_signed {x : F32} (hx : x.isFinite = true) (h : |x.val| ≤ 1) : fast_asinf x = signedBy (asinfPos (FP.abs x)) x.sign := by
  rw [← fast_asinf_plain, ← asinfPos_plain]
  exact fast_asinfC_signed _ hx h

theorem fast_asinC_acc (p : Policy) {x : F64} (hx : x.isFinite = true) (h : |x.val| ≤ 1) :
    (fast_asinC p x).isFinite = true ∧ |(fast_asinC p x).val| ≤ PIO2.val ∧
    |(fast_asinC p x).real - Real.arcsin x.real| ≤ 3.6 * 2 ^ (-53 : ℤ) * |Real.arcsin x.real| ∧
    |(fast_asinC p x).real - Real.arcsin x.real| ≤ 2.8 * 2 ^ (-53 : ℤ) := by
  obtain ⟨i1, i2, i3⟩ := inside_abs hx h
  obtain ⟨a1, a2, a3, a4, a5⟩ := asinPosC_acc p i1 i2 i3
  rw [fast_asinC_signed p hx h]
  have h0 : 0 ≤ Real.arcsin (FP.abs x).real := Real.arcsin_nonneg.2 (real_nonneg i2)
  refine ⟨a1, ?_, ?_, ?_⟩
  · rw [signedBy_abs, abs_of_nonneg (val_nonneg_of_sign a2)]; exact a3
  · have := signed_acc (x := x) Real.arcsin_neg a2 (C := 3.6 * 2 ^ (-53 : ℤ)) (h := 0) (by rw [abs_of_nonneg h0, add_zero]; exact a4)
    rwa [add_zero] at this
  · have := signed_acc (x := x) Real.arcsin_neg a2 (C := 0) (h := 2.8 * 2 ^ (-53 : ℤ)) (by rw [zero_mul, zero_add]; exact a5)
    rwa [zero_mul, zero_add] at this

theorem fast_asin_acc {x : F64} (hx : x.isFinite = true) (h : |x.val| ≤ 1) :
    (fast_asin x).isFinite = true ∧ |(fast_asin x).val| ≤ PIO2.val ∧
    |(fast_asin x).real - Real.arcsin x.real| ≤ 3.6 * 2 ^ (-53 : ℤ) * |Real.arcsin x.real| ∧
    |(fast_asin x).real - Real.arcsin x.real| ≤ 2.8 * 2 ^ (-53 : ℤ) := by
  rw [← fast_asin_plain]
  exact fast_asinC_acc _ hx h

theorem fast_asinfC_acc (p : Policy) {x : F32} (hx : x.isFinite = true) (h : |x.val| ≤ 1) :
    (fast_asinfC p x).isFinite = true ∧ |(fast_asinfC p x).val| ≤ PIO2F.val ∧
    |(fast_asinfC p x).real - Real.arcsin x.real| ≤ 9.1 * 2 ^ (-24 : ℤ) * |Real.arcsin x.real| ∧
    |(fast_asinfC p x).real - Real.arcsin x.real| ≤ 4.8 * 2 ^ (-24 : ℤ) := by
  obtain ⟨i1, i2, i3⟩ := inside_abs hx h
  obtain ⟨a1, a2, a3, a4, a5⟩ := asinfPosC_acc p i1 i2 i3
  rw [fast_asinfC_signed p hx h]
  have h0 : 0 ≤ Real.arcsin (FP.abs x).real := Real.arcsin_nonneg.2 (real_nonneg i2)
  refine ⟨a1, ?_, ?_, ?_⟩
  · rw [signedBy_abs, abs_of_nonneg (val_nonneg_of_sign a2)]; exact a3
  · have := signed_acc (x := x) Real.arcsin_neg a2 (C := 9.1 * 2 ^ (-24 : ℤ)) (h := 0) (by rw [abs_of_nonneg h0, add_zero]; exact a4)
    rwa [add_zero] at this
  · have := signed_acc (x := x) Real.arcsin_neg a2 (C := 0) (h := 4.8 * 2 ^ (-24 : ℤ)) (by rw [zero_mul, zero_add]; exact a5)
    rwa [zero_mul, zero_add] at this

theorem fast_asinf_acc {x : F32} (hx : x.isFinite = true) (h : |x.val| ≤ 1) :
    (fast_asinf x).isFinite = true ∧ |(fast_asinf x).val| ≤ PIO2F.val ∧
    |(fast_asinf x).real - Real.arcsin x.real| ≤ 9.1 * 2 ^ (-24 : ℤ) * |Real.arcsin x.real| ∧
    |(fast_asinf x).real - Real.arcsin x.real| ≤ 4.8 * 2 ^ (-24 : ℤ) := by
  rw [← fast_asinf_plain]
  exact fast_asinfC_acc _ hx h

/-- The subtraction of the arccosine, for both formats. -/
structure AcosOk (f : Fmt) (P2 P : FP f) : Prop where
  fin : P2.isFinite = true
  dbl : P.isFinite = true ∧ P.val = 2 * P2.val
  nn : 0 ≤ P2.val
  le : P.val ≤ 3.2
  big : 4 ≤ f.big
  eta : f.eta ≤ f.u * 3.2

theorem acos64 : AcosOk b64 PIO2 PI := ⟨by decide +kernel, by decide +kernel, by decide +kernel, by decide +kernel, by decide +kernel, by decide +kernel⟩
theorem acos32 : AcosOk b32 PIO2F PIF := ⟨by decide +kernel, by decide +kernel, by decide +kernel, by decide +kernel, by decide +kernel, by decide +kernel⟩

theorem acos_sub [f.Ok] {P2 P a : FP f} (ok : AcosOk f P2 P) (ha : a.isFinite = true) (h : |a.val| ≤ P2.val) :
    (P2 - a).isFinite = true ∧ 0 ≤ (P2 - a).val ∧ (P2 - a).val ≤ P.val ∧ |(P2 - a).real - (P2.real - a.real)| ≤ f.u * 3.2 := by
  have ha' := abs_le.1 h
  have b0 : 0 ≤ P2.val - a.val := by linarith
  have b1 : P2.val - a.val ≤ P.val := by rw [ok.dbl.2]; linarith
  have hb : |P2.val - a.val| ≤ 3.2 := by rw [abs_of_nonneg b0]; exact b1.trans ok.le
  have s := sub_spec ok.fin ha (by have := ok.big; linarith)
  refine ⟨s.1, ?_, ?_, ?_⟩
  · rw [sub_def, s.2]; exact rnd_nonneg f b0
  · rw [sub_def, s.2]
    exact (rnd_mono f b1).trans (rnd_fin ok.dbl.1).le
  · have e : (P2 - a).real = ((rnd f (P2.val - a.val) : ℚ) : ℝ) := by rw [← s.2]; rfl
    have hb' := (Rat.cast_le (K := ℝ)).2 hb
    have he := (Rat.cast_le (K := ℝ)).2 ok.eta
    push_cast at hb' he
    have k := rnd_real (f := f) (q := P2.val - a.val) (M := 3.2) (by push_cast; exact hb') (by exact he) (by have := ok.big; linarith)
    rw [e]
    push_cast at k
    exact k

/-! ## C25 -/

/-- The arcsine of a double is NaN exactly for NaN arguments, infinities and numbers beyond one. -/
theorem C25_asin_nan_iff (x : F64) : (fast_asin x).isNaN = true ↔ x.isNaN = true ∨ x.isInf = true ∨ (x.isFinite = true ∧ 1 < |x.val|) := by
  show _ ↔ Outside x
  constructor
  · intro h
    rw [outside_iff]
    rintro ⟨h1, h2⟩
    rw [finite_not_nan (fast_asin_acc h1 h2).1] at h; cases h
  · intro h
    show (dpORuint64 (asinPos (FP.abs x)) (getSignMask x)).isNaN = true
    rw [dpOR_signMask, asinPos_outside (by simp) (outside_abs.2 h)]
    exact nan_isNaN (f := b64)

theorem C25_asinf_nan_iff (x : F32) : (fast_asinf x).isNaN = true ↔ x.isNaN = true ∨ x.isInf = true ∨ (x.isFinite = true ∧ 1 < |x.val|) := by
  show _ ↔ Outside x
  constructor
  · intro h
    rw [outside_iff]
    rintro ⟨h1, h2⟩
    rw [finite_not_nan (fast_asinf_acc h1 h2).1] at h; cases h
  · intro h
    show (spORuint32 (asinfPos (FP.abs x)) (getSignMaskf x)).isNaN = true
    rw [spOR_signMask, asinfPos_outside (by simp) (outside_abs.2 h)]
    exact nan_isNaN (f := b32)

theorem C25_acos_nan_iff (x : F64) : (fast_acos x).isNaN = true ↔ x.isNaN = true ∨ x.isInf = true ∨ (x.isFinite = true ∧ 1 < |x.val|) := by
  constructor
  · intro h
    show Outside x
    rw [outside_iff]
    rintro ⟨h1, h2⟩
    have a := fast_asin_acc h1 h2
    have := (acos_sub acos64 a.1 a.2.1).1
    rw [show fast_acos x = PIO2 - fast_asin x from rfl, finite_not_nan this] at h; cases h
  · intro h
    show (PIO2 - fast_asin x).isNaN = true
    rw [sub_def, sub_nan_right _ ((C25_asin_nan_iff x).2 h)]
    exact nan_isNaN

theorem C25_acosf_nan_iff (x : F32) : (fast_acosf x).isNaN = true ↔ x.isNaN = true ∨ x.isInf = true ∨ (x.isFinite = true ∧ 1 < |x.val|) := by
  constructor
  · intro h
    show Outside x
    rw [outside_iff]
    rintro ⟨h1, h2⟩
    have a := fast_asinf_acc h1 h2
    have := (acos_sub acos32 a.1 a.2.1).1
    rw [show fast_acosf x = PIO2F - fast_asinf x from rfl, finite_not_nan this] at h; cases h
  · intro h
    show (PIO2F - fast_asinf x).isNaN = true
    rw [sub_def, sub_nan_right _ ((C25_asinf_nan_iff x).2 h)]
    exact nan_isNaN

/-- A payload NaN, an infinity and the number just above one are outside; minus one and a subnormal are inside. -/
example : (⟨true, 0x7FF0000000000001, by decide⟩ : F64).isNaN = true ∧ (FP.inf true : F64).isInf = true ∧
    (⟨true, 0x3FF0000000000001, by decide⟩ : F64).isFinite = true ∧ 1 < |(⟨true, 0x3FF0000000000001, by decide⟩ : F64).val| ∧
    (fast_asin (⟨true, 0x3FF0000000000001, by decide⟩)).isNaN = true ∧ (fast_asinf (⟨false, 0x3F800001, by decide⟩)).isNaN = true ∧
    fast_asin (-lit 1) = -lit 1.57079632679489661923 ∧ fast_acos (-lit 1) = lit 3.14159265358979323846 ∧ fast_acos (lit 1) = zero false ∧
    fast_asin ⟨true, 1, by decide⟩ = ⟨true, 1, by decide⟩ := by decide +kernel

/-- Flipping the sign bit of the argument flips the sign bit of the result and nothing else. -/
theorem C25_asin_odd (x : F64) : (fast_asin (FP.neg x)).SignFlipped (fast_asin x) := by
  have abn : FP.abs (FP.neg x) = FP.abs x := rfl
  by_cases h : x.isFinite = true ∧ |x.val| ≤ 1
  · rw [fast_asin_signed h.1 h.2, fast_asin_signed (x := FP.neg x) (by simpa using h.1) (by rw [val_neg, abs_neg]; exact h.2), abn]
    refine ⟨?_, rfl⟩
    show (FP.neg x).sign ≠ x.sign
    simp
  · have o := asinPos_outside (a := FP.abs x) (by simp) (outside_abs.2 (outside_iff.2 h))
    have e : ∀ y : F64, FP.abs y = FP.abs x → fast_asin y = ⟨(nan : F64).sign || y.sign, (nan : F64).mag, (nan : F64).bound⟩ := fun y hy => by
      show dpORuint64 (asinPos (FP.abs y)) (getSignMask y) = _
      rw [dpOR_signMask, hy, o]
    rw [e _ abn, e _ rfl]
    refine ⟨?_, rfl⟩
    show ((nan : F64).sign || (FP.neg x).sign) ≠ ((nan : F64).sign || x.sign)
    have : (nan : F64).sign = false := rfl
    rw [this]; simp

theorem C25_asinf_odd (x : F32) : (fast_asinf (FP.neg x)).SignFlipped (fast_asinf x) := by
  have abn : FP.abs (FP.neg x) = FP.abs x := rfl
  by_cases h : x.isFinite = true ∧ |x.val| ≤ 1
  · rw [fast_asinf_signed h.1 h.2, fast_asinf_signed (x := FP.neg x) (by simpa using h.1) (by rw [val_neg, abs_neg]; exact h.2), abn]
    refine ⟨?_, rfl⟩
    show (FP.neg x).sign ≠ x.sign
    simp
  · have o := asinfPos_outside (a := FP.abs x) (by simp) (outside_abs.2 (outside_iff.2 h))
    have e : ∀ y : F32, FP.abs y = FP.abs x → fast_asinf y = ⟨(nan : F32).sign || y.sign, (nan : F32).mag, (nan : F32).bound⟩ := fun y hy => by
      show spORuint32 (asinfPos (FP.abs y)) (getSignMaskf y) = _
      rw [spOR_signMask, hy, o]
    rw [e _ abn, e _ rfl]
    refine ⟨?_, rfl⟩
    show ((nan : F32).sign || (FP.neg x).sign) ≠ ((nan : F32).sign || x.sign)
    have : (nan : F32).sign = false := rfl
    rw [this]; simp

/-- Zeros of either sign are returned unchanged. -/
theorem C25_asin_zero (s : Bool) : fast_asin (zero s) = zero s ∧ fast_asinf (zero s) = zero s := by
  cases s <;> decide +kernel

/-! ## C26 -/

/-- Every double in `[-1,1]`: relative error at most `2^-51`, and never beyond the double nearest to `π/2`. -/
theorem C26_asin_accurate (x : F64) (hx : x.isFinite = true) (h : |x.val| ≤ 1) :
    (fast_asin x).CloseRel (Real.arcsin x.real) (2 ^ (-51 : ℤ)) ∧ |(fast_asin x).val| ≤ 884279719003555 / 562949953421312 := by
  obtain ⟨a1, a2, a3, -⟩ := fast_asin_acc hx h
  refine ⟨⟨a1, a3.trans (mul_le_mul_of_nonneg_right (by norm_num) (abs_nonneg _))⟩, a2.trans (by decide +kernel)⟩

/-- One, both sides of the branch point and a subnormal meet the hypotheses. -/
example : (lit 1 : F64).isFinite = true ∧ |(lit 1 : F64).val| ≤ 1 ∧ |(lit 0.625 : F64).val| ≤ 1 ∧ |(-lit 0.6249999 : F64).val| ≤ 1 ∧
    |(⟨true, 1, by decide⟩ : F64).val| ≤ 1 ∧ fast_asin (lit 0.5) = ⟨false, 0x3FE0C152382D7366, by decide⟩ := by decide +kernel

/-! ## C27 -/

theorem fast_acosC_acc (p : Policy) (x : F64) (hx : x.isFinite = true) (h : |x.val| ≤ 1) :
    (fast_acosC p x).CloseAbs (Real.arccos x.real) (2 ^ (-50 : ℤ)) ∧ 0 ≤ (fast_acosC p x).real ∧ (fast_acosC p x).real ≤ Real.pi := by
  obtain ⟨a1, a2, -, a4⟩ := fast_asinC_acc p hx h
  obtain ⟨b1, b2, b3, b4⟩ := acos_sub acos64 a1 a2
  have e : fast_acosC p x = PIO2 - fast_asinC p x := rfl
  rw [← e] at b1 b2 b3 b4
  refine ⟨⟨b1, ?_⟩, ?_, ?_⟩
  · rw [Real.arccos_eq_pi_div_two_sub_arcsin]
    have u : (b64.u : ℝ) = 2 ^ (-53 : ℤ) := by rw [u64_val]; norm_num
    have c := (C20_atan_inf false).2.2.1
    rw [u] at b4
    rw [show (fast_acosC p x).real - (Real.pi / 2 - Real.arcsin x.real) =
      ((fast_acosC p x).real - (PIO2.real - (fast_asinC p x).real)) + (PIO2.real - Real.pi / 2) - ((fast_asinC p x).real - Real.arcsin x.real) by ring]
    generalize (fast_acosC p x).real - (PIO2.real - (fast_asinC p x).real) = p1 at *
    generalize PIO2.real - Real.pi / 2 = q at *
    generalize (fast_asinC p x).real - Real.arcsin x.real = r at *
    rw [abs_le] at *
    norm_num at *
    constructor <;> linarith [a4.1, a4.2, b4.1, b4.2, c.1, c.2]
  · unfold FP.real; exact_mod_cast b2
  · have p : PI.real ≤ Real.pi := by
      have k : PI.val ≤ piQ - 1 / 10 ^ 20 := by decide +kernel
      have k' := (Rat.cast_le (K := ℝ)).2 k
      have n := (abs_le.1 pi_near).1
      unfold FP.real
      push_cast at k'
      norm_num at *
      linarith
    refine le_trans ?_ p
    unfold FP.real; exact_mod_cast b3

/-- Every double in `[-1,1]`: absolute error at most `2^-50`, result in `[0,π]`. -/
theorem C27_acos_accurate (x : F64) (hx : x.isFinite = true) (h : |x.val| ≤ 1) :
    (fast_acos x).CloseAbs (Real.arccos x.real) (2 ^ (-50 : ℤ)) ∧ 0 ≤ (fast_acos x).real ∧ (fast_acos x).real ≤ Real.pi := by
  rw [← fast_acos_plain]
  exact fast_acosC_acc _ x hx h

example : (-lit 1 : F64).isFinite = true ∧ |(-lit 1 : F64).val| ≤ 1 ∧ |(lit 0.9999999999999999 : F64).val| ≤ 1 ∧ fast_acos (lit 0) = lit 1.57079632679489661923 := by decide +kernel

/-! ## C28 -/

/-- Every float in `[-1,1]`: the arcsine with relative error at most `2^-20` (and so absolute error at most `2^-20` too), the arccosine with absolute error at most `2^-20`;
neither leaves the range spanned by the floats nearest to `π/2` and `π`. -/
theorem C28_asinf_accurate (x : F32) (hx : x.isFinite = true) (h : |x.val| ≤ 1) :
    (fast_asinf x).CloseRel (Real.arcsin x.real) (2 ^ (-20 : ℤ)) ∧ (fast_asinf x).CloseAbs (Real.arcsin x.real) (2 ^ (-21 : ℤ)) ∧
    |(fast_asinf x).val| ≤ 13176795 / 8388608 := by
  obtain ⟨a1, a2, a3, a4⟩ := fast_asinf_acc hx h
  refine ⟨⟨a1, a3.trans (mul_le_mul_of_nonneg_right (by norm_num) (abs_nonneg _))⟩, ⟨a1, a4.trans (by norm_num)⟩, a2.trans (by decide +kernel)⟩

theorem fast_acosfC_acc (p : Policy) (x : F32) (hx : x.isFinite = true) (h : |x.val| ≤ 1) :
    (fast_acosfC p x).CloseAbs (Real.arccos x.real) (2 ^ (-20 : ℤ)) ∧ 0 ≤ (fast_acosfC p x).val ∧ (fast_acosfC p x).val ≤ 13176795 / 4194304 := by
  obtain ⟨a1, a2, -, a4⟩ := fast_asinfC_acc p hx h
  obtain ⟨b1, b2, b3, b4⟩ := acos_sub acos32 a1 a2
  have e : fast_acosfC p x = PIO2F - fast_asinfC p x := rfl
  rw [← e] at b1 b2 b3 b4
  refine ⟨⟨b1, ?_⟩, b2, b3.trans (by decide +kernel)⟩
  rw [Real.arccos_eq_pi_div_two_sub_arcsin]
  have u : (b32.u : ℝ) = 2 ^ (-24 : ℤ) := by rw [u32_val]; norm_num
  have c := pi2f_near
  rw [u] at b4
  rw [show (fast_acosfC p x).real - (Real.pi / 2 - Real.arcsin x.real) =
    ((fast_acosfC p x).real - (PIO2F.real - (fast_asinfC p x).real)) + (PIO2F.real - Real.pi / 2) - ((fast_asinfC p x).real - Real.arcsin x.real) by ring]
  generalize (fast_acosfC p x).real - (PIO2F.real - (fast_asinfC p x).real) = p1 at *
  generalize PIO2F.real - Real.pi / 2 = q at *
  generalize (fast_asinfC p x).real - Real.arcsin x.real = r at *
  rw [abs_le] at *
  norm_num at *
  constructor <;> linarith [a4.1, a4.2, b4.1, b4.2, c.1, c.2]

theorem C28_acosf_accurate (x : F32) (hx : x.isFinite = true) (h : |x.val| ≤ 1) :
    (fast_acosf x).CloseAbs (Real.arccos x.real) (2 ^ (-20 : ℤ)) ∧ 0 ≤ (fast_acosf x).val ∧ (fast_acosf x).val ≤ 13176795 / 4194304 := by
  rw [← fast_acosf_plain]
  exact fast_acosfC_acc _ x hx h

example : (lit 1 : F32).isFinite = true ∧ |(lit 1 : F32).val| ≤ 1 ∧ |(lit 0.5 : F32).val| ≤ 1 ∧ |(-lit 0.501 : F32).val| ≤ 1 ∧
    fast_asinf (lit 1) = lit 1.57079632679489661923 ∧ fast_acosf (lit 1) = zero false ∧ fast_acosf (-lit 1) = lit 3.14159265358979323846 := by decide +kernel

end Vdt
