import Verif.Float.Theory
import Mathlib.Algebra.Order.AbsoluteValue.Basic
import Mathlib.Data.Real.Basic

/-!
# The floating point operations as "exact operation, then rounding"
-/

namespace Vdt

/-- A magnitude up to which results are certainly finite: `2^emax`. -/
def Fmt.big (f : Fmt) : ℚ := p2 (1 - f.emin)

/-- Unit roundoff. -/
def Fmt.u (f : Fmt) : ℚ := p2 (-(f.mb : ℤ) - 1)

/-- Half the smallest subnormal. -/
def Fmt.eta (f : Fmt) : ℚ := p2 (f.emin - f.mb - 1)

theorem Fmt.u_pos (f : Fmt) : 0 < f.u := p2_pos _
theorem Fmt.eta_pos (f : Fmt) : 0 < f.eta := p2_pos _
theorem Fmt.big_pos (f : Fmt) : 0 < f.big := p2_pos _

/-- Rounding to nearest as a function on the rationals. -/
def rnd (f : Fmt) (q : ℚ) : ℚ :=
  if q < 0 then -magVal f (roundMag f (-q)) else magVal f (roundMag f q)

theorem infMag_eq (f : Fmt) [h : f.Ok] : ∃ d : ℕ, f.infMag = (d + 1) * 2 ^ f.mb + 2 ^ f.mb ∧
    (d : ℤ) = 1 - f.emin - f.emin ∧ 1 ≤ d := by
  obtain ⟨k, hk⟩ : ∃ k, f.eb = k + 2 := ⟨f.eb - 2, by have := h.eb2; omega⟩
  refine ⟨2 ^ f.eb - 3, ?_, ?_, ?_⟩
  · unfold Fmt.infMag
    have : 2 ^ f.eb - 1 = (2 ^ f.eb - 3 + 1) + 1 := by
      rw [hk, pow_add]; have := Nat.two_pow_pos k; omega
    rw [this]; ring
  · unfold Fmt.emin
    rw [hk]
    have h1 : (2 : ℕ) ^ (k + 2) - 3 + 3 = 2 ^ (k + 2) := by
      rw [pow_add]; have := Nat.two_pow_pos k; omega
    have h2 : ((2 ^ (k + 2) - 3 : ℕ) : ℤ) = 2 ^ (k + 2) - 3 := by
      have : (((2 : ℕ) ^ (k + 2) - 3 + 3 : ℕ) : ℤ) = ((2 ^ (k + 2) : ℕ) : ℤ) := by rw [h1]
      push_cast at this ⊢
      linarith
    rw [h2]
    have : k + 2 - 1 = k + 1 := rfl
    rw [this]
    ring
  · rw [hk, pow_add]; have := Nat.two_pow_pos k; omega

/-- The code of `2^emax` is below the code of infinity. -/
theorem rcode_big_lt (f : Fmt) [h : f.Ok] : rcode f f.big < f.infMag := by
  have hil : ilog2 f.big = 1 - f.emin := ilog2_unique le_rfl (p2_lt (by omega))
  obtain ⟨d, hd, hde, hd1⟩ := infMag_eq f
  have hre : rexp f f.big = 1 - f.emin := by unfold rexp; rw [hil]; omega
  have hsig : rsig f f.big = 2 ^ f.mb := by
    unfold rsig
    rw [hre]
    have : f.big / p2 (1 - f.emin - f.mb) = ((2 ^ f.mb : ℕ) : ℚ) := by
      rw [div_eq_iff (p2_ne _)]
      unfold Fmt.big
      push_cast
      rw [← p2_nat, ← p2_add]; congr 1; ring
    rw [this, rne_nat]
  unfold rcode
  rw [hsig, hre]
  have : (1 - f.emin - f.emin).toNat = d := by omega
  rw [this, hd]
  have := Nat.two_pow_pos f.mb
  nlinarith

theorem roundMag_lt_inf (f : Fmt) [f.Ok] {q : ℚ} (h : q ≤ f.big) : roundMag f q < f.infMag := by
  refine lt_of_le_of_lt (roundMag_mono f h) ?_
  rw [roundMag_rcode f f.big_pos]
  exact lt_of_le_of_lt (min_le_left _ _) (rcode_big_lt f)

theorem roundMag_eq_rcode (f : Fmt) [f.Ok] {q : ℚ} (h0 : 0 < q) (h : q ≤ f.big) : roundMag f q = rcode f q := by
  have := roundMag_lt_inf f h
  rw [roundMag_rcode f h0] at *
  omega

theorem rexp_mono (f : Fmt) {q r : ℚ} (h0 : 0 < q) (h : q ≤ r) : rexp f q ≤ rexp f r :=
  max_le_max_right _ (ilog2_mono h0 h)

/-- Half an ulp at magnitude `M`. -/
def hulp (f : Fmt) (M : ℚ) : ℚ := p2 (rexp f M - f.mb - 1)

theorem hulp_pos (f : Fmt) (M : ℚ) : 0 < hulp f M := p2_pos _

theorem hulp_le (f : Fmt) {M : ℚ} (hM : 0 < M) : hulp f M ≤ max (f.u * M) f.eta := by
  unfold hulp rexp
  rcases le_total (ilog2 M) f.emin with h | h
  · rw [max_eq_right h]; exact le_max_right _ _
  · rw [max_eq_left h]
    refine le_trans ?_ (le_max_left _ _)
    have : p2 (ilog2 M - f.mb - 1) = f.u * p2 (ilog2 M) := by
      unfold Fmt.u; rw [← p2_add]; congr 1; ring
    rw [this]
    exact mul_le_mul_of_nonneg_left (ilog2_spec hM).1 f.u_pos.le

theorem rnd_zero (f : Fmt) : rnd f 0 = 0 := by
  unfold rnd; simp [roundMag_of_nonpos, magVal_zero]

theorem rnd_neg (f : Fmt) (q : ℚ) : rnd f (-q) = -rnd f q := by
  unfold rnd
  rcases lt_trichotomy q 0 with h | h | h
  · rw [if_neg (by linarith), if_pos h, neg_neg]
  · subst h; simp [roundMag_of_nonpos, magVal_zero]
  · rw [if_pos (by linarith), if_neg (by linarith), neg_neg]

theorem rnd_nonneg (f : Fmt) {q : ℚ} (h : 0 ≤ q) : 0 ≤ rnd f q := by
  unfold rnd; rw [if_neg (not_lt.2 h)]; exact magVal_nonneg _ _

theorem rnd_mono (f : Fmt) {q r : ℚ} (h : q ≤ r) : rnd f q ≤ rnd f r := by
  unfold rnd
  split_ifs with h1 h2 h2
  · exact neg_le_neg (magVal_le.2 (roundMag_mono f (by linarith)))
  · have := magVal_nonneg f (roundMag f (-q))
    have := magVal_nonneg f (roundMag f r)
    linarith
  · exact absurd (lt_of_le_of_lt h h2) h1
  · exact magVal_le.2 (roundMag_mono f h)

/-- The rounding error is at most half an ulp of any magnitude bounding the exact value. -/
theorem rnd_err (f : Fmt) [f.Ok] {q M : ℚ} (hM : 0 < M) (hq : |q| ≤ M) (hb : M ≤ f.big) :
    |rnd f q - q| ≤ hulp f M := by
  have key : ∀ r : ℚ, 0 < r → r ≤ M → |magVal f (roundMag f r) - r| ≤ hulp f M := by
    intro r hr hrM
    rw [roundMag_eq_rcode f hr (hrM.trans hb)]
    exact (rcode_err f hr).trans (p2_le (by have := rexp_mono f hr hrM; omega))
  rcases lt_trichotomy q 0 with h | h | h
  · have := key (-q) (by linarith) (by rwa [abs_of_neg h] at hq)
    unfold rnd
    rw [if_pos h]
    rw [← abs_neg]
    convert this using 2
    ring
  · subst h
    rw [rnd_zero]; simp; exact (hulp_pos _ _).le
  · have := key q h (by rwa [abs_of_pos h] at hq)
    unfold rnd
    rw [if_neg (not_lt.2 h.le)]
    exact this

/-- Standard model of rounding, with an underflow term. -/
theorem rnd_err_rel (f : Fmt) [f.Ok] {q : ℚ} (hb : |q| ≤ f.big) :
    |rnd f q - q| ≤ max (f.u * |q|) f.eta := by
  rcases eq_or_ne q 0 with h | h
  · subst h; rw [rnd_zero]; simp [f.eta_pos.le]
  · exact (rnd_err f (abs_pos.2 h) le_rfl hb).trans (hulp_le f (abs_pos.2 h))

theorem rnd_err_add (f : Fmt) [f.Ok] {q : ℚ} (hb : |q| ≤ f.big) :
    |rnd f q - q| ≤ f.u * |q| + f.eta := by
  refine (rnd_err_rel f hb).trans (max_le ?_ ?_)
  · linarith [f.eta_pos]
  · have := mul_nonneg f.u_pos.le (abs_nonneg q); linarith

/-- Numbers with at most `mb+1` significant bits above the subnormal grid. -/
def Rep (f : Fmt) (q : ℚ) : Prop :=
  ∃ (n : ℤ) (k : ℤ), q = n * p2 k ∧ |n| ≤ 2 ^ (f.mb + 1) ∧ f.emin - f.mb ≤ k

theorem rnd_exact (f : Fmt) [f.Ok] {q : ℚ} (h : Rep f q) (hb : |q| ≤ f.big) : rnd f q = q := by
  obtain ⟨n, k, rfl, hn, hk⟩ := h
  have key : ∀ m : ℕ, 0 < m → m ≤ 2 ^ (f.mb + 1) → (m : ℚ) * p2 k ≤ f.big →
      magVal f (roundMag f (m * p2 k)) = m * p2 k := by
    intro m hm hm2 hmb
    have hpos : (0 : ℚ) < m * p2 k := mul_pos (by exact_mod_cast hm) (p2_pos _)
    rw [roundMag_eq_rcode f hpos hmb, rcode_exact f hm hm2 hk]
  rcases lt_trichotomy n 0 with h | h | h
  · obtain ⟨m, rfl⟩ : ∃ m : ℕ, n = -(m : ℤ) := ⟨n.natAbs, by omega⟩
    have hm0 : 0 < m := by omega
    have hm : m ≤ 2 ^ (f.mb + 1) := by
      rw [abs_neg, abs_of_nonneg (by omega)] at hn; exact_mod_cast hn
    have hneg : ((-(m : ℤ) : ℤ) : ℚ) * p2 k = -((m : ℚ) * p2 k) := by push_cast; ring
    rw [hneg] at hb ⊢
    rw [abs_neg, abs_of_nonneg (mul_nonneg (by positivity) (p2_pos _).le)] at hb
    rw [rnd_neg]
    congr 1
    unfold rnd
    rw [if_neg (not_lt.2 (mul_nonneg (by positivity) (p2_pos _).le))]
    exact key m hm0 hm hb
  · subst h; simp [rnd_zero]
  · obtain ⟨m, rfl⟩ : ∃ m : ℕ, n = (m : ℤ) := ⟨n.natAbs, by omega⟩
    have hm0 : 0 < m := by omega
    have hm : m ≤ 2 ^ (f.mb + 1) := by
      rw [abs_of_nonneg (by omega)] at hn; exact_mod_cast hn
    have hc : (((m : ℤ) : ℤ) : ℚ) = (m : ℚ) := by push_cast; rfl
    rw [hc] at hb ⊢
    have hnn : 0 ≤ (m : ℚ) * p2 k := mul_nonneg (by positivity) (p2_pos _).le
    rw [abs_of_nonneg hnn] at hb
    unfold rnd
    rw [if_neg (not_lt.2 hnn)]
    exact key m hm0 hm hb

namespace FP
variable {f : Fmt}

/-! ### Basic facts -/

@[ext] theorem ext' {x y : FP f} (h1 : x.sign = y.sign) (h2 : x.mag = y.mag) : x = y := by
  cases x; cases y; simp at h1 h2; subst h1; subst h2; rfl

@[simp] theorem add_def (x y : FP f) : x + y = add x y := rfl
@[simp] theorem sub_def (x y : FP f) : x - y = sub x y := rfl
@[simp] theorem mul_def (x y : FP f) : x * y = mul x y := rfl
@[simp] theorem div_def (x y : FP f) : x / y = div x y := rfl
@[simp] theorem neg_def (x : FP f) : -x = neg x := rfl

@[simp] theorem neg_mag (x : FP f) : (neg x).mag = x.mag := rfl
@[simp] theorem neg_sign (x : FP f) : (neg x).sign = !x.sign := rfl
@[simp] theorem abs_mag (x : FP f) : (abs x).mag = x.mag := rfl
@[simp] theorem abs_sign (x : FP f) : (abs x).sign = false := rfl
@[simp] theorem neg_neg' (x : FP f) : neg (neg x) = x := by ext <;> simp
@[simp] theorem abs_neg' (x : FP f) : abs (neg x) = abs x := by ext <;> simp
@[simp] theorem neg_isNaN (x : FP f) : (neg x).isNaN = x.isNaN := rfl
@[simp] theorem neg_isInf (x : FP f) : (neg x).isInf = x.isInf := rfl
@[simp] theorem neg_isFinite (x : FP f) : (neg x).isFinite = x.isFinite := rfl
@[simp] theorem neg_isZero (x : FP f) : (neg x).isZero = x.isZero := rfl
@[simp] theorem abs_isNaN (x : FP f) : (abs x).isNaN = x.isNaN := rfl
@[simp] theorem abs_isInf (x : FP f) : (abs x).isInf = x.isInf := rfl
@[simp] theorem abs_isFinite (x : FP f) : (abs x).isFinite = x.isFinite := rfl
@[simp] theorem abs_isZero (x : FP f) : (abs x).isZero = x.isZero := rfl

theorem val_neg (x : FP f) : (neg x).val = -x.val := by
  unfold val; cases h : x.sign <;> simp [h]

theorem val_abs (x : FP f) : (abs x).val = |x.val| := by
  unfold val
  have := magVal_nonneg f x.mag
  cases h : x.sign <;> simp [abs_of_nonneg this]

theorem abs_val (x : FP f) : |x.val| = magVal f x.mag := by
  rw [← val_abs]; simp [val]

theorem val_eq_zero {x : FP f} : x.val = 0 ↔ x.mag = 0 := by
  rw [← abs_eq_zero, abs_val, ← magVal_zero f, magVal_inj]

theorem val_pos_iff {x : FP f} : 0 < x.val ↔ x.sign = false ∧ 0 < x.mag := by
  unfold val
  have h0 := magVal_nonneg f x.mag
  cases h : x.sign
  · simp [magVal_pos]
  · simp [h0]

theorem val_neg_iff {x : FP f} : x.val < 0 ↔ x.sign = true ∧ 0 < x.mag := by
  unfold val
  have h0 := magVal_nonneg f x.mag
  cases h : x.sign
  · simp [h0]
  · simp [magVal_pos]

theorem finite_not_nan {x : FP f} (h : x.isFinite = true) : x.isNaN = false := by
  simp [isFinite, isNaN] at *; omega

theorem finite_not_inf {x : FP f} (h : x.isFinite = true) : x.isInf = false := by
  simp [isFinite, isInf] at *; omega

theorem finite_iff {x : FP f} : x.isFinite = true ↔ x.isNaN = false ∧ x.isInf = false := by
  simp [isFinite, isInf, isNaN]; omega

theorem trichotomy (x : FP f) : x.isNaN = true ∨ x.isInf = true ∨ x.isFinite = true := by
  simp [isFinite, isInf, isNaN]; omega

/-- Equal finite values of equal sign are the same pattern. -/
theorem eq_of_val {x y : FP f} (hs : x.sign = y.sign) (hv : x.val = y.val) : x = y := by
  apply ext' hs
  have : magVal f x.mag = magVal f y.mag := by rw [← abs_val, ← abs_val, hv]
  exact magVal_inj.1 this

theorem eq_of_val_ne {x y : FP f} (h0 : x.val ≠ 0) (hv : x.val = y.val) : x = y := by
  apply eq_of_val _ hv
  rcases lt_or_gt_of_ne h0 with h | h
  · rw [(val_neg_iff.1 h).1, (val_neg_iff.1 (hv ▸ h)).1]
  · rw [(val_pos_iff.1 h).1, (val_pos_iff.1 (hv ▸ h)).1]

/-! ### Rounding a rational -/

theorem val_ofRat (zs : Bool) (q : ℚ) : (ofRat f zs q).val = rnd f q := by
  unfold val ofRat rnd
  rcases lt_trichotomy q 0 with h | h | h
  · simp [h, h.ne]
  · subst h
    simp [roundMag_of_nonpos, magVal_zero]
  · have h1 : ¬ q < 0 := not_lt.2 h.le
    simp [h1, h.ne']

theorem finite_ofRat [f.Ok] (zs : Bool) {q : ℚ} (h : |q| ≤ f.big) : (ofRat f zs q).isFinite = true := by
  unfold ofRat isFinite
  simp only [decide_eq_true_eq]
  split
  · rename_i hq; rw [abs_of_neg hq] at h; exact roundMag_lt_inf f h
  · rename_i hq; rw [abs_of_nonneg (not_lt.1 hq)] at h; exact roundMag_lt_inf f h

theorem ofRat_not_nan (zs : Bool) (q : ℚ) : (ofRat f zs q).isNaN = false := by
  unfold ofRat isNaN
  simp only [decide_eq_false_iff_not, not_lt]
  exact roundMag_le _ _

theorem ofRat_neg (zs : Bool) {q : ℚ} : ofRat f (!zs) (-q) = neg (ofRat f zs q) := by
  unfold ofRat neg
  rcases lt_trichotomy q 0 with h | h | h
  · have h1 : ¬ (-q < 0) := by linarith
    ext <;> simp [h, h.ne, h.le, not_lt.2 h.le]
  · subst h; ext <;> simp
  · ext <;> simp [h, h.ne', not_lt.2 h.le]

theorem val_rep (x : FP f) : Rep f x.val := by
  obtain ⟨e, k, he, hk, hn, hc⟩ := code_cases f x.mag
  have hv := magVal_code f he hk.le hn
  rw [← hc] at hv
  have hk' : (k : ℤ) ≤ 2 ^ (f.mb + 1) := by exact_mod_cast hk.le
  unfold val
  cases x.sign
  · refine ⟨k, e - f.mb, ?_, ?_, by omega⟩
    · simp [hv]
    · rw [abs_of_nonneg (by omega)]; exact hk'
  · refine ⟨-k, e - f.mb, ?_, ?_, by omega⟩
    · simp [hv]
    · rw [abs_neg, abs_of_nonneg (by omega)]; exact hk'

/-! ### Operations on finite numbers -/

theorem add_fin {x y : FP f} (hx : x.isFinite = true) (hy : y.isFinite = true) :
    add x y = ofRat f (x.sign && y.sign) (x.val + y.val) := by
  unfold add
  simp [finite_not_nan hx, finite_not_nan hy, finite_not_inf hx, finite_not_inf hy]

theorem sub_fin {x y : FP f} (hx : x.isFinite = true) (hy : y.isFinite = true) :
    sub x y = ofRat f (x.sign && !y.sign) (x.val - y.val) := by
  unfold sub
  rw [add_fin hx (by simpa using hy), val_neg, neg_sign, sub_eq_add_neg]

theorem mul_fin {x y : FP f} (hx : x.isFinite = true) (hy : y.isFinite = true) :
    mul x y = ofRat f (x.sign ^^ y.sign) (x.val * y.val) := by
  unfold mul
  simp [finite_not_nan hx, finite_not_nan hy, finite_not_inf hx, finite_not_inf hy]

theorem div_fin {x y : FP f} (hx : x.isFinite = true) (hy : y.isFinite = true) (h0 : y.val ≠ 0) :
    div x y = ofRat f (x.sign ^^ y.sign) (x.val / y.val) := by
  unfold div
  have : y.isZero = false := by
    simp [isZero]; intro h; exact h0 (val_eq_zero.2 h)
  simp [finite_not_nan hx, finite_not_nan hy, finite_not_inf hx, finite_not_inf hy, this]

theorem add_spec [f.Ok] {x y : FP f} (hx : x.isFinite = true) (hy : y.isFinite = true)
    (hb : |x.val + y.val| ≤ f.big) : (add x y).isFinite = true ∧ (add x y).val = rnd f (x.val + y.val) := by
  rw [add_fin hx hy]; exact ⟨finite_ofRat _ hb, val_ofRat _ _⟩

theorem sub_spec [f.Ok] {x y : FP f} (hx : x.isFinite = true) (hy : y.isFinite = true)
    (hb : |x.val - y.val| ≤ f.big) : (sub x y).isFinite = true ∧ (sub x y).val = rnd f (x.val - y.val) := by
  rw [sub_fin hx hy]; exact ⟨finite_ofRat _ hb, val_ofRat _ _⟩

theorem mul_spec [f.Ok] {x y : FP f} (hx : x.isFinite = true) (hy : y.isFinite = true)
    (hb : |x.val * y.val| ≤ f.big) : (mul x y).isFinite = true ∧ (mul x y).val = rnd f (x.val * y.val) := by
  rw [mul_fin hx hy]; exact ⟨finite_ofRat _ hb, val_ofRat _ _⟩

theorem div_spec [f.Ok] {x y : FP f} (hx : x.isFinite = true) (hy : y.isFinite = true) (h0 : y.val ≠ 0)
    (hb : |x.val / y.val| ≤ f.big) : (div x y).isFinite = true ∧ (div x y).val = rnd f (x.val / y.val) := by
  rw [div_fin hx hy h0]; exact ⟨finite_ofRat _ hb, val_ofRat _ _⟩

/-! ### Comparisons -/

theorem lt_fin {x y : FP f} (hx : x.isFinite = true) (hy : y.isFinite = true) :
    lt x y = decide (x.val < y.val) := by
  unfold lt
  simp [finite_not_nan hx, finite_not_nan hy, finite_not_inf hx, finite_not_inf hy]

theorem eq_fin {x y : FP f} (hx : x.isFinite = true) (hy : y.isFinite = true) :
    eq x y = decide (x.val = y.val) := by
  unfold eq
  simp [finite_not_nan hx, finite_not_nan hy, finite_not_inf hx, finite_not_inf hy]

theorem gt_fin {x y : FP f} (hx : x.isFinite = true) (hy : y.isFinite = true) :
    gt x y = decide (y.val < x.val) := lt_fin hy hx

theorem le_fin {x y : FP f} (hx : x.isFinite = true) (hy : y.isFinite = true) :
    le x y = decide (x.val ≤ y.val) := by
  unfold le
  rw [lt_fin hx hy, eq_fin hx hy]
  rcases lt_trichotomy x.val y.val with h | h | h
  · simp [h, h.le]
  · simp [h]
  · simp [not_lt.2 h.le, h.ne', not_le.2 h]

/-! ### Signs -/

/-- A rounded quotient or product keeps the sign, even when it underflows. -/
theorem ofRat_sign_ne {zs : Bool} {q : ℚ} (h : q ≠ 0) : (ofRat f zs q).sign = decide (q < 0) := by
  unfold ofRat; simp [h]

theorem ofRat_zero {zs : Bool} : ofRat f zs 0 = zero zs := by
  unfold ofRat zero; ext <;> simp [roundMag_of_nonpos]

/-- On finite operands the sign of a product is the xor of the signs. -/
theorem mul_fin_sign {x y : FP f} (hx : x.isFinite = true) (hy : y.isFinite = true) :
    (mul x y).sign = (x.sign ^^ y.sign) := by
  rw [mul_fin hx hy]
  unfold ofRat
  simp only
  split
  · rfl
  · rename_i h
    have hx0 : x.val ≠ 0 := left_ne_zero_of_mul h
    have hy0 : y.val ≠ 0 := right_ne_zero_of_mul h
    have hxm : 0 < x.mag := Nat.pos_of_ne_zero (fun hh => hx0 (val_eq_zero.2 hh))
    have hym : 0 < y.mag := Nat.pos_of_ne_zero (fun hh => hy0 (val_eq_zero.2 hh))
    rcases lt_or_gt_of_ne hx0 with a | a <;> rcases lt_or_gt_of_ne hy0 with b | b
    · rw [(val_neg_iff.1 a).1, (val_neg_iff.1 b).1]; simp [(mul_pos_of_neg_of_neg a b).le]
    · rw [(val_neg_iff.1 a).1, (val_pos_iff.1 b).1]; simp [mul_neg_of_neg_of_pos a b]
    · rw [(val_pos_iff.1 a).1, (val_neg_iff.1 b).1]; simp [mul_neg_of_pos_of_neg a b]
    · rw [(val_pos_iff.1 a).1, (val_pos_iff.1 b).1]; simp [(mul_pos a b).le]

end FP
end Vdt
