import Verif.Spec
import Verif.Lemmas.ExpBasic

/-!
# Exponential: saturation, special values, undefined behaviour (C02, C04)
-/

namespace Vdt
open FP details

/-! ### A concrete machine agrees with the strict semantics wherever that is defined -/

theorem machine_f2i (o : Oracle) {f : Fmt} {x : FP f} {n : ℤ} (h : strict.f2i x = some n) : o.machine.f2i x = n := by
  simp only [strict] at h
  by_cases hd : f2iDefined x = true
  · rw [if_pos hd] at h; cases h; simp [Oracle.machine, hd]
  · rw [if_neg hd] at h; cases h

theorem machine_i32 (o : Oracle) {k n : ℤ} (h : strict.i32 k = some n) : o.machine.i32 k = n := by
  simp only [strict] at h
  by_cases hd : inI32 k = true
  · rw [if_pos hd] at h; cases h; simp [Oracle.machine, hd]
  · rw [if_neg hd] at h; cases h

theorem machine_shl (o : Oracle) {a n : ℤ} {k : ℕ} (h : strict.shl a k = some n) : o.machine.shl a k = n := by
  simp only [strict] at h
  by_cases hd : 0 ≤ a ∧ a * 2 ^ k < 4294967296
  · rw [if_pos hd] at h; cases h; simp only [Oracle.machine]; rw [if_pos hd]
  · rw [if_neg hd] at h; cases h

theorem machine_fpfloor (o : Oracle) {x y : F64} (h : fpfloor strict x = some y) : fpfloor o.machine x = y := by
  unfold fpfloor at h ⊢
  cases h1 : strict.f2i x with
  | none => rw [h1] at h; cases h
  | some n =>
    rw [h1] at h
    have := machine_f2i o h1
    cases h
    show ofInt (wrap32 (@HSub.hSub ℤ ℤ ℤ _ (o.machine.f2i x) _)) = _
    rw [this]

theorem machine_fpfloorf (o : Oracle) {x y : F32} (h : fpfloorf strict x = some y) : fpfloorf o.machine x = y := by
  unfold fpfloorf at h ⊢
  cases h1 : strict.f2i x with
  | none => rw [h1] at h; cases h
  | some n =>
    rw [h1] at h
    have := machine_f2i o h1
    cases h
    show ofInt (wrap32 (@HSub.hSub ℤ ℤ ℤ _ (o.machine.f2i x) _)) = _
    rw [this]

/-! ## C02 -/

/-- Full statement of C02. -/
def C02_statement : Prop :=
  (∀ x : F64, (fast_exp x).isSome = true) ∧
  (∀ (o : Oracle) (x : F64), (x = inf false ∨ (x.isFinite = true ∧ 708 < x.val)) → fast_expM o.machine x = inf false) ∧
  (∀ (o : Oracle) (x : F64), (x = inf true ∨ (x.isFinite = true ∧ x.val < -708)) → fast_expM o.machine x = zero false)

/-- Where the strict semantics is defined, every machine computes the same number. -/
theorem C02_exp_machine_independent (o : Oracle) (x y : F64) (h : fast_exp x = some y) : fast_expM o.machine x = y := by
  unfold fast_exp fast_expM at h
  unfold fast_expM
  dsimp only at h ⊢
  cases h1 : fpfloor strict (LOG2E * x + lit 0.5) with
  | none => rw [h1] at h; cases h
  | some px =>
    rw [h1] at h
    cases h2 : strict.f2i px with
    | none => simp only [Option.bind_eq_bind, Option.bind_some] at h; rw [h2] at h; cases h
    | some n =>
      simp only [Option.bind_eq_bind, Option.bind_some] at h; rw [h2] at h
      cases h
      have e1 := machine_fpfloor o h1
      have e2 := machine_f2i o h2
      show (if _ then _ else _) = _
      simp only [e1]
      simp only [e2]

theorem lim_finite : EXP_LIMIT.isFinite = true ∧ EXP_LIMIT.val = 708 := by decide +kernel

theorem gt_limit {x : F64} (h : x = inf false ∨ (x.isFinite = true ∧ 708 < x.val)) :
    FP.gt x EXP_LIMIT = true ∧ FP.lt x (-EXP_LIMIT) = false := by
  rcases h with rfl | ⟨h1, h2⟩
  · decide +kernel
  · rw [gt_fin h1 lim_finite.1, neg_def, lt_fin h1 (by simpa using lim_finite.1), val_neg, lim_finite.2]
    simp; exact ⟨h2, by linarith⟩

theorem lt_limit {x : F64} (h : x = inf true ∨ (x.isFinite = true ∧ x.val < -708)) :
    FP.lt x (-EXP_LIMIT) = true := by
  rcases h with rfl | ⟨h1, h2⟩
  · decide +kernel
  · rw [neg_def, lt_fin h1 (by simpa using lim_finite.1), val_neg, lim_finite.2]
    simpa using h2

theorem in_limit {x : F64} (h1 : x.isFinite = true) (h2 : |x.val| ≤ 708) :
    FP.gt x EXP_LIMIT = false ∧ FP.lt x (-EXP_LIMIT) = false := by
  rw [abs_le] at h2
  rw [gt_fin h1 lim_finite.1, neg_def, lt_fin h1 (by simpa using lim_finite.1), val_neg, lim_finite.2]
  simp; exact ⟨h2.2, h2.1⟩

/-- Above 708 the result is `+infinity` on every machine, whatever it delivers for the undefined
conversions. -/
theorem C02_exp_overflow (o : Oracle) (x : F64) (h : x = inf false ∨ (x.isFinite = true ∧ 708 < x.val)) :
    fast_expM o.machine x = inf false := by
  have hg := gt_limit h
  unfold fast_expM
  show (if _ then _ else _) = _
  rw [hg.2, if_neg (by simp)]
  show (if _ then _ else _) = _
  rw [hg.1, if_pos rfl]

/-- Below -708 the result is `+0` on every machine. -/
theorem C02_exp_underflow (o : Oracle) (x : F64) (h : x = inf true ∨ (x.isFinite = true ∧ x.val < -708)) :
    fast_expM o.machine x = zero false := by
  have hg := lt_limit h
  unfold fast_expM
  show (if _ then _ else _) = _
  rw [hg, if_pos rfl]
  show (lit 0 : F64) = zero false
  decide +kernel

/-- NaN gives NaN on every machine. -/
theorem C02_exp_nan (o : Oracle) (x : F64) (h : x.isNaN = true) : (fast_expM o.machine x : F64).isNaN = true := by
  have h1 : FP.lt x (-EXP_LIMIT) = false := lt_nan_left h _
  have h2 : FP.gt x EXP_LIMIT = false := gt_nan_left h _
  unfold fast_expM
  show FP.isNaN (if _ then _ else _) = true
  rw [h1, if_neg (by simp)]
  show FP.isNaN (if _ then _ else _) = true
  rw [h2, if_neg (by simp)]
  have hr : ∀ p, expReduce x p = nan := by
    intro p
    unfold expReduce
    simp only [sub_def, mul_def, sub_nan_left h, sub_nan_l]
  rw [hr]
  have hc : expCore (nan : F64) = nan := by decide +kernel
  rw [hc]
  simp

/-- Exactly when a call of `fast_exp` is defined: the first conversion to `int` must fit, which is the
case from about -1.4885e9 to 1.4885e9; NaN and the infinities are undefined behaviour. -/
theorem C02_exp_defined_iff (x : F64) : (fast_exp x).isSome = true ↔
    x.isFinite = true ∧ -(780414346565783 / 524288) < x.val ∧ x.val < 1560828691677931 / 1048576 := by
  rw [← exp_arg_defined, fast_exp_eq]
  split <;> simp_all

/-- In the strict semantics the saturation holds on the arguments for which the call is defined.
Missing: arguments beyond 1.488e9, infinities (undefined behaviour). -/
theorem C02_exp_saturates_partial (x : F64) (hf : x.isFinite = true) (hb : |x.val| ≤ 1488000000) :
    (708 < x.val → fast_exp x = some (inf false)) ∧ (x.val < -708 → fast_exp x = some (zero false)) := by
  rw [abs_le] at hb
  have hd := (C02_exp_defined_iff x).2 ⟨hf, by norm_num; linarith, by norm_num; linarith⟩
  obtain ⟨y, hy⟩ := Option.isSome_iff_exists.1 hd
  -- any machine will do
  let o : Oracle := ⟨fun _ _ => 0#32, fun _ => 0#32, fun _ _ => 0#32⟩
  have hm := C02_exp_machine_independent o x y hy
  constructor
  · intro h
    rw [C02_exp_overflow o x (Or.inr ⟨hf, h⟩)] at hm
    rw [hy, hm]
  · intro h
    rw [C02_exp_underflow o x (Or.inr ⟨hf, h⟩)] at hm
    rw [hy, hm]

/-- The code violates C02: `fast_exp(1e10)` and `fast_exp(inf)` are undefined behaviour, because the
clamping happens after the conversion to `int`. -/
theorem C02_violated : ¬ C02_statement := by
  intro h
  have h1 := h.1 (lit 1e10)
  rw [C02_exp_defined_iff] at h1
  have h2 := h1.2.2
  revert h2
  decide +kernel

example : fast_exp (inf false) = none ∧ fast_exp (inf true) = none ∧ fast_exp nan = none ∧
    fast_exp (lit 709) = some (inf false) ∧ fast_exp (lit (-709)) = some (zero false) ∧
    fast_exp (lit 0) = some (lit 1) := by decide +kernel

/-! ## C04 -/

/-- Full statement of C04. -/
def C04_statement : Prop :=
  (∀ x : F32, x.isFinite = true → MINLOGF.val ≤ x.val → x.val ≤ MAXLOGF.val →
      ∃ y, fast_expf x = some y ∧ y.isFinite = true ∧ 0 < y.val) ∧
  (∀ x : F32, x.isFinite = true → MAXLOGF.val < x.val → fast_expf x = some (inf false)) ∧
  (∀ x : F32, x.isFinite = true → x.val < MINLOGF.val → fast_expf x = some (zero false))

/-- Above `MAXLOGF` every machine returns `+infinity`. -/
theorem C04_expf_overflow (o : Oracle) (x : F32) (h : x = inf false ∨ (x.isFinite = true ∧ MAXLOGF.val < x.val)) :
    fast_expfM o.machine x = inf false := by
  have hM : MAXLOGF.isFinite = true ∧ MINLOGF.isFinite = true ∧ MINLOGF.val < MAXLOGF.val := by decide +kernel
  have hg : FP.gt x MAXLOGF = true ∧ FP.lt x MINLOGF = false := by
    rcases h with rfl | ⟨h1, h2⟩
    · decide +kernel
    · rw [gt_fin h1 hM.1, lt_fin h1 hM.2.1]
      simp; exact ⟨h2, by linarith [hM.2.2]⟩
  unfold fast_expfM
  show (if _ then _ else _) = _
  rw [hg.2, if_neg (by simp)]
  show (if _ then _ else _) = _
  rw [hg.1, if_pos rfl]

/-- Below `MINLOGF` every machine returns `+0`. -/
theorem C04_expf_underflow (o : Oracle) (x : F32) (h : x = inf true ∨ (x.isFinite = true ∧ x.val < MINLOGF.val)) :
    fast_expfM o.machine x = zero false := by
  have hM : MINLOGF.isFinite = true := by decide +kernel
  have hg : FP.lt x MINLOGF = true := by
    rcases h with rfl | ⟨h1, h2⟩
    · decide +kernel
    · rw [lt_fin h1 hM]; simpa using h2
  unfold fast_expfM
  show (if _ then _ else _) = _
  rw [hg, if_pos rfl]
  show (lit 0 : F32) = zero false
  decide +kernel

theorem C04_expf_nan (o : Oracle) (x : F32) (h : x.isNaN = true) : (fast_expfM o.machine x : F32).isNaN = true := by
  have h1 : FP.lt x MINLOGF = false := lt_nan_left h _
  have h2 : FP.gt x MAXLOGF = false := gt_nan_left h _
  unfold fast_expfM
  show FP.isNaN (if _ then _ else _) = true
  rw [h1, if_neg (by simp)]
  show FP.isNaN (if _ then _ else _) = true
  rw [h2, if_neg (by simp)]
  have hr : ∀ p, expfReduce x p = nan := by
    intro p
    unfold expfReduce
    simp only [sub_def, mul_def, sub_nan_left h, sub_nan_l]
  show FP.isNaN (expfCore (expfReduce x _) * _) = true
  rw [hr]
  have hc : expfCore (nan : F32) = nan := by decide +kernel
  rw [hc]
  simp

/-- The code violates C04: `fast_expf(88.5)` is `+infinity` although `e^88.5 < FLT_MAX` and
`88.5 < MAXLOGF`; `fast_expf(-87.9)` is `0` although `-87.9 > MINLOGF`. -/
theorem C04_violated : ¬ C04_statement := by
  intro h
  obtain ⟨y, hy, hf, _⟩ := h.1 (lit 88.5) (by decide +kernel) (by decide +kernel) (by decide +kernel)
  have e : fast_expf (lit 88.5) = some (inf false) := by decide +kernel
  rw [e] at hy
  cases hy
  revert hf
  decide +kernel

theorem C04_witnesses : fast_expf (lit 88.5) = some (inf false) ∧ fast_expf (lit (-87.9)) = some (zero false) ∧
    fast_expf (lit 300) = none ∧ fast_expf (lit (-89)) = none := by decide +kernel

example : (lit 88.5 : F32).val < MAXLOGF.val ∧ MINLOGF.val < (lit (-87.9) : F32).val := by decide +kernel

end Vdt
