import Verif.Spec
import Verif.Lemmas.Sincos

/-!
# Sine and cosine: symmetry (C09), defined behaviour (C11)
-/

namespace Vdt
open FP details

/-! ## C09 -/

/-- Full statement of C09 (strict semantics; `none` = undefined behaviour on both sides). -/
def C09_statement : Prop :=
  (∀ x : F64, fast_cos (FP.neg x) = fast_cos x ∧ fast_sin (FP.neg x) = (fast_sin x).map FP.neg) ∧
  (∀ x : F32, fast_cosf (FP.neg x) = fast_cosf x ∧ fast_sinf (FP.neg x) = (fast_sinf x).map FP.neg)

section
variable {m : Type → Type} [Monad m] [LawfulMonad m]

theorem sincosTail_neg {f : Fmt} (sc : FP f × FP f) (j : ℤ) (b : Bool) :
    sincosTail sc j (!b) = ((FP.neg (sincosTail sc j b).1), (sincosTail sc j b).2) := by
  unfold sincosTail
  cases b <;> simp

theorem lt_zero_neg64 {x : F64} (hn : x.isNaN = false) (h0 : x.isZero = false) :
    FP.lt (FP.neg x) (lit 0) = !FP.lt x (lit 0) := by
  have hz : (lit 0 : F64).isZero = true := by decide +kernel
  rw [lt_zero_iff hz hn, lt_zero_iff hz (by simpa using hn)]
  simp [h0]

theorem lt_zero_neg32 {x : F32} (hn : x.isNaN = false) (h0 : x.isZero = false) :
    FP.lt (FP.neg x) (ofInt 0) = !FP.lt x (ofInt 0) := by
  have hz : (ofInt 0 : F32).isZero = true := by decide +kernel
  rw [lt_zero_iff hz hn, lt_zero_iff hz (by simpa using hn)]
  simp [h0]

/-- On every machine (whatever it does in the undefined cases): negating a non-zero number flips the
sign bit of the sine and leaves the cosine alone. -/
theorem C09_sincos_symmetry_partial (M : Machine m) (x : F64) (hn : x.isNaN = false) (h0 : x.isZero = false) :
    fast_sincosM M (FP.neg x) = (fun p : F64 × F64 => (FP.neg p.1, p.2)) <$> fast_sincosM M x := by
  rw [fast_sincosM_eq, fast_sincosM_eq, lt_zero_neg64 hn h0, abs_neg']
  simp only [sincosTail_neg, map_bind, map_pure]

theorem C09_sincosf_symmetry_partial (M : Machine m) (x : F32) (hn : x.isNaN = false) (h0 : x.isZero = false) :
    fast_sincosfM M (FP.neg x) = (fun p : F32 × F32 => (FP.neg p.1, p.2)) <$> fast_sincosfM M x := by
  rw [fast_sincosfM_eq, fast_sincosfM_eq, lt_zero_neg32 hn h0, abs_neg']
  simp only [sincosTail_neg, map_bind, map_pure]

/-- The cosine is even for every pattern, zeros and NaNs included. -/
theorem C09_cos_even (M : Machine m) (x : F64) : fast_cosM M (FP.neg x) = fast_cosM M x := by
  simp only [fast_cosM, fast_sincosM_eq, abs_neg', bind_assoc, pure_bind]
  rfl

theorem C09_cosf_even (M : Machine m) (x : F32) : fast_cosfM M (FP.neg x) = fast_cosfM M x := by
  simp only [fast_cosfM, fast_sincosfM_eq, abs_neg', bind_assoc, pure_bind]
  rfl

theorem C09_sin_odd_partial (M : Machine m) (x : F64) (hn : x.isNaN = false) (h0 : x.isZero = false) :
    fast_sinM M (FP.neg x) = FP.neg <$> fast_sinM M x := by
  simp only [fast_sinM, C09_sincos_symmetry_partial M x hn h0, bind_map_left, map_bind, map_pure]

theorem C09_sinf_odd_partial (M : Machine m) (x : F32) (hn : x.isNaN = false) (h0 : x.isZero = false) :
    fast_sinfM M (FP.neg x) = FP.neg <$> fast_sinfM M x := by
  simp only [fast_sinfM, C09_sincosf_symmetry_partial M x hn h0, bind_map_left, map_bind, map_pure]
end

/-- The code violates C09: `fast_sin(-0)` is `+0`, the sign of zero is lost. -/
theorem C09_violated : ¬ C09_statement := by
  intro h
  have h1 := (h.1 (zero false)).2
  revert h1
  decide +kernel

theorem C09_sin_zero : fast_sin (zero true) = some (zero false) ∧ fast_sin (zero false) = some (zero false) ∧
    fast_sinf (zero true) = some (zero false) ∧ fast_sinf (zero false) = some (zero false) := by
  decide +kernel

example : (fast_sin (lit (-2.5))).map FP.sign = some true ∧ (fast_sin (lit 2.5)).map FP.sign = some false ∧
    fast_cos (lit (-2.5)) = fast_cos (lit 2.5) := by decide +kernel

/-! ## C11 -/

/-- Full statement of C11: no undefined behaviour on finite numbers; NaN and infinity give NaN on every machine. -/
def C11_statement : Prop :=
  (∀ x : F64, x.isFinite = true → (fast_sincos x).isSome = true) ∧
  (∀ (o : Oracle) (x : F64), x.isFinite = false →
    (fast_sinM o.machine x : F64).isNaN = true ∧ (fast_cosM o.machine x : F64).isNaN = true)

/-- Exactly when `fast_sincos` is defined: `|x|` below about 1.6866e9, i.e. `4/π·|x| < 2^31 - 1`. -/
theorem C11_sincos_defined_iff (x : F64) : (fast_sincos x).isSome = true ↔
    x.isFinite = true ∧ |x.val| < 7074237748734241 / 4194304 := by
  rw [← quad64_defined_iff]
  unfold fast_sincos
  rw [fast_sincosM_eq]
  cases quadStep strict ONEOPIO4 (FP.abs x) <;> simp

theorem C11_sincosf_defined_iff (x : F32) : (fast_sincosf x).isSome = true ↔
    x.isFinite = true ∧ |x.val| < 1686629760 := by
  rw [← quad32_defined_iff]
  unfold fast_sincosf
  rw [fast_sincosfM_eq]
  cases quadStep strict ONEOPIO4F (FP.abs x) <;> simp

/-- The single functions are defined exactly when `fast_sincos` is and return its components. -/
theorem C11_sin_cos_components (x : F64) :
    fast_sin x = (fast_sincos x).map Prod.fst ∧ fast_cos x = (fast_sincos x).map Prod.snd := by
  unfold fast_sin fast_cos fast_sincos fast_sinM fast_cosM
  cases fast_sincosM strict x <;> simp

theorem C11_sinf_cosf_components (x : F32) :
    fast_sinf x = (fast_sincosf x).map Prod.fst ∧ fast_cosf x = (fast_sincosf x).map Prod.snd := by
  unfold fast_sinf fast_cosf fast_sincosf fast_sinfM fast_cosfM
  cases fast_sincosfM strict x <;> simp

/-- Whatever the machine delivers for the undefined conversion, a NaN argument gives NaN. -/
theorem C11_sincos_nan (o : Oracle) (x : F64) (h : x.isNaN = true) :
    (fast_sinM o.machine x : F64).isNaN = true ∧ (fast_cosM o.machine x : F64).isNaN = true := by
  have hr : ∀ y : F64, reduceWith (FP.abs x) y = nan := by
    intro y
    unfold reduceWith
    simp only [sub_def, mul_def]
    rw [sub_nan_left (x := FP.abs x) (by simpa using h)]
    simp
  have hsc : fast_sincos_m45_45 (nan : F64) = (nan, nan) := by decide +kernel
  have ht : ∀ j b, (sincosTail ((nan : F64), (nan : F64)) j b).1.isNaN = true ∧
      (sincosTail ((nan : F64), (nan : F64)) j b).2.isNaN = true := by
    intro j b
    unfold sincosTail
    constructor
    · cases b <;> simp <;> split <;> simp
    · simp only; split <;> split <;> simp
  unfold fast_sinM fast_cosM
  rw [fast_sincosM_eq]
  simp only [hr, hsc]
  exact ⟨(ht _ _).1, (ht _ _).2⟩

/-- Every 32-bit integer times a reduction constant is finite. -/
theorem ofInt32_mul_finite (n : ℤ) (hn : |n| ≤ 2147483648) {c : F64} (hc : c.isFinite = true) (h1 : |c.val| ≤ 1) :
    (FP.mul (ofInt n) c).isFinite = true := by
  have hi := ofInt_spec64 (n := n) (by omega)
  refine (mul_spec hi.1 hc ?_).1
  rw [abs_mul, hi.2]
  have h2 : |(n : ℚ)| ≤ 2147483648 := by exact_mod_cast hn
  have h3 : |(n : ℚ)| * |c.val| ≤ 2147483648 * 1 := mul_le_mul h2 h1 (abs_nonneg _) (by norm_num)
  refine h3.trans ?_
  decide +kernel

theorem inf_sub_finite {f : Fmt} {y : FP f} (h : y.isFinite = true) (s : Bool) : FP.sub (inf s) y = inf s := by
  have h1 := finite_not_nan h
  have h2 := finite_not_inf h
  simp [FP.sub, FP.add, h1, h2]

theorem clearLow_abs (q : ℤ) : |clearLow q| ≤ 2147483648 := by
  unfold clearLow
  generalize (BitVec.ofInt 32 q &&& ~~~(1#32)) = b
  have h1 := BitVec.toInt_lt (x := b)
  have h2 := BitVec.le_toInt (x := b)
  norm_num at h1 h2
  rw [abs_le]; omega

/-- Whatever the machine delivers, an infinite argument gives an *infinite* sine and cosine, not a NaN. -/
theorem C11_sincos_inf (o : Oracle) (s : Bool) :
    (fast_sinM o.machine (inf s) : F64).isInf = true ∧ (fast_cosM o.machine (inf s) : F64).isInf = true := by
  have hr : ∀ q : ℤ, reduceWith (FP.abs (inf s)) (ofInt (clearLow q)) = inf false := by
    intro q
    have ha : FP.abs (inf s : F64) = inf false := rfl
    have hq := clearLow_abs q
    unfold reduceWith
    simp only [sub_def, mul_def, ha]
    rw [inf_sub_finite (ofInt32_mul_finite _ hq (by decide +kernel) (by decide +kernel)),
      inf_sub_finite (ofInt32_mul_finite _ hq (by decide +kernel) (by decide +kernel)),
      inf_sub_finite (ofInt32_mul_finite _ hq (by decide +kernel) (by decide +kernel))]
  have hsc : fast_sincos_m45_45 (inf false : F64) = (inf false, inf true) := by decide +kernel
  have ht : ∀ j b, (sincosTail ((inf false : F64), (inf true : F64)) j b).1.isInf = true ∧
      (sincosTail ((inf false : F64), (inf true : F64)) j b).2.isInf = true := by
    intro j b
    unfold sincosTail
    constructor
    · cases b <;> simp <;> split <;> (try simp) <;> split <;> simp
    · simp only; split <;> split <;> simp
  unfold fast_sinM fast_cosM
  rw [fast_sincosM_eq]
  have := hr
  constructor
  · show FP.isInf (sincosTail _ _ _).1 = true
    rw [hr, hsc]; exact (ht _ _).1
  · show FP.isInf (sincosTail _ _ _).2 = true
    rw [hr, hsc]; exact (ht _ _).2

/-- Within 1.6866e9 there is no undefined behaviour.  Missing: larger arguments, where the conversion
to `int` (or the following increment) overflows, and infinities, see `C11_sincos_inf`. -/
theorem C11_sincos_defined_partial (x : F64) (hf : x.isFinite = true) (h : |x.val| ≤ 1686629712) :
    (fast_sincos x).isSome = true :=
  (C11_sincos_defined_iff x).2 ⟨hf, lt_of_le_of_lt h (by norm_num)⟩

/-- The code violates C11: `fast_sin(2e9)` converts an out-of-range value to `int`. -/
theorem C11_violated : ¬ C11_statement := by
  intro h
  have h1 := h.1 (lit 2e9) (by decide +kernel)
  rw [C11_sincos_defined_iff] at h1
  have h2 := h1.2
  revert h2
  decide +kernel

example : (lit 1.6e9 : F64).isFinite = true ∧ |(lit 1.6e9 : F64).val| ≤ 1686629712 := by decide +kernel

end Vdt
