import Verif.Props.Benchmark
import Verif.Props.ExpAcc
import Verif.Props.LogAcc
import Verif.Props.SincosAcc
import Verif.Props.Tan
import Verif.Props.Tanh
import Verif.Props.Atan
import Verif.Props.Atan2
import Verif.Props.Asin
import Verif.Props.Isqrt

/-!
# C63: what a run of the accuracy benchmark leaves behind
-/

namespace Vdt.Bench
open FP Txt Arr Rand

local notation "‹" s "›" => String.toList s

/-- A finite number of an interval. -/
def In {f : Fmt} (lo hi : ℚ) (x : FP f) : Prop := x.isFinite = true ∧ lo ≤ x.val ∧ x.val ≤ hi

/-! ### The inputs -/

theorem pool_in {f : Fmt} (hf : IsT f) {lo hi : FP f} {a b : ℚ} (h1 : lo.isFinite = true) (h2 : hi.isFinite = true)
    (ha : a ≤ lo.val) (hab : lo.val ≤ hi.val) (hb : hi.val ≤ b) (eng : Engine) (n : BitVec 64) :
    ∀ x ∈ pool1D eng lo hi n, In a b x := by
  intro x hx
  obtain ⟨h3, h4, h5⟩ := (C60_pool_range hf lo hi h1 h2 hab eng n).2 x hx
  exact ⟨h3, ha.trans h4, h5.trans hb⟩

/-- The numbers of a pool from -5000 to 5000 are the positive zero or not too small. -/
theorem sym_gap {f : Fmt} [f.Ok] (hf : IsT f) {lo hi : FP f} (h1 : lo.isFinite = true) (h2 : hi.isFinite = true)
    (hl : lo.val = -5000) (hh : hi.val = 5000) (he : Rep f (p2 (-64))) (hb : 1 ≤ f.big) (eng : Engine) (n : BitVec 64) :
    ∀ x ∈ pool1D eng lo hi n, x = zero false ∨ p2 (-64) ≤ |x.val| := by
  intro x hx
  unfold pool1D fillVector at hx
  obtain ⟨i, -, rfl⟩ := List.mem_map.1 hx
  generalize eng (0 + i) = g
  have hab : lo.val ≤ hi.val := by rw [hl, hh]; norm_num
  obtain ⟨uf, v, p0, p1⟩ := uniform_eq hf h1 h2 hab g
  have z := uniform_zero hf h1 h2 hab g (by rw [hl]; norm_num)
  generalize hw : convert f (uniform lo hi g) = w at z ⊢
  have hv := (number_eq hf h1 h2 hab g).2.1
  rw [hw] at hv
  rw [hv, v]
  rw [hl, hh] at *
  clear v
  have hP : ∃ P : FP b80, P.val = rnd b80 ((g.toNat : ℚ) / 2 ^ 64 * rnd b80 (5000 - -5000)) :=
    ⟨ofRat b80 false ((g.toNat : ℚ) / 2 ^ 64 * rnd b80 (5000 - -5000)), val_ofRat _ _⟩
  obtain ⟨P, hP⟩ := hP
  rw [← hP] at p0 p1 z ⊢
  have e1 : rnd f (p2 (-64)) = p2 (-64) := rnd_exact f he (by
    rw [abs_of_pos (p2_pos _)]; exact le_trans (by rw [p2_eq]; norm_num) hb)
  have e2 : rnd b80 (p2 (-64)) = p2 (-64) := by decide +kernel
  have key : P.val + -5000 = 0 ∨ p2 (-64) ≤ P.val + -5000 ∨ P.val + -5000 ≤ -p2 (-64) := by
    by_cases hlt : P.val < 1
    · right; right
      have : p2 (-64) ≤ 1 := by rw [p2_eq]; norm_num
      linarith
    · push Not at hlt
      obtain ⟨m, k, hm, hm2, -⟩ := val_rep P
      have hk : -64 ≤ k := by
        by_contra hc
        push Not at hc
        have hk2 : p2 k ≤ p2 (-65) := p2_le (by omega)
        have : (m : ℚ) ≤ 2 ^ 64 := by
          have := (abs_le.1 hm2).2
          exact_mod_cast this
        have h5 : (m : ℚ) * p2 k ≤ 2 ^ 64 * p2 (-65) := by
          have := p2_pos k
          have : (m : ℚ) * p2 k ≤ 2 ^ 64 * p2 k := mul_le_mul_of_nonneg_right ‹_› (p2_pos k).le
          have : (2 : ℚ) ^ 64 * p2 k ≤ 2 ^ 64 * p2 (-65) := mul_le_mul_of_nonneg_left hk2 (by norm_num)
          linarith
        rw [← hm] at h5
        have : (2 : ℚ) ^ 64 * p2 (-65) = 1 / 2 := by rw [p2_eq]; norm_num
        linarith
      obtain ⟨j, hj⟩ := Int.eq_ofNat_of_zero_le (show 0 ≤ k + 64 by omega)
      have hint : P.val + -5000 = ((m * 2 ^ j - 5000 * 2 ^ 64 : ℤ) : ℚ) * p2 (-64) := by
        have h7 : (5000 : ℚ) = 5000 * 2 ^ 64 * p2 (-64) := by rw [p2_eq]; norm_num
        rw [hm, show k = (j : ℤ) + -64 by omega, p2_add, p2_nat]
        push_cast
        linarith
      have hq := p2_pos (-64)
      rcases lt_trichotomy (m * 2 ^ j - 5000 * 2 ^ 64 : ℤ) 0 with h | h | h
      · right; right
        rw [hint]
        have : ((m * 2 ^ j - 5000 * 2 ^ 64 : ℤ) : ℚ) ≤ -1 := by exact_mod_cast Int.le_sub_one_of_lt h
        nlinarith
      · left; rw [hint, h]; simp
      · right; left
        rw [hint]
        have : (1 : ℚ) ≤ ((m * 2 ^ j - 5000 * 2 ^ 64 : ℤ) : ℚ) := by exact_mod_cast h
        nlinarith
  rcases key with h | h | h
  · exact Or.inl (z h)
  · right
    have := rnd_mono f (rnd_mono b80 h)
    rw [e2, e1] at this
    exact this.trans (le_abs_self _)
  · right
    have := rnd_mono f (rnd_mono b80 h)
    rw [rnd_neg, e2, rnd_neg, e1] at this
    exact le_trans (by linarith) (neg_le_abs _)

theorem val_of_zero {f : Fmt} {x : FP f} (h : x = zero false) : x.val = 0 := by rw [h]; exact val_eq_zero.2 rfl

/-! ### What is claimed -/

/-- A file of the run: the name of the function, the inputs, and a relation between input and output. -/
structure Spec (f : Fmt) where
  name : Text
  input : List (FP f)
  rel : FP f → FP f → Prop

/-- Name, inputs and what is claimed of input and output, for every file of a double precision run. -/
noncomputable def spec64 (R : RefMath b64) (eng : Engine) (n : BitVec 64) : List (Spec b64) :=
  let sym : List F64 := pool1D eng (lit (-5000)) (lit 5000) n
  let pos : List F64 := pool1D eng (lit 0.0001) (lit 5000) n
  let one : List F64 := pool1D eng (lit (-1)) (lit 1) n
  let exp : List F64 := pool1D eng (lit (-705)) (lit 705) n
  [⟨‹"Identity"›, sym, fun x y => In (-5000) 5000 x ∧ y = x⟩,
   ⟨‹"Exp"›, exp, fun x y => In (-705) 705 x ∧ y = R.exp x⟩,
   ⟨‹"Log"›, pos, fun x y => In (99 / 10 ^ 6) 5000 x ∧ y = R.log x⟩,
   ⟨‹"Sin"›, sym, fun x y => In (-5000) 5000 x ∧ y = R.sin x⟩,
   ⟨‹"Cos"›, sym, fun x y => In (-5000) 5000 x ∧ y = R.cos x⟩,
   ⟨‹"Tan"›, sym, fun x y => In (-5000) 5000 x ∧ y = R.tan x⟩,
   ⟨‹"Tanh"›, sym, fun x y => In (-5000) 5000 x ∧ y = R.tanh x⟩,
   ⟨‹"Asin"›, one, fun x y => In (-1) 1 x ∧ y = R.asin x⟩,
   ⟨‹"Acos"›, one, fun x y => In (-1) 1 x ∧ y = R.acos x⟩,
   ⟨‹"Atan"›, sym, fun x y => In (-5000) 5000 x ∧ y = R.atan x⟩,
   ⟨‹"Isqrt"›, pos, fun x y => In (99 / 10 ^ 6) 5000 x ∧ y = Vdt.isqrt x⟩,
   ⟨‹"Inverse"›, sym, fun x y => In (-5000) 5000 x ∧ y = Vdt.inv x⟩,
   ⟨‹"Fast_Exp"›, exp, fun x y => In (-705) 705 x ∧ Vdt.fast_exp x = some y ∧ 0 < y.val ∧ y.CloseRel (Real.exp x.real) (2 ^ (-51 : ℤ))⟩,
   ⟨‹"Fast_Log"›, pos, fun x y => In (99 / 10 ^ 6) 5000 x ∧ y = Vdt.fast_log x ∧ y.CloseRel (Real.log x.real) (2 ^ (-51 : ℤ))⟩,
   ⟨‹"Fast_Sin"›, sym, fun x y => In (-5000) 5000 x ∧ (x = zero false ∨ 2⁻¹ ^ 64 ≤ |x.val|) ∧ Vdt.fast_sin x = some y ∧ y.CloseAbs (Real.sin x.real) (2 ^ (-51 : ℤ))⟩,
   ⟨‹"Fast_Cos"›, sym, fun x y => In (-5000) 5000 x ∧ (x = zero false ∨ 2⁻¹ ^ 64 ≤ |x.val|) ∧ Vdt.fast_cos x = some y ∧ y.CloseAbs (Real.cos x.real) (2 ^ (-51 : ℤ))⟩,
   ⟨‹"Fast_Tan"›, sym, fun x y => In (-5000) 5000 x ∧ (x = zero false ∨ 2⁻¹ ^ 64 ≤ |x.val|) ∧ Vdt.fast_tan x = some y ∧ y.isFinite = true ∧ |y.real - Real.tan x.real| ≤ 2 ^ (-47 : ℤ) * |Real.tan x.real| + 2 ^ (-85 : ℤ) * (1 + Real.tan x.real ^ 2)⟩,
   ⟨‹"Fast_Tanh"›, sym, fun x y => In (-5000) 5000 x ∧ (x = zero false ∨ 2⁻¹ ^ 64 ≤ |x.val|) ∧ y = Vdt.fast_tanh x ∧ y.CloseAbs (Real.tanh x.real) (2 ^ (-49 : ℤ) * |Real.tanh x.real| + 2 ^ (-1070 : ℤ))⟩,
   ⟨‹"Fast_Asin"›, one, fun x y => In (-1) 1 x ∧ y = Vdt.fast_asin x ∧ y.CloseRel (Real.arcsin x.real) (2 ^ (-51 : ℤ))⟩,
   ⟨‹"Fast_Acos"›, one, fun x y => In (-1) 1 x ∧ y = Vdt.fast_acos x ∧ y.CloseAbs (Real.arccos x.real) (2 ^ (-50 : ℤ))⟩,
   ⟨‹"Fast_Atan"›, sym, fun x y => In (-5000) 5000 x ∧ (x = zero false ∨ 2⁻¹ ^ 64 ≤ |x.val|) ∧ y = Vdt.fast_atan x ∧ y.CloseAbs (Real.arctan x.real) (2 ^ (-51 : ℤ) * |Real.arctan x.real| + 2 ^ (-1073 : ℤ))⟩,
   ⟨‹"Fast_Isqrt"›, pos, fun x y => In (99 / 10 ^ 6) 5000 x ∧ y = Vdt.fast_isqrt x ∧ y.CloseRel (1 / Real.sqrt x.real) (2⁻¹ ^ 50)⟩,
   ⟨‹"Fast_Inv"›, sym, fun x y => In (-5000) 5000 x ∧ (x = zero false ∨ 2⁻¹ ^ 64 ≤ |x.val|) ∧ y = Vdt.fast_inv x ∧ (x.val ≠ 0 → y.CloseRel (1 / x.real) (2⁻¹ ^ 49)) ∧ (x.val = 0 → y = FP.inf x.sign)⟩,
   ⟨‹"Fast_Apr_Isqrt"›, pos, fun x y => In (99 / 10 ^ 6) 5000 x ∧ y = Vdt.fast_approx_isqrt x ∧ y.CloseRel (1 / Real.sqrt x.real) (2⁻¹ ^ 34)⟩,
   ⟨‹"Fast_Apr_Inv"›, sym, fun x y => In (-5000) 5000 x ∧ (x = zero false ∨ 2⁻¹ ^ 64 ≤ |x.val|) ∧ y = Vdt.fast_approx_inv x ∧ (x.val ≠ 0 → y.CloseRel (1 / x.real) (2⁻¹ ^ 33)) ∧ (x.val = 0 → y = FP.inf x.sign)⟩]

/-- The same for single precision. -/
noncomputable def spec32 (R : RefMath b32) (eng : Engine) (n : BitVec 64) : List (Spec b32) :=
  let sym : List F32 := pool1D eng (lit (-5000)) (lit 5000) n
  let pos : List F32 := pool1D eng (lit 0.0001) (lit 5000) n
  let one : List F32 := pool1D eng (lit (-1)) (lit 1) n
  let exp : List F32 := pool1D eng (lit (-85)) (lit 85) n
  [⟨‹"Identityf"›, sym, fun x y => In (-5000) 5000 x ∧ y = x⟩,
   ⟨‹"Expf"›, exp, fun x y => In (-85) 85 x ∧ y = R.exp x⟩,
   ⟨‹"Logf"›, pos, fun x y => In (99 / 10 ^ 6) 5000 x ∧ y = R.log x⟩,
   ⟨‹"Sinf"›, sym, fun x y => In (-5000) 5000 x ∧ y = R.sin x⟩,
   ⟨‹"Cosf"›, sym, fun x y => In (-5000) 5000 x ∧ y = R.cos x⟩,
   ⟨‹"Tanf"›, sym, fun x y => In (-5000) 5000 x ∧ y = R.tan x⟩,
   ⟨‹"Tanhf"›, sym, fun x y => In (-5000) 5000 x ∧ y = R.tanh x⟩,
   ⟨‹"Asinf"›, one, fun x y => In (-1) 1 x ∧ y = R.asin x⟩,
   ⟨‹"Acosf"›, one, fun x y => In (-1) 1 x ∧ y = R.acos x⟩,
   ⟨‹"Atanf"›, sym, fun x y => In (-5000) 5000 x ∧ y = R.atan x⟩,
   ⟨‹"Isqrtf"›, pos, fun x y => In (99 / 10 ^ 6) 5000 x ∧ y = Vdt.isqrtf x⟩,
   ⟨‹"Inversef"›, sym, fun x y => In (-5000) 5000 x ∧ y = Vdt.invf x⟩,
   ⟨‹"Fast_Expf"›, exp, fun x y => In (-85) 85 x ∧ Vdt.fast_expf x = some y ∧ 0 < y.val ∧ y.CloseRel (Real.exp x.real) (2 ^ (-22 : ℤ))⟩,
   ⟨‹"Fast_Logf"›, pos, fun x y => In (99 / 10 ^ 6) 5000 x ∧ y = Vdt.fast_logf x ∧ y.CloseRel (Real.log x.real) (2 ^ (-22 : ℤ))⟩,
   ⟨‹"Fast_Sinf"›, sym, fun x y => In (-5000) 5000 x ∧ (x = zero false ∨ 2⁻¹ ^ 64 ≤ |x.val|) ∧ Vdt.fast_sinf x = some y ∧ y.CloseAbs (Real.sin x.real) (2 ^ (-22 : ℤ))⟩,
   ⟨‹"Fast_Cosf"›, sym, fun x y => In (-5000) 5000 x ∧ (x = zero false ∨ 2⁻¹ ^ 64 ≤ |x.val|) ∧ Vdt.fast_cosf x = some y ∧ y.CloseAbs (Real.cos x.real) (2 ^ (-22 : ℤ))⟩,
   ⟨‹"Fast_Tanf"›, sym, fun x y => In (-5000) 5000 x ∧ (x = zero false ∨ 2⁻¹ ^ 64 ≤ |x.val|) ∧ Vdt.fast_tanf x = some y ∧ y.isFinite = true ∧ |y.real - Real.tan x.real| ≤ 2 ^ (-21 : ℤ) * |Real.tan x.real| + 2 ^ (-33 : ℤ) * (1 + Real.tan x.real ^ 2)⟩,
   ⟨‹"Fast_Tanhf"›, sym, fun x y => In (-5000) 5000 x ∧ (x = zero false ∨ 2⁻¹ ^ 64 ≤ |x.val|) ∧ y = Vdt.fast_tanhf x ∧ y.CloseAbs (Real.tanh x.real) (2 ^ (-20 : ℤ) * |Real.tanh x.real| + 2 ^ (-145 : ℤ))⟩,
   ⟨‹"Fast_Asinf"›, one, fun x y => In (-1) 1 x ∧ y = Vdt.fast_asinf x ∧ y.CloseRel (Real.arcsin x.real) (2 ^ (-20 : ℤ))⟩,
   ⟨‹"Fast_Acosf"›, one, fun x y => In (-1) 1 x ∧ y = Vdt.fast_acosf x ∧ y.CloseAbs (Real.arccos x.real) (2 ^ (-20 : ℤ))⟩,
   ⟨‹"Fast_Atanf"›, sym, fun x y => In (-5000) 5000 x ∧ (x = zero false ∨ 2⁻¹ ^ 64 ≤ |x.val|) ∧ y = Vdt.fast_atanf x ∧ y.CloseAbs (Real.arctan x.real) (2 ^ (-21 : ℤ) * |Real.arctan x.real| + 2 ^ (-148 : ℤ))⟩,
   ⟨‹"Fast_Isqrtf"›, pos, fun x y => In (99 / 10 ^ 6) 5000 x ∧ y = Vdt.fast_isqrtf x ∧ y.CloseRel (1 / Real.sqrt x.real) (2⁻¹ ^ 17)⟩,
   ⟨‹"Fast_Invf"›, sym, fun x y => In (-5000) 5000 x ∧ (x = zero false ∨ 2⁻¹ ^ 64 ≤ |x.val|) ∧ y = Vdt.fast_invf x ∧ (x.val ≠ 0 → y.CloseRel (1 / x.real) (2⁻¹ ^ 16)) ∧ (x.val = 0 → y = FP.inf x.sign)⟩,
   ⟨‹"Fast_Apr_Isqrtf"›, pos, fun x y => In (99 / 10 ^ 6) 5000 x ∧ y = Vdt.fast_approx_isqrtf x ∧ y.CloseRel (1 / Real.sqrt x.real) (2⁻¹ ^ 9)⟩,
   ⟨‹"Fast_Apr_Invf"›, sym, fun x y => In (-5000) 5000 x ∧ (x = zero false ∨ 2⁻¹ ^ 64 ≤ |x.val|) ∧ y = Vdt.fast_approx_invf x ∧ (x.val ≠ 0 → y.CloseRel (1 / x.real) (2⁻¹ ^ 8)) ∧ (x.val = 0 → y = FP.inf x.sign)⟩]

theorem val_zero_eq {f : Fmt} {x : FP f} (h : x.val = 0) : x = zero x.sign :=
  eq_zero' (by simp [isZero, val_eq_zero.1 h])

theorem normal_of {f : Fmt} {lo hi : ℚ} {x : FP f} (hx : In lo hi x) (hl : p2 f.emin ≤ lo) : x.Normal :=
  ⟨hx.1, by rw [← p2_eq]; exact (hl.trans hx.2.1).trans (le_abs_self _)⟩

theorem tan64_in {x : F64} (hx : In (-5000) 5000 x) (hg : x.val = 0 ∨ p2 (-64) ≤ |x.val|) :
    ∃ y, Vdt.fast_tan x = some y ∧ y.isFinite = true ∧
      |y.real - Real.tan x.real| ≤ 2 ^ (-47 : ℤ) * |Real.tan x.real| + 2 ^ (-85 : ℤ) * (1 + Real.tan x.real ^ 2) := by
  rcases hg with h | h
  · refine ⟨zero x.sign, ?_, ?_, ?_⟩
    · rw [val_zero_eq h]
      cases x.sign
      · exact C14_tan_zero.1
      · exact C14_tan_zero.2.1
    · cases x.sign <;> decide +kernel
    · have h1 : x.real = 0 := by unfold FP.real; rw [h]; norm_num
      have h2 : (zero x.sign : F64).real = 0 := by unfold FP.real; rw [show (zero x.sign : F64).val = 0 by cases x.sign <;> decide +kernel]; norm_num
      rw [h1, h2, Real.tan_zero]; norm_num
  · obtain ⟨y, a, b, c, -⟩ := C13_tan_accurate_to_2_20 x hx.1
      (lt_of_lt_of_le (by rw [← p2_eq]; exact p2_lt (by decide)) h) (abs_le.2 ⟨by linarith [hx.2.1], by linarith [hx.2.2]⟩)
    exact ⟨y, a, b, c⟩

theorem tan32_in {x : F32} (hx : In (-5000) 5000 x) (hg : x.val = 0 ∨ p2 (-64) ≤ |x.val|) :
    ∃ y, Vdt.fast_tanf x = some y ∧ y.isFinite = true ∧
      |y.real - Real.tan x.real| ≤ 2 ^ (-21 : ℤ) * |Real.tan x.real| + 2 ^ (-33 : ℤ) * (1 + Real.tan x.real ^ 2) := by
  rcases hg with h | h
  · refine ⟨zero x.sign, ?_, ?_, ?_⟩
    · rw [val_zero_eq h]
      cases x.sign
      · exact C14_tan_zero.2.2.1
      · exact C14_tan_zero.2.2.2
    · cases x.sign <;> decide +kernel
    · have h1 : x.real = 0 := by unfold FP.real; rw [h]; norm_num
      have h2 : (zero x.sign : F32).real = 0 := by unfold FP.real; rw [show (zero x.sign : F32).val = 0 by cases x.sign <;> decide +kernel]; norm_num
      rw [h1, h2, Real.tan_zero]; norm_num
  · obtain ⟨y, a, b, c, -⟩ := C15_tanf_accurate x hx.1
      (lt_of_lt_of_le (by rw [← p2_eq]; exact p2_lt (by decide)) h) (abs_le.2 ⟨by linarith [hx.2.1], by linarith [hx.2.2]⟩)
    exact ⟨y, a, b, c⟩

theorem inv64_in {x : F64} (hx : In (-5000) 5000 x) (hg : x.val = 0 ∨ p2 (-64) ≤ |x.val|) :
    ((x.val ≠ 0 → (Vdt.fast_inv x).CloseRel (1 / x.real) (2⁻¹ ^ 49)) ∧ (x.val = 0 → Vdt.fast_inv x = FP.inf x.sign)) ∧
    ((x.val ≠ 0 → (Vdt.fast_approx_inv x).CloseRel (1 / x.real) (2⁻¹ ^ 33)) ∧ (x.val = 0 → Vdt.fast_approx_inv x = FP.inf x.sign)) := by
  rcases hg with h | h
  · have hz := C32_inv_zero x.sign
    rw [val_zero_eq h]
    exact ⟨⟨fun h1 => absurd (by cases x.sign <;> decide +kernel) h1, fun _ => hz.1⟩,
      ⟨fun h1 => absurd (by cases x.sign <;> decide +kernel) h1, fun _ => hz.2.1⟩⟩
  · have h0 : x.val ≠ 0 := by
      intro h1; rw [h1, abs_zero] at h; exact absurd h (not_le.2 (p2_pos _))
    have ha : |x.val| ≤ 5000 := abs_le.2 ⟨by linarith [hx.2.1], by linarith [hx.2.2]⟩
    obtain ⟨⟨a, -⟩, b, -⟩ := C31_inv_accurate (x := x) ⟨hx.1, by rw [← p2_eq]; exact (p2_le (by decide)).trans h⟩ (by
      rw [le_inv_comm₀ (by positivity) (abs_pos.2 h0)]
      refine ha.trans ?_
      rw [← zpow_neg]
      exact le_trans (by norm_num) (zpow_le_zpow_right₀ (by norm_num) (by decide : (13 : ℤ) ≤ -b64.emin)))
    exact ⟨⟨fun _ => a, fun h1 => absurd h1 h0⟩, ⟨fun _ => b, fun h1 => absurd h1 h0⟩⟩

theorem inv32_in {x : F32} (hx : In (-5000) 5000 x) (hg : x.val = 0 ∨ p2 (-64) ≤ |x.val|) :
    ((x.val ≠ 0 → (Vdt.fast_invf x).CloseRel (1 / x.real) (2⁻¹ ^ 16)) ∧ (x.val = 0 → Vdt.fast_invf x = FP.inf x.sign)) ∧
    ((x.val ≠ 0 → (Vdt.fast_approx_invf x).CloseRel (1 / x.real) (2⁻¹ ^ 8)) ∧ (x.val = 0 → Vdt.fast_approx_invf x = FP.inf x.sign)) := by
  rcases hg with h | h
  · have hz := C32_inv_zero x.sign
    rw [val_zero_eq h]
    exact ⟨⟨fun h1 => absurd (by cases x.sign <;> decide +kernel) h1, fun _ => hz.2.2.1⟩,
      ⟨fun h1 => absurd (by cases x.sign <;> decide +kernel) h1, fun _ => hz.2.2.2⟩⟩
  · have h0 : x.val ≠ 0 := by
      intro h1; rw [h1, abs_zero] at h; exact absurd h (not_le.2 (p2_pos _))
    have ha : |x.val| ≤ 5000 := abs_le.2 ⟨by linarith [hx.2.1], by linarith [hx.2.2]⟩
    obtain ⟨⟨a, -⟩, b, -⟩ := C31_invf_accurate (x := x) ⟨hx.1, by rw [← p2_eq]; exact (p2_le (by decide)).trans h⟩ (by
      rw [le_inv_comm₀ (by positivity) (abs_pos.2 h0)]
      refine ha.trans ?_
      rw [← zpow_neg]
      exact le_trans (by norm_num) (zpow_le_zpow_right₀ (by norm_num) (by decide : (13 : ℤ) ≤ -b32.emin)))
    exact ⟨⟨fun _ => a, fun h1 => absurd h1 h0⟩, ⟨fun _ => b, fun h1 => absurd h1 h0⟩⟩

theorem tanh64_fin {x : F64} (hx : x.isFinite = true) : (Vdt.fast_tanh x).isFinite = true := (C16_tanh_range x (finite_not_nan hx)).1

theorem tanh32_fin {x : F32} (hx : x.isFinite = true) : (Vdt.fast_tanhf x).isFinite = true := (C16_tanhf_range x (finite_not_nan hx)).1

/-- Every function of the table is defined on its inputs, with the claimed result. -/
theorem table64 (R : RefMath b64) (eng : Engine) (SIZE : BitVec 32) :
    List.Forall₂ (fun (e : Entry b64 (Fcn b64)) (s : Spec b64) => e.name = s.name ∧ e.input = s.input ∧
      ∀ x ∈ e.input, ∃ y, e.fcn x = some y ∧ s.rel x y)
      (tuples64 R none (pools64 eng SIZE)) (spec64 R eng (SIZE.setWidth 64)) := by
  have ft : IsT b64 := Or.inl rfl
  have esym : (pools64 eng SIZE).sym = pool1D eng (lit (-5000)) (lit 5000) (SIZE.setWidth 64) := by
    have : (neg (lit 5000) : F64) = lit (-5000) := by decide +kernel
    show pool1D eng (neg (lit 5000)) (lit 5000) _ = _
    rw [this]
  have hsym := pool_in (a := -5000) (b := 5000) ft (lo := (lit (-5000) : F64)) (hi := lit 5000) (by decide +kernel) (by decide +kernel)
    (by decide +kernel) (by decide +kernel) (by decide +kernel) eng (SIZE.setWidth 64)
  have hgap := sym_gap ft (lo := (lit (-5000) : F64)) (hi := lit 5000) (by decide +kernel) (by decide +kernel)
    (by decide +kernel) (by decide +kernel) ⟨1, -64, by simp, by norm_num, by decide⟩ (by decide +kernel) eng (SIZE.setWidth 64)
  have hpos := pool_in (a := 99 / 10 ^ 6) (b := 5000) ft (lo := (lit 0.0001 : F64)) (hi := lit 5000) (by decide +kernel) (by decide +kernel)
    (by decide +kernel) (by decide +kernel) (by decide +kernel) eng (SIZE.setWidth 64)
  have hone := pool_in (a := -1) (b := 1) ft (lo := (lit (-1) : F64)) (hi := lit 1) (by decide +kernel) (by decide +kernel)
    (by decide +kernel) (by decide +kernel) (by decide +kernel) eng (SIZE.setWidth 64)
  have hexp := pool_in (a := -705) (b := 705) ft (lo := (lit (-705) : F64)) (hi := lit 705) (by decide +kernel) (by decide +kernel)
    (by decide +kernel) (by decide +kernel) (by decide +kernel) eng (SIZE.setWidth 64)
  have epos : (pools64 eng SIZE).pos = pool1D eng (lit 0.0001) (lit 5000) (SIZE.setWidth 64) := rfl
  have eone : (pools64 eng SIZE).one = pool1D eng (lit (-1)) (lit 1) (SIZE.setWidth 64) := rfl
  have eexp : (pools64 eng SIZE).exp = pool1D eng (lit (-705)) (lit 705) (SIZE.setWidth 64) := rfl
  have nrm : ∀ x : F64, In (99 / 10 ^ 6) 5000 x → x.Normal ∧ 0 < x.val := fun x hx =>
    ⟨normal_of hx (le_trans (p2_le (by decide : _ ≤ (-14 : ℤ))) (by rw [p2_eq]; norm_num)), lt_of_lt_of_le (by norm_num) hx.2.1⟩
  unfold tuples64 spec64
  rw [esym, epos, eone, eexp]
  generalize pool1D eng (lit (-5000) : F64) (lit 5000) (SIZE.setWidth 64) = sym at *
  generalize pool1D eng (lit 0.0001 : F64) (lit 5000) (SIZE.setWidth 64) = pos at *
  generalize pool1D eng (lit (-1) : F64) (lit 1) (SIZE.setWidth 64) = one at *
  generalize pool1D eng (lit (-705) : F64) (lit 705) (SIZE.setWidth 64) = exp at *
  clear esym epos eone eexp
  dsimp only
  simp only [List.append_nil, List.forall₂_cons, List.forall₂_nil_left_iff, and_true, true_and]
  have hgap' : ∀ x ∈ sym, x = zero false ∨ 2⁻¹ ^ 64 ≤ |x.val| := fun x hx => (hgap x hx).imp_right fun h => by
    rw [p2_eq] at h; exact le_trans (le_of_eq (by norm_num)) h
  have ab : ∀ {x : F64} {a : ℚ}, In (-a) a x → |x.val| ≤ a := fun h => abs_le.2 h.2
  refine ⟨fun x hx => ⟨_, rfl, hsym x hx, rfl⟩, fun x hx => ⟨_, rfl, hexp x hx, rfl⟩, fun x hx => ⟨_, rfl, hpos x hx, rfl⟩,
    fun x hx => ⟨_, rfl, hsym x hx, rfl⟩, fun x hx => ⟨_, rfl, hsym x hx, rfl⟩, fun x hx => ⟨_, rfl, hsym x hx, rfl⟩,
    fun x hx => ⟨_, rfl, hsym x hx, rfl⟩, fun x hx => ⟨_, rfl, hone x hx, rfl⟩, fun x hx => ⟨_, rfl, hone x hx, rfl⟩,
    fun x hx => ⟨_, rfl, hsym x hx, rfl⟩, fun x hx => ⟨_, rfl, hpos x hx, rfl⟩, fun x hx => ⟨_, rfl, hsym x hx, rfl⟩,
    ?_, ?_, ?_, ?_, ?_, ?_, ?_, ?_, ?_, ?_, ?_, ?_, ?_⟩ <;> intro x hx
  · obtain ⟨y, h1, h2⟩ := C01_exp_accurate x (hexp x hx).1 ((ab (hexp x hx)).trans (by norm_num))
    exact ⟨y, h1, hexp x hx, h1, h2⟩
  · exact ⟨_, rfl, hpos x hx, rfl, C05_log_accurate x (nrm x (hpos x hx)).1 (nrm x (hpos x hx)).2 ((hpos x hx).2.2.trans (by decide +kernel))⟩
  · obtain ⟨s, c, h1, h2, h3, h4⟩ := C08_sin_cos_accurate x (hsym x hx).1 ((ab (hsym x hx)).trans (by norm_num))
    exact ⟨s, h1, hsym x hx, hgap' x hx, h1, h3⟩
  · obtain ⟨s, c, h1, h2, h3, h4⟩ := C08_sin_cos_accurate x (hsym x hx).1 ((ab (hsym x hx)).trans (by norm_num))
    exact ⟨c, h2, hsym x hx, hgap' x hx, h2, h4⟩
  · obtain ⟨y, h1, h2⟩ := tan64_in (hsym x hx) ((hgap x hx).imp_left val_of_zero)
    exact ⟨y, h1, hsym x hx, hgap' x hx, h1, h2⟩
  · exact ⟨_, rfl, hsym x hx, hgap' x hx, rfl, tanh64_fin (hsym x hx).1, C17_tanh_accurate x (hsym x hx).1⟩
  · exact ⟨_, rfl, hone x hx, rfl, (C26_asin_accurate x (hone x hx).1 (ab (hone x hx))).1⟩
  · exact ⟨_, rfl, hone x hx, rfl, (C27_acos_accurate x (hone x hx).1 (ab (hone x hx))).1⟩
  · exact ⟨_, rfl, hsym x hx, hgap' x hx, rfl, (C19_atan_accurate x (hsym x hx).1).1, (C19_atan_accurate x (hsym x hx).1).2.2⟩
  · exact ⟨_, rfl, hpos x hx, rfl, (C29_isqrt_accurate (nrm x (hpos x hx)).1 (nrm x (hpos x hx)).2).1⟩
  · exact ⟨_, rfl, hsym x hx, hgap' x hx, rfl, (inv64_in (hsym x hx) ((hgap x hx).imp_left val_of_zero)).1⟩
  · exact ⟨_, rfl, hpos x hx, rfl, (C29_isqrt_accurate (nrm x (hpos x hx)).1 (nrm x (hpos x hx)).2).2⟩
  · exact ⟨_, rfl, hsym x hx, hgap' x hx, rfl, (inv64_in (hsym x hx) ((hgap x hx).imp_left val_of_zero)).2⟩

/-- Every function of the table is defined on its inputs, with the claimed result. -/
theorem table32 (R : RefMath b32) (eng : Engine) (SIZE : BitVec 32) :
    List.Forall₂ (fun (e : Entry b32 (Fcn b32)) (s : Spec b32) => e.name = s.name ∧ e.input = s.input ∧
      ∀ x ∈ e.input, ∃ y, e.fcn x = some y ∧ s.rel x y)
      (tuples32 R none (pools32 eng SIZE)) (spec32 R eng (SIZE.setWidth 64)) := by
  have ft : IsT b32 := Or.inr rfl
  have esym : (pools32 eng SIZE).sym = pool1D eng (lit (-5000)) (lit 5000) (SIZE.setWidth 64) := by
    have : (neg (lit 5000) : F32) = lit (-5000) := by decide +kernel
    show pool1D eng (neg (lit 5000)) (lit 5000) _ = _
    rw [this]
  have hsym := pool_in (a := -5000) (b := 5000) ft (lo := (lit (-5000) : F32)) (hi := lit 5000) (by decide +kernel) (by decide +kernel)
    (by decide +kernel) (by decide +kernel) (by decide +kernel) eng (SIZE.setWidth 64)
  have hgap := sym_gap ft (lo := (lit (-5000) : F32)) (hi := lit 5000) (by decide +kernel) (by decide +kernel)
    (by decide +kernel) (by decide +kernel) ⟨1, -64, by simp, by norm_num, by decide⟩ (by decide +kernel) eng (SIZE.setWidth 64)
  have hpos := pool_in (a := 99 / 10 ^ 6) (b := 5000) ft (lo := (lit 0.0001 : F32)) (hi := lit 5000) (by decide +kernel) (by decide +kernel)
    (by decide +kernel) (by decide +kernel) (by decide +kernel) eng (SIZE.setWidth 64)
  have hone := pool_in (a := -1) (b := 1) ft (lo := (lit (-1) : F32)) (hi := lit 1) (by decide +kernel) (by decide +kernel)
    (by decide +kernel) (by decide +kernel) (by decide +kernel) eng (SIZE.setWidth 64)
  have hexp := pool_in (a := -85) (b := 85) ft (lo := (lit (-85) : F32)) (hi := lit 85) (by decide +kernel) (by decide +kernel)
    (by decide +kernel) (by decide +kernel) (by decide +kernel) eng (SIZE.setWidth 64)
  have epos : (pools32 eng SIZE).pos = pool1D eng (lit 0.0001) (lit 5000) (SIZE.setWidth 64) := rfl
  have eone : (pools32 eng SIZE).one = pool1D eng (lit (-1)) (lit 1) (SIZE.setWidth 64) := rfl
  have eexp : (pools32 eng SIZE).exp = pool1D eng (lit (-85)) (lit 85) (SIZE.setWidth 64) := rfl
  have nrm : ∀ x : F32, In (99 / 10 ^ 6) 5000 x → x.Normal ∧ 0 < x.val := fun x hx =>
    ⟨normal_of hx (le_trans (p2_le (by decide : _ ≤ (-14 : ℤ))) (by rw [p2_eq]; norm_num)), lt_of_lt_of_le (by norm_num) hx.2.1⟩
  unfold tuples32 spec32
  rw [esym, epos, eone, eexp]
  generalize pool1D eng (lit (-5000) : F32) (lit 5000) (SIZE.setWidth 64) = sym at *
  generalize pool1D eng (lit 0.0001 : F32) (lit 5000) (SIZE.setWidth 64) = pos at *
  generalize pool1D eng (lit (-1) : F32) (lit 1) (SIZE.setWidth 64) = one at *
  generalize pool1D eng (lit (-85) : F32) (lit 85) (SIZE.setWidth 64) = exp at *
  clear esym epos eone eexp
  dsimp only
  simp only [List.append_nil, List.forall₂_cons, List.forall₂_nil_left_iff, and_true, true_and]
  have hgap' : ∀ x ∈ sym, x = zero false ∨ 2⁻¹ ^ 64 ≤ |x.val| := fun x hx => (hgap x hx).imp_right fun h => by
    rw [p2_eq] at h; exact le_trans (le_of_eq (by norm_num)) h
  have ab : ∀ {x : F32} {a : ℚ}, In (-a) a x → |x.val| ≤ a := fun h => abs_le.2 h.2
  refine ⟨fun x hx => ⟨_, rfl, hsym x hx, rfl⟩, fun x hx => ⟨_, rfl, hexp x hx, rfl⟩, fun x hx => ⟨_, rfl, hpos x hx, rfl⟩,
    fun x hx => ⟨_, rfl, hsym x hx, rfl⟩, fun x hx => ⟨_, rfl, hsym x hx, rfl⟩, fun x hx => ⟨_, rfl, hsym x hx, rfl⟩,
    fun x hx => ⟨_, rfl, hsym x hx, rfl⟩, fun x hx => ⟨_, rfl, hone x hx, rfl⟩, fun x hx => ⟨_, rfl, hone x hx, rfl⟩,
    fun x hx => ⟨_, rfl, hsym x hx, rfl⟩, fun x hx => ⟨_, rfl, hpos x hx, rfl⟩, fun x hx => ⟨_, rfl, hsym x hx, rfl⟩,
    ?_, ?_, ?_, ?_, ?_, ?_, ?_, ?_, ?_, ?_, ?_, ?_, ?_⟩ <;> intro x hx
  · obtain ⟨y, h1, h2⟩ := C03_expf_accurate x (hexp x hx).1 (le_trans (by norm_num) (hexp x hx).2.1) ((hexp x hx).2.2.trans (by norm_num))
    exact ⟨y, h1, hexp x hx, h1, h2⟩
  · exact ⟨_, rfl, hpos x hx, rfl, C07_logf_accurate x (nrm x (hpos x hx)).1 (nrm x (hpos x hx)).2⟩
  · obtain ⟨s, c, h1, h2, h3, h4⟩ := C10_sinf_cosf_accurate x (hsym x hx).1 ((ab (hsym x hx)).trans (by norm_num))
    exact ⟨s, h1, hsym x hx, hgap' x hx, h1, h3⟩
  · obtain ⟨s, c, h1, h2, h3, h4⟩ := C10_sinf_cosf_accurate x (hsym x hx).1 ((ab (hsym x hx)).trans (by norm_num))
    exact ⟨c, h2, hsym x hx, hgap' x hx, h2, h4⟩
  · obtain ⟨y, h1, h2⟩ := tan32_in (hsym x hx) ((hgap x hx).imp_left val_of_zero)
    exact ⟨y, h1, hsym x hx, hgap' x hx, h1, h2⟩
  · exact ⟨_, rfl, hsym x hx, hgap' x hx, rfl, tanh32_fin (hsym x hx).1, C18_tanhf_accurate x (hsym x hx).1⟩
  · exact ⟨_, rfl, hone x hx, rfl, (C28_asinf_accurate x (hone x hx).1 (ab (hone x hx))).1⟩
  · exact ⟨_, rfl, hone x hx, rfl, (C28_acosf_accurate x (hone x hx).1 (ab (hone x hx))).1⟩
  · exact ⟨_, rfl, hsym x hx, hgap' x hx, rfl, (C21_atanf_accurate x (hsym x hx).1).1, (C21_atanf_accurate x (hsym x hx).1).2.2⟩
  · exact ⟨_, rfl, hpos x hx, rfl, (C30_isqrtf_accurate (nrm x (hpos x hx)).1 (nrm x (hpos x hx)).2).1⟩
  · exact ⟨_, rfl, hsym x hx, hgap' x hx, rfl, (inv32_in (hsym x hx) ((hgap x hx).imp_left val_of_zero)).1⟩
  · exact ⟨_, rfl, hpos x hx, rfl, (C30_isqrtf_accurate (nrm x (hpos x hx)).1 (nrm x (hpos x hx)).2).2⟩
  · exact ⟨_, rfl, hsym x hx, hgap' x hx, rfl, (inv32_in (hsym x hx) ((hgap x hx).imp_left val_of_zero)).2⟩

theorem forall₂_left {α β : Type} {r : α → β → Prop} {l : List α} {m : List β} (h : List.Forall₂ r l m) {a : α} (ha : a ∈ l) :
    ∃ b ∈ m, r a b := by
  induction h with
  | nil => simp at ha
  | cons h _ ih =>
    rcases List.mem_cons.1 ha with rfl | ha
    · exact ⟨_, by simp, h⟩
    · obtain ⟨b, hb, hr⟩ := ih ha
      exact ⟨b, by simp [hb], hr⟩

theorem forall₂_right {α β : Type} {r : α → β → Prop} {l : List α} {m : List β} (h : List.Forall₂ r l m) {b : β} (hb : b ∈ m) :
    ∃ a ∈ l, r a b := by
  induction h with
  | nil => simp at hb
  | cons h _ ih =>
    rcases List.mem_cons.1 hb with rfl | hb
    · exact ⟨_, by simp, h⟩
    · obtain ⟨a, ha, hr⟩ := ih hb
      exact ⟨a, by simp [ha], hr⟩

theorem done64 (R : RefMath b64) (garbage : Nat → F64) (eng : Engine) (SIZE : BitVec 32) (h0 : SIZE ≠ 0) :
    (∀ j ∈ jobs64 R none garbage eng SIZE, j.content.isSome = true) ∧
    (∀ s ∈ spec64 R eng (SIZE.setWidth 64), ∀ v ∈ [‹""›, ‹"v"›], ∃ j ∈ jobs64 R none garbage eng SIZE, j.name = s.name ++ v ∧
      ∃ r : Resp1D b64, j.content = some (text1 r) ∧ r.fcnName = j.name ∧ r.rows.map Prod.fst = s.input ∧ s.input.length = SIZE.toNat ∧
        ∀ p ∈ r.rows, s.rel p.1 p.2) ∧
    (∀ v ∈ [‹""›, ‹"v"›], ∃ j ∈ jobs64 R none garbage eng SIZE, j.name = ‹"Atan2"› ++ v ∧
      ∃ r : Resp2D b64, j.content = some (text2 r) ∧ r.fcnName = j.name ∧
        r.rows = ((poolPairs b64 eng SIZE).1.zip (poolPairs b64 eng SIZE).2).map fun q => (q.1, q.2, R.atan2 q.1 q.2)) ∧
    (∀ v ∈ [‹""›, ‹"v"›], ∃ j ∈ jobs64 R none garbage eng SIZE, j.name = ‹"Fast_Atan2"› ++ v ∧
      ∃ r : Resp2D b64, j.content = some (text2 r) ∧ r.fcnName = j.name ∧
        r.rows = ((poolPairs b64 eng SIZE).1.zip (poolPairs b64 eng SIZE).2).map fun q => (q.1, q.2, Vdt.fast_atan2 q.1 q.2)) := by
  have T := table64 R eng SIZE
  have hs : 0 < SIZE.toNat ∧ SIZE.toNat < 2 ^ 32 := ⟨by
    rcases Nat.eq_zero_or_pos SIZE.toNat with h | h
    · exact absurd (BitVec.eq_of_toNat_eq (by simpa using h)) h0
    · exact h, SIZE.isLt⟩
  have hz : (SIZE.setWidth 64).toNat = SIZE.toNat := by
    rw [BitVec.toNat_setWidth]; exact Nat.mod_eq_of_lt (by omega)
  have hlen : ∀ s ∈ spec64 R eng (SIZE.setWidth 64), s.input.length = SIZE.toNat := by
    unfold spec64 pool1D fillVector
    dsimp only
    simp only [List.forall_mem_cons, List.length_map, List.length_range, hz, List.not_mem_nil, false_imp_iff, implies_true, and_true]
  have hpl : (poolPairs b64 eng SIZE).1.length = SIZE.toNat ∧ (poolPairs b64 eng SIZE).2.length = SIZE.toNat := by
    unfold poolPairs pool2D fillVector; simp [hz]
  have hdef : ∀ e ∈ tuples64 R none (pools64 eng SIZE), (∀ x ∈ e.input, (e.fcn x).isSome = true) ∧ e.input.length = SIZE.toNat := by
    intro e he
    obtain ⟨s, hsm, -, h2, h3⟩ := forall₂_left T he
    refine ⟨fun x hx => ?_, by rw [h2]; exact hlen s hsm⟩
    obtain ⟨y, hy, -⟩ := h3 x hx
    rw [hy]; rfl
  have C1 : ∀ e ∈ tuples64 R none (pools64 eng SIZE), respScalar e.name e.input e.fcn =
      some ⟨false, e.name, ‹"From scratch"›, rowsOf e.fcn e.input⟩ := fun e he => respScalar_eq _ _ _ (hdef e he).1
  have C2 : ∀ e ∈ tuples64 R none (pools64 eng SIZE), ∀ nm, respArray garbage nm e.input (arrayFn e.fcn) =
      some ⟨false, nm, ‹"From scratch"›, rowsOf e.fcn e.input⟩ := fun e he nm =>
    respArray_eq garbage nm _ _ (hdef e he).1 (by rw [(hdef e he).2]; exact hs.1) (by rw [(hdef e he).2]; exact hs.2)
  have C3 : ∀ (g : FP b64 → FP b64 → FP b64) nm, respScalar2 nm (poolPairs b64 eng SIZE).1 (poolPairs b64 eng SIZE).2 (some <| g · ·) =
      some ⟨false, nm, ‹"From scratch"›, rowsOf2 (some <| g · ·) (poolPairs b64 eng SIZE).1 (poolPairs b64 eng SIZE).2⟩ := fun g nm =>
    respScalar2_eq nm _ _ _ (by rw [hpl.1, hpl.2]) (fun _ _ => rfl)
  have C4 : ∀ (g : FP b64 → FP b64 → FP b64) nm, respArray2 garbage nm (poolPairs b64 eng SIZE).1 (poolPairs b64 eng SIZE).2 (arrayFn2 (some <| g · ·)) =
      some ⟨false, nm, ‹"From scratch"›, rowsOf2 (some <| g · ·) (poolPairs b64 eng SIZE).1 (poolPairs b64 eng SIZE).2⟩ := fun g nm =>
    respArray2_eq garbage nm _ _ _ (by rw [hpl.1, hpl.2]) (fun _ _ => rfl) (by rw [hpl.1]; exact hs.1) (by rw [hpl.1]; exact hs.2)
  have hrel : ∀ {e : Entry b64 (Fcn b64)} {s : Spec b64}, (∀ x ∈ e.input, ∃ y, e.fcn x = some y ∧ s.rel x y) → ∀ p ∈ rowsOf e.fcn e.input, s.rel p.1 p.2 := by
    intro e s h p hp
    obtain ⟨x, hx, rfl⟩ := List.mem_map.1 hp
    obtain ⟨y, hy, hr⟩ := h x hx
    rw [hy]; exact hr
  have hfst : ∀ e : Entry b64 (Fcn b64), (rowsOf e.fcn e.input).map Prod.fst = e.input := fun e => by simp [rowsOf, Function.comp_def]
  unfold jobs64
  rw [tuplesv64_eq, List.map_map]
  refine ⟨?_, ?_, ?_, ?_⟩
  · intro j hj
    simp only [List.mem_append, List.mem_map, List.mem_cons, List.not_mem_nil, or_false, Function.comp_def] at hj
    rcases hj with (⟨e, he, rfl⟩ | ⟨e, he, rfl⟩) | rfl | rfl | rfl | rfl
    · simp only [C1 e he, Option.map_some, Option.isSome_some]
    · simp only [C2 e he, Option.map_some, Option.isSome_some]
    · simp only [C3, Option.map_some, Option.isSome_some]
    · simp only [C3, Option.map_some, Option.isSome_some]
    · simp only [C4, Option.map_some, Option.isSome_some]
    · simp only [C4, Option.map_some, Option.isSome_some]
  · intro s hsm v hv
    obtain ⟨e, he, h1, h2, h3⟩ := forall₂_right T hsm
    simp only [List.mem_cons, List.not_mem_nil, or_false] at hv
    rcases hv with rfl | rfl
    · refine ⟨⟨e.name, _⟩, List.mem_append_left _ (List.mem_append_left _ (List.mem_map.2 ⟨e, he, rfl⟩)), by simp [h1], _, by rw [C1 e he]; rfl, rfl, ?_, hlen s hsm, hrel h3⟩
      rw [← h2]; exact hfst e
    · refine ⟨⟨e.name ++ ['v'], _⟩, List.mem_append_left _ (List.mem_append_right _ (List.mem_map.2 ⟨e, he, rfl⟩)), by simp [h1], _, by
        show Option.map text1 (respArray garbage _ e.input (arrayFn e.fcn)) = _
        rw [C2 e he]; rfl, rfl, ?_, hlen s hsm, hrel h3⟩
      rw [← h2]; exact hfst e
  · intro v hv
    simp only [List.mem_cons, List.not_mem_nil, or_false] at hv
    rcases hv with rfl | rfl
    · exact ⟨⟨_, _⟩, List.mem_append_right _ (List.mem_cons_self ..), by simp only [String.reduceToList, List.cons_append, List.nil_append, List.append_nil], _, by rw [C3]; rfl, rfl, rfl⟩
    · exact ⟨⟨_, _⟩, List.mem_append_right _ (List.mem_cons_of_mem _ (List.mem_cons_of_mem _ (List.mem_cons_self ..))), by simp only [String.reduceToList, List.cons_append, List.nil_append, List.append_nil], _, by rw [C4]; rfl, rfl, rfl⟩
  · intro v hv
    simp only [List.mem_cons, List.not_mem_nil, or_false] at hv
    rcases hv with rfl | rfl
    · exact ⟨⟨_, _⟩, List.mem_append_right _ (List.mem_cons_of_mem _ (List.mem_cons_self ..)), by simp only [String.reduceToList, List.cons_append, List.nil_append, List.append_nil], _, by rw [C3]; rfl, rfl, rfl⟩
    · exact ⟨⟨_, _⟩, List.mem_append_right _ (List.mem_cons_of_mem _ (List.mem_cons_of_mem _ (List.mem_cons_of_mem _ (List.mem_cons_self ..)))), by simp only [String.reduceToList, List.cons_append, List.nil_append, List.append_nil], _, by rw [C4]; rfl, rfl, rfl⟩

theorem done32 (R : RefMath b32) (garbage : Nat → F32) (eng : Engine) (SIZE : BitVec 32) (h0 : SIZE ≠ 0) :
    (∀ j ∈ jobs32 R none garbage eng SIZE, j.content.isSome = true) ∧
    (∀ s ∈ spec32 R eng (SIZE.setWidth 64), ∀ v ∈ [‹""›, ‹"v"›], ∃ j ∈ jobs32 R none garbage eng SIZE, j.name = s.name ++ v ∧
      ∃ r : Resp1D b32, j.content = some (text1 r) ∧ r.fcnName = j.name ∧ r.rows.map Prod.fst = s.input ∧ s.input.length = SIZE.toNat ∧
        ∀ p ∈ r.rows, s.rel p.1 p.2) ∧
    (∀ v ∈ [‹"f"›, ‹"fv"›], ∃ j ∈ jobs32 R none garbage eng SIZE, j.name = ‹"Atan2"› ++ v ∧
      ∃ r : Resp2D b32, j.content = some (text2 r) ∧ r.fcnName = j.name ∧
        r.rows = ((poolPairs b32 eng SIZE).1.zip (poolPairs b32 eng SIZE).2).map fun q => (q.1, q.2, R.atan2 q.1 q.2)) ∧
    (∀ v ∈ [‹"f"›, ‹"fv"›], ∃ j ∈ jobs32 R none garbage eng SIZE, j.name = ‹"Fast_Atan2"› ++ v ∧
      ∃ r : Resp2D b32, j.content = some (text2 r) ∧ r.fcnName = j.name ∧
        r.rows = ((poolPairs b32 eng SIZE).1.zip (poolPairs b32 eng SIZE).2).map fun q => (q.1, q.2, Vdt.fast_atan2f q.1 q.2)) := by
  have T := table32 R eng SIZE
  have hs : 0 < SIZE.toNat ∧ SIZE.toNat < 2 ^ 32 := ⟨by
    rcases Nat.eq_zero_or_pos SIZE.toNat with h | h
    · exact absurd (BitVec.eq_of_toNat_eq (by simpa using h)) h0
    · exact h, SIZE.isLt⟩
  have hz : (SIZE.setWidth 64).toNat = SIZE.toNat := by
    rw [BitVec.toNat_setWidth]; exact Nat.mod_eq_of_lt (by omega)
  have hlen : ∀ s ∈ spec32 R eng (SIZE.setWidth 64), s.input.length = SIZE.toNat := by
    unfold spec32 pool1D fillVector
    dsimp only
    simp only [List.forall_mem_cons, List.length_map, List.length_range, hz, List.not_mem_nil, false_imp_iff, implies_true, and_true]
  have hpl : (poolPairs b32 eng SIZE).1.length = SIZE.toNat ∧ (poolPairs b32 eng SIZE).2.length = SIZE.toNat := by
    unfold poolPairs pool2D fillVector; simp [hz]
  have hdef : ∀ e ∈ tuples32 R none (pools32 eng SIZE), (∀ x ∈ e.input, (e.fcn x).isSome = true) ∧ e.input.length = SIZE.toNat := by
    intro e he
    obtain ⟨s, hsm, -, h2, h3⟩ := forall₂_left T he
    refine ⟨fun x hx => ?_, by rw [h2]; exact hlen s hsm⟩
    obtain ⟨y, hy, -⟩ := h3 x hx
    rw [hy]; rfl
  have C1 : ∀ e ∈ tuples32 R none (pools32 eng SIZE), respScalar e.name e.input e.fcn =
      some ⟨false, e.name, ‹"From scratch"›, rowsOf e.fcn e.input⟩ := fun e he => respScalar_eq _ _ _ (hdef e he).1
  have C2 : ∀ e ∈ tuples32 R none (pools32 eng SIZE), ∀ nm, respArray garbage nm e.input (arrayFn e.fcn) =
      some ⟨false, nm, ‹"From scratch"›, rowsOf e.fcn e.input⟩ := fun e he nm =>
    respArray_eq garbage nm _ _ (hdef e he).1 (by rw [(hdef e he).2]; exact hs.1) (by rw [(hdef e he).2]; exact hs.2)
  have C3 : ∀ (g : FP b32 → FP b32 → FP b32) nm, respScalar2 nm (poolPairs b32 eng SIZE).1 (poolPairs b32 eng SIZE).2 (some <| g · ·) =
      some ⟨false, nm, ‹"From scratch"›, rowsOf2 (some <| g · ·) (poolPairs b32 eng SIZE).1 (poolPairs b32 eng SIZE).2⟩ := fun g nm =>
    respScalar2_eq nm _ _ _ (by rw [hpl.1, hpl.2]) (fun _ _ => rfl)
  have C4 : ∀ (g : FP b32 → FP b32 → FP b32) nm, respArray2 garbage nm (poolPairs b32 eng SIZE).1 (poolPairs b32 eng SIZE).2 (arrayFn2 (some <| g · ·)) =
      some ⟨false, nm, ‹"From scratch"›, rowsOf2 (some <| g · ·) (poolPairs b32 eng SIZE).1 (poolPairs b32 eng SIZE).2⟩ := fun g nm =>
    respArray2_eq garbage nm _ _ _ (by rw [hpl.1, hpl.2]) (fun _ _ => rfl) (by rw [hpl.1]; exact hs.1) (by rw [hpl.1]; exact hs.2)
  have hrel : ∀ {e : Entry b32 (Fcn b32)} {s : Spec b32}, (∀ x ∈ e.input, ∃ y, e.fcn x = some y ∧ s.rel x y) → ∀ p ∈ rowsOf e.fcn e.input, s.rel p.1 p.2 := by
    intro e s h p hp
    obtain ⟨x, hx, rfl⟩ := List.mem_map.1 hp
    obtain ⟨y, hy, hr⟩ := h x hx
    rw [hy]; exact hr
  have hfst : ∀ e : Entry b32 (Fcn b32), (rowsOf e.fcn e.input).map Prod.fst = e.input := fun e => by simp [rowsOf, Function.comp_def]
  unfold jobs32
  rw [tuplesv32_eq, List.map_map]
  refine ⟨?_, ?_, ?_, ?_⟩
  · intro j hj
    simp only [List.mem_append, List.mem_map, List.mem_cons, List.not_mem_nil, or_false, Function.comp_def] at hj
    rcases hj with (⟨e, he, rfl⟩ | ⟨e, he, rfl⟩) | rfl | rfl | rfl | rfl
    · simp only [C1 e he, Option.map_some, Option.isSome_some]
    · simp only [C2 e he, Option.map_some, Option.isSome_some]
    · simp only [C3, Option.map_some, Option.isSome_some]
    · simp only [C3, Option.map_some, Option.isSome_some]
    · simp only [C4, Option.map_some, Option.isSome_some]
    · simp only [C4, Option.map_some, Option.isSome_some]
  · intro s hsm v hv
    obtain ⟨e, he, h1, h2, h3⟩ := forall₂_right T hsm
    simp only [List.mem_cons, List.not_mem_nil, or_false] at hv
    rcases hv with rfl | rfl
    · refine ⟨⟨e.name, _⟩, List.mem_append_left _ (List.mem_append_left _ (List.mem_map.2 ⟨e, he, rfl⟩)), by simp [h1], _, by rw [C1 e he]; rfl, rfl, ?_, hlen s hsm, hrel h3⟩
      rw [← h2]; exact hfst e
    · refine ⟨⟨e.name ++ ['v'], _⟩, List.mem_append_left _ (List.mem_append_right _ (List.mem_map.2 ⟨e, he, rfl⟩)), by simp [h1], _, by
        show Option.map text1 (respArray garbage _ e.input (arrayFn e.fcn)) = _
        rw [C2 e he]; rfl, rfl, ?_, hlen s hsm, hrel h3⟩
      rw [← h2]; exact hfst e
  · intro v hv
    simp only [List.mem_cons, List.not_mem_nil, or_false] at hv
    rcases hv with rfl | rfl
    · exact ⟨⟨_, _⟩, List.mem_append_right _ (List.mem_cons_self ..), by simp only [String.reduceToList, List.cons_append, List.nil_append, List.append_nil], _, by rw [C3]; rfl, rfl, rfl⟩
    · exact ⟨⟨_, _⟩, List.mem_append_right _ (List.mem_cons_of_mem _ (List.mem_cons_of_mem _ (List.mem_cons_self ..))), by simp only [String.reduceToList, List.cons_append, List.nil_append, List.append_nil], _, by rw [C4]; rfl, rfl, rfl⟩
  · intro v hv
    simp only [List.mem_cons, List.not_mem_nil, or_false] at hv
    rcases hv with rfl | rfl
    · exact ⟨⟨_, _⟩, List.mem_append_right _ (List.mem_cons_of_mem _ (List.mem_cons_self ..)), by simp only [String.reduceToList, List.cons_append, List.nil_append, List.append_nil], _, by rw [C3]; rfl, rfl, rfl⟩
    · exact ⟨⟨_, _⟩, List.mem_append_right _ (List.mem_cons_of_mem _ (List.mem_cons_of_mem _ (List.mem_cons_of_mem _ (List.mem_cons_self ..)))), by simp only [String.reduceToList, List.cons_append, List.nil_append, List.append_nil], _, by rw [C4]; rfl, rfl, rfl⟩

/-! ## C63 -/

theorem ordered_newline : ∀ n ∈ orderedNames true, '\n' ∉ n := by
  simp only [orderedNames, List.flatMap_cons, List.flatMap_nil, baseNames, vcNames, pairNames, if_true, List.map_append, List.map_cons, List.map_nil,
      String.reduceToList, List.cons_append, List.nil_append, List.append_nil]
  decide +kernel

/-- The rows a later program finds in the file of a one-argument function. -/
def rows1 (f : Fmt) (fs : Fs) (nick name : Text) : List (FP f × FP f) :=
  (Resp1D.ofFile f fs (nick ++ ‹"__"› ++ name ++ ‹"__response.txt"›)).rows

/-- The rows a later program finds in the file of a two-argument function. -/
def rows2 (f : Fmt) (fs : Fs) (nick name : Text) : List (FP f × FP f × FP f) :=
  (Resp2D.ofFile f fs (nick ++ ‹"__"› ++ name ++ ‹"__response.txt"›)).rows

theorem pairs_in (f : Fmt) (hf : IsT f) (h1 : (lit (-1) : FP f).isFinite = true ∧ (lit (-1) : FP f).val = -1)
    (h2 : (lit 1 : FP f).isFinite = true ∧ (lit 1 : FP f).val = 1) (eng : Engine) (SIZE : BitVec 32) :
    ∀ q ∈ (poolPairs f eng SIZE).1.zip (poolPairs f eng SIZE).2, In (-1) 1 q.1 ∧ In (-1) 1 q.2 := by
  intro q hq
  have hle : (lit (-1) : FP f).val ≤ (lit 1 : FP f).val := by rw [h1.2, h2.2]; norm_num
  have := C60_pool2D_range hf (lit (-1)) (lit (-1)) (lit 1) (lit 1) h1.1 h2.1 hle h1.1 h2.1 hle eng (SIZE.setWidth 64)
  rw [h1.2, h2.2] at this
  obtain ⟨a, b⟩ := List.of_mem_zip (a := q.1) (b := q.2) hq
  exact ⟨this.1.2 _ a, this.2.2 _ b⟩

/-- The numbers of a pool from -1 to 1 are the positive zero or not too small. -/
theorem unit_gap {f : Fmt} (hf : IsT f) (g : BitVec 64) :
    convert f (uniform (lit (-1) : FP f) (lit 1) g) = zero false ∨ 2⁻¹ ^ 64 ≤ |(convert f (uniform (lit (-1) : FP f) (lit 1) g)).val| := by
  by_cases hg : g = 0x8000000000000000#64
  · left; rw [hg]; rcases hf with rfl | rfl <;> decide +kernel
  right
  have h1 : (lit (-1) : FP f).isFinite = true ∧ (lit (-1) : FP f).val = -1 := by rcases hf with rfl | rfl <;> decide +kernel
  have h2 : (lit 1 : FP f).isFinite = true ∧ (lit 1 : FP f).val = 1 := by rcases hf with rfl | rfl <;> decide +kernel
  have h3 : rnd f (p2 (-64)) = p2 (-64) := by rcases hf with rfl | rfl <;> decide +kernel
  have hab : (lit (-1) : FP f).val ≤ (lit 1 : FP f).val := by rw [h1.2, h2.2]; norm_num
  obtain ⟨-, v, -⟩ := uniform_eq hf h1.1 h2.1 hab g
  rw [(number_eq hf h1.1 h2.1 hab g).2.1, v, h1.2, h2.2]
  have e2 : rnd b80 (1 - -1) = 2 := by decide +kernel
  have e3 : rnd b80 (p2 (-64)) = p2 (-64) := by decide +kernel
  have q0 := p2_pos (-64)
  have ex : ∀ m : ℤ, |m| ≤ 2 ^ 64 → rnd b80 (m * p2 (-63)) = m * p2 (-63) := by
    intro m hm
    refine rnd_exact b80 ⟨m, -63, rfl, by exact_mod_cast hm, by decide⟩ ?_
    rw [abs_mul, abs_of_pos (p2_pos _)]
    have : |(m : ℚ)| ≤ 2 ^ 64 := by exact_mod_cast hm
    refine (mul_le_mul_of_nonneg_right this (p2_pos _).le).trans ?_
    decide +kernel
  have lt := g.isLt
  have e4 : rnd b80 ((g.toNat : ℚ) / 2 ^ 64 * 2) = ((g.toNat : ℤ) : ℚ) * p2 (-63) := by
    rw [← ex _ (by rw [abs_of_nonneg (by omega)]; omega)]
    congr 1
    rw [p2_eq]; push_cast; norm_num; ring
  rw [e2, e4]
  have e5 : ((g.toNat : ℤ) : ℚ) * p2 (-63) + -1 = ((g.toNat - 2 ^ 63 : ℤ) : ℚ) * p2 (-63) := by
    have : (2 : ℚ) ^ 63 * p2 (-63) = 1 := by rw [p2_eq]; norm_num
    push_cast
    linarith
  have e6 : p2 (-63) = 2 * p2 (-64) := by rw [p2_eq, p2_eq]; norm_num
  rw [e5, ex _ (by rw [abs_le]; omega)]
  have hne : (g.toNat : ℤ) - 2 ^ 63 ≠ 0 := fun h => hg (BitVec.eq_of_toNat_eq (by
    have : (0x8000000000000000#64).toNat = 2 ^ 63 := by decide
    rw [this]; omega))
  have e7 : (2⁻¹ : ℚ) ^ 64 = p2 (-64) := by rw [p2_eq]; norm_num
  rw [e7]
  rcases lt_or_gt_of_ne hne with h | h
  · have h8 : (((g.toNat : ℤ) - 2 ^ 63 : ℤ) : ℚ) ≤ -1 := by exact_mod_cast Int.le_sub_one_of_lt h
    have := rnd_mono f (show (((g.toNat : ℤ) - 2 ^ 63 : ℤ) : ℚ) * p2 (-63) ≤ -p2 (-64) by rw [e6]; nlinarith)
    rw [rnd_neg, h3] at this
    exact le_trans (by linarith) (neg_le_abs _)
  · have h8 : (1 : ℚ) ≤ (((g.toNat : ℤ) - 2 ^ 63 : ℤ) : ℚ) := by exact_mod_cast h
    have := rnd_mono f (show p2 (-64) ≤ (((g.toNat : ℤ) - 2 ^ 63 : ℤ) : ℚ) * p2 (-63) by rw [e6]; nlinarith)
    rw [h3] at this
    exact this.trans (le_abs_self _)

theorem pairs_gap (f : Fmt) (hf : IsT f) (eng : Engine) (SIZE : BitVec 32) :
    ∀ q ∈ (poolPairs f eng SIZE).1.zip (poolPairs f eng SIZE).2,
      (q.1 = zero false ∨ 2⁻¹ ^ 64 ≤ |q.1.val|) ∧ (q.2 = zero false ∨ 2⁻¹ ^ 64 ≤ |q.2.val|) := by
  intro q hq
  obtain ⟨a, b⟩ := List.of_mem_zip (a := q.1) (b := q.2) hq
  unfold poolPairs pool2D fillVector at a b
  obtain ⟨i, -, e⟩ := List.mem_map.1 a
  obtain ⟨j, -, e'⟩ := List.mem_map.1 b
  rw [← e, ← e']; exact ⟨unit_gap hf _, unit_gap hf _⟩

theorem arg_zero_zero : Complex.arg ⟨0, 0⟩ = 0 := Complex.arg_zero

theorem atan2_64_in {y x : F64} (hy : In (-1) 1 y) (hx : In (-1) 1 x) :
    (Vdt.fast_atan2 y x).CloseAbs (Complex.arg ⟨x.real, y.real⟩) (2 ^ (-50 : ℤ)) := by
  by_cases h : x.val ≠ 0 ∨ y.val ≠ 0
  · obtain ⟨a, b, -⟩ := C22_atan2_accurate y x hy.1 hx.1 h
    exact ⟨a, b⟩
  · push Not at h
    have e : ∀ s t : Bool, Vdt.fast_atan2 (zero s) (zero t) = zero false := by decide +kernel
    have r1 : x.real = 0 := by unfold FP.real; rw [h.1]; norm_num
    have r2 : y.real = 0 := by unfold FP.real; rw [h.2]; norm_num
    have r3 : (zero false : F64).real = 0 := by unfold FP.real; rw [show (zero false : F64).val = 0 by decide +kernel]; norm_num
    rw [r1, r2, val_zero_eq h.1, val_zero_eq h.2, e, arg_zero_zero]
    refine ⟨by decide +kernel, ?_⟩
    rw [r3]; norm_num

theorem atan2_32_in {y x : F32} (hy : In (-1) 1 y) (hx : In (-1) 1 x) :
    (Vdt.fast_atan2f y x).CloseAbs (Complex.arg ⟨x.real, y.real⟩) (2 ^ (-20 : ℤ)) := by
  by_cases h : x.val ≠ 0 ∨ y.val ≠ 0
  · obtain ⟨a, b, -⟩ := C24_atan2f_accurate y x hy.1 hx.1 h
    exact ⟨a, b⟩
  · push Not at h
    have e : ∀ s t : Bool, Vdt.fast_atan2f (zero s) (zero t) = zero false := by decide +kernel
    have r1 : x.real = 0 := by unfold FP.real; rw [h.1]; norm_num
    have r2 : y.real = 0 := by unfold FP.real; rw [h.2]; norm_num
    have r3 : (zero false : F32).real = 0 := by unfold FP.real; rw [show (zero false : F32).val = 0 by decide +kernel]; norm_num
    rw [r1, r2, val_zero_eq h.1, val_zero_eq h.2, e, arg_zero_zero]
    refine ⟨by decide +kernel, ?_⟩
    rw [r3]; norm_num

/-- **C63.** A run of the benchmark (without Vc, at least one number) is defined whatever the random
engine and the standard library return and whatever the memory contains.  Read back, the file of every
one-argument function, scalar and array, holds the `SIZE` inputs of its pool and outputs as `spec64`,
`spec32` demand: the library's own value for a reference function, an accurate value for a fast one.
Likewise the files of the arctangent of two arguments. -/
theorem C63_run (R : RefMath b64) (Rf : RefMath b32) (garbage : Nat → F64) (garbagef : Nat → F32)
    (eng : Engine) (nick : Text) (SIZE : BitVec 32) (h0 : SIZE ≠ 0) (fs : Fs) :
    ∃ fs', main R Rf none garbage garbagef eng nick SIZE fs = some fs' ∧
    (∀ s ∈ spec64 R eng (SIZE.setWidth 64), ∀ v ∈ [‹""›, ‹"v"›],
      (rows1 b64 fs' nick (s.name ++ v)).map Prod.fst = s.input ∧ s.input.length = SIZE.toNat ∧ ∀ p ∈ rows1 b64 fs' nick (s.name ++ v), s.rel p.1 p.2) ∧
    (∀ s ∈ spec32 Rf eng (SIZE.setWidth 64), ∀ v ∈ [‹""›, ‹"v"›],
      (rows1 b32 fs' nick (s.name ++ v)).map Prod.fst = s.input ∧ s.input.length = SIZE.toNat ∧ ∀ p ∈ rows1 b32 fs' nick (s.name ++ v), s.rel p.1 p.2) ∧
    (∀ v ∈ [‹""›, ‹"v"›],
      (rows2 b64 fs' nick (‹"Fast_Atan2"› ++ v)).length = SIZE.toNat ∧
      (∀ p ∈ rows2 b64 fs' nick (‹"Fast_Atan2"› ++ v), In (-1) 1 p.1 ∧ In (-1) 1 p.2.1 ∧
        p.2.2.CloseAbs (Complex.arg ⟨p.2.1.real, p.1.real⟩) (2 ^ (-50 : ℤ))) ∧
      rows2 b64 fs' nick (‹"Atan2"› ++ v) = (rows2 b64 fs' nick (‹"Fast_Atan2"› ++ v)).map fun p => (p.1, p.2.1, R.atan2 p.1 p.2.1)) ∧
    (∀ v ∈ [‹"f"›, ‹"fv"›],
      (rows2 b32 fs' nick (‹"Fast_Atan2"› ++ v)).length = SIZE.toNat ∧
      (∀ p ∈ rows2 b32 fs' nick (‹"Fast_Atan2"› ++ v), In (-1) 1 p.1 ∧ In (-1) 1 p.2.1 ∧
        p.2.2.CloseAbs (Complex.arg ⟨p.2.1.real, p.1.real⟩) (2 ^ (-20 : ℤ))) ∧
      rows2 b32 fs' nick (‹"Atan2"› ++ v) = (rows2 b32 fs' nick (‹"Fast_Atan2"› ++ v)).map fun p => (p.1, p.2.1, Rf.atan2 p.1 p.2.1)) := by
  have hn := job_names R Rf none garbage garbagef eng SIZE
  obtain ⟨a1, a2, a3, a4⟩ := done64 R garbage eng SIZE h0
  obtain ⟨c1, c2, c3, c4⟩ := done32 Rf garbagef eng SIZE h0
  simp only [Option.map_none] at hn
  obtain ⟨fs', e1, e2, -⟩ := runJobs nick (jobs64 R none garbage eng SIZE ++ jobs32 Rf none garbagef eng SIZE)
    (fun j hj => (List.mem_append.1 hj).elim (a1 j) (c1 j)) (by rw [hn]; exact ordered_nodup _) fs
  have nl : ∀ j ∈ jobs64 R none garbage eng SIZE ++ jobs32 Rf none garbagef eng SIZE, '\n' ∉ j.name := by
    intro j hj
    refine ordered_newline _ ((ordered_sublist false).subset ?_)
    show j.name ∈ orderedNames (Option.isSome (none : Option (VcFns b64 × VcFns b32)))
    rw [← hn]; exact List.mem_map.2 ⟨j, hj, rfl⟩
  have hl : (poolPairs b64 eng SIZE).1.length = SIZE.toNat ∧ (poolPairs b64 eng SIZE).2.length = SIZE.toNat ∧
      (poolPairs b32 eng SIZE).1.length = SIZE.toNat ∧ (poolPairs b32 eng SIZE).2.length = SIZE.toNat := by
    have hz : (SIZE.setWidth 64).toNat = SIZE.toNat := by
      rw [BitVec.toNat_setWidth]; exact Nat.mod_eq_of_lt (by have := SIZE.isLt; omega)
    unfold poolPairs pool2D fillVector; simp [hz]
  refine ⟨fs', by rw [main_eq]; exact e1, ?_, ?_, ?_, ?_⟩
  · intro s hs v hv
    obtain ⟨j, hj, n1, r, n2, n3, n4, n5, n6⟩ := a2 s hs v hv
    have hj' := List.mem_append_left (jobs32 Rf none garbagef eng SIZE) hj
    have e3 := e2 j hj'
    rw [n2] at e3
    have e4 := ofFile_text1 (by decide) fs' _ r (by rw [n3]; exact nl j hj') e3
    have e5 : rows1 b64 fs' nick (s.name ++ v) = r.rows := by rw [← e4, n1]; rfl
    rw [e5]; exact ⟨n4, n5, n6⟩
  · intro s hs v hv
    obtain ⟨j, hj, n1, r, n2, n3, n4, n5, n6⟩ := c2 s hs v hv
    have hj' := List.mem_append_right (jobs64 R none garbage eng SIZE) hj
    have e3 := e2 j hj'
    rw [n2] at e3
    have e4 := ofFile_text1 (by decide) fs' _ r (by rw [n3]; exact nl j hj') e3
    have e5 : rows1 b32 fs' nick (s.name ++ v) = r.rows := by rw [← e4, n1]; rfl
    rw [e5]; exact ⟨n4, n5, n6⟩
  · intro v hv
    obtain ⟨j, hj, n1, r, n2, n3, n4⟩ := a3 v hv
    obtain ⟨k, hk, m1, q, m2, m3, m4⟩ := a4 v hv
    have hj' := List.mem_append_left (jobs32 Rf none garbagef eng SIZE) hj
    have hk' := List.mem_append_left (jobs32 Rf none garbagef eng SIZE) hk
    have e3 := e2 j hj'
    have g3 := e2 k hk'
    rw [n2] at e3
    rw [m2] at g3
    have e4 := ofFile_text2 (by decide) fs' _ r (by rw [n3]; exact nl j hj') e3
    have g4 := ofFile_text2 (by decide) fs' _ q (by rw [m3]; exact nl k hk') g3
    have e5 : rows2 b64 fs' nick (‹"Atan2"› ++ v) = r.rows := by rw [← e4, n1]; rfl
    have g5 : rows2 b64 fs' nick (‹"Fast_Atan2"› ++ v) = q.rows := by rw [← g4, m1]; rfl
    rw [e5, g5, n4, m4]
    refine ⟨by simp [hl], fun p hp => ?_, by simp [Function.comp_def]⟩
    obtain ⟨t, ht, rfl⟩ := List.mem_map.1 hp
    obtain ⟨i1, i2⟩ := pairs_in b64 (Or.inl rfl) (by decide +kernel) (by decide +kernel) eng SIZE t ht
    exact ⟨i1, i2, atan2_64_in i1 i2⟩
  · intro v hv
    obtain ⟨j, hj, n1, r, n2, n3, n4⟩ := c3 v hv
    obtain ⟨k, hk, m1, q, m2, m3, m4⟩ := c4 v hv
    have hj' := List.mem_append_right (jobs64 R none garbage eng SIZE) hj
    have hk' := List.mem_append_right (jobs64 R none garbage eng SIZE) hk
    have e3 := e2 j hj'
    have g3 := e2 k hk'
    rw [n2] at e3
    rw [m2] at g3
    have e4 := ofFile_text2 (by decide) fs' _ r (by rw [n3]; exact nl j hj') e3
    have g4 := ofFile_text2 (by decide) fs' _ q (by rw [m3]; exact nl k hk') g3
    have e5 : rows2 b32 fs' nick (‹"Atan2"› ++ v) = r.rows := by rw [← e4, n1]; rfl
    have g5 : rows2 b32 fs' nick (‹"Fast_Atan2"› ++ v) = q.rows := by rw [← g4, m1]; rfl
    rw [e5, g5, n4, m4]
    refine ⟨by simp [hl], fun p hp => ?_, by simp [Function.comp_def]⟩
    obtain ⟨t, ht, rfl⟩ := List.mem_map.1 hp
    obtain ⟨i1, i2⟩ := pairs_in b32 (Or.inr rfl) (by decide +kernel) (by decide +kernel) eng SIZE t ht
    exact ⟨i1, i2, atan2_32_in i1 i2⟩

/-- Fifty one-argument functions, each in a scalar and an array version. -/
example (R : RefMath b64) (Rf : RefMath b32) (eng : Engine) : (spec64 R eng 3#64).length = 25 ∧ (spec32 Rf eng 3#64).length = 25 ∧
    (spec64 R eng 3#64).map (·.name) = baseNames ∧ (3#32 : BitVec 32) ≠ 0 := by
  refine ⟨rfl, rfl, rfl, by decide⟩

/-- **C63.** With size zero the run is undefined: the array versions take the address of an element of
an empty vector. -/
theorem C63_size_zero (R : RefMath b64) (Rf : RefMath b32) (vc : Option (VcFns b64 × VcFns b32)) (garbage : Nat → F64) (garbagef : Nat → F32)
    (eng : Engine) (nick : Text) (fs : Fs) : main R Rf vc garbage garbagef eng nick 0 fs = none := by
  rw [main_eq]
  cases h : List.foldlM (runJob nick) fs (jobs64 R (vc.map (·.1)) garbage eng 0 ++ jobs32 Rf (vc.map (·.2)) garbagef eng 0) with
  | none => rfl
  | some fs' =>
    have := runJobs_some nick _ fs fs' h ⟨‹"Identityv"›, (respArray garbage ‹"Identityv"› (pools64 eng 0).sym (arrayFn (some <| identity ·))).map text1⟩
      (List.mem_append_left _ (List.mem_append_left _ (List.mem_append_right _ (List.mem_map.2 ⟨_, List.mem_append_left _ (List.mem_cons_self ..), rfl⟩))))
    dsimp only at this
    rw [C61_array_sizes garbage _ (pools64 eng 0).sym _ (Or.inl rfl)] at this
    cases this

end Vdt.Bench
