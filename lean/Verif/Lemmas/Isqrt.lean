import Verif.Lemmas.IsqrtStart
import Verif.Float.Bits

/-! # The reciprocal square root on all non-negative finite numbers -/

namespace Vdt
open FP details
variable {f : Fmt}

/-! ## The starting pattern -/

theorem start_bits64 {x : F64} (hs : x.sign = false) (y : F64) (hy : y.sign = false) (hm : y.mag = 1534 * 2 ^ 52 + 1947582039988729 - x.mag / 2) :
    uint642dp (0x5fe6eb50c7aa19f9#64 - (dp2uint64 x >>> 1)) = y := by
  unfold uint642dp dp2uint64
  refine (congrArg ofBits ?_).trans (ofBits_toBits y)
  apply BitVec.eq_of_toNat_eq
  have b : x.mag < 2 ^ 63 := x.bound
  rw [toBits_toNat, hy, hm, BitVec.toNat_sub, BitVec.toNat_ushiftRight, toBits_toNat, hs, Nat.shiftRight_eq_div_pow]
  simp only [BitVec.toNat_ofNat, Bool.false_eq_true, if_false]
  show (2 ^ 64 - (0 + x.mag) / 2 ^ 1 + 0x5fe6eb50c7aa19f9 % 2 ^ 64) % 2 ^ 64 = _
  omega

theorem start_bits32 {x : F32} (hs : x.sign = false) (y : F32) (hy : y.sign = false) (hm : y.mag = 190 * 2 ^ 23 + 3627487 - x.mag / 2) :
    uint322sp (0x5f3759df#32 - (sp2uint32 x >>> 1)) = y := by
  unfold uint322sp sp2uint32
  refine (congrArg ofBits ?_).trans (ofBits_toBits y)
  apply BitVec.eq_of_toNat_eq
  have b : x.mag < 2 ^ 31 := x.bound
  rw [toBits_toNat, hy, hm, BitVec.toNat_sub, BitVec.toNat_ushiftRight, toBits_toNat, hs, Nat.shiftRight_eq_div_pow]
  simp only [BitVec.toNat_ofNat, Bool.false_eq_true, if_false]
  show (2 ^ 32 - (0 + x.mag) / 2 ^ 1 + 0x5f3759df % 2 ^ 32) % 2 ^ 32 = _
  omega

/-- The starting value, for non-negative `x`. -/
def isqrtStart {A Km : ℕ} (ok : StartOk f A Km) (x : FP f) : FP f :=
  ⟨false, A * 2 ^ f.mb + Km - x.mag / 2, by
    have h1 := ok.hi; have h2 := ok.km2; have h3 := ok.mb
    unfold Fmt.magCount
    have : (A + 1) * 2 ^ f.mb ≤ 2 ^ f.eb * 2 ^ f.mb := Nat.mul_le_mul_right _ (by omega)
    rw [pow_add]
    have e : (A + 1) * 2 ^ f.mb = A * 2 ^ f.mb + 2 ^ f.mb := by ring
    omega⟩

theorem fast_isqrt_generalC_eq (p : Policy) {x : F64} (hs : x.sign = false) (n : ℕ) :
    fast_isqrt_generalC p x n = isqrtLoopC p (x * lit 0.5) n (isqrtStart start64 x) := by
  unfold fast_isqrt_generalC
  dsimp only
  rw [start_bits64 hs (isqrtStart start64 x) rfl rfl]

theorem fast_isqrtf_generalC_eq (p : Policy) {x : F32} (hs : x.sign = false) (n : ℕ) :
    fast_isqrtf_generalC p x n = isqrtLoopC p (x * lit 0.5) n (isqrtStart start32 x) := by
  unfold fast_isqrtf_generalC
  dsimp only
  rw [start_bits32 hs (isqrtStart start32 x) rfl rfl]

/-! ## Normal arguments -/

theorem mag_of_normal {x : FP f} (h : x.Normal) : 2 ^ f.mb ≤ x.mag ∧ x.mag < f.infMag := by
  refine ⟨?_, by simpa [isFinite] using h.1⟩
  by_contra hc
  push Not at hc
  have h2 := h.2
  rw [abs_val] at h2
  have k := magVal_code f (e := f.emin) (k := 2 ^ f.mb) le_rfl (Nat.pow_le_pow_right (by norm_num) (by omega)) (Or.inl le_rfl)
  rw [sub_self, Int.toNat_zero, Nat.zero_mul, Nat.zero_add] at k
  have lt := (magVal_lt (f := f)).2 hc
  rw [k] at lt
  have : ((2 ^ f.mb : ℕ) : ℚ) * p2 (f.emin - f.mb) = (2 : ℚ) ^ f.emin := by
    push_cast
    rw [← p2_nat, ← p2_add, show (f.mb : ℤ) + (f.emin - f.mb) = f.emin by ring, p2_eq]
  rw [this] at lt
  linarith

theorem finite_le_big [f.Ok] {x : FP f} (h : x.isFinite = true) : |x.val| ≤ 2 * f.big := by
  rw [abs_val]
  have hm : x.mag < f.infMag := by simpa [isFinite] using h
  have h1 : 2 ≤ 2 ^ f.eb - 1 := by
    have : 2 ^ 2 ≤ 2 ^ f.eb := Nat.pow_le_pow_right (by norm_num) Fmt.Ok.eb2
    omega
  have e := norm_val f (E := 2 ^ f.eb - 1) (m := 0) (by omega) (Nat.zero_le _)
  have le := (magVal_lt (f := f)).2 hm
  unfold Fmt.infMag at le
  rw [Nat.add_zero] at e
  rw [e] at le
  refine le.le.trans (le_of_eq ?_)
  have eb : f.eb = (f.eb - 1) + 1 := by have := (Fmt.Ok.eb2 : 2 ≤ f.eb); omega
  have c : (((2 ^ f.eb - 1 : ℕ) : ℤ)) = 2 * 2 ^ (f.eb - 1) - 1 := by
    rw [Nat.cast_sub Nat.one_le_two_pow, eb]; push_cast; rw [pow_succ]; simp; ring
  unfold Fmt.big
  rw [c, Nat.add_zero]
  push_cast
  rw [← p2_nat, ← p2_add, ← p2_succ]
  congr 1
  unfold Fmt.emin
  ring

theorem real_of_pos {x : FP f} (hs : x.sign = false) : x.real = ((magVal f x.mag : ℚ) : ℝ) := by
  unfold FP.real val; simp [hs]

/-- `x * 0.5`. -/
theorem half_err [f.Ok] {A : ℝ} (ok : NewtOk f A) {x : FP f} (hx : x.isFinite = true) (hs : x.sign = false) (hA : A ≤ x.real) :
    (x * lit 0.5).isFinite = true ∧ |(x * lit 0.5 : FP f).real - x.real / 2| ≤ f.u * x.real := by
  have hb := finite_le_big hx
  have v0 := val_nonneg_of_sign hs
  rw [abs_of_nonneg v0] at hb
  have e : x.val * (lit 0.5 : FP f).val = x.val / 2 := by rw [ok.half.2]; ring
  have hb2 : |x.val * (lit 0.5 : FP f).val| ≤ f.big := by rw [e, abs_of_nonneg (by linarith)]; linarith
  have s := mul_spec hx ok.half.1 hb2
  refine ⟨s.1, ?_⟩
  have e2 : (mul x (lit 0.5)).real = ((rnd f (x.val * (lit 0.5 : FP f).val) : ℚ) : ℝ) := by unfold FP.real; rw [s.2]
  rw [mul_def, e2]
  have e3 : x.real / 2 = ((x.val * (lit 0.5 : FP f).val : ℚ) : ℝ) := by rw [e]; unfold FP.real; push_cast; rfl
  rw [e3]
  refine rnd_real ?_ ?_ hb2
  · rw [e, abs_of_nonneg (by exact_mod_cast (by linarith : 0 ≤ x.val / 2))]
    unfold FP.real
    have : ((x.val / 2 : ℚ) : ℝ) ≤ ((x.val : ℚ) : ℝ) := by exact_mod_cast (by linarith : x.val / 2 ≤ x.val)
    exact this
  · rw [ok.eta]; exact mul_le_mul_of_nonneg_left hA ok.u0.le

/-- All normal arguments: the loop converges. -/
theorem isqrt_normal [f.Ok] {A : ℝ} {B Km : ℕ} (ok : NewtOk f A) (p : Policy) (st : StartOk f B Km) (hA : ((2 : ℚ) ^ f.emin : ℚ) = A) {x : FP f} (hx : x.Normal)
    (hs : x.sign = false) (e : ℕ → ℝ) (n : ℕ) (h0 : 0.0354 ≤ e 0) (hes : ∀ i < n, 3 / 2 * e i ^ 2 + e i ^ 3 / 2 + 5 * f.u ≤ e (i + 1))
    (heb : ∀ i < n, e i ≤ 1 / 20) :
    (isqrtLoopC p (x * lit 0.5) n (isqrtStart st x)).isFinite = true ∧
    |Real.sqrt x.real * (isqrtLoopC p (x * lit 0.5) n (isqrtStart st x)).real - 1| ≤ e n := by
  have hm := mag_of_normal hx
  have v0 := val_nonneg_of_sign hs
  have lo : A ≤ x.real := by
    rw [← hA]; unfold FP.real
    have := hx.2
    rw [abs_of_nonneg v0] at this
    exact_mod_cast this
  have hi : x.real ≤ 2 * f.big := by
    have := finite_le_big hx.1
    rw [abs_of_nonneg v0] at this
    unfold FP.real
    exact_mod_cast this
  obtain ⟨hf, hp⟩ := half_err ok hx.1 hs lo
  obtain ⟨s1, s2⟩ := start_prod st hm.1 hm.2
  refine newton_loop ok p lo hi hf hp e n hes heb (isqrtStart st x) (decide_eq_true s1) ?_
  refine (sqrt_near (ok.A0.trans_le lo) ?_ ?_).trans h0
  · rw [real_of_pos rfl]; exact_mod_cast magVal_nonneg _ _
  · rw [real_of_pos hs, real_of_pos rfl]
    push_cast at s2
    exact s2

end Vdt
