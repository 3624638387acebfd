import Verif.Lemmas.Diag
import Verif.Float.Bits
import Verif.Spec
import Mathlib.Analysis.SpecialFunctions.Log.Base

/-!
# The bit difference (C47)

`log2` belongs to libm and is a parameter; `Log2Ok` states what is assumed of it.
-/

namespace Vdt.Diag
open Vdt.FP

/-- Assumptions on the `log2` of libm: `-inf` at zero; for arguments from one on a finite result
within `2^-52` relative error that respects powers of two.  (Every faithfully rounded `log2` does.) -/
structure Log2Ok (L : F64 → F64) : Prop where
  zero : L pzero = FP.inf true
  fin : ∀ x : F64, x.isFinite = true → 1 ≤ x.val → (L x).isFinite = true
  acc : ∀ x : F64, x.isFinite = true → 1 ≤ x.val → |(L x).real - Real.logb 2 x.real| ≤ (1 / 2 ^ 52) * Real.logb 2 x.real
  lower : ∀ (x : F64) (k : ℕ), x.isFinite = true → (2 : ℚ) ^ k ≤ x.val → (k : ℚ) ≤ (L x).val
  upper : ∀ (x : F64) (k : ℕ), x.isFinite = true → 1 ≤ x.val → x.val ≤ (2 : ℚ) ^ k → (L x).val ≤ k

/-- Distance of the bit patterns read as unsigned integers. -/
def patDist {f : Fmt} (a b : FP f) : ℕ := ((a.toBits.toNat : ℤ) - b.toBits.toNat).natAbs

/-- `n` is the position of the most significant set bit of `c`, counted from one (0 for `c = 0`). -/
def IsBitLength (n c : ℕ) : Prop := c < 2 ^ n ∧ (0 < n → 2 ^ (n - 1) ≤ c)

/-- C47 in full, for a given `log2`. -/
def C47_statement (L : F64 → F64) : Prop :=
  (∀ a b : F64, ∃ n, diffbit L a b = some n ∧ IsBitLength n (patDist a b)) ∧
  (∀ a b : F32, ∃ n, diffbit L a b = some n ∧ IsBitLength n (patDist a b))

theorem patDist_comm {f : Fmt} (a b : FP f) : patDist a b = patDist b a := by unfold patDist; omega

theorem patDist_zero {f : Fmt} {a b : FP f} : patDist a b = 0 ↔ a = b := by
  unfold patDist
  constructor
  · intro h
    exact toBits_inj (BitVec.eq_of_toNat_eq (by omega))
  · rintro rfl; simp

theorem fp2uint64_toNat {f : Fmt} (hf : f.eb + f.mb + 1 ≤ 64) (a : FP f) : (fp2uint64 a).toNat = a.toBits.toNat := by
  unfold fp2uint64
  rw [BitVec.toNat_ofNat, Nat.mod_eq_of_lt]
  exact lt_of_lt_of_le a.toBits.isLt (Nat.pow_le_pow_right (by norm_num) hf)

theorem diffbit_eq {f : Fmt} (hf : f.eb + f.mb + 1 ≤ 64) (L : F64 → F64) (a b : FP f) :
    diffbit L a b = toUInt 16 (L (ofNat (patDist a b)) + lit 1) := by
  have ha := fp2uint64_toNat hf a
  have hb := fp2uint64_toNat hf b
  have h1 := (fp2uint64 a).isLt
  have h2 := (fp2uint64 b).isLt
  have : (if fp2uint64 a > fp2uint64 b then fp2uint64 a - fp2uint64 b else fp2uint64 b - fp2uint64 a).toNat = patDist a b := by
    unfold patDist
    split
    · rename_i h
      have h' : (fp2uint64 b).toNat < (fp2uint64 a).toNat := h
      rw [BitVec.toNat_sub_of_le (by exact BitVec.le_of_lt h)]
      omega
    · rename_i h
      have h' : ¬ (fp2uint64 b).toNat < (fp2uint64 a).toNat := h
      rw [BitVec.toNat_sub_of_le (show (fp2uint64 a).toNat ≤ (fp2uint64 b).toNat by omega)]
      omega
  unfold diffbit
  dsimp only
  rw [this]

theorem patDist_lt {f : Fmt} (a b : FP f) : patDist a b < 2 ^ (f.eb + f.mb + 1) := by
  have h1 := a.toBits.isLt
  have h2 := b.toBits.isLt
  unfold patDist
  omega

theorem lit_one : (lit 1 : F64).isFinite = true ∧ (lit 1 : F64).val = 1 := by decide +kernel

/-- The result for a distance `c > 0`, from bounds on the logarithm. -/
theorem toUInt_log (L : F64 → F64) (hL : Log2Ok L) (c : ℕ) (hc0 : 0 < c) (hc : c < 2 ^ 64) :
    ∃ n, toUInt 16 (L (ofNat c) + lit 1) = some n ∧ (n = Nat.log2 c + 1 ∨ n = Nat.log2 c + 2) ∧
      (c < 2 ^ 45 → n = Nat.log2 c + 1) ∧ ((ofNat c).val = 2 ^ (Nat.log2 c + 1) → n = Nat.log2 c + 2) := by
  obtain ⟨k, hk⟩ : ∃ k, Nat.log2 c = k := ⟨_, rfl⟩
  have hk1 : 2 ^ k ≤ c := by rw [← hk]; exact Nat.log2_self_le (by omega)
  have hk2 : c < 2 ^ (k + 1) := by rw [← hk]; exact Nat.lt_log2_self
  have hk63 : k ≤ 63 := by
    by_contra h
    have : 2 ^ 64 ≤ 2 ^ k := Nat.pow_le_pow_right (by norm_num) (by omega)
    omega
  rw [hk]
  have hfin := ofNat_fin (n := c) hc.le
  have hdlo : (2 : ℚ) ^ k ≤ (ofNat c).val := by
    rw [ofNat_val, ← rep_pow k (by omega)]
    exact rnd_mono _ (by exact_mod_cast hk1)
  have hdhi : (ofNat c).val ≤ (2 : ℚ) ^ (k + 1) := by
    rw [ofNat_val, ← rep_pow (k + 1) (by omega)]
    exact rnd_mono _ (by exact_mod_cast hk2.le)
  have hd1 : 1 ≤ (ofNat c).val := le_trans (one_le_pow₀ (by norm_num)) hdlo
  have hl1 := hL.lower _ k hfin hdlo
  have hl2 := hL.upper _ (k + 1) hfin hd1 hdhi
  have hlf := hL.fin _ hfin hd1
  have hk63' : (k : ℚ) ≤ 63 := by exact_mod_cast hk63
  have hk0 : (0 : ℚ) ≤ k := by positivity
  push_cast at hl2
  have hs := add_spec hlf lit_one.1 (by
    rw [lit_one.2, abs_of_nonneg (by linarith)]
    exact le_trans (by linarith) (le_trans (by norm_num : (66 : ℚ) ≤ 2 ^ 200) big64_ge))
  rw [← add_def, lit_one.2] at hs
  have e1 : rnd b64 ((k + 1 : ℕ) : ℚ) = (k + 1 : ℕ) := rnd_exact _ (rep_nat (by omega)) (abs_nat_big (by omega))
  have e2 : rnd b64 ((k + 2 : ℕ) : ℚ) = (k + 2 : ℕ) := rnd_exact _ (rep_nat (by omega)) (abs_nat_big (by omega))
  have hr1 : ((k + 1 : ℕ) : ℚ) ≤ (L (ofNat c) + lit 1).val := by
    rw [hs.2, ← e1]; exact rnd_mono _ (by push_cast; linarith)
  have hr2 : (L (ofNat c) + lit 1).val ≤ ((k + 2 : ℕ) : ℚ) := by
    rw [hs.2, ← e2]; exact rnd_mono _ (by push_cast; linarith)
  have hacc : c < 2 ^ 45 → (L (ofNat c) + lit 1).val < ((k + 1 : ℕ) : ℚ) + 1 := by
    intro hc45
    have hk44 : k ≤ 44 := by
      by_contra h
      have : 2 ^ 45 ≤ 2 ^ k := Nat.pow_le_pow_right (by norm_num) (by omega)
      omega
    -- the real logarithm
    have hcv : (ofNat c).real = c := by unfold FP.real; rw [ofNat_exact (by omega)]; simp
    have ha := hL.acc _ hfin hd1
    rw [hcv] at ha
    have hε : Real.logb 2 (c : ℝ) ≤ k + 1 - 1 / 2 ^ (k + 1) := by
      have h2 : (0 : ℝ) < 2 ^ (k + 1) := by positivity
      have hle : (c : ℝ) ≤ 2 ^ (k + 1) * (1 - 1 / 2 ^ (k + 1)) := by
        have : (c : ℝ) + 1 ≤ 2 ^ (k + 1) := by exact_mod_cast hk2
        rw [mul_sub, mul_one, mul_one_div, div_self h2.ne']; linarith
      have hpos : (0 : ℝ) < c := by exact_mod_cast hc0
      have hone : (0 : ℝ) < 1 - 1 / 2 ^ (k + 1) := by
        by_contra h
        have := mul_nonpos_of_nonneg_of_nonpos h2.le (not_lt.1 h)
        linarith
      have h3 : Real.logb 2 (c : ℝ) ≤ Real.logb 2 (2 ^ (k + 1) * (1 - 1 / 2 ^ (k + 1))) :=
        Real.logb_le_logb_of_le (by norm_num) hpos hle
      rw [Real.logb_mul h2.ne' hone.ne', Real.logb_pow, Real.logb_self_eq_one (by norm_num)] at h3
      have h4 : Real.logb 2 (1 - 1 / 2 ^ (k + 1)) ≤ - (1 / 2 ^ (k + 1)) := by
        unfold Real.logb
        have hlog2 := Real.log_pos (show (1 : ℝ) < 2 by norm_num)
        have hlog2' : Real.log 2 ≤ 1 := by have := Real.log_le_sub_one_of_pos (show (0 : ℝ) < 2 by norm_num); linarith
        rw [div_le_iff₀ hlog2]
        have h5 := Real.log_le_sub_one_of_pos hone
        have h6 : (0 : ℝ) < 1 / 2 ^ (k + 1) := by positivity
        nlinarith
      push_cast at h3
      linarith
    have hpw : (1 : ℝ) / 2 ^ 45 ≤ 1 / 2 ^ (k + 1) :=
      one_div_le_one_div_of_le (by positivity) (pow_le_pow_right₀ (by norm_num) (by omega))
    have hk44' : (k : ℝ) ≤ 44 := by exact_mod_cast hk44
    have hLr : (L (ofNat c)).real ≤ k + 1 - 1 / 2 ^ 47 := by
      have h1 := (abs_le.1 ha).2
      have h2 : (1 / 2 ^ 52 : ℝ) * Real.logb 2 (c : ℝ) ≤ (1 / 2 ^ 52) * 45 := by
        refine mul_le_mul_of_nonneg_left ?_ (by positivity)
        have : (0 : ℝ) < 1 / 2 ^ (k + 1) := by positivity
        linarith
      norm_num at *
      linarith
    have hLq : (L (ofNat c)).val ≤ k + 1 - 1 / 2 ^ 47 := by
      unfold FP.real at hLr
      have : (((L (ofNat c)).val : ℚ) : ℝ) ≤ (((k : ℚ) + 1 - 1 / 2 ^ 47 : ℚ) : ℝ) := by push_cast; exact hLr
      exact_mod_cast this
    have e3 : rnd b64 ((k : ℚ) + 2 - 1 / 2 ^ 47) = (k : ℚ) + 2 - 1 / 2 ^ 47 := by
      refine rnd_exact b64 ⟨(k + 2) * 2 ^ 47 - 1, -47, ?_, ?_, by decide⟩ ?_
      · rw [p2_eq]; push_cast; norm_num; ring
      · rw [abs_of_nonneg (by have : (0:ℤ) ≤ k := Int.natCast_nonneg k; norm_num; omega)]
        norm_num; omega
      · rw [abs_of_nonneg (by norm_num; linarith)]
        refine le_trans ?_ big64_ge
        norm_num; linarith
    rw [hs.2]
    have := rnd_mono b64 (show (L (ofNat c)).val + 1 ≤ (k : ℚ) + 2 - 1 / 2 ^ 47 by linarith)
    rw [e3] at this
    push_cast
    refine lt_of_le_of_lt this ?_
    norm_num
    linarith
  rcases lt_or_ge (L (ofNat c) + lit 1).val (((k + 1 : ℕ) : ℚ) + 1) with h | h
  · refine ⟨k + 1, toUInt_some hs.1 hr1 h (by norm_num; omega), Or.inl rfl, fun _ => rfl, fun hpow => ?_⟩
    exfalso
    have h3 := hL.lower _ (k + 1) hfin hpow.ge
    have h4 : ((k + 2 : ℕ) : ℚ) ≤ (L (ofNat c) + lit 1).val := by
      rw [hs.2, ← e2]; exact rnd_mono _ (by push_cast at h3 ⊢; linarith)
    push_cast at h4 h
    linarith
  · refine ⟨k + 2, toUInt_some hs.1 (by push_cast at h ⊢; linarith) (lt_of_le_of_lt hr2 (by linarith)) (by norm_num; omega), Or.inr rfl,
      fun hc45 => absurd (hacc hc45) (not_lt.2 h), fun _ => rfl⟩

/-- One value a good `log2` may take. -/
theorem log2_value (x : F64) (hf : x.isFinite = true) (h1 : 1 ≤ x.val) : ∃ y : F64, y.isFinite = true ∧
    |y.real - Real.logb 2 x.real| ≤ (1 / 2 ^ 52) * Real.logb 2 x.real ∧
    (∀ k : ℕ, (2 : ℚ) ^ k ≤ x.val → (k : ℚ) ≤ y.val) ∧ (∀ k : ℕ, x.val ≤ (2 : ℚ) ^ k → y.val ≤ k) := by
  have hxr : (1 : ℝ) ≤ x.real := by unfold FP.real; exact_mod_cast h1
  have hxb : x.val < 2 * b64.big := by
    have := (magVal_lt (f := b64).2 (by unfold FP.isFinite at hf; simpa using hf : x.mag < b64.infMag))
    have e : magVal b64 b64.infMag = 2 * b64.big := by decide +kernel
    rw [← abs_val, e] at this
    exact lt_of_le_of_lt (le_abs_self _) this
  obtain ⟨l, hl⟩ : ∃ l, Real.logb 2 x.real = l := ⟨_, rfl⟩
  have hl0 : 0 ≤ l := by rw [← hl]; exact Real.logb_nonneg (by norm_num) hxr
  have hlb : l ≤ 1024 := by
    rw [← hl, Real.logb_le_iff_le_rpow (by norm_num) (by linarith)]
    have e : 2 * b64.big = 2 ^ 1024 := by decide +kernel
    rw [e] at hxb
    unfold FP.real
    rw [show ((1024 : ℝ)) = ((1024 : ℕ) : ℝ) by norm_num, Real.rpow_natCast]
    exact_mod_cast hxb.le
  have hk1 : ∀ k : ℕ, (2 : ℚ) ^ k ≤ x.val → (k : ℝ) ≤ l := by
    intro k hk
    rw [← hl, Real.le_logb_iff_rpow_le (by norm_num) (by linarith), Real.rpow_natCast]
    unfold FP.real
    exact_mod_cast hk
  have hk2 : ∀ k : ℕ, x.val ≤ (2 : ℚ) ^ k → l ≤ k := by
    intro k hk
    rw [← hl, Real.logb_le_iff_le_rpow (by norm_num) (by linarith), Real.rpow_natCast]
    unfold FP.real
    exact_mod_cast hk
  rw [hl]
  -- a rational just below
  obtain ⟨q, hq1, hq2, hq3⟩ : ∃ q : ℚ, ((⌊l⌋ : ℤ) : ℝ) ≤ q ∧ l * (1 - 1 / 2 ^ 60) ≤ q ∧ (q : ℝ) ≤ l := by
    rcases eq_or_lt_of_le (Int.floor_le l) with h | h
    · refine ⟨(⌊l⌋ : ℤ), by simp, ?_, by simpa using h.le⟩
      push_cast
      rw [h]
      nlinarith
    · have hlpos : 0 < l := by
        rcases eq_or_lt_of_le hl0 with h' | h'
        · rw [← h'] at h; simp at h
        · exact h'
      have : max ((⌊l⌋ : ℤ) : ℝ) (l * (1 - 1 / 2 ^ 60)) < l := max_lt h (by nlinarith)
      obtain ⟨q, hqa, hqb⟩ := exists_rat_btwn this
      exact ⟨q, (le_max_left _ _).trans hqa.le, (le_max_right _ _).trans hqa.le, hqb.le⟩
  have hq0 : 0 ≤ q := by
    have : (0 : ℝ) ≤ q := le_trans (by exact_mod_cast Int.floor_nonneg.2 hl0) hq1
    exact_mod_cast this
  have hqb : |q| ≤ b64.big := by
    rw [abs_of_nonneg hq0]
    have : q ≤ 1024 := by have : (q : ℝ) ≤ 1024 := hq3.trans hlb; exact_mod_cast this
    exact this.trans (le_trans (by norm_num) big64_ge)
  refine ⟨ofRat b64 false q, finite_ofRat _ hqb, ?_, ?_, ?_⟩
  · unfold FP.real
    rw [val_ofRat]
    rcases eq_or_lt_of_le h1 with hx1 | hx1
    · have hl00 : l = 0 := by rw [← hl]; unfold FP.real; rw [← hx1]; simp
      have hq00 : q = 0 := by
        have : (q : ℝ) ≤ 0 := hl00 ▸ hq3
        exact le_antisymm (by exact_mod_cast this) hq0
      rw [hq00, rnd_zero, hl00]; simp
    · -- the next number after one
      have hx2 : (1 : ℚ) + 1 / 2 ^ 52 ≤ x.val := by
        have hs := (val_pos_iff.1 (by linarith : 0 < x.val)).1
        have hxv : x.val = magVal b64 x.mag := by unfold FP.val; rw [hs]; rfl
        have hm1 : magVal b64 4607182418800017408 = 1 := by decide +kernel
        have hm2 : magVal b64 4607182418800017409 = 1 + 1 / 2 ^ 52 := by decide +kernel
        rw [hxv, ← hm2]
        refine magVal_le.2 ?_
        by_contra hlt
        have : magVal b64 x.mag ≤ magVal b64 4607182418800017408 := magVal_le.2 (by omega)
        rw [hm1, ← hxv] at this
        linarith
      have hl2 : (1 : ℝ) / 2 ^ 53 ≤ l := by
        have hxr2 : (1 : ℝ) + 1 / 2 ^ 52 ≤ x.real := by
          unfold FP.real
          have : (((1 : ℚ) + 1 / 2 ^ 52 : ℚ) : ℝ) ≤ (x.val : ℝ) := by exact_mod_cast hx2
          push_cast at this; exact this
        rw [← hl]
        have hlog := Real.one_sub_inv_le_log_of_pos (show (0 : ℝ) < 1 + 1 / 2 ^ 52 by positivity)
        have hmono := Real.log_le_log (by positivity) hxr2
        have hlog2 := Real.log_pos (show (1 : ℝ) < 2 by norm_num)
        have hlog2' : Real.log 2 ≤ 1 := by have := Real.log_le_sub_one_of_pos (show (0 : ℝ) < 2 by norm_num); linarith
        unfold Real.logb
        rw [le_div_iff₀ hlog2]
        have : (1 : ℝ) / 2 ^ 53 ≤ 1 - (1 + 1 / 2 ^ 52)⁻¹ := by norm_num
        have h4 : (1 : ℝ) / 2 ^ 53 * Real.log 2 ≤ 1 / 2 ^ 53 := by
          have : (0 : ℝ) ≤ 1 / 2 ^ 53 := by positivity
          nlinarith
        linarith
      have herr := rnd_err_rel b64 hqb
      have hqlo : (1 : ℚ) / 2 ^ 54 ≤ q := by
        have : ((1 / 2 ^ 54 : ℚ) : ℝ) ≤ q := by
          push_cast
          refine le_trans ?_ hq2
          have h60 : (1 / 2 : ℝ) ≤ 1 - 1 / 2 ^ 60 := by norm_num
          calc (1 : ℝ) / 2 ^ 54 = 1 / 2 ^ 53 * (1 / 2) := by norm_num
            _ ≤ l * (1 - 1 / 2 ^ 60) := mul_le_mul hl2 h60 (by norm_num) hl0
        exact_mod_cast this
      have hu : b64.u = 1 / 2 ^ 53 := by decide +kernel
      have heta : b64.eta ≤ 1 / 2 ^ 53 * (1 / 2 ^ 54) := by decide +kernel
      have herr2 : |rnd b64 q - q| ≤ 1 / 2 ^ 53 * q := by
        refine herr.trans (max_le ?_ (heta.trans ?_))
        · rw [hu, abs_of_nonneg hq0]
        · exact mul_le_mul_of_nonneg_left hqlo (by norm_num)
      have herr3 : |(rnd b64 q : ℝ) - q| ≤ 1 / 2 ^ 53 * q := by
        have : ((|rnd b64 q - q| : ℚ) : ℝ) ≤ ((1 / 2 ^ 53 * q : ℚ) : ℝ) := by exact_mod_cast herr2
        push_cast at this; exact this
      rw [abs_le] at herr3 ⊢
      have h60 : l - q ≤ 1 / 2 ^ 60 * l := by linarith
      have h61 : (1 : ℝ) / 2 ^ 53 * q ≤ 1 / 2 ^ 53 * l := mul_le_mul_of_nonneg_left hq3 (by norm_num)
      have h62 : (1 : ℝ) / 2 ^ 53 * l + 1 / 2 ^ 60 * l ≤ 1 / 2 ^ 52 * l := by rw [← add_mul]; exact mul_le_mul_of_nonneg_right (by norm_num) hl0
      constructor <;> linarith [herr3.1, herr3.2]
  · intro k hk
    have h := hk1 k hk
    have hkq : (k : ℚ) ≤ q := by
      have : (k : ℝ) ≤ q := le_trans (by exact_mod_cast Int.le_floor.2 (by exact_mod_cast h)) hq1
      exact_mod_cast this
    have hkb : k ≤ 1024 := by exact_mod_cast h.trans hlb
    rw [val_ofRat, ← rnd_exact b64 (rep_nat (n := k) (by omega)) (abs_nat_big (by omega))]
    exact rnd_mono _ hkq
  · intro k hk
    have h := hk2 k hk
    rcases le_or_gt k 1024 with hkb | hkb
    · have hkq : q ≤ (k : ℚ) := by
        have : (q : ℝ) ≤ k := hq3.trans h
        exact_mod_cast this
      rw [val_ofRat, ← rnd_exact b64 (rep_nat (n := k) (by omega)) (abs_nat_big (by omega))]
      exact rnd_mono _ hkq
    · have hq4 : q ≤ ((1024 : ℕ) : ℚ) := by
        have : (q : ℝ) ≤ 1024 := hq3.trans hlb
        exact_mod_cast this
      have := rnd_mono b64 hq4
      rw [rnd_exact b64 (rep_nat (n := 1024) (by norm_num)) (abs_nat_big (by norm_num))] at this
      rw [val_ofRat]
      refine this.trans ?_
      exact_mod_cast hkb.le

/-- The assumptions can be met. -/
theorem log2Ok_exists : ∃ L : F64 → F64, Log2Ok L := by
  classical
  have : ∀ x : F64, ∃ y : F64, (x = pzero → y = FP.inf true) ∧ (x.isFinite = true → 1 ≤ x.val → y.isFinite = true ∧
      |y.real - Real.logb 2 x.real| ≤ (1 / 2 ^ 52) * Real.logb 2 x.real ∧
      (∀ k : ℕ, (2 : ℚ) ^ k ≤ x.val → (k : ℚ) ≤ y.val) ∧ (∀ k : ℕ, x.val ≤ (2 : ℚ) ^ k → y.val ≤ k)) := by
    intro x
    by_cases h : x.isFinite = true ∧ 1 ≤ x.val
    · obtain ⟨y, hy⟩ := log2_value x h.1 h.2
      refine ⟨y, ?_, fun _ _ => hy⟩
      rintro rfl
      exact absurd h.2 (by decide +kernel)
    · exact ⟨FP.inf true, fun _ => rfl, fun h1 h2 => absurd ⟨h1, h2⟩ h⟩
  choose L hL using this
  have h2 : ∀ (x : F64) (k : ℕ), (2 : ℚ) ^ k ≤ x.val → 1 ≤ x.val := fun x k h => le_trans (one_le_pow₀ (by norm_num)) h
  exact ⟨L, (hL _).1 rfl, fun x h1 h2 => ((hL x).2 h1 h2).1, fun x h1 h2 => ((hL x).2 h1 h2).2.1,
    fun x k h1 h => ((hL x).2 h1 (h2 x k h)).2.2.1 k h, fun x k h1 h2 h => ((hL x).2 h1 h2).2.2.2 k h⟩

/-- Swapping the arguments changes nothing, whatever `log2` is. -/
theorem C47_symmetric (L : F64 → F64) (a b : F64) (a' b' : F32) :
    diffbit L a b = diffbit L b a ∧ diffbit L a' b' = diffbit L b' a' := by
  refine ⟨?_, ?_⟩
  · rw [diffbit_eq (by decide), diffbit_eq (by decide), patDist_comm]
  · rw [diffbit_eq (by decide), diffbit_eq (by decide), patDist_comm]

/-- Equal patterns: `log2(0) + 1` is `-inf`, whose conversion to `uint16_t` is undefined. -/
theorem C47_equal_undefined (L : F64 → F64) (hL : Log2Ok L) (a : F64) (a' : F32) :
    diffbit L a a = none ∧ diffbit L a' a' = none := by
  have h0 : L (ofNat 0) + lit 1 = FP.inf true := by
    have : ofNat 0 = pzero := by decide +kernel
    rw [this, hL.zero]
    decide +kernel
  refine ⟨?_, ?_⟩
  · rw [diffbit_eq (by decide), patDist_zero.2 rfl, h0]; decide +kernel
  · rw [diffbit_eq (by decide), patDist_zero.2 rfl, h0]; decide +kernel

theorem isBitLength_log2 {c : ℕ} (h : 0 < c) : IsBitLength (Nat.log2 c + 1) c :=
  ⟨Nat.lt_log2_self, fun _ => Nat.log2_self_le (by omega)⟩

/-- Partial C47 for `float`: exactly the bit length for any two different patterns.  Missing: equal
patterns (undefined). -/
theorem C47_diffbitf_partial (L : F64 → F64) (hL : Log2Ok L) (a b : F32) (h : a ≠ b) :
    ∃ n, diffbit L a b = some n ∧ IsBitLength n (patDist a b) ∧ 0 < n := by
  have hpos : 0 < patDist a b := Nat.pos_of_ne_zero (fun e => h (patDist_zero.1 e))
  have hlt : patDist a b < 2 ^ 32 := patDist_lt a b
  obtain ⟨n, h1, -, h3, -⟩ := toUInt_log L hL (patDist a b) hpos (lt_trans hlt (by norm_num))
  rw [diffbit_eq (by decide)]
  rw [h3 (lt_trans hlt (by norm_num))] at h1
  exact ⟨_, h1, isBitLength_log2 hpos, by omega⟩

/-- Partial C47 for `double`: defined for any two different patterns, and exactly the bit length or
one more; exactly the bit length for distances below `2^45`. -/
theorem C47_diffbit_partial (L : F64 → F64) (hL : Log2Ok L) (a b : F64) (h : a ≠ b) :
    ∃ n, diffbit L a b = some n ∧ 0 < n ∧ (IsBitLength n (patDist a b) ∨ IsBitLength (n - 1) (patDist a b)) ∧
      (patDist a b < 2 ^ 45 → IsBitLength n (patDist a b)) := by
  have hpos : 0 < patDist a b := Nat.pos_of_ne_zero (fun e => h (patDist_zero.1 e))
  have hlt : patDist a b < 2 ^ 64 := patDist_lt a b
  obtain ⟨n, h1, h2, h3, -⟩ := toUInt_log L hL (patDist a b) hpos hlt
  rw [diffbit_eq (by decide)]
  refine ⟨n, h1, by omega, ?_, fun h45 => by rw [h3 h45]; exact isBitLength_log2 hpos⟩
  rcases h2 with h2 | h2 <;> rw [h2]
  · exact Or.inl (isBitLength_log2 hpos)
  · exact Or.inr (isBitLength_log2 hpos)

/-- Two different doubles for which the result is one too large: the distance `2^63 - 1` of `-0` and the
smallest positive number becomes `2^63` when converted to `double`. -/
theorem C47_one_too_large (L : F64 → F64) (hL : Log2Ok L) :
    diffbit L (nzero : F64) ⟨false, 1, by decide⟩ = some 64 ∧ IsBitLength 63 (patDist (nzero : F64) ⟨false, 1, by decide⟩) := by
  have e : patDist (nzero : F64) ⟨false, 1, by decide⟩ = 2 ^ 63 - 1 := by decide +kernel
  obtain ⟨n, h1, -, -, h4⟩ := toUInt_log L hL (2 ^ 63 - 1) (by norm_num) (by norm_num)
  have hlog : Nat.log2 (2 ^ 63 - 1) = 62 := by decide +kernel
  rw [diffbit_eq (by decide), e]
  refine ⟨?_, by unfold IsBitLength; decide⟩
  rw [h1, h4 (by rw [hlog]; decide +kernel), hlog]

/-- C47 does not hold, for any acceptable `log2`. -/
theorem C47_violated (L : F64 → F64) (hL : Log2Ok L) : ¬ C47_statement L := by
  rintro ⟨h, -⟩
  obtain ⟨n, h1, -⟩ := h pzero pzero
  rw [(C47_equal_undefined L hL pzero pzero).1] at h1
  simp at h1

/-- The hypotheses can be met: an acceptable `log2` exists, and here are two neighbours. -/
example : (∃ L, Log2Ok L) ∧ (lit 1 : F32) ≠ lit 1.0000001 ∧ patDist (lit 1 : F32) (lit 1.0000001) = 1 :=
  ⟨log2Ok_exists, by decide +kernel, by decide +kernel⟩

end Vdt.Diag
