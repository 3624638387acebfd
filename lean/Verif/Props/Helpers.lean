import Verif.Spec
import Verif.Lemmas.Common

/-!
# Properties of the helpers in `include/vdtcore_common.h` (C33, C34, C35)
-/

namespace Vdt
open FP details

/-! ## C35 -/

/-- Reading a pattern as a number and back is the identity, in both directions, NaNs included. -/
theorem C35_bits_roundtrip :
    (∀ n : BitVec 64, dp2uint64 (uint642dp n) = n) ∧ (∀ x : F64, uint642dp (dp2uint64 x) = x) ∧
    (∀ n : BitVec 32, sp2uint32 (uint322sp n) = n) ∧ (∀ x : F32, uint322sp (sp2uint32 x) = x) :=
  ⟨fun n => toBits_ofBits (f := b64) n, fun x => ofBits_toBits x,
   fun n => toBits_ofBits (f := b32) n, fun x => ofBits_toBits x⟩

/-- The bit operations with a sign mask act on the sign and keep the magnitude bits. -/
theorem C35_sign_masks (x y : F64) :
    (getSignMask x = if x.sign then 0x8000000000000000#64 else 0#64) ∧
    ((dpORuint64 y (getSignMask x)).sign = (y.sign || x.sign) ∧ (dpORuint64 y (getSignMask x)).mag = y.mag) ∧
    ((dpXORuint64 y (getSignMask x)).sign = (y.sign ^^ x.sign) ∧ (dpXORuint64 y (getSignMask x)).mag = y.mag) ∧
    ((dpANDuint64 y 0x7FFFFFFFFFFFFFFF#64).sign = false ∧ (dpANDuint64 y 0x7FFFFFFFFFFFFFFF#64).mag = y.mag) := by
  refine ⟨?_, ?_, ?_, ?_⟩
  · apply BitVec.eq_of_getLsbD_eq
    intro i hi
    rw [bit_getSignMask x i hi]
    cases x.sign
    · simp
    · simp only [Bool.and_true, if_true]; rw [bit_signmask64 i hi]
  · rw [dpOR_signMask]; exact ⟨rfl, rfl⟩
  · rw [dpXOR_signMask]; exact ⟨rfl, rfl⟩
  · rw [dpAND_signMask]; exact ⟨rfl, rfl⟩

theorem C35_sign_masks_f (x y : F32) :
    (getSignMaskf x = if x.sign then 0x80000000#32 else 0#32) ∧
    ((spORuint32 y (getSignMaskf x)).sign = (y.sign || x.sign) ∧ (spORuint32 y (getSignMaskf x)).mag = y.mag) ∧
    ((spXORuint32 y (getSignMaskf x)).sign = (y.sign ^^ x.sign) ∧ (spXORuint32 y (getSignMaskf x)).mag = y.mag) ∧
    ((spANDuint32 y 0x7FFFFFFF#32).sign = false ∧ (spANDuint32 y 0x7FFFFFFF#32).mag = y.mag) := by
  refine ⟨?_, ?_, ?_, ?_⟩
  · apply BitVec.eq_of_getLsbD_eq
    intro i hi
    rw [bit_getSignMaskf x i hi]
    cases x.sign
    · simp
    · simp only [Bool.and_true, if_true]; rw [bit_signmask32 i hi]
  · rw [spOR_signMask]; exact ⟨rfl, rfl⟩
  · rw [spXOR_signMask]; exact ⟨rfl, rfl⟩
  · rw [spAND_signMask]; exact ⟨rfl, rfl⟩

/-- A NaN with payload survives, and a masked operation on it changes its sign only. -/
example : uint642dp (dp2uint64 (uint642dp 0xFFF0000000000123#64)) = uint642dp 0xFFF0000000000123#64 ∧
    dpXORuint64 (uint642dp 0xFFF0000000000123#64) (getSignMask (uint642dp 0x8000000000000000#64))
      = uint642dp 0x7FF0000000000123#64 := by decide +kernel

/-! ## C33 -/

theorem normal_iff64 (x : F64) : x.Normal ↔ 2 ^ 52 ≤ x.mag ∧ x.mag < 2047 * 2 ^ 52 := by
  unfold FP.Normal
  rw [abs_val, ← p2_eq]
  have h1 : p2 b64.emin = magVal b64 (2 ^ 52) := by decide +kernel
  rw [h1, magVal_le]
  have : b64.infMag = 2047 * 2 ^ 52 := by decide
  simp only [isFinite, this, decide_eq_true_eq]
  exact and_comm

theorem normal_iff32 (x : F32) : x.Normal ↔ 2 ^ 23 ≤ x.mag ∧ x.mag < 255 * 2 ^ 23 := by
  unfold FP.Normal
  rw [abs_val, ← p2_eq]
  have h1 : p2 b32.emin = magVal b32 (2 ^ 23) := by decide +kernel
  rw [h1, magVal_le]
  have : b32.infMag = 255 * 2 ^ 23 := by decide
  simp only [isFinite, this, decide_eq_true_eq]
  exact and_comm

/-- What the comment of `getMantExponent` promises: `x = m * 2^(e+1)`, `1/2 ≤ |m| < 1`. -/
def Splits {f : Fmt} (x m e : FP f) : Prop :=
  m.isFinite = true ∧ e.isFinite = true ∧ 1 / 2 ≤ |m.val| ∧ |m.val| < 1 ∧ m.sign = x.sign ∧
    ∃ k : ℤ, e.val = k ∧ x.val = m.val * 2 ^ (k + 1)

theorem mag_split {c p : ℕ} : c = c / p * p + c % p := by
  rw [mul_comm]; exact (Nat.div_add_mod c p).symm

theorem magVal_normal (f : Fmt) {c : ℕ} (h : 2 ^ f.mb ≤ c) :
    magVal f c = ((2 ^ f.mb + c % 2 ^ f.mb : ℕ) : ℚ) * p2 ((c / 2 ^ f.mb : ℕ) - 1 + f.emin - f.mb) := by
  unfold magVal
  have : c / 2 ^ f.mb ≠ 0 := by
    have := Nat.div_pos h (Nat.two_pow_pos _); omega
  simp only [if_neg this]

/-- The common core: the split with the exponent read from the magnitude. -/
theorem mant_val64 {x : F64} (h : x.Normal) (m : F64) (hm : m.mag = 1022 * 2 ^ 52 + x.mag % 2 ^ 52) (hs : m.sign = x.sign) :
    m.isFinite = true ∧ 1 / 2 ≤ |m.val| ∧ |m.val| < 1 ∧
      x.val = m.val * 2 ^ (((x.mag / 2 ^ 52 : ℕ) : ℤ) - 1022) := by
  rw [normal_iff64] at h
  have hlt : x.mag % 2 ^ 52 < 2 ^ 52 := Nat.mod_lt _ (by norm_num)
  have hmv : magVal b64 m.mag = ((2 ^ 52 + x.mag % 2 ^ 52 : ℕ) : ℚ) * p2 (-53) := by
    rw [hm, magVal_normal b64 (by show 2 ^ 52 ≤ _; omega)]
    have h1 : (1022 * 2 ^ 52 + x.mag % 2 ^ 52) % 2 ^ b64.mb = x.mag % 2 ^ 52 := by
      show (1022 * 2 ^ 52 + x.mag % 2 ^ 52) % 2 ^ 52 = _; omega
    have h2 : (1022 * 2 ^ 52 + x.mag % 2 ^ 52) / 2 ^ b64.mb = 1022 := by
      show (1022 * 2 ^ 52 + x.mag % 2 ^ 52) / 2 ^ 52 = _; omega
    rw [h1, h2]; rfl
  refine ⟨?_, ?_, ?_, ?_⟩
  · simp only [isFinite, hm, decide_eq_true_eq]
    have : b64.infMag = 2047 * 2 ^ 52 := by decide
    omega
  · rw [abs_val, hmv, p2_eq]
    have : ((2 ^ 52 : ℕ) : ℚ) ≤ ((2 ^ 52 + x.mag % 2 ^ 52 : ℕ) : ℚ) := by exact_mod_cast Nat.le_add_right _ _
    have h3 : (2 : ℚ) ^ (-53 : ℤ) = 1 / 2 ^ 53 := by norm_num
    rw [h3]
    push_cast at this ⊢
    linarith
  · rw [abs_val, hmv, p2_eq]
    have : ((2 ^ 52 + x.mag % 2 ^ 52 : ℕ) : ℚ) < ((2 ^ 53 : ℕ) : ℚ) := by
      exact_mod_cast (show 2 ^ 52 + x.mag % 2 ^ 52 < 2 ^ 53 by omega)
    have h3 : (2 : ℚ) ^ (-53 : ℤ) = 1 / 2 ^ 53 := by norm_num
    rw [h3]
    push_cast at this ⊢
    linarith
  · have hx : magVal b64 x.mag = magVal b64 m.mag * 2 ^ (((x.mag / 2 ^ 52 : ℕ) : ℤ) - 1022) := by
      rw [hmv, magVal_normal b64 h.1, ← p2_eq, mul_assoc, ← p2_add]
      congr 2
      have : b64.emin = -1022 := by decide
      rw [this]
      push_cast
      ring
    unfold FP.val
    rw [hs, hx]
    split <;> ring

theorem mant_val32 {x : F32} (h : x.Normal) (m : F32) (hm : m.mag = 126 * 2 ^ 23 + x.mag % 2 ^ 23) (hs : m.sign = x.sign) :
    m.isFinite = true ∧ 1 / 2 ≤ |m.val| ∧ |m.val| < 1 ∧
      x.val = m.val * 2 ^ (((x.mag / 2 ^ 23 : ℕ) : ℤ) - 126) := by
  rw [normal_iff32] at h
  have hlt : x.mag % 2 ^ 23 < 2 ^ 23 := Nat.mod_lt _ (by norm_num)
  have hmv : magVal b32 m.mag = ((2 ^ 23 + x.mag % 2 ^ 23 : ℕ) : ℚ) * p2 (-24) := by
    rw [hm, magVal_normal b32 (by show 2 ^ 23 ≤ _; omega)]
    have h1 : (126 * 2 ^ 23 + x.mag % 2 ^ 23) % 2 ^ b32.mb = x.mag % 2 ^ 23 := by
      show (126 * 2 ^ 23 + x.mag % 2 ^ 23) % 2 ^ 23 = _; omega
    have h2 : (126 * 2 ^ 23 + x.mag % 2 ^ 23) / 2 ^ b32.mb = 126 := by
      show (126 * 2 ^ 23 + x.mag % 2 ^ 23) / 2 ^ 23 = _; omega
    rw [h1, h2]; rfl
  refine ⟨?_, ?_, ?_, ?_⟩
  · simp only [isFinite, hm, decide_eq_true_eq]
    have : b32.infMag = 255 * 2 ^ 23 := by decide
    omega
  · rw [abs_val, hmv, p2_eq]
    have : ((2 ^ 23 : ℕ) : ℚ) ≤ ((2 ^ 23 + x.mag % 2 ^ 23 : ℕ) : ℚ) := by exact_mod_cast Nat.le_add_right _ _
    have h3 : (2 : ℚ) ^ (-24 : ℤ) = 1 / 2 ^ 24 := by norm_num
    rw [h3]
    push_cast at this ⊢
    linarith
  · rw [abs_val, hmv, p2_eq]
    have : ((2 ^ 23 + x.mag % 2 ^ 23 : ℕ) : ℚ) < ((2 ^ 24 : ℕ) : ℚ) := by
      exact_mod_cast (show 2 ^ 23 + x.mag % 2 ^ 23 < 2 ^ 24 by omega)
    have h3 : (2 : ℚ) ^ (-24 : ℤ) = 1 / 2 ^ 24 := by norm_num
    rw [h3]
    push_cast at this ⊢
    linarith
  · have hx : magVal b32 x.mag = magVal b32 m.mag * 2 ^ (((x.mag / 2 ^ 23 : ℕ) : ℤ) - 126) := by
      rw [hmv, magVal_normal b32 h.1, ← p2_eq, mul_assoc, ← p2_add]
      congr 2
      have : b32.emin = -126 := by decide
      rw [this]
      push_cast
      ring
    unfold FP.val
    rw [hs, hx]
    split <;> ring

/-- Full statement of C33. -/
def C33_statement : Prop :=
  (∀ x : F64, x.Normal → Splits x (getMantExponent x).1 (getMantExponent x).2) ∧
  (∀ x : F32, x.Normal → Splits x (getMantExponentf x).1 (getMantExponentf x).2)

/-- C33 holds for positive numbers.  Missing: negative numbers, for which the code is wrong
(`C33_violated`); what it returns for them is `C33_getMantExponent_negative`. -/
theorem C33_getMantExponent_partial (x : F64) (hn : x.Normal) (hs : x.sign = false) :
    Splits x (getMantExponent x).1 (getMantExponent x).2 := by
  rw [getMantExponent_eq]
  have h := mant_val64 hn ⟨x.sign, 1022 * 2 ^ 52 + x.mag % 2 ^ 52, mant_bound64 _⟩ rfl rfl
  have hb := (normal_iff64 x).1 hn
  have hi := ofInt_spec64 (n := ((x.mag / 2 ^ 52 : ℕ) : ℤ) + (if x.sign then 2048 else 0) - 1023) (by
    simp only [hs, Bool.false_eq_true, if_false]; rw [abs_le]; omega)
  refine ⟨h.1, hi.1, h.2.1, h.2.2.1, rfl, _, hi.2, ?_⟩
  rw [h.2.2.2, hs]
  simp only [Bool.false_eq_true, if_false]
  congr 2; ring

theorem C33_getMantExponentf_partial (x : F32) (hn : x.Normal) (hs : x.sign = false) :
    Splits x (getMantExponentf x).1 (getMantExponentf x).2 := by
  rw [getMantExponentf_eq]
  have h := mant_val32 hn ⟨x.sign, 126 * 2 ^ 23 + x.mag % 2 ^ 23, mant_bound32 _⟩ rfl rfl
  have hb := (normal_iff32 x).1 hn
  have hi := ofInt_spec32 (n := ((x.mag / 2 ^ 23 : ℕ) : ℤ) + (if x.sign then 256 else 0) - 127) (by
    simp only [hs, Bool.false_eq_true, if_false]; rw [abs_le]; omega)
  refine ⟨h.1, hi.1, h.2.1, h.2.2.1, rfl, _, hi.2, ?_⟩
  rw [h.2.2.2, hs]
  simp only [Bool.false_eq_true, if_false]
  congr 2; ring

/-- For every negative normal number the exponent is too large by exactly 2048 (256), because the
sign bit is shifted into it. -/
theorem C33_getMantExponent_negative (x : F64) (hn : x.Normal) (hs : x.sign = true) :
    ∃ k : ℤ, (getMantExponent x).2.val = k + 2048 ∧ x.val = (getMantExponent x).1.val * 2 ^ (k + 1) := by
  rw [getMantExponent_eq]
  have h := mant_val64 hn ⟨x.sign, 1022 * 2 ^ 52 + x.mag % 2 ^ 52, mant_bound64 _⟩ rfl rfl
  have hb := (normal_iff64 x).1 hn
  have hi := ofInt_spec64 (n := ((x.mag / 2 ^ 52 : ℕ) : ℤ) + (if x.sign then 2048 else 0) - 1023) (by
    simp only [hs, if_true]; rw [abs_le]; omega)
  refine ⟨((x.mag / 2 ^ 52 : ℕ) : ℤ) - 1023, ?_, ?_⟩
  · rw [hi.2, hs, if_pos rfl]; push_cast; ring
  · rw [h.2.2.2]
    congr 2; ring

theorem C33_getMantExponentf_negative (x : F32) (hn : x.Normal) (hs : x.sign = true) :
    ∃ k : ℤ, (getMantExponentf x).2.val = k + 256 ∧ x.val = (getMantExponentf x).1.val * 2 ^ (k + 1) := by
  rw [getMantExponentf_eq]
  have h := mant_val32 hn ⟨x.sign, 126 * 2 ^ 23 + x.mag % 2 ^ 23, mant_bound32 _⟩ rfl rfl
  have hb := (normal_iff32 x).1 hn
  have hi := ofInt_spec32 (n := ((x.mag / 2 ^ 23 : ℕ) : ℤ) + (if x.sign then 256 else 0) - 127) (by
    simp only [hs, if_true]; rw [abs_le]; omega)
  refine ⟨((x.mag / 2 ^ 23 : ℕ) : ℤ) - 127, ?_, ?_⟩
  · rw [hi.2, hs, if_pos rfl]; push_cast; ring
  · rw [h.2.2.2]
    congr 2; ring

/-- The code violates C33: for `-1` it returns the exponent `2048`. -/
theorem C33_violated : ¬ C33_statement := by
  intro h
  have hn : (FP.neg (lit 1) : F64).Normal := by
    rw [normal_iff64]; decide +kernel
  obtain ⟨k, hk, hv⟩ := C33_getMantExponent_negative _ hn (by decide +kernel)
  obtain ⟨_, _, _, _, _, k', hk', hv'⟩ := h.1 _ hn
  rw [hk] at hk'
  have hkk : k' = k + 2048 := by exact_mod_cast hk'.symm
  rw [hv, hkk] at hv'
  have hm : (getMantExponent (FP.neg (lit 1) : F64)).1.val ≠ 0 := by decide +kernel
  have := mul_left_cancel₀ hm hv'
  have h2 := zpow_right_injective₀ (show (0 : ℚ) < 2 by norm_num) (by norm_num) this
  omega

/-- 3.75 = 0.9375 * 2^(1+1). -/
example : (lit 3.75 : F64).Normal ∧ (getMantExponent (lit 3.75)).1.val = 15 / 16 ∧
    (getMantExponent (lit 3.75)).2.val = 1 := by
  refine ⟨?_, ?_, ?_⟩
  · rw [normal_iff64]; decide +kernel
  · decide +kernel
  · decide +kernel

example : (lit (-3.75) : F32).Normal ∧ (lit (-3.75) : F32).sign = true ∧
    (getMantExponentf (lit (-3.75))).2.val = 257 := by
  refine ⟨?_, ?_, ?_⟩
  · rw [normal_iff32]; decide +kernel
  · decide +kernel
  · decide +kernel

/-! ## C34 -/

/-- Full statement of C34. -/
def C34_statement : Prop :=
  (∀ x : F64, x.isFinite = true → |x.val| < 2 ^ 31 →
    ∃ y, fpfloor strict x = some y ∧ y.isFinite = true ∧ y.val = (⌊x.val⌋ : ℚ)) ∧
  (∀ x : F32, x.isFinite = true → |x.val| < 2 ^ 31 →
    ∃ y, fpfloorf strict x = some y ∧ y.isFinite = true ∧ y.val = (⌊x.val⌋ : ℚ))

/-- `fpfloor` is the floor of every number that is not a negative integer and not `-0`.
Missing: those, see `C34_fpfloor_negative_integers`. -/
theorem C34_fpfloor_partial (x : F64) (hf : x.isFinite = true) (h : |x.val| < 2 ^ 31)
    (hx : x.sign = false ∨ ∀ n : ℤ, x.val ≠ n) :
    ∃ y, fpfloor strict x = some y ∧ y.isFinite = true ∧ y.val = (⌊x.val⌋ : ℚ) := by
  have h' : |x.val| < 2147483648 := by norm_num at h ⊢; exact h
  have hc : ¬ (x.sign = true ∧ x.val.isInt = true) := by
    rintro ⟨a, b⟩
    rcases hx with hx | hx
    · rw [hx] at a; cases a
    · exact hx x.val.num (Rat.eq_num_of_isInt b)
  have e := fpfloor_eq hf h'
  rw [if_neg hc] at e
  have hb : |⌊x.val⌋| ≤ 2 ^ 53 := by
    rw [abs_lt] at h'
    rw [abs_le]
    constructor
    · rw [Int.le_floor]; push_cast; linarith
    · have : ⌊x.val⌋ ≤ 2147483648 := by
        have := Int.floor_le x.val
        have h3 : (⌊x.val⌋ : ℚ) < 2147483648 := by linarith
        have h4 : ⌊x.val⌋ < 2147483648 := by exact_mod_cast h3
        omega
      omega
  exact ⟨_, e, (ofInt_spec64 hb).1, (ofInt_spec64 hb).2⟩

/-- The floor of a float is a float. -/
theorem floor_float (x : F32) (h : |x.val| < 2 ^ 31) :
    (ofInt ⌊x.val⌋ : F32).isFinite = true ∧ (ofInt ⌊x.val⌋ : F32).val = ⌊x.val⌋ := by
  obtain ⟨n, k, hv, hn, hk⟩ := val_rep x
  rcases le_or_gt 0 k with h0 | h0
  · have hint : x.val = ((n * 2 ^ k.toNat : ℤ) : ℚ) := by
      rw [hv, p2_eq]; push_cast
      congr 1
      rw [← zpow_natCast]; congr 1; omega
    have hfl : (⌊x.val⌋ : ℚ) = x.val := by rw [hint, Int.floor_intCast]
    have hb : |x.val| ≤ b32.big := by
      refine h.le.trans ?_
      have : (2 : ℚ) ^ 31 = p2 31 := by rw [p2_eq]; norm_num
      rw [this]; exact p2_le (by decide)
    unfold ofInt
    rw [hfl]
    refine ⟨finite_ofRat _ hb, ?_⟩
    rw [val_ofRat]; exact rnd_exact b32 (val_rep x) hb
  · apply ofInt_spec32
    have hx : |x.val| ≤ 2 ^ 23 := by
      rw [hv, abs_mul, abs_of_pos (p2_pos k)]
      have h1 : |(n : ℚ)| ≤ 2 ^ 24 := by exact_mod_cast hn
      have h2 : p2 k ≤ 1 / 2 := by
        have : p2 (-1) = 1 / 2 := by rw [p2_eq]; norm_num
        rw [← this]; exact p2_le (by omega)
      calc |(n : ℚ)| * p2 k ≤ 2 ^ 24 * (1 / 2) := mul_le_mul h1 h2 (p2_pos _).le (by norm_num)
        _ = 2 ^ 23 := by norm_num
    rw [abs_le] at hx ⊢
    constructor
    · rw [Int.le_floor]; push_cast; linarith
    · have h3 : (⌊x.val⌋ : ℚ) ≤ 2 ^ 23 := (Int.floor_le x.val).trans hx.2
      have h4 : ⌊x.val⌋ ≤ 2 ^ 23 := by exact_mod_cast h3
      omega

/-- The single-precision version. -/
theorem C34_fpfloorf_partial (x : F32) (hf : x.isFinite = true) (h : |x.val| < 2 ^ 31)
    (hx : x.sign = false ∨ ∀ n : ℤ, x.val ≠ n) :
    ∃ y, fpfloorf strict x = some y ∧ y.isFinite = true ∧ y.val = (⌊x.val⌋ : ℚ) := by
  have h' : |x.val| < 2147483648 := by norm_num at h ⊢; exact h
  have hc : ¬ (x.sign = true ∧ x.val.isInt = true) := by
    rintro ⟨a, b⟩
    rcases hx with hx | hx
    · rw [hx] at a; cases a
    · exact hx x.val.num (Rat.eq_num_of_isInt b)
  have e := fpfloorf_eq hf h'
  rw [if_neg hc] at e
  exact ⟨_, e, floor_float x h⟩

/-- On negative integers and `-0` the answer is one too small. -/
theorem C34_fpfloor_negative_integers (x : F64) (n : ℤ) (hf : x.isFinite = true) (h : |x.val| < 2 ^ 31)
    (hs : x.sign = true) (hn : x.val = n) :
    ∃ y, fpfloor strict x = some y ∧ y.isFinite = true ∧ y.val = n - 1 := by
  have h' : |x.val| < 2147483648 := by norm_num at h ⊢; exact h
  have hc : x.sign = true ∧ x.val.isInt = true := ⟨hs, by rw [hn]; simp [Rat.isInt]⟩
  have e := fpfloor_eq hf h'
  rw [if_pos hc, hn, Int.floor_intCast] at e
  have hb : |n - 1| ≤ 2 ^ 53 := by
    rw [hn, abs_lt] at h'
    have h1 : -2147483648 < n := by exact_mod_cast h'.1
    have h2 : n < 2147483648 := by exact_mod_cast h'.2
    rw [abs_le]; omega
  refine ⟨_, e, (ofInt_spec64 hb).1, ?_⟩
  rw [(ofInt_spec64 hb).2]; push_cast; ring

/-- The code violates C34: `fpfloor(-1.0) = -2`. -/
theorem C34_violated : ¬ C34_statement := by
  intro h
  obtain ⟨y, hy, _, hv⟩ := h.1 (ofInt (-1)) (by decide +kernel) (by decide +kernel)
  obtain ⟨z, hz, _, hw⟩ := C34_fpfloor_negative_integers (ofInt (-1)) (-1) (by decide +kernel) (by decide +kernel)
    (by decide +kernel) (by decide +kernel)
  rw [hy] at hz
  cases hz
  have : (ofInt (-1) : F64).val = ((-1 : ℤ) : ℚ) := by decide +kernel
  rw [this, Int.floor_intCast] at hv
  rw [hv] at hw
  norm_num at hw

/-- Outside the range of `int` the call is undefined behaviour. -/
theorem C34_fpfloor_undefined (x : F64) (h : x.isFinite = true → 2 ^ 31 ≤ x.val ∨ x.val ≤ -2 ^ 31 - 1) :
    fpfloor strict x = none := by
  have hd : f2iDefined x = false := by
    unfold f2iDefined
    by_cases hf : x.isFinite = true
    · rw [hf, Bool.true_and]
      unfold inI32
      rw [decide_eq_false_iff_not]
      rintro ⟨h1, h2⟩
      rcases h hf with hb | hb
      · rw [truncRat_nonneg (by linarith [show (0:ℚ) ≤ 2 ^ 31 by norm_num])] at h2
        rw [Int.floor_lt] at h2; norm_num at h2 hb; linarith
      · rw [truncRat_nonpos (by linarith [show (0:ℚ) ≤ 2 ^ 31 by norm_num])] at h1
        have h3 : (-2147483649 : ℤ) < ⌈x.val⌉ := by omega
        rw [Int.lt_ceil] at h3; norm_num at h3 hb; linarith
    · simp [hf]
  unfold fpfloor
  rw [strict_f2i_none hd]; rfl

example : (fpfloor strict (lit (-2.5))).map FP.val = some (-3) ∧ (fpfloor strict (lit 7.99)).map FP.val = some 7
    ∧ fpfloor strict (lit 3e9) = none ∧ fpfloor strict nan = none := by decide +kernel

end Vdt
