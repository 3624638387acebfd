import Verif.Float.Ops
import Verif.Model.Common

/-!
# Bit patterns: reinterpretation and sign masks
-/

namespace Vdt
namespace FP
variable {f : Fmt}

theorem toBits_toNat (x : FP f) : x.toBits.toNat = (if x.sign then f.magCount else 0) + x.mag := by
  unfold toBits
  rw [BitVec.toNat_ofNat, Nat.mod_eq_of_lt]
  have := x.bound
  have h2 : 2 ^ (f.eb + f.mb + 1) = f.magCount + f.magCount := by unfold Fmt.magCount; rw [pow_succ]; ring
  rw [h2]
  split <;> omega

theorem ofBits_toBits (x : FP f) : ofBits x.toBits = x := by
  have hb := x.bound
  have h := toBits_toNat x
  unfold ofBits
  ext
  · simp only [h]
    cases hs : x.sign
    · simp; exact hb
    · simp
  · simp only [h]
    cases hs : x.sign
    · simp; exact Nat.mod_eq_of_lt hb
    · simp; exact Nat.mod_eq_of_lt hb

theorem toBits_ofBits (b : BitVec (f.eb + f.mb + 1)) : (ofBits b : FP f).toBits = b := by
  apply BitVec.eq_of_toNat_eq
  rw [toBits_toNat]
  have hb := b.isLt
  have h2 : 2 ^ (f.eb + f.mb + 1) = f.magCount + f.magCount := by unfold Fmt.magCount; rw [pow_succ]; ring
  rw [h2] at hb
  have hpos : 0 < f.magCount := Nat.two_pow_pos _
  unfold ofBits
  simp only [decide_eq_true_eq]
  split
  · rename_i h
    rw [Nat.mod_eq_sub_mod h, Nat.mod_eq_of_lt (by omega)]; omega
  · rename_i h
    rw [Nat.mod_eq_of_lt (by omega)]; omega

theorem toBits_inj {x y : FP f} (h : x.toBits = y.toBits) : x = y := by
  rw [← ofBits_toBits x, h, ofBits_toBits]

/-- The sign bit of the pattern. -/
theorem toBits_msb (x : FP f) : x.toBits.msb = x.sign := by
  rw [BitVec.msb_eq_decide, toBits_toNat]
  have hb := x.bound
  have : 2 ^ (f.eb + f.mb + 1 - 1) = f.magCount := by unfold Fmt.magCount; rfl
  rw [this]
  cases x.sign
  · simp; exact hb
  · simp

theorem toBits_testBit (x : FP f) (i : Nat) :
    x.toBits.getLsbD i = if i < f.eb + f.mb then x.mag.testBit i else (decide (i = f.eb + f.mb) && x.sign) := by
  rw [BitVec.getLsbD, toBits_toNat]
  have hb : x.mag < 2 ^ (f.eb + f.mb) := x.bound
  have hm : f.magCount = 2 ^ (f.eb + f.mb) := rfl
  cases x.sign
  · simp only [Bool.false_eq_true, if_false, zero_add, Bool.and_false]
    split
    · rfl
    · exact Nat.testBit_lt_two_pow (lt_of_lt_of_le hb (Nat.pow_le_pow_right (by norm_num) (by omega)))
  · simp only [if_true, Bool.and_true, hm]
    rcases lt_trichotomy i (f.eb + f.mb) with h | h | h
    · rw [if_pos h, Nat.testBit_two_pow_add_gt h]
    · subst h
      rw [if_neg (lt_irrefl _), Nat.testBit_two_pow_add_eq, Nat.testBit_lt_two_pow hb]; simp
    · rw [if_neg (by omega)]
      have : ¬ i = f.eb + f.mb := by omega
      simp only [this, decide_false]
      apply Nat.testBit_lt_two_pow
      calc 2 ^ (f.eb + f.mb) + x.mag < 2 ^ (f.eb + f.mb) + 2 ^ (f.eb + f.mb) := by omega
        _ = 2 ^ (f.eb + f.mb + 1) := by rw [pow_succ]; ring
        _ ≤ 2 ^ i := Nat.pow_le_pow_right (by norm_num) (by omega)

/-- A pattern whose top bit is `s` and whose other bits are those of `m`. -/
theorem eq_of_getLsbD {b : BitVec (f.eb + f.mb + 1)} {s : Bool} {m : Nat} (hm : m < f.magCount)
    (hlow : ∀ i < f.eb + f.mb, b.getLsbD i = m.testBit i) (htop : b.getLsbD (f.eb + f.mb) = s) :
    ofBits b = (⟨s, m, hm⟩ : FP f) := by
  rw [← ofBits_toBits (⟨s, m, hm⟩ : FP f)]
  congr 1
  apply BitVec.eq_of_getLsbD_eq
  intro i hi
  rw [toBits_testBit]
  split
  · rename_i h; exact hlow i h
  · have : i = f.eb + f.mb := by omega
    subst this
    rw [htop]; simp

end FP

namespace details
open FP

theorem bit_signmask64 (i : Nat) (_ : i < 64) : (0x8000000000000000#64).getLsbD i = decide (i = 63) := by
  have : (0x8000000000000000#64) = BitVec.twoPow 64 63 := by decide
  rw [this, BitVec.getLsbD_twoPow]; simp [eq_comm]

theorem bit_signmask32 (i : Nat) (_ : i < 32) : (0x80000000#32).getLsbD i = decide (i = 31) := by
  have : (0x80000000#32) = BitVec.twoPow 32 31 := by decide
  rw [this, BitVec.getLsbD_twoPow]; simp [eq_comm]

theorem bit_getSignMask (x : F64) (i : Nat) (hi : i < 64) : (getSignMask x).getLsbD i = (decide (i = 63) && x.sign) := by
  unfold getSignMask dp2uint64
  rw [BitVec.getLsbD_and, bit_signmask64 i hi, toBits_testBit]
  by_cases h : i = 63
  · subst h; simp
  · simp [h]

theorem bit_getSignMaskf (x : F32) (i : Nat) (hi : i < 32) : (getSignMaskf x).getLsbD i = (decide (i = 31) && x.sign) := by
  unfold getSignMaskf sp2uint32
  rw [BitVec.getLsbD_and, bit_signmask32 i hi, toBits_testBit]
  by_cases h : i = 31
  · subst h; simp
  · simp [h]

theorem dpOR_signMask (y x : F64) : dpORuint64 y (getSignMask x) = ⟨y.sign || x.sign, y.mag, y.bound⟩ := by
  unfold dpORuint64 uint642dp dp2uint64
  apply eq_of_getLsbD
  · intro i hi
    have hi' : i < 63 := hi
    rw [BitVec.getLsbD_or, bit_getSignMask x i (by omega), toBits_testBit, if_pos hi]
    have : ¬ i = 63 := by omega
    simp [this]
  · rw [BitVec.getLsbD_or, bit_getSignMask x _ (by decide), toBits_testBit]; simp

theorem dpXOR_signMask (y x : F64) : dpXORuint64 y (getSignMask x) = ⟨y.sign ^^ x.sign, y.mag, y.bound⟩ := by
  unfold dpXORuint64 uint642dp dp2uint64
  apply eq_of_getLsbD
  · intro i hi
    have hi' : i < 63 := hi
    rw [BitVec.getLsbD_xor, bit_getSignMask x i (by omega), toBits_testBit, if_pos hi]
    have : ¬ i = 63 := by omega
    simp [this]
  · rw [BitVec.getLsbD_xor, bit_getSignMask x _ (by decide), toBits_testBit]; simp

theorem dpAND_signMask (y : F64) : dpANDuint64 y 0x7FFFFFFFFFFFFFFF#64 = FP.abs y := by
  unfold dpANDuint64 uint642dp dp2uint64 FP.abs
  have hm : ∀ i, i < 64 → (0x7FFFFFFFFFFFFFFF#64).getLsbD i = decide (i ≠ 63) := by decide
  apply eq_of_getLsbD
  · intro i hi
    have hi' : i < 63 := hi
    rw [BitVec.getLsbD_and, hm i (by omega), toBits_testBit, if_pos hi]
    have : ¬ i = 63 := by omega
    simp [this]
  · rw [BitVec.getLsbD_and, hm _ (by decide), toBits_testBit]; simp

theorem spOR_signMask (y x : F32) : spORuint32 y (getSignMaskf x) = ⟨y.sign || x.sign, y.mag, y.bound⟩ := by
  unfold spORuint32 uint322sp sp2uint32
  apply eq_of_getLsbD
  · intro i hi
    have hi' : i < 31 := hi
    rw [BitVec.getLsbD_or, bit_getSignMaskf x i (by omega), toBits_testBit, if_pos hi]
    have : ¬ i = 31 := by omega
    simp [this]
  · rw [BitVec.getLsbD_or, bit_getSignMaskf x _ (by decide), toBits_testBit]; simp

theorem spXOR_signMask (y x : F32) : spXORuint32 y (getSignMaskf x) = ⟨y.sign ^^ x.sign, y.mag, y.bound⟩ := by
  unfold spXORuint32 uint322sp sp2uint32
  apply eq_of_getLsbD
  · intro i hi
    have hi' : i < 31 := hi
    rw [BitVec.getLsbD_xor, bit_getSignMaskf x i (by omega), toBits_testBit, if_pos hi]
    have : ¬ i = 31 := by omega
    simp [this]
  · rw [BitVec.getLsbD_xor, bit_getSignMaskf x _ (by decide), toBits_testBit]; simp

theorem spAND_signMask (y : F32) : spANDuint32 y 0x7FFFFFFF#32 = FP.abs y := by
  unfold spANDuint32 uint322sp sp2uint32 FP.abs
  have hm : ∀ i, i < 32 → (0x7FFFFFFF#32).getLsbD i = decide (i ≠ 31) := by decide
  apply eq_of_getLsbD
  · intro i hi
    have hi' : i < 31 := hi
    rw [BitVec.getLsbD_and, hm i (by omega), toBits_testBit, if_pos hi]
    have : ¬ i = 31 := by omega
    simp [this]
  · rw [BitVec.getLsbD_and, hm _ (by decide), toBits_testBit]; simp

/-! ### Mantissa and exponent -/

theorem mant_bound64 (c : Nat) : 1022 * 2 ^ 52 + c % 2 ^ 52 < b64.magCount := by
  have := Nat.mod_lt c (show 2 ^ 52 > 0 by norm_num)
  have h : b64.magCount = 2048 * 2 ^ 52 := by decide
  omega

theorem mant_bound32 (c : Nat) : 126 * 2 ^ 23 + c % 2 ^ 23 < b32.magCount := by
  have := Nat.mod_lt c (show 2 ^ 23 > 0 by norm_num)
  have h : b32.magCount = 256 * 2 ^ 23 := by decide
  omega

theorem getMantExponent_eq (x : F64) : getMantExponent x =
    (⟨x.sign, 1022 * 2 ^ 52 + x.mag % 2 ^ 52, mant_bound64 _⟩,
     ofInt ((x.mag / 2 ^ 52 : ℕ) + (if x.sign then 2048 else 0) - 1023)) := by
  unfold getMantExponent uint642dp dp2uint64
  simp only
  congr 1
  · apply eq_of_getLsbD
    · intro i hi
      have hi' : i < 63 := hi
      rw [BitVec.getLsbD_or, BitVec.getLsbD_and, toBits_testBit, if_pos hi, mul_comm,
        Nat.testBit_two_pow_mul_add _ (Nat.mod_lt _ (by norm_num)), Nat.testBit_mod_two_pow]
      have h1 : ∀ i, i < 63 → (0x800FFFFFFFFFFFFF#64).getLsbD i = decide (i < 52) := by decide
      have h2 : ∀ i, i < 63 → (0x3FE0000000000000#64).getLsbD i =
          (if i < 52 then false else (1022).testBit (i - 52)) := by decide
      rw [h1 i hi', h2 i hi']
      by_cases h : i < 52 <;> simp [h]
    · rw [BitVec.getLsbD_or, BitVec.getLsbD_and, toBits_testBit]
      have h1 : (0x800FFFFFFFFFFFFF#64).getLsbD (b64.eb + b64.mb) = true := by decide
      have h2 : (0x3FE0000000000000#64).getLsbD (b64.eb + b64.mb) = false := by decide
      rw [h1, h2]; simp
  · congr 2
    have hb : x.mag < 2048 * 2 ^ 52 := x.bound
    have hn : ((x.toBits >>> 52).setWidth 32).toNat = x.mag / 2 ^ 52 + (if x.sign then 2048 else 0) := by
      rw [BitVec.toNat_setWidth, BitVec.toNat_ushiftRight, toBits_toNat, Nat.shiftRight_eq_div_pow]
      have hc : b64.magCount = 2048 * 2 ^ 52 := by decide
      rw [hc]
      cases x.sign
      · simp only [Bool.false_eq_true, if_false]; omega
      · simp only [if_true]; omega
    have hlt : x.mag / 2 ^ 52 < 2048 := by omega
    rw [BitVec.toInt_eq_toNat_of_lt, hn]
    · cases x.sign <;> simp
    · rw [hn]; cases x.sign <;> simp <;> omega

theorem getMantExponentf_eq (x : F32) : getMantExponentf x =
    (⟨x.sign, 126 * 2 ^ 23 + x.mag % 2 ^ 23, mant_bound32 _⟩,
     ofInt ((x.mag / 2 ^ 23 : ℕ) + (if x.sign then 256 else 0) - 127)) := by
  unfold getMantExponentf uint322sp sp2uint32
  simp only
  congr 1
  · apply eq_of_getLsbD
    · intro i hi
      have hi' : i < 31 := hi
      rw [BitVec.getLsbD_or, BitVec.getLsbD_and, toBits_testBit, if_pos hi, mul_comm,
        Nat.testBit_two_pow_mul_add _ (Nat.mod_lt _ (by norm_num)), Nat.testBit_mod_two_pow]
      have h1 : ∀ i, i < 31 → (0x807fffff#32).getLsbD i = decide (i < 23) := by decide
      have h2 : ∀ i, i < 31 → (0x3f000000#32).getLsbD i =
          (if i < 23 then false else (126).testBit (i - 23)) := by decide
      rw [h1 i hi', h2 i hi']
      by_cases h : i < 23 <;> simp [h]
    · rw [BitVec.getLsbD_or, BitVec.getLsbD_and, toBits_testBit]
      have h1 : (0x807fffff#32).getLsbD (b32.eb + b32.mb) = true := by decide
      have h2 : (0x3f000000#32).getLsbD (b32.eb + b32.mb) = false := by decide
      rw [h1, h2]; simp
  · congr 2
    have hb : x.mag < 256 * 2 ^ 23 := x.bound
    have hlt : x.mag / 2 ^ 23 < 256 := by omega
    have hn : (x.toBits >>> 23).toNat = x.mag / 2 ^ 23 + (if x.sign then 256 else 0) := by
      rw [BitVec.toNat_ushiftRight, toBits_toNat, Nat.shiftRight_eq_div_pow]
      have hc : b32.magCount = 256 * 2 ^ 23 := by decide
      rw [hc]
      cases x.sign
      · simp only [Bool.false_eq_true, if_false]; omega
      · simp only [if_true]; omega
    have hv : x.toBits >>> 23 = BitVec.ofNat 32 (x.mag / 2 ^ 23 + (if x.sign then 256 else 0)) := by
      apply BitVec.eq_of_toNat_eq
      refine hn.trans ?_
      refine Eq.trans ?_ (BitVec.toNat_ofNat (w := 32) _).symm
      cases x.sign <;> simp only [Bool.false_eq_true, if_false, if_true] <;> omega
    rw [hv]
    rw [BitVec.toInt_sub, BitVec.toInt_ofNat']
    have h127 : (127#32).toInt = 127 := by decide
    rw [h127]
    cases x.sign <;> simp only [Bool.false_eq_true, if_false, if_true] <;> simp only [Int.bmod_def] <;> omega

end details
end Vdt
