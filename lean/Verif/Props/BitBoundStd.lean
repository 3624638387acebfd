import Verif.Props.BitBound
import Verif.Props.WorkflowStd

/-!
# C68: the bits of difference with the conversions of the C++ standard
-/

namespace Vdt.Compare
open FP Txt Cmd Diag Rand
open Bench (RefMath)

local notation "‹" s "›" => String.toList s

/-- The largest output of the engine is the number one of the pool of the arccosine. -/
theorem one_of_ones : (convert b64 (uniform (lit (-1) : F64) (lit 1) (BitVec.allOnes 64)) : F64) = lit 1 := by decide +kernel

/-- With the conversion of the standard the check is undefined with **every** library which is good to one unit in the last place,
as soon as the engine gives its largest number. -/
theorem C68_strict_undefined (R : RefMath b64) (hR : Faithful R 705) (Rf : RefMath b32) (garbage : Nat → F64) (garbagef : Nat → F32)
    (eng : Engine) (nick : Text) (SIZE : BitVec 32) (i : ℕ) (hi : i < SIZE.toNat) (he : eng i = BitVec.allOnes 64) (fs : Fs)
    (L : F64 → F64) (hL : Log2Ok L)
    (hnick : nick ≠ []) (hch : ∀ c ∈ nick, c ≠ ' ' ∧ c ≠ '"' ∧ c ≠ ',' ∧ c ≠ '\n') (hA : contains ‹"Atan2"› nick = false) :
    ∃ fs1, Bench.main R Rf none garbage garbagef eng nick SIZE fs = some fs1 ∧
      main (toUInt 16) L (shellWords false none (command nick)).tail fs1 = none := by
  have h0 : SIZE ≠ 0 := by rintro rfl; simp at hi
  refine C67_strict_undefined R Rf garbage garbagef eng nick SIZE h0 ⟨lit 1, ?_, ?_⟩ fs L hL hnick hch hA
  · have hz : (SIZE.setWidth 64).toNat = SIZE.toNat := by
      rw [BitVec.toNat_setWidth]; exact Nat.mod_eq_of_lt (by have := SIZE.isLt; omega)
    unfold Bench.pools64 pool1D fillVector
    dsimp only
    rw [List.mem_map]
    refine ⟨i, List.mem_range.2 (by rw [hz]; exact hi), ?_⟩
    rw [Nat.zero_add, he]
    exact one_of_ones
  · rw [hR.acos_one]
    decide +kernel

/-- The least the full property demands, with conversions as the standard defines them: with libraries good to one unit in the last
place the benchmark and the comparison run to their ends without undefined behaviour. -/
def C68_statement : Prop := ∀ (R : RefMath b64) (Rf : RefMath b32) (garbage : Nat → F64) (garbagef : Nat → F32) (eng : Engine) (nick : Text)
  (SIZE : BitVec 32) (fs : Fs) (L : F64 → F64), Faithful R 705 → Faithful Rf 85 → SIZE ≠ 0 → Log2Ok L → nick ≠ [] →
    (∀ c ∈ nick, c ≠ ' ' ∧ c ≠ '"' ∧ c ≠ ',' ∧ c ≠ '\n') →
    contains ‹"Atan2"› nick = false → ∃ fs1 fs2, Bench.main R Rf none garbage garbagef eng nick SIZE fs = some fs1 ∧
      main (toUInt 16) L (shellWords false none (command nick)).tail fs1 = some (0, fs2)

/-- **C68, negation**: both arccosines are zero at one, and the logarithm of their distance is converted to an unsigned number. -/
theorem C68_violated : ¬ C68_statement := by
  intro h
  obtain ⟨L, hL⟩ := log2Ok_exists
  have n1 : ‹"run1"› ≠ [] := by decide
  have n2 : ∀ c ∈ ‹"run1"›, c ≠ ' ' ∧ c ≠ '"' ∧ c ≠ ',' ∧ c ≠ '\n' := by decide
  have n3 : contains ‹"Atan2"› ‹"run1"› = false := by simp only [String.reduceToList]; decide
  obtain ⟨fs1, fs2, e1, e2⟩ := h _ _ (fun _ => FP.zero false) (fun _ => FP.zero false) (fun _ => BitVec.allOnes 64) ‹"run1"› 1000#32
    (fun _ => none) L good64 good32 (by decide) hL n1 n2 n3
  obtain ⟨fs1', g1, g2⟩ := C68_strict_undefined _ good64 (goodRef b32) (fun _ => FP.zero false) (fun _ => FP.zero false)
    (fun _ => BitVec.allOnes 64) ‹"run1"› 1000#32 0 (by decide) rfl (fun _ => none) L hL n1 n2 n3
  rw [e1] at g1
  cases g1
  rw [e2] at g2
  cases g2

end Vdt.Compare
