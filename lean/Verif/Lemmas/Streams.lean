import Verif.Model.Streams
import Verif.Float.Bits
import Mathlib.Tactic.IntervalCases
import Mathlib.Data.List.TakeWhile

/-!
# Printing and reading numbers
-/

namespace Vdt.Txt
open FP

theorem digitVal_digitChar (n : Nat) (h : n < 16) : digitVal (digitChar n) = some n := by
  interval_cases n <;> decide

theorem isDigit_digitChar {base n : Nat} (h : n < base) (hb : base ≤ 16) : isDigit base (digitChar n) = true := by
  unfold isDigit
  rw [digitVal_digitChar n (by omega)]
  simpa using h

theorem digitChar_ne_sign (n : Nat) (h : n < 16) : digitChar n ≠ '-' ∧ digitChar n ≠ '+' ∧ isSpace (digitChar n) = false := by
  interval_cases n <;> decide

theorem printNat_small {base n : Nat} (h : n < base) : printNat base n = [digitChar n] := by
  rw [printNat, dif_neg (by omega)]

theorem printNat_big {base n : Nat} (hb : 2 ≤ base) (h : base ≤ n) :
    printNat base n = printNat base (n / base) ++ [digitChar (n % base)] := by
  rw [printNat, dif_pos ⟨hb, h⟩]

theorem printNat_ne_nil (base n : Nat) : printNat base n ≠ [] := by
  rw [printNat]; split <;> simp

theorem printNat_digits {base : Nat} (hb : 2 ≤ base) (hb' : base ≤ 16) (n : Nat) :
    ∀ c ∈ printNat base n, ∃ d < base, c = digitChar d := by
  induction n using Nat.strongRecOn with
  | ind n ih =>
    intro c hc
    by_cases h : n < base
    · rw [printNat_small h] at hc
      exact ⟨n, h, by simpa using hc⟩
    · rw [printNat_big hb (by omega)] at hc
      rcases List.mem_append.1 hc with hc | hc
      · exact ih _ (Nat.div_lt_self (by omega) (by omega)) c hc
      · exact ⟨n % base, Nat.mod_lt _ (by omega), by simpa using hc⟩

theorem digitsVal_append (base : Nat) (ds : Text) (c : Char) :
    digitsVal base (ds ++ [c]) = digitsVal base ds * base + (digitVal c).getD 0 := by
  simp [digitsVal, List.foldl_append]

/-- Reading back a printed number gives the number. -/
theorem digitsVal_printNat {base : Nat} (hb : 2 ≤ base) (hb' : base ≤ 16) (n : Nat) : digitsVal base (printNat base n) = n := by
  induction n using Nat.strongRecOn with
  | ind n ih =>
    by_cases h : n < base
    · rw [printNat_small h]
      simp [digitsVal, digitVal_digitChar n (by omega)]
    · rw [printNat_big hb (by omega), digitsVal_append, ih _ (Nat.div_lt_self (by omega) (by omega)),
        digitVal_digitChar _ (lt_of_lt_of_le (Nat.mod_lt _ (by omega)) hb')]
      simpa [Nat.mul_comm] using Nat.div_add_mod n base

theorem takeWhile_stop {α : Type*} (p : α → Bool) (l : List α) (r : List α) (h : ∀ c ∈ l, p c = true)
    (hr : ∀ c, r.head? = some c → p c = false) : (l ++ r).takeWhile p = l ∧ (l ++ r).dropWhile p = r := by
  induction l with
  | nil =>
    cases r with
    | nil => simp
    | cons c r => simp [hr c rfl]
  | cons a l ih =>
    have h1 := ih (fun c hc => h c (List.mem_cons_of_mem _ hc))
    simp [h a (List.mem_cons_self ..), h1]

theorem skipws_append (ws t : Text) (hws : ∀ c ∈ ws, isSpace c = true) (ht : ∀ c, t.head? = some c → isSpace c = false) :
    skipws (ws ++ t) = t := (takeWhile_stop isSpace ws t hws ht).2

/-- Text that cannot continue a number in base `base`. -/
def Stops (base : Nat) (r : Text) : Prop := ∀ c, r.head? = some c → isDigit base c = false

theorem stops_space (base : Nat) (c : Char) (hc : isSpace c = true) (r : Text) : Stops base (c :: r) := by
  intro d hd
  obtain rfl : c = d := by simpa using hd
  have h16 : digitVal c = none := by
    unfold isSpace at hc
    simp only [Bool.or_eq_true, beq_iff_eq] at hc
    rcases hc with ((((h | h) | h) | h) | h) | h <;> subst h <;> decide
  simp [isDigit, h16]

theorem stops_nil (base : Nat) : Stops base [] := by intro d hd; simp at hd

theorem printNat_all {base : Nat} (hb : 2 ≤ base) (hb' : base ≤ 16) (n : Nat) :
    ∀ c ∈ printNat base n, isDigit base c = true := by
  intro c hc
  obtain ⟨d, hd, rfl⟩ := printNat_digits hb hb' n c hc
  exact isDigit_digitChar hd hb'

theorem printNat_head {base : Nat} (hb : 2 ≤ base) (hb' : base ≤ 16) (n : Nat) (r : Text) :
    ∃ d < base, ∃ t, printNat base n ++ r = digitChar d :: t := by
  cases h : printNat base n with
  | nil => exact absurd h (printNat_ne_nil _ _)
  | cons c t =>
    obtain ⟨d, hd, hc⟩ := printNat_digits hb hb' n c (by rw [h]; simp)
    exact ⟨d, hd, t ++ r, by simp [hc]⟩

theorem readSign_digit (d : Nat) (hd : d < 16) (t : Text) : readSign (digitChar d :: t) = (false, digitChar d :: t) := by
  have := digitChar_ne_sign d hd
  unfold readSign
  split
  · rename_i h; simp at h; exact absurd h.1 this.1
  · rename_i h; simp at h; exact absurd h.1 this.2.1
  · rfl

theorem readSign_0 (t : Text) : readSign ('0' :: t) = (false, '0' :: t) := readSign_digit 0 (by norm_num) t

theorem skipPrefix_0x (t : Text) : skipPrefix 16 ('0' :: 'x' :: t) = t := by
  unfold skipPrefix; exact if_pos rfl

theorem skipPrefix_10 (t : Text) : skipPrefix 10 t = t := by
  unfold skipPrefix; split <;> simp

/-- Reading a number printed in base 16 with the prefix `0x`. -/
theorem readUInt_hex (bits n : Nat) (hn : n < 2 ^ bits) (ws r : Text) (hws : ∀ c ∈ ws, isSpace c = true)
    (hr : Stops 16 r) : readUInt 16 bits ⟨ws ++ ('0' :: 'x' :: (printNat 16 n ++ r)), false⟩ = (some n, ⟨r, false⟩) := by
  have h1 : skipws (ws ++ ('0' :: 'x' :: (printNat 16 n ++ r))) = '0' :: 'x' :: (printNat 16 n ++ r) :=
    skipws_append _ _ hws (by intro c hc; obtain rfl : '0' = c := by simpa using hc
                              decide)
  obtain ⟨h2, h3⟩ := takeWhile_stop (isDigit 16) _ r (printNat_all (by norm_num) (by norm_num) n) hr
  have h4 := digitsVal_printNat (base := 16) (by norm_num) (by norm_num) n
  unfold readUInt
  simp only [h1, readSign_0, skipPrefix_0x, h2, h3, h4, Bool.false_eq_true, if_false]
  rw [if_neg (printNat_ne_nil _ _), if_neg (by omega)]

/-- Reading a number printed in base 10. -/
theorem readUInt_dec (bits n : Nat) (hn : n < 2 ^ bits) (ws r : Text) (hws : ∀ c ∈ ws, isSpace c = true)
    (hr : Stops 10 r) : readUInt 10 bits ⟨ws ++ (printNat 10 n ++ r), false⟩ = (some n, ⟨r, false⟩) := by
  obtain ⟨d, hd, t, ht⟩ := printNat_head (base := 10) (by norm_num) (by norm_num) n r
  have h1 : skipws (ws ++ (printNat 10 n ++ r)) = printNat 10 n ++ r := by
    refine skipws_append _ _ hws ?_
    intro c hc
    rw [ht] at hc
    obtain rfl : digitChar d = c := by simpa using hc
    exact (digitChar_ne_sign d (by omega)).2.2
  obtain ⟨h2, h3⟩ := takeWhile_stop (isDigit 10) _ r (printNat_all (by norm_num) (by norm_num) n) hr
  have h4 := digitsVal_printNat (base := 10) (by norm_num) (by norm_num) n
  have h5 : readSign (printNat 10 n ++ r) = (false, printNat 10 n ++ r) := by
    rw [ht, readSign_digit d (by omega)]
  unfold readUInt
  simp only [h1, h5, skipPrefix_10, h2, h3, h4, Bool.false_eq_true, if_false]
  rw [if_neg (printNat_ne_nil _ _), if_neg (by omega)]

/-- Reading fails on blank text. -/
theorem readUInt_blank (base bits : Nat) (ws : Text) (hws : ∀ c ∈ ws, isSpace c = true) :
    readUInt base bits ⟨ws, false⟩ = (none, ⟨[], true⟩) := by
  have h1 : skipws ws = [] := by
    have := skipws_append ws [] hws (by simp)
    simpa using this
  unfold readUInt
  simp [h1, readSign, skipPrefix]

theorem readUInt_failed (base bits : Nat) (t : Text) : readUInt base bits ⟨t, true⟩ = (none, ⟨t, true⟩) := by
  simp [readUInt]

theorem getline_line (l r : Text) (hl : '\n' ∉ l) : getline ⟨l ++ '\n' :: r, false⟩ = ⟨r, false⟩ := by
  obtain ⟨-, h⟩ := takeWhile_stop (· != '\n') l ('\n' :: r) (by
    intro c hc
    simp only [bne_iff_ne, ne_eq]
    rintro rfl; exact hl hc) (by intro c hc; obtain rfl : '\n' = c := by simpa using hc
                                 decide)
  unfold getline
  cases h' : l ++ '\n' :: r with
  | nil => simp at h'
  | cons a b => simp only [Bool.false_eq_true, if_false]; rw [← h', h]; rfl

/-- A bit pattern written in hexadecimal is read back. -/
theorem fpFromHex_toHex {f : Fmt} (hf : f.eb + f.mb + 1 ≤ 64) (x : FP f) (ws r : Text) (hws : ∀ c ∈ ws, isSpace c = true) :
    fpFromHex f ⟨ws ++ (fpToHex x ++ r), false⟩ = (some x, ⟨' ' :: r, false⟩) := by
  have h := readUInt_hex 64 x.toBits.toNat
    (lt_of_lt_of_le x.toBits.isLt (Nat.pow_le_pow_right (by norm_num) hf)) ws (' ' :: r) hws
    (stops_space _ _ (by decide) _)
  unfold fpFromHex fpToHex
  simp only [List.cons_append, List.append_assoc, List.nil_append]
  rw [h]
  simp [ofBits_toBits]

theorem fpFromHex_blank (f : Fmt) (ws : Text) (hws : ∀ c ∈ ws, isSpace c = true) :
    fpFromHex f ⟨ws, false⟩ = (none, ⟨[], true⟩) := by
  simp [fpFromHex, readUInt_blank _ _ _ hws]

end Vdt.Txt
