import Verif.Props.Persist

/-!
# More on the texts of numbers (C42, C45)
-/

namespace Vdt.Txt
open FP

/-- Reading a negated hexadecimal number. -/
theorem readUInt_neg_hex (bits n : Nat) (hn : n < 2 ^ bits) (ws r : Text) (hws : ∀ c ∈ ws, isSpace c = true)
    (hr : Stops 16 r) : readUInt 16 bits ⟨ws ++ ('-' :: '0' :: 'x' :: (printNat 16 n ++ r)), false⟩ =
      (some ((2 ^ bits - n) % 2 ^ bits), ⟨r, false⟩) := by
  have h1 : skipws (ws ++ ('-' :: '0' :: 'x' :: (printNat 16 n ++ r))) = '-' :: '0' :: 'x' :: (printNat 16 n ++ r) :=
    skipws_append _ _ hws (by intro c hc; obtain rfl : '-' = c := by simpa using hc
                              decide)
  obtain ⟨h2, h3⟩ := takeWhile_stop (isDigit 16) _ r (printNat_all (by norm_num) (by norm_num) n) hr
  have h4 := digitsVal_printNat (base := 16) (by norm_num) (by norm_num) n
  have h5 : ∀ t, readSign ('-' :: t) = (true, t) := fun _ => rfl
  unfold readUInt
  simp only [h1, h5, skipPrefix_0x, h2, h3, h4, Bool.false_eq_true, if_false, if_true]
  rw [if_neg (printNat_ne_nil _ _), if_neg (by omega)]

/-- C42, a sign in front: the reader accepts it and answers the two's complement of the pattern, not
the negated number. -/
theorem C42_negated (x : F64) (r : Text) :
    fpFromHex b64 ⟨'-' :: (fpToHex x ++ r), false⟩ = (some (ofBits (-x.toBits)), ⟨' ' :: r, false⟩) := by
  have h := readUInt_neg_hex 64 x.toBits.toNat x.toBits.isLt [] (' ' :: r) (by simp) (stops_space _ _ (by decide) _)
  unfold fpFromHex fpToHex
  simp only [List.cons_append, List.append_assoc, List.nil_append] at h ⊢
  rw [h]
  simp only [Option.map_some]
  congr 3
  apply BitVec.eq_of_toNat_eq
  rw [BitVec.toNat_ofNat, BitVec.toNat_neg]
  show (2 ^ 64 - x.toBits.toNat) % 2 ^ 64 % 2 ^ 64 = (2 ^ 64 - x.toBits.toNat) % 2 ^ 64
  exact Nat.mod_mod _ _

/-- `-0x0` is read as positive zero, `-0x3ff0000000000000` (the negated text of `1`) as the pattern
`0xc010000000000000`, which is `-4`. -/
example : (fpFromHex b64 ⟨"-0x0 ".toList, false⟩).1 = some (zero false) ∧
    (fpFromHex b64 ⟨"-0x3ff0000000000000 ".toList, false⟩).1 = some (ofRat b64 false (-4)) := by decide +kernel

/-- The text of a finite number with a fixed number of decimals: an optional sign, digits, a point and
exactly `p` digits, and the number they denote is within half a unit of the last place. -/
theorem printFixed_form {f : Fmt} (p : Nat) (hp : 0 < p) (x : FP f) (hx : x.isFinite = true) :
    ∃ i d : Text, printFixed p x = (if x.sign then ['-'] else []) ++ (i ++ '.' :: d) ∧ d.length = p ∧
      (∀ c ∈ i ++ d, isDigit 10 c = true) ∧ |(digitsVal 10 (i ++ d) : ℚ) / 10 ^ p - abs x.val| ≤ 1 / (2 * 10 ^ p) := by
  obtain ⟨n, hn⟩ : ∃ n, n = fixedScaled p (FP.abs x).val := ⟨_, rfl⟩
  refine ⟨printNat 10 (n / 10 ^ p), padZero p (printNat 10 (n % 10 ^ p)), ?_, ?_, ?_, ?_⟩
  · unfold printFixed
    rw [finite_not_nan hx, finite_not_inf hx, hn]
    rfl
  · exact padZero_length _ _ hp (Nat.mod_lt _ (by positivity))
  · intro c hc
    rcases List.mem_append.1 hc with h | h
    · exact printNat_all (by norm_num) (by norm_num) _ c h
    · exact padZero_digits _ _ (printNat_all (by norm_num) (by norm_num) _) c h
  · have e : digitsVal 10 (printNat 10 (n / 10 ^ p) ++ padZero p (printNat 10 (n % 10 ^ p))) = n := by
      rw [digitsVal_append', padZero_length _ _ hp (Nat.mod_lt _ (by positivity)), digitsVal_padZero,
        digitsVal_printNat (by norm_num) (by norm_num), digitsVal_printNat (by norm_num) (by norm_num), mul_comm]
      exact Nat.div_add_mod _ _
    rw [e]
    have h0 : (0 : ℚ) ≤ (FP.abs x).val * (10 ^ p : ℕ) := by rw [val_abs]; positivity
    have b := rne_bounds h0
    have e2 : rne ((FP.abs x).val * (10 ^ p : ℕ)) = n := by rw [hn]; rfl
    rw [e2, val_abs] at b
    push_cast at b
    have P : (0 : ℚ) < 10 ^ p := by positivity
    have h3 : (n : ℚ) / 10 ^ p - |x.val| = (n - |x.val| * 10 ^ p) / 10 ^ p := by field_simp
    rw [h3, abs_div, abs_of_pos P, div_le_iff₀ P]
    have h4 : 1 / (2 * (10 : ℚ) ^ p) * 10 ^ p = 1 / 2 := by field_simp
    rw [h4]; exact b

/-- C45, the decimal column of a row of a comparison of doubles: fifteen decimals, correct to half a
unit of the last one. -/
theorem C45_decimals (r : CmpRow b64) (hx : r.input.isFinite = true) :
    ∃ pre i d : Text, cmpRow r = pre ++ ' ' :: ((if r.input.sign then ['-'] else []) ++ (i ++ '.' :: d)) ++ ['\n'] ∧ d.length = 15 ∧
      |(digitsVal 10 (i ++ d) : ℚ) / 10 ^ 15 - abs r.input.val| ≤ 1 / (2 * 10 ^ 15) := by
  obtain ⟨i, d, h1, h2, -, h3⟩ := printFixed_form 15 (by norm_num) r.input hx
  refine ⟨fpToHex r.input ++ fpToHex r.out1 ++ fpToHex r.out2 ++ printNat 10 r.diff, i, d, ?_, h2, h3⟩
  rw [← h1]
  show _ ++ printFixed 15 r.input ++ _ = _
  simp [List.append_assoc]

/-- For floats: six decimals. -/
theorem C45_decimalsf (r : CmpRow b32) (hx : r.input.isFinite = true) :
    ∃ pre i d : Text, cmpRow r = pre ++ ' ' :: ((if r.input.sign then ['-'] else []) ++ (i ++ '.' :: d)) ++ ['\n'] ∧ d.length = 6 ∧
      |(digitsVal 10 (i ++ d) : ℚ) / 10 ^ 6 - abs r.input.val| ≤ 1 / (2 * 10 ^ 6) := by
  obtain ⟨i, d, h1, h2, -, h3⟩ := printFixed_form 6 (by norm_num) r.input hx
  refine ⟨fpToHex r.input ++ fpToHex r.out1 ++ fpToHex r.out2 ++ printNat 10 r.diff, i, d, ?_, h2, h3⟩
  rw [← h1]
  show _ ++ printFixed 6 r.input ++ _ = _
  simp [List.append_assoc]

/-- Small inputs vanish in that column: `2^-30` as a float is printed as `0.000000`. -/
example : cmpRow (⟨lit (1 / 2 ^ 30), lit 1, lit 1, 0⟩ : CmpRow b32) =
    "0x30800000 0x3f800000 0x3f800000 0 0.000000\n".toList := by decide +kernel

end Vdt.Txt
