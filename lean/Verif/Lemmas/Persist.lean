import Verif.Model.Persist
import Verif.Lemmas.Streams
import Verif.Float.Ops

/-!
# Reading back rows
-/

namespace Vdt.Txt
open FP

theorem Reader.all_some {α : Type} (rd : Reader α) (s s' : IStream) (v : α) (h : rd.run s = (some v, s')) :
    rd.all s = v :: rd.all s' := by
  rw [Reader.all]
  split
  · rename_i w hw
    rw [h] at hw ⊢
    simp at hw
    rw [hw]
  · rename_i hw
    rw [h] at hw; simp at hw

theorem Reader.all_none {α : Type} (rd : Reader α) (s : IStream) (h : (rd.run s).1 = none) : rd.all s = [] := by
  rw [Reader.all]
  split
  · rename_i w hw
    rw [h] at hw; simp at hw
  · rfl

/-- `rd` reads `g x` from what `pr` prints for `x`, behind any blanks, leaving only blanks. -/
def Inverts {α β : Type} (rd : Reader β) (pr : α → Text) (g : α → β) (P : α → Prop) : Prop :=
  ∀ x, P x → ∃ lo : Text, (∀ c ∈ lo, isSpace c = true) ∧ ∀ ws r : Text, (∀ c ∈ ws, isSpace c = true) →
    rd.run ⟨ws ++ (pr x ++ r), false⟩ = (some (g x), ⟨lo ++ r, false⟩)

/-- `rd` fails on blank text. -/
def FailsBlank {α : Type} (rd : Reader α) : Prop :=
  ∀ ws : Text, (∀ c ∈ ws, isSpace c = true) → (rd.run ⟨ws, false⟩).1 = none

section
variable {α β γ δ : Type}

theorem Inverts.all {rd : Reader β} {pr : α → Text} {g : α → β} {P : α → Prop} (h : Inverts rd pr g P) (xs : List α) (r : Text)
    (hxs : ∀ x ∈ xs, P x) (ws : Text) (hws : ∀ c ∈ ws, isSpace c = true) :
    ∃ lo : Text, (∀ c ∈ lo, isSpace c = true) ∧
      rd.all ⟨ws ++ (xs.flatMap pr ++ r), false⟩ = xs.map g ++ rd.all ⟨lo ++ r, false⟩ := by
  induction xs generalizing ws with
  | nil => exact ⟨ws, hws, by simp⟩
  | cons x xs ih =>
    obtain ⟨lo, hlo, hx⟩ := h x (hxs x (List.mem_cons_self ..))
    obtain ⟨lo', hlo', h'⟩ := ih (fun y hy => hxs y (List.mem_cons_of_mem _ hy)) lo hlo
    refine ⟨lo', hlo', ?_⟩
    rw [List.flatMap_cons, List.append_assoc, rd.all_some _ _ _ (hx ws _ hws), h']
    rfl

theorem Inverts.all_end {rd : Reader β} {pr : α → Text} {g : α → β} {P : α → Prop} (h : Inverts rd pr g P) (hb : FailsBlank rd)
    (xs : List α) (hxs : ∀ x ∈ xs, P x) (ws : Text) (hws : ∀ c ∈ ws, isSpace c = true) :
    rd.all ⟨ws ++ xs.flatMap pr, false⟩ = xs.map g := by
  obtain ⟨lo, hlo, h'⟩ := h.all xs [] hxs ws hws
  rw [List.append_nil] at h'
  rw [h', List.append_nil, rd.all_none _ (hb lo hlo), List.append_nil]

theorem hexR_inverts {f : Fmt} (hf : f.eb + f.mb + 1 ≤ 64) (sel : α → FP f) :
    Inverts (hexR f) (fun x => fpToHex (sel x)) sel (fun _ => True) := by
  intro x _
  exact ⟨[' '], by simp [isSpace], fun ws r hws => fpFromHex_toHex hf (sel x) ws r hws⟩

theorem hexR_blank (f : Fmt) : FailsBlank (hexR f) := by
  intro ws hws
  show (fpFromHex f _).1 = none
  rw [fpFromHex_blank f ws hws]

theorem and_inverts {a : Reader β} {b : Reader γ} {pa pb : α → Text} {ga : α → β} {gb : α → γ} {P Q : α → Prop}
    (ha : Inverts a pa ga P) (hb : Inverts b pb gb Q) :
    Inverts (a.and b) (fun x => pa x ++ pb x) (fun x => (ga x, gb x)) (fun x => P x ∧ Q x) := by
  rintro x ⟨hx, hy⟩
  obtain ⟨lo, hlo, h1⟩ := ha x hx
  obtain ⟨lo', hlo', h2⟩ := hb x hy
  refine ⟨lo', hlo', fun ws r hws => ?_⟩
  show ((a.run _).1.bind _, _) = _
  simp only [List.append_assoc]
  rw [h1 ws _ hws]
  dsimp only
  rw [h2 lo _ hlo]
  rfl

theorem and_blank {a : Reader β} {b : Reader γ} (ha : FailsBlank a) : FailsBlank (a.and b) := by
  intro ws hws
  show (a.run _).1.bind _ = none
  rw [ha ws hws]; rfl

/-- Blank text after the row does no harm. -/
theorem Inverts.blank {rd : Reader β} {pr : α → Text} {g : α → β} {P : α → Prop} (h : Inverts rd pr g P) (ws' : Text)
    (hws' : ∀ c ∈ ws', isSpace c = true) : Inverts rd (fun x => pr x ++ ws') g P := by
  intro x hx
  obtain ⟨lo, hlo, h1⟩ := h x hx
  refine ⟨lo ++ ws', ?_, fun ws r hws => ?_⟩
  · intro c hc
    rcases List.mem_append.1 hc with h | h
    · exact hlo c h
    · exact hws' c h
  · rw [List.append_assoc, h1 ws _ hws, List.append_assoc]

theorem Inverts.congr {rd : Reader β} {pr pr' : α → Text} {g : α → β} {P P' : α → Prop} (h : Inverts rd pr g P)
    (he : ∀ x, pr x = pr' x) (hP : ∀ x, P' x → P x) : Inverts rd pr' g P' := by
  intro x hx
  rw [← he x]
  exact h x (hP x hx)

theorem u16R_inverts (sel : α → Nat) : Inverts u16R (fun x => printNat 10 (sel x) ++ [' ']) sel (fun x => sel x < 2 ^ 16) := by
  intro n hn
  refine ⟨[' '], by simp [isSpace], fun ws r hws => ?_⟩
  rw [List.append_assoc]
  exact readUInt_dec 16 _ hn ws _ hws (stops_space 10 ' ' (by decide) r)

end

/-! ## Decimal numbers -/

theorem padZero_digits (n : Nat) (t : Text) (h : ∀ c ∈ t, isDigit 10 c = true) : ∀ c ∈ padZero n t, isDigit 10 c = true := by
  intro c hc
  unfold padZero at hc
  rcases List.mem_append.1 hc with h' | h'
  · rw [(List.mem_replicate.1 h').2]; decide
  · exact h c h'

theorem digitsVal_foldl (a : Nat) (ds : Text) :
    ds.foldl (fun a c => a * 10 + (digitVal c).getD 0) a = a * 10 ^ ds.length + digitsVal 10 ds := by
  induction ds generalizing a with
  | nil => simp [digitsVal]
  | cons c ds ih =>
    have h1 := ih (a * 10 + (digitVal c).getD 0)
    have h2 := ih (0 * 10 + (digitVal c).getD 0)
    unfold digitsVal at h1 h2 ⊢
    rw [List.foldl_cons, List.foldl_cons, h1, h2, List.length_cons, pow_succ]
    ring

theorem digitsVal_append' (a b : Text) : digitsVal 10 (a ++ b) = digitsVal 10 a * 10 ^ b.length + digitsVal 10 b := by
  rw [← digitsVal_foldl]
  unfold digitsVal
  rw [List.foldl_append]

theorem digitsVal_padZero (n : Nat) (t : Text) : digitsVal 10 (padZero n t) = digitsVal 10 t := by
  unfold padZero
  rw [digitsVal_append']
  have : ∀ k, digitsVal 10 (List.replicate k '0') = 0 := by
    intro k
    induction k with
    | zero => rfl
    | succ k ih =>
      rw [List.replicate_succ', digitsVal_append, ih]
      rfl
  rw [this]; simp

theorem printNat_length_le (n p : Nat) (hp : 0 < p) (h : n < 10 ^ p) : (printNat 10 n).length ≤ p := by
  induction p generalizing n with
  | zero => omega
  | succ p ih =>
    by_cases h' : n < 10
    · rw [printNat_small h']; simp
    · have hp' : 0 < p := by
        rcases Nat.eq_zero_or_pos p with h0 | h0
        · subst h0; simp at h; omega
        · exact h0
      rw [printNat_big (by norm_num) (by omega), List.length_append]
      have := ih (n / 10) hp' (by rw [pow_succ] at h; omega)
      simp; omega

theorem padZero_length (n p : Nat) (hp : 0 < p) (h : n < 10 ^ p) : (padZero p (printNat 10 n)).length = p := by
  have := printNat_length_le n p hp h
  unfold padZero
  simp; omega

theorem splitDecimal_fixed (i d r : Text) (hi : ∀ c ∈ i, isDigit 10 c = true) (hd : ∀ c ∈ d, isDigit 10 c = true) (hr : Stops 10 r) :
    splitDecimal (i ++ '.' :: (d ++ r)) = (i, d, r) := by
  obtain ⟨h1, h2⟩ := takeWhile_stop (isDigit 10) i ('.' :: (d ++ r)) hi (by
    intro c hc
    obtain rfl : '.' = c := by simpa using hc
    decide)
  obtain ⟨h3, h4⟩ := takeWhile_stop (isDigit 10) d r hd hr
  unfold splitDecimal
  dsimp only
  rw [h1, h2]
  show (i, _, _) = _
  rw [h3, h4]

/-- The largest finite number is an integer. -/
class MaxNat (f : Fmt) where
  n : Nat
  eq : magVal f (f.infMag - 1) = n

instance : MaxNat b64 := ⟨(2 ^ 53 - 1) * 2 ^ 971, by decide +kernel⟩
instance : MaxNat b32 := ⟨(2 ^ 24 - 1) * 2 ^ 104, by decide +kernel⟩

theorem isInf_ofRat_false {f : Fmt} [hm : MaxNat f] (hpos : 0 < f.infMag) (zs : Bool) (q : ℚ) (h : |q| ≤ hm.n) : (ofRat f zs q).isInf = false := by
  have h1 : roundMag f |q| ≤ f.infMag - 1 := by
    have := roundMag_mono f (h.trans_eq hm.eq.symm)
    rwa [roundMag_magVal f (by omega)] at this
  have h2 : (ofRat f zs q).mag = roundMag f |q| := by
    unfold ofRat
    dsimp only
    split
    · rename_i hq; rw [abs_of_neg hq]
    · rename_i hq; rw [abs_of_nonneg (not_lt.1 hq)]
  unfold isInf
  rw [h2]
  simp; omega

/-- What reading a fixed notation gives (finite numbers). -/
def fixedRead (f : Fmt) (p : Nat) (x : FP f) : FP f :=
  let q : Rat := (fixedScaled p (FP.abs x).val : Rat) / (10 ^ p : Nat)
  FP.ofRat f x.sign (if x.sign then -q else q)

theorem fixedScaled_le {f : Fmt} [hm : MaxNat f] (p : Nat) (x : FP f) (hx : x.isFinite = true) :
    fixedScaled p (FP.abs x).val ≤ hm.n * 10 ^ p := by
  have h1 : (FP.abs x).val ≤ hm.n := by
    rw [val_abs, abs_val, ← hm.eq, magVal_le]
    unfold isFinite at hx
    simp at hx; omega
  refine rne_le_nat ?_ ?_
  · rw [val_abs]; positivity
  · push_cast
    exact mul_le_mul_of_nonneg_right h1 (by positivity)

theorem readFloat_fixed {f : Fmt} [hm : MaxNat f] (p : Nat) (hp : 0 < p) (x : FP f) (hx : x.isFinite = true)
    (c : Char) (hc : isSpace c = true) (ws r : Text) (hws : ∀ c ∈ ws, isSpace c = true) :
    readFloat f ⟨ws ++ (printFixed p x ++ c :: r), false⟩ = (some (fixedRead f p x), ⟨c :: r, false⟩) := by
  have hn := finite_not_nan hx
  have hi := finite_not_inf hx
  have hpos : 0 < f.infMag := by
    unfold isFinite at hx
    simp at hx; omega
  obtain ⟨n, hn'⟩ : ∃ n, n = fixedScaled p (FP.abs x).val := ⟨_, rfl⟩
  obtain ⟨i, hi'⟩ : ∃ i, i = printNat 10 (n / 10 ^ p) := ⟨_, rfl⟩
  obtain ⟨d, hd'⟩ : ∃ d, d = padZero p (printNat 10 (n % 10 ^ p)) := ⟨_, rfl⟩
  have hid : ∀ c ∈ i, isDigit 10 c = true := hi' ▸ printNat_all (by norm_num) (by norm_num) _
  have hdd : ∀ c ∈ d, isDigit 10 c = true := hd' ▸ padZero_digits _ _ (printNat_all (by norm_num) (by norm_num) _)
  have hlen : d.length = p := hd' ▸ padZero_length _ _ hp (Nat.mod_lt _ (by positivity))
  have hval : digitsVal 10 (i ++ d) = n := by
    rw [digitsVal_append', hlen, hi', hd', digitsVal_padZero, digitsVal_printNat (by norm_num) (by norm_num),
      digitsVal_printNat (by norm_num) (by norm_num)]
    exact Nat.div_add_mod' n (10 ^ p)
  have hne : i ≠ [] := hi' ▸ printNat_ne_nil _ _
  have hpr : printFixed p x ++ c :: r = (if x.sign then ['-'] else []) ++ (i ++ '.' :: (d ++ c :: r)) := by
    unfold printFixed
    rw [hn, hi]
    simp only [Bool.false_eq_true, if_false]
    rw [← hn', ← hi', ← hd']
    simp
  obtain ⟨k, hk, t, ht⟩ := printNat_head (base := 10) (by norm_num) (by norm_num) (n / 10 ^ p) ('.' :: (d ++ c :: r))
  rw [← hi'] at ht
  have hk' := digitChar_ne_sign k (by omega)
  have hsk : skipws (ws ++ (printFixed p x ++ c :: r)) = printFixed p x ++ c :: r := by
    refine skipws_append _ _ hws ?_
    intro c' hc'
    rw [hpr, ht] at hc'
    cases hs : x.sign
    · rw [hs] at hc'
      obtain rfl : digitChar k = c' := by simpa using hc'
      exact hk'.2.2
    · rw [hs] at hc'
      obtain rfl : '-' = c' := by simpa using hc'
      decide
  have hsg : readSign (printFixed p x ++ c :: r) = (x.sign, i ++ '.' :: (d ++ c :: r)) := by
    rw [hpr]
    cases x.sign
    · simp only [Bool.false_eq_true, if_false, List.nil_append]
      rw [ht, readSign_digit k (by omega)]
    · rfl
  have hspl := splitDecimal_fixed i d (c :: r) hid hdd (stops_space 10 c hc r)
  have hinf : (fixedRead f p x).isInf = false := by
    refine isInf_ofRat_false hpos _ _ ?_
    have hle := fixedScaled_le (f := f) p x hx
    have h0 : |((fixedScaled p (FP.abs x).val : ℚ)) / ((10 ^ p : ℕ) : ℚ)| ≤ hm.n := by
      rw [abs_of_nonneg (by positivity), div_le_iff₀ (by positivity)]
      exact_mod_cast hle
    split
    · rw [abs_neg]; exact h0
    · exact h0
  unfold readFloat
  simp only [Bool.false_eq_true, if_false, hsk, hsg, hspl]
  rw [if_neg (by simp [hne]), if_neg (by
    have : c ≠ 'e' ∧ c ≠ 'E' := by
      unfold isSpace at hc
      simp only [Bool.or_eq_true, beq_iff_eq] at hc
      rcases hc with ((((h | h) | h) | h) | h) | h <;> subst h <;> decide
    simp [this.1, this.2]), hval, hlen, hn']
  have he : ofRat f x.sign (if x.sign = true then -((fixedScaled p (FP.abs x).val : ℚ) / ((10 ^ p : ℕ) : ℚ))
      else (fixedScaled p (FP.abs x).val : ℚ) / ((10 ^ p : ℕ) : ℚ)) = fixedRead f p x := rfl
  rw [he, hinf]
  rfl

/-- Numbers that are not finite cannot be read back. -/
theorem readFloat_notfinite {f : Fmt} (p : Nat) (x : FP f) (hx : x.isFinite = false) (ws r : Text)
    (hws : ∀ c ∈ ws, isSpace c = true) :
    (readFloat f ⟨ws ++ (printFixed p x ++ r), false⟩).1 = none ∧ (readFloat f ⟨ws ++ (printFixed p x ++ r), false⟩).2.fail = true := by
  obtain ⟨a, t, ha, hpr⟩ : ∃ a t, (a = 'n' ∨ a = 'i') ∧ printFixed p x ++ r = (if x.sign then ['-'] else []) ++ a :: t := by
    unfold printFixed
    cases hn : x.isNaN
    · cases hi : x.isInf
      · exact absurd (finite_iff.2 ⟨hn, hi⟩) (by simp [hx])
      · exact ⟨'i', ['n', 'f'] ++ r, Or.inr rfl, by cases x.sign <;> simp⟩
    · exact ⟨'n', ['a', 'n'] ++ r, Or.inl rfl, by cases x.sign <;> simp⟩
  have hsk : skipws (ws ++ (printFixed p x ++ r)) = printFixed p x ++ r := by
    refine skipws_append _ _ hws ?_
    intro c hc
    rw [hpr] at hc
    cases hs : x.sign
    · rw [hs] at hc
      obtain rfl : a = c := by simpa using hc
      rcases ha with rfl | rfl <;> decide
    · rw [hs] at hc
      obtain rfl : '-' = c := by simpa using hc
      decide
  have hsg : (readSign (printFixed p x ++ r)).2 = a :: t := by
    rw [hpr]
    cases x.sign
    · rcases ha with rfl | rfl <;> rfl
    · rfl
  have hspl : splitDecimal (a :: t) = ([], [], a :: t) := by
    rcases ha with rfl | rfl <;> rfl
  unfold readFloat
  simp only [Bool.false_eq_true, if_false, hsk, hsg, hspl]
  simp

theorem readFloat_failed (f : Fmt) (t : Text) : readFloat f ⟨t, true⟩ = (none, ⟨t, true⟩) := by simp [readFloat]

theorem floatR_inverts {α : Type} {f : Fmt} [MaxNat f] (p : Nat) (hp : 0 < p) (c : Char) (hc : isSpace c = true) (sel : α → FP f) :
    Inverts (floatR f) (fun x => printFixed p (sel x) ++ [c]) (fun x => fixedRead f p (sel x)) (fun x => (sel x).isFinite = true) := by
  intro x hx
  refine ⟨[c], by simpa using hc, fun ws r hws => ?_⟩
  rw [List.append_assoc]
  exact readFloat_fixed p hp (sel x) hx c hc ws r hws

end Vdt.Txt
