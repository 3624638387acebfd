import Verif.Float.Ops

/-! # Rounding of scaled integers

The kernel computes with large natural numbers much faster than with rational numbers.  These
definitions round an integer to the precision of a format, and agree with `rnd` on all numbers
`n / 2^s` that are neither subnormal nor too large. -/

namespace Vdt

/-- The quotient `n / d` rounded to the nearest integer, ties to even. -/
def rneN (n d : ℕ) : ℕ :=
  if Nat.blt (2 * (n % d)) d then n / d
  else if Nat.blt d (2 * (n % d)) then n / d + 1
  else if Nat.beq (n / d % 2) 0 then n / d else n / d + 1

/-- A natural number rounded to `mb + 1` significant bits. -/
def rndN (mb n : ℕ) : ℕ := rneN n (2 ^ (Nat.log2 n - mb)) * 2 ^ (Nat.log2 n - mb)

/-- An integer rounded to `mb + 1` significant bits. -/
def rndZ (mb : ℕ) : ℤ → ℤ
  | Int.ofNat n => Int.ofNat (rndN mb n)
  | Int.negSucc n => Int.neg (Int.ofNat (rndN mb (n + 1)))

theorem rneN_spec (n : ℕ) {d : ℕ} (hd : 0 < d) :
    |2 * ((rneN n d : ℤ) * d - n)| ≤ d ∧ (|2 * ((rneN n d : ℤ) * d - n)| = d → rneN n d % 2 = 0) := by
  have e := Nat.div_add_mod n d
  have hr := Nat.mod_lt n hd
  unfold rneN
  generalize n / d = q at *
  generalize n % d = r at *
  have e' : (n : ℤ) = d * q + r := by exact_mod_cast e.symm
  simp only [Nat.blt_eq, Nat.beq_eq]
  have c1 : ((q : ℤ) * d - n) = -r := by rw [e']; ring
  have c2 : (((q + 1 : ℕ) : ℤ) * d - n) = d - r := by rw [e']; push_cast; ring
  split_ifs with h1 h2 h3
  · rw [c1]; constructor
    · rw [abs_le]; omega
    · intro h; rw [abs_eq (by omega)] at h; omega
  · rw [c2]; constructor
    · rw [abs_le]; omega
    · intro h; rw [abs_eq (by omega)] at h; omega
  · rw [c1]; constructor
    · rw [abs_le]; omega
    · intro; exact h3
  · rw [c2]; constructor
    · rw [abs_le]; omega
    · intro; omega

theorem rne_div (n : ℕ) {d : ℕ} (hd : 0 < d) : rne ((n : ℚ) / d) = rneN n d := by
  have hq : (0 : ℚ) ≤ (n : ℚ) / d := by positivity
  have hD : (0 : ℚ) < d := by exact_mod_cast hd
  have a := rne_bounds hq
  have t := rne_tie hq
  obtain ⟨b, tb⟩ := rneN_spec n hd
  generalize rneN n d = m at *
  generalize rne ((n : ℚ) / d) = k at *
  have conv : ∀ j : ℕ, |((2 * ((j : ℤ) * d - n) : ℤ) : ℚ)| = 2 * d * |(j : ℚ) - n / d| := by
    intro j
    have : ((2 * ((j : ℤ) * d - n) : ℤ) : ℚ) = 2 * d * ((j : ℚ) - n / d) := by
      push_cast; field_simp
    rw [this, abs_mul, abs_of_pos (by positivity)]
  have b' : |(m : ℚ) - n / d| ≤ 1 / 2 := by
    have h1 : ((|2 * ((m : ℤ) * d - n)| : ℤ) : ℚ) ≤ ((d : ℤ) : ℚ) := by exact_mod_cast b
    rw [Int.cast_abs, conv] at h1
    push_cast at h1
    by_contra h; push Not at h
    nlinarith
  have tb' : |(m : ℚ) - n / d| = 1 / 2 → m % 2 = 0 := by
    intro h
    apply tb
    have h1 := conv m
    rw [h, ← Int.cast_abs] at h1
    have : ((|2 * ((m : ℤ) * d - n)| : ℤ) : ℚ) = ((d : ℤ) : ℚ) := by rw [h1]; push_cast; ring
    exact_mod_cast this
  rw [abs_le] at a b'
  rcases lt_trichotomy k m with h | h | h
  · exfalso
    have h' : (k : ℚ) + 1 ≤ m := by exact_mod_cast h
    have e1 : (k : ℚ) - n / d = -(1 / 2) := by linarith
    have e2 : (m : ℚ) - n / d = 1 / 2 := by linarith
    have e3 : (m : ℚ) = k + 1 := by linarith
    have p1 := t (by rw [e1]; norm_num)
    have p2 := tb' (by rw [e2]; norm_num)
    have : m = k + 1 := by exact_mod_cast e3
    omega
  · exact h
  · exfalso
    have h' : (m : ℚ) + 1 ≤ k := by exact_mod_cast h
    have e1 : (k : ℚ) - n / d = 1 / 2 := by linarith
    have e2 : (m : ℚ) - n / d = -(1 / 2) := by linarith
    have e3 : (k : ℚ) = m + 1 := by linarith
    have p1 := t (by rw [e1]; norm_num)
    have p2 := tb' (by rw [e2]; norm_num)
    have : k = m + 1 := by exact_mod_cast e3
    omega

/-- Rounding a positive scaled integer. -/
theorem rnd_scaledN (f : Fmt) [f.Ok] {n : ℕ} (s : ℕ) (hn : 0 < n) (hs : f.emin ≤ -(s : ℤ)) (hb : (n : ℚ) * p2 (-s) ≤ f.big) :
    rnd f (n * p2 (-s)) = rndN f.mb n * p2 (-s) := by
  have hp := p2_pos (-(s : ℤ))
  have hnq : (0 : ℚ) < n := by exact_mod_cast hn
  have hq : 0 < (n : ℚ) * p2 (-s) := by positivity
  have l1 : 2 ^ Nat.log2 n ≤ n := Nat.log2_self_le hn.ne'
  have l2 : n < 2 ^ (Nat.log2 n + 1) := Nat.lt_log2_self
  have hil : ilog2 ((n : ℚ) * p2 (-s)) = Nat.log2 n - s := by
    apply ilog2_unique
    · rw [sub_eq_add_neg, p2_add, p2_nat]
      exact mul_le_mul_of_nonneg_right (by exact_mod_cast l1) hp.le
    · rw [show (Nat.log2 n : ℤ) - s + 1 = ((Nat.log2 n + 1 : ℕ) : ℤ) + -s by push_cast; ring, p2_add, p2_nat]
      exact mul_lt_mul_of_pos_right (by exact_mod_cast l2) hp
  have hre : rexp f ((n : ℚ) * p2 (-s)) = Nat.log2 n - s := by
    unfold rexp; rw [hil]; exact max_eq_left (by omega)
  have h1 : rnd f (n * p2 (-s)) = magVal f (rcode f (n * p2 (-s))) := by
    unfold rnd
    rw [if_neg (not_lt.2 hq.le), roundMag_rcode f hq, min_eq_left]
    exact (rcode_mono f hq hb).trans (rcode_big_lt f).le
  rw [h1, magVal_rcode f hq, hre]
  unfold rndN
  rcases le_total f.mb (Nat.log2 n) with h | h
  · obtain ⟨k, hk⟩ := Nat.exists_eq_add_of_le h
    have e : (n : ℚ) * p2 (-s) / p2 ((Nat.log2 n : ℤ) - s - f.mb) = (n : ℚ) / ((2 ^ k : ℕ) : ℚ) := by
      rw [show (Nat.log2 n : ℤ) - s - f.mb = (k : ℤ) + -s by omega, p2_add, p2_nat, mul_div_mul_right _ _ hp.ne']
      push_cast; rfl
    have e2 : rsig f ((n : ℚ) * p2 (-s)) = rneN n (2 ^ k) := by
      unfold rsig; rw [hre, e, rne_div _ (by positivity)]
    rw [e2, show Nat.log2 n - f.mb = k by omega, show (Nat.log2 n : ℤ) - s - f.mb = (k : ℤ) + -s by omega, p2_add, p2_nat]
    push_cast; ring
  · obtain ⟨k, hk⟩ := Nat.exists_eq_add_of_le h
    have e : (n : ℚ) * p2 (-s) / p2 ((Nat.log2 n : ℤ) - s - f.mb) = ((n * 2 ^ k : ℕ) : ℚ) := by
      rw [div_eq_iff (p2_ne _)]
      push_cast
      rw [← p2_nat, mul_assoc, ← p2_add, show (k : ℤ) + ((Nat.log2 n : ℤ) - s - f.mb) = -s by omega]
    have e2 : rsig f ((n : ℚ) * p2 (-s)) = n * 2 ^ k := by
      unfold rsig; rw [hre, e, rne_nat]
    have e3 : rneN n 1 = n := by
      have := rne_div n (d := 1) one_pos
      rw [Nat.cast_one, div_one, rne_nat] at this
      exact this.symm
    rw [e2, show Nat.log2 n - f.mb = 0 by omega, pow_zero, e3, mul_one]
    push_cast
    rw [← p2_nat, mul_assoc, ← p2_add, show (k : ℤ) + ((Nat.log2 n : ℤ) - s - f.mb) = -s by omega]

/-- Rounding a scaled integer. -/
theorem rnd_scaled (f : Fmt) [f.Ok] (n : ℤ) (s : ℕ) (hs : f.emin ≤ -(s : ℤ)) (hb : |(n : ℚ) * p2 (-s)| ≤ f.big) :
    rnd f (n * p2 (-s)) = rndZ f.mb n * p2 (-s) := by
  match n with
  | Int.ofNat 0 =>
    have : rndZ f.mb (Int.ofNat 0) = 0 := by
      simp [rndZ, rndN]; decide
    rw [this]
    simp [rnd_zero]
  | Int.ofNat (m + 1) =>
    have h := rnd_scaledN f (n := m + 1) s (by omega) hs (by
      have := le_of_abs_le hb; exact this)
    exact h
  | Int.negSucc m =>
    have e : ((Int.negSucc m : ℤ) : ℚ) = -((m + 1 : ℕ) : ℚ) := by rw [Int.cast_negSucc]
    have h := rnd_scaledN f (n := m + 1) s (by omega) hs (by
      rw [e, neg_mul, abs_neg] at hb
      exact le_of_abs_le hb)
    rw [e, neg_mul, rnd_neg, h]
    have : rndZ f.mb (Int.negSucc m) = -((rndN f.mb (m + 1) : ℕ) : ℤ) := rfl
    rw [this]; push_cast; ring

/-! ### A version for evaluation -/

/-- Evaluates the number before it is used. -/
def nf {α : Sort*} (n : ℕ) (g : ℕ → α) : α := Nat.rec (g 0) (fun m _ => g (Nat.succ m)) n

theorem nf_eq {α : Sort*} (n : ℕ) (g : ℕ → α) : nf n g = g n := by cases n <;> rfl

/-- The number of bits beyond the precision, by bisection. -/
def excess (mb n : ℕ) : ℕ → ℕ → ℕ :=
  Nat.rec (fun k => k) fun j r k =>
    nf (Nat.add k (Nat.pow 2 j)) fun k' => bif Nat.ble (Nat.pow 2 (Nat.add mb k')) n then r k' else r k

theorem excess_spec (mb n : ℕ) : ∀ j k, (k = 0 ∨ 2 ^ (mb + k) ≤ n) → n < 2 ^ (mb + k + 2 ^ j) →
    (excess mb n j k = 0 ∨ 2 ^ (mb + excess mb n j k) ≤ n) ∧ n < 2 ^ (mb + excess mb n j k + 1)
  | 0, _, h1, h2 => ⟨h1, h2⟩
  | j + 1, k, h1, h2 => by
    have e : excess mb n (j + 1) k = if 2 ^ (mb + (k + 2 ^ j)) ≤ n then excess mb n j (k + 2 ^ j) else excess mb n j k := by
      show nf (Nat.add k (Nat.pow 2 j)) (fun k' => bif Nat.ble (Nat.pow 2 (Nat.add mb k')) n then excess mb n j k' else excess mb n j k) = _
      rw [nf_eq]
      by_cases h : 2 ^ (mb + (k + 2 ^ j)) ≤ n
      · rw [if_pos h]
        have : Nat.ble (Nat.pow 2 (Nat.add mb (Nat.add k (Nat.pow 2 j)))) n = true := Nat.ble_eq_true_of_le h
        rw [this]; rfl
      · rw [if_neg h]
        have : Nat.ble (Nat.pow 2 (Nat.add mb (Nat.add k (Nat.pow 2 j)))) n = false :=
          Bool.eq_false_iff.2 fun h' => h (Nat.le_of_ble_eq_true h')
        rw [this]; rfl
    rw [e]
    split_ifs with h
    · exact excess_spec mb n j _ (Or.inr h) (by
        have : mb + (k + 2 ^ j) + 2 ^ j = mb + k + 2 ^ (j + 1) := by rw [pow_succ]; ring
        rwa [this])
    · exact excess_spec mb n j k h1 (by rw [← add_assoc] at h; omega)

/-- `rndN` for numbers with at most 32 bits beyond the precision. -/
def rndF (mb n : ℕ) : ℕ :=
  nf (Nat.pow 2 (excess mb n 5 0)) fun d => nf (Nat.div n d) fun q => nf (Nat.mul 2 (Nat.mod n d)) fun r =>
    Nat.mul (bif Nat.blt r d then q else bif Nat.blt d r then Nat.succ q else bif Nat.beq (Nat.mod q 2) 0 then q else Nat.succ q) d

theorem rndF_eq {mb n : ℕ} (h : n < 2 ^ (mb + 32)) : rndF mb n = rndN mb n := by
  obtain ⟨h1, h2⟩ := excess_spec mb n 5 0 (Or.inl rfl) h
  have hk : Nat.log2 n - mb = excess mb n 5 0 := by
    by_cases hn : n = 0
    · subst hn
      rcases h1 with h1 | h1
      · rw [h1]; simp
      · exact absurd h1 (by have := Nat.two_pow_pos (mb + excess mb 0 5 0); omega)
    · have l : Nat.log2 n < mb + excess mb n 5 0 + 1 := (Nat.log2_lt hn).2 h2
      rcases h1 with h1 | h1
      · omega
      · have := (Nat.le_log2 hn).2 h1
        omega
  unfold rndF rndN rneN
  rw [hk]
  simp only [nf_eq, Bool.cond_eq_ite]
  rfl

/-- An integer, evaluated before it is used. -/
def zf {α : Type*} (n : ℤ) (g : ℤ → α) : α :=
  match n with
  | Int.ofNat m => nf m fun m => g (Int.ofNat m)
  | Int.negSucc m => nf m fun m => g (Int.negSucc m)

theorem zf_eq {α : Type*} (n : ℤ) (g : ℤ → α) : zf n g = g n := by
  cases n <;> simp only [zf, nf_eq]

/-- `rndZ` for evaluation. -/
def rndFZ (mb : ℕ) (n : ℤ) : ℤ :=
  match n with
  | Int.ofNat m => nf m fun m => nf (rndF mb m) fun m => Int.ofNat m
  | Int.negSucc m => nf (Nat.succ m) fun m => nf (rndF mb m) fun m => Int.negOfNat m

theorem rndFZ_ofNat (mb m : ℕ) : rndFZ mb (Int.ofNat m) = Int.ofNat (rndF mb m) := by
  simp only [rndFZ, nf_eq]

theorem rndFZ_negSucc (mb m : ℕ) : rndFZ mb (Int.negSucc m) = Int.neg (Int.ofNat (rndF mb (m + 1))) := by
  simp only [rndFZ, nf_eq]
  exact Int.negOfNat_eq

theorem rndFZ_eq {mb : ℕ} {n : ℤ} (h : n.natAbs < 2 ^ (mb + 32)) : rndFZ mb n = rndZ mb n := by
  generalize hb : mb + 32 = b at h
  cases n with
  | ofNat m =>
    have h' : m < 2 ^ (mb + 32) := by rw [hb]; exact h
    rw [rndFZ_ofNat, rndF_eq h', rndZ]
  | negSucc m =>
    have h' : m + 1 < 2 ^ (mb + 32) := by rw [hb]; exact h
    rw [rndFZ_negSucc, rndF_eq h', rndZ]

/-- Rounding by evaluation. -/
theorem rnd_eval (f : Fmt) [f.Ok] (n : ℤ) (s t : ℕ) (hs : f.emin ≤ -(s : ℤ)) (ht : p2 t ≤ f.big) (hst : s + t < f.mb + 32)
    (hb : |(n : ℚ) * p2 (-s)| ≤ p2 t) : rnd f (n * p2 (-s)) = rndFZ f.mb n * p2 (-s) ∧ |rnd f (n * p2 (-s))| ≤ p2 t := by
  have hn : n.natAbs < 2 ^ (f.mb + 32) := by
    have h1 : |(n : ℚ)| ≤ p2 (s + t) := by
      rw [abs_mul, abs_of_pos (p2_pos _)] at hb
      have h2 : p2 ((s : ℤ) + t) * p2 (-s) = p2 t := by rw [← p2_add]; congr 1; ring
      rw [← h2] at hb
      exact le_of_mul_le_mul_right hb (p2_pos _)
    have h3 : p2 ((s : ℤ) + t) < p2 ((f.mb + 32 : ℕ) : ℤ) := p2_lt (by push_cast; omega)
    rw [p2_nat] at h3
    have h4 : ((n.natAbs : ℕ) : ℚ) < ((2 ^ (f.mb + 32) : ℕ) : ℚ) := by
      rw [Nat.cast_natAbs, Nat.cast_pow, Int.cast_abs]; push_cast; linarith
    exact Nat.cast_lt.1 h4
  refine ⟨by rw [rndFZ_eq hn]; exact rnd_scaled f n s hs (hb.trans ht), ?_⟩
  have h1 : rnd f (p2 t) = p2 t := rnd_exact f ⟨1, t, by simp, by
    have := Nat.two_pow_pos (f.mb + 1)
    simp only [abs_one]
    exact_mod_cast this, by have := Fmt.emin; omega⟩ (by rwa [abs_of_pos (p2_pos _)])
  rw [abs_le] at hb ⊢
  constructor
  · rw [← h1, ← rnd_neg]; exact rnd_mono f hb.1
  · have := rnd_mono f hb.2
    rwa [h1] at this

end Vdt
