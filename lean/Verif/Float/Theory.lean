import Verif.Float.Basic
import Mathlib.Algebra.Order.Field.Rat
import Mathlib.Algebra.Order.Field.Power
import Mathlib.Data.Nat.Log
import Mathlib.Data.Rat.Floor
import Mathlib.Tactic.Linarith
import Mathlib.Tactic.Ring
import Mathlib.Tactic.FieldSimp
import Mathlib.Tactic.NormNum
import Mathlib.Tactic.Positivity
import Mathlib.Tactic.GCongr

/-!
# Rounding theory: what the operations of `Verif.Float.Basic` mean as rational numbers
-/

namespace Vdt

class Fmt.Ok (f : Fmt) : Prop where
  eb2 : 2 ≤ f.eb
  mb1 : 1 ≤ f.mb

instance : Fmt.Ok b64 := ⟨by decide, by decide⟩
instance : Fmt.Ok b32 := ⟨by decide, by decide⟩

theorem p2_eq (k : Int) : p2 k = (2 : ℚ) ^ k := by
  unfold p2
  split
  · rename_i h
    obtain ⟨n, rfl⟩ := Int.eq_ofNat_of_zero_le h
    simp
  · rename_i h
    obtain ⟨n, hn⟩ := Int.eq_ofNat_of_zero_le (show 0 ≤ -k by omega)
    have hk : k = -(n : ℤ) := by omega
    subst hk
    simp only [neg_neg, Int.toNat_natCast, zpow_neg, zpow_natCast]
    rw [Rat.mkRat_eq_div]
    simp

theorem p2_pos (k : Int) : 0 < p2 k := by rw [p2_eq]; positivity

theorem p2_add (a b : Int) : p2 (a + b) = p2 a * p2 b := by
  simp only [p2_eq]; exact zpow_add₀ (by norm_num) a b

theorem p2_nat (n : Nat) : p2 (n : Int) = (2 : ℚ) ^ n := by rw [p2_eq, zpow_natCast]

theorem p2_le {a b : Int} (h : a ≤ b) : p2 a ≤ p2 b := by
  simp only [p2_eq]; exact zpow_le_zpow_right₀ (by norm_num) h

theorem p2_lt {a b : Int} (h : a < b) : p2 a < p2 b := by
  simp only [p2_eq]; exact zpow_lt_zpow_right₀ (by norm_num) h

theorem p2_lt_iff {a b : Int} : p2 a < p2 b ↔ a < b := by
  simp only [p2_eq]; exact zpow_lt_zpow_iff_right₀ (by norm_num)

theorem p2_succ (a : Int) : p2 (a + 1) = 2 * p2 a := by
  rw [p2_add]; have : p2 1 = 2 := by rw [p2_eq]; norm_num
  rw [this]; ring

theorem p2_ne (k : Int) : p2 k ≠ 0 := (p2_pos k).ne'

/-! ### `ilog2` -/

theorem ilog2_spec {q : ℚ} (hq : 0 < q) : p2 (ilog2 q) ≤ q ∧ q < p2 (ilog2 q + 1) := by
  have hnum : 0 < q.num := Rat.num_pos.2 hq
  set N := q.num.natAbs with hN
  have hNpos : N ≠ 0 := by omega
  have hNq : (q.num : ℚ) = (N : ℚ) := by
    have : q.num = (N : ℤ) := by omega
    rw [this]; simp
  have hD : q.den ≠ 0 := q.den_nz
  have hqe : q = (N : ℚ) / (q.den : ℚ) := by
    rw [← hNq]; exact (Rat.num_div_den q).symm
  have hDpos : (0 : ℚ) < q.den := by exact_mod_cast Nat.pos_of_ne_zero hD
  have n1 : ((2 : ℚ) ^ N.log2) ≤ N := by exact_mod_cast Nat.log2_self_le hNpos
  have n2 : (N : ℚ) < 2 ^ (N.log2 + 1) := by exact_mod_cast Nat.lt_log2_self
  have d1 : ((2 : ℚ) ^ q.den.log2) ≤ q.den := by exact_mod_cast Nat.log2_self_le hD
  have d2 : (q.den : ℚ) < 2 ^ (q.den.log2 + 1) := by exact_mod_cast Nat.lt_log2_self
  have hd : p2 ((N.log2 : ℤ) - (q.den.log2 : ℤ)) = 2 ^ N.log2 / 2 ^ q.den.log2 := by
    rw [p2_eq, zpow_sub₀ (by norm_num)]; simp
  have hlow : p2 ((N.log2 : ℤ) - (q.den.log2 : ℤ) - 1) ≤ q := by
    have : p2 ((N.log2 : ℤ) - (q.den.log2 : ℤ)) = 2 * p2 ((N.log2 : ℤ) - (q.den.log2 : ℤ) - 1) := by
      rw [← p2_succ]; congr 1; ring
    have h2 : p2 ((N.log2 : ℤ) - (q.den.log2 : ℤ) - 1) = 2 ^ N.log2 / 2 ^ (q.den.log2 + 1) := by
      rw [hd] at this
      rw [pow_succ]
      field_simp
      field_simp at this
      linarith
    rw [h2, div_le_iff₀ (by positivity)]
    generalize q.den.log2 = L at *
    generalize hgd : (q.den : ℚ) = D at *
    rw [hqe, div_mul_eq_mul_div, le_div_iff₀ hDpos]
    exact mul_le_mul n1 d2.le hDpos.le (by positivity)
  have hup : q < p2 ((N.log2 : ℤ) - (q.den.log2 : ℤ) + 1) := by
    rw [p2_succ, hd]
    generalize q.den.log2 = L at *
    generalize hgd : (q.den : ℚ) = D at *
    rw [hqe, div_lt_iff₀ hDpos, ← mul_div_assoc, div_mul_eq_mul_div, lt_div_iff₀ (by positivity)]
    calc (N : ℚ) * 2 ^ L < 2 ^ (N.log2 + 1) * 2 ^ L := by
            apply mul_lt_mul_of_pos_right n2; positivity
      _ ≤ 2 * 2 ^ N.log2 * D := by
            rw [pow_succ]; nlinarith [pow_pos (show (0:ℚ) < 2 by norm_num) N.log2]
  unfold ilog2
  simp only [← hN]
  split
  · rename_i h; exact ⟨h, hup⟩
  · rename_i h
    refine ⟨hlow, ?_⟩
    push Not at h
    have : (N.log2 : ℤ) - (q.den.log2 : ℤ) - 1 + 1 = (N.log2 : ℤ) - (q.den.log2 : ℤ) := by ring
    rw [this]; exact h

theorem ilog2_mono {q r : ℚ} (hq : 0 < q) (h : q ≤ r) : ilog2 q ≤ ilog2 r := by
  have a := (ilog2_spec hq).1
  have b := (ilog2_spec (lt_of_lt_of_le hq h)).2
  have := p2_lt_iff.1 (lt_of_le_of_lt (a.trans h) b)
  omega

theorem ilog2_unique {q : ℚ} {e : ℤ} (h1 : p2 e ≤ q) (h2 : q < p2 (e + 1)) : ilog2 q = e := by
  have hq : 0 < q := lt_of_lt_of_le (p2_pos _) h1
  obtain ⟨a, b⟩ := ilog2_spec hq
  have := p2_lt_iff.1 (lt_of_le_of_lt a h2)
  have := p2_lt_iff.1 (lt_of_le_of_lt h1 b)
  omega

/-! ### `rne` -/

theorem rat_split {q : ℚ} (hq : 0 ≤ q) :
    q = ((q.num.natAbs / q.den : ℕ) : ℚ) + ((q.num.natAbs % q.den : ℕ) : ℚ) / q.den := by
  have hnum : 0 ≤ q.num := Rat.num_nonneg.2 hq
  have hDq : (0 : ℚ) < q.den := by exact_mod_cast q.den_pos
  have h1 : ((q.num.natAbs : ℕ) : ℚ) = q.num := by
    have h : ((q.num.natAbs : ℕ) : ℤ) = q.num := Int.natAbs_of_nonneg hnum
    calc ((q.num.natAbs : ℕ) : ℚ) = (((q.num.natAbs : ℕ) : ℤ) : ℚ) := (Int.cast_natCast _).symm
      _ = q.num := by rw [h]
  have hdm := Nat.div_add_mod q.num.natAbs q.den
  have h2 : (q.den : ℚ) * ((q.num.natAbs / q.den : ℕ) : ℚ) + ((q.num.natAbs % q.den : ℕ) : ℚ) = q.num := by
    rw [← h1]; exact_mod_cast congrArg (Nat.cast : ℕ → ℚ) hdm
  have h3 : q = (q.num : ℚ) / q.den := (Rat.num_div_den q).symm
  calc q = (q.num : ℚ) / q.den := h3
    _ = _ := by rw [← h2, add_div, mul_div_cancel_left₀ _ hDq.ne']

theorem rne_bounds {q : ℚ} (hq : 0 ≤ q) : |(rne q : ℚ) - q| ≤ 1 / 2 := by
  have hD : 0 < q.den := q.den_pos
  have hDq : (0 : ℚ) < q.den := by exact_mod_cast hD
  have hqf := rat_split hq
  unfold rne
  simp only
  have hr : q.num.natAbs % q.den < q.den := Nat.mod_lt _ hD
  generalize q.num.natAbs / q.den = fl at *
  generalize q.num.natAbs % q.den = r at *
  have hrd : 0 ≤ (r : ℚ) / q.den := by positivity
  have hrd1 : (r : ℚ) / q.den < 1 := by rw [div_lt_one hDq]; exact_mod_cast hr
  rw [abs_le]
  split_ifs with h1 h2 h3
  · have : (r : ℚ) / q.den < 1 / 2 := by
      rw [div_lt_iff₀ hDq]
      have : ((2 * r : ℕ) : ℚ) < q.den := by exact_mod_cast h1
      push_cast at this; linarith
    constructor <;> linarith
  · have : 1 / 2 < (r : ℚ) / q.den := by
      rw [lt_div_iff₀ hDq]
      have : ((q.den : ℕ) : ℚ) < (2 * r : ℕ) := by exact_mod_cast h2
      push_cast at this; linarith
    push_cast
    constructor <;> linarith
  all_goals
    have he : 2 * r = q.den := by omega
    have : (r : ℚ) / q.den = 1 / 2 := by
      rw [div_eq_iff hDq.ne']
      have : ((2 * r : ℕ) : ℚ) = q.den := by exact_mod_cast he
      push_cast at this; linarith
    push_cast
    constructor <;> linarith

/-- Ties go to the even neighbour. -/
theorem rne_tie {q : ℚ} (hq : 0 ≤ q) (h : |(rne q : ℚ) - q| = 1 / 2) : rne q % 2 = 0 := by
  have hD : 0 < q.den := q.den_pos
  have hDq : (0 : ℚ) < q.den := by exact_mod_cast hD
  have hqf := rat_split hq
  have hr : q.num.natAbs % q.den < q.den := Nat.mod_lt _ hD
  unfold rne at h ⊢
  simp only at h ⊢
  generalize q.num.natAbs / q.den = fl at *
  generalize q.num.natAbs % q.den = r at *
  split_ifs at h ⊢ with h1 h2 h3
  · exfalso
    have : (r : ℚ) / q.den < 1 / 2 := by
      rw [div_lt_iff₀ hDq]
      have : ((2 * r : ℕ) : ℚ) < q.den := by exact_mod_cast h1
      push_cast at this; linarith
    have h0 : 0 ≤ (r : ℚ) / q.den := by positivity
    rw [abs_eq (by norm_num)] at h
    rcases h with h | h <;> linarith
  · exfalso
    have : 1 / 2 < (r : ℚ) / q.den := by
      rw [lt_div_iff₀ hDq]
      have : ((q.den : ℕ) : ℚ) < (2 * r : ℕ) := by exact_mod_cast h2
      push_cast at this; linarith
    have h0 : (r : ℚ) / q.den < 1 := by rw [div_lt_one hDq]; exact_mod_cast hr
    push_cast at h
    rw [abs_eq (by norm_num)] at h
    rcases h with h | h <;> linarith
  · exact h3
  · omega

theorem rne_mono {q r : ℚ} (hq : 0 ≤ q) (h : q ≤ r) : rne q ≤ rne r := by
  by_contra hlt
  push Not at hlt
  have hr : 0 ≤ r := hq.trans h
  have a := abs_le.1 (rne_bounds hq)
  have b := abs_le.1 (rne_bounds hr)
  have hlt' : (rne r : ℚ) + 1 ≤ rne q := by exact_mod_cast hlt
  -- both are ties
  have e1 : (rne q : ℚ) - q = 1 / 2 := by linarith [a.2, b.1]
  have e2 : (rne r : ℚ) - r = -(1 / 2) := by linarith [a.2, b.1]
  have e3 : (rne q : ℚ) = rne r + 1 := by linarith [a.2, b.1]
  have t1 := rne_tie hq (by rw [e1]; norm_num)
  have t2 := rne_tie hr (by rw [e2]; norm_num)
  have e4 : rne q = rne r + 1 := by exact_mod_cast e3
  omega

theorem rne_nat (n : ℕ) : rne (n : ℚ) = n := by
  have := abs_le.1 (rne_bounds (q := (n : ℚ)) (by positivity))
  have h1 : (rne (n : ℚ) : ℚ) < n + 1 := by linarith [this.2]
  have h2 : (n : ℚ) < rne (n : ℚ) + 1 := by linarith [this.1]
  have h1' : rne (n : ℚ) < n + 1 := by exact_mod_cast h1
  have h2' : n < rne (n : ℚ) + 1 := by exact_mod_cast h2
  omega

/-- Rounding never crosses a natural number. -/
theorem rne_le_nat {q : ℚ} {n : ℕ} (hq : 0 ≤ q) (h : q ≤ n) : rne q ≤ n := by
  simpa [rne_nat] using rne_mono hq h

theorem le_rne_nat {q : ℚ} {n : ℕ} (h : (n : ℚ) ≤ q) : n ≤ rne q := by
  simpa [rne_nat] using rne_mono (by positivity) h

/-! ### magnitude codes -/

/-- The value of the code built from an exponent and a significand. -/
theorem magVal_code (f : Fmt) {e : ℤ} {k : ℕ} (he : f.emin ≤ e) (hk : k ≤ 2 ^ (f.mb + 1))
    (hn : 2 ^ f.mb ≤ k ∨ e = f.emin) :
    magVal f ((e - f.emin).toNat * 2 ^ f.mb + k) = k * p2 (e - f.mb) := by
  obtain ⟨d, hd⟩ := Int.eq_ofNat_of_zero_le (show 0 ≤ e - f.emin by omega)
  rw [hd, Int.toNat_natCast]
  have he' : e = d + f.emin := by omega
  subst he'
  have hpos : 0 < 2 ^ f.mb := Nat.two_pow_pos _
  unfold magVal
  simp only
  rcases Nat.lt_or_ge k (2 ^ f.mb) with hk1 | hk1
  · have hd0 : d = 0 := by
      rcases hn with hn | hn
      · omega
      · omega
    subst hd0
    simp only [Nat.zero_mul, Nat.zero_add, Nat.div_eq_of_lt hk1, if_true, Nat.mod_eq_of_lt hk1]
    simp
  · rcases Nat.lt_or_ge k (2 ^ (f.mb + 1)) with hk2 | hk2
    · obtain ⟨F, rfl⟩ : ∃ F, k = 2 ^ f.mb + F := ⟨k - 2 ^ f.mb, by omega⟩
      have hF : F < 2 ^ f.mb := by rw [pow_succ] at hk2; omega
      have hdiv : (d * 2 ^ f.mb + (2 ^ f.mb + F)) / 2 ^ f.mb = d + 1 := by
        have : d * 2 ^ f.mb + (2 ^ f.mb + F) = F + (d + 1) * 2 ^ f.mb := by ring
        rw [this, Nat.add_mul_div_right _ _ hpos, Nat.div_eq_of_lt hF]; omega
      have hmod : (d * 2 ^ f.mb + (2 ^ f.mb + F)) % 2 ^ f.mb = F := by
        have : d * 2 ^ f.mb + (2 ^ f.mb + F) = F + (d + 1) * 2 ^ f.mb := by ring
        rw [this, Nat.add_mul_mod_self_right, Nat.mod_eq_of_lt hF]
      rw [hdiv, hmod]
      simp only [Nat.add_eq_zero_iff, one_ne_zero, and_false, if_false]
      congr 2
      push_cast; ring
    · have hk3 : k = 2 ^ (f.mb + 1) := le_antisymm hk hk2
      subst hk3
      have hdiv : (d * 2 ^ f.mb + 2 ^ (f.mb + 1)) / 2 ^ f.mb = d + 2 := by
        have : d * 2 ^ f.mb + 2 ^ (f.mb + 1) = (d + 2) * 2 ^ f.mb := by rw [pow_succ]; ring
        rw [this, Nat.mul_div_cancel _ hpos]
      have hmod : (d * 2 ^ f.mb + 2 ^ (f.mb + 1)) % 2 ^ f.mb = 0 := by
        have : d * 2 ^ f.mb + 2 ^ (f.mb + 1) = (d + 2) * 2 ^ f.mb := by rw [pow_succ]; ring
        rw [this, Nat.mul_mod_left]
      rw [hdiv, hmod]
      simp only [Nat.add_eq_zero_iff, OfNat.ofNat_ne_zero, and_false, if_false]
      have : ((d + 2 : ℕ) : ℤ) - 1 + f.emin - f.mb = (d + f.emin - f.mb) + 1 := by push_cast; ring
      rw [this, p2_succ]
      push_cast
      ring

/-- Every code is built from an exponent and a significand. -/
theorem code_cases (f : Fmt) (c : ℕ) : ∃ (e : ℤ) (k : ℕ), f.emin ≤ e ∧ k < 2 ^ (f.mb + 1) ∧
    (2 ^ f.mb ≤ k ∨ e = f.emin) ∧ c = (e - f.emin).toNat * 2 ^ f.mb + k := by
  have hpos : 0 < 2 ^ f.mb := Nat.two_pow_pos _
  have hdm := Nat.div_add_mod c (2 ^ f.mb)
  have hm := Nat.mod_lt c hpos
  rcases Nat.eq_zero_or_pos (c / 2 ^ f.mb) with h | h
  · refine ⟨f.emin, c % 2 ^ f.mb, le_refl _, by rw [pow_succ]; omega, Or.inr rfl, ?_⟩
    rw [h] at hdm
    simp only [sub_self, Int.toNat_zero, Nat.zero_mul, Nat.zero_add]
    omega
  · obtain ⟨d, hd⟩ : ∃ d, c / 2 ^ f.mb = d + 1 := ⟨c / 2 ^ f.mb - 1, by omega⟩
    refine ⟨f.emin + d, 2 ^ f.mb + c % 2 ^ f.mb, by omega, by rw [pow_succ]; omega, Or.inl (by omega), ?_⟩
    have : (f.emin + d - f.emin).toNat = d := by omega
    rw [this]
    rw [hd] at hdm
    calc c = 2 ^ f.mb * (d + 1) + c % 2 ^ f.mb := hdm.symm
      _ = _ := by ring

theorem magVal_zero (f : Fmt) : magVal f 0 = 0 := by
  unfold magVal; simp

theorem magVal_succ (f : Fmt) (c : ℕ) : magVal f c < magVal f (c + 1) := by
  obtain ⟨e, k, he, hk, hn, rfl⟩ := code_cases f c
  rw [magVal_code f he hk.le hn]
  have := magVal_code f (e := e) (k := k + 1) he (by omega) (by rcases hn with h | h; exact Or.inl (by omega); exact Or.inr h)
  rw [Nat.add_assoc, this]
  apply mul_lt_mul_of_pos_right _ (p2_pos _)
  push_cast; linarith

theorem magVal_strictMono (f : Fmt) : StrictMono (magVal f) := strictMono_nat_of_lt_succ (magVal_succ f)

theorem magVal_le {f : Fmt} {a b : ℕ} : magVal f a ≤ magVal f b ↔ a ≤ b := (magVal_strictMono f).le_iff_le
theorem magVal_lt {f : Fmt} {a b : ℕ} : magVal f a < magVal f b ↔ a < b := (magVal_strictMono f).lt_iff_lt
theorem magVal_inj {f : Fmt} {a b : ℕ} : magVal f a = magVal f b ↔ a = b := (magVal_strictMono f).injective.eq_iff

theorem magVal_nonneg (f : Fmt) (c : ℕ) : 0 ≤ magVal f c := by
  rw [← magVal_zero f]; exact magVal_le.2 (Nat.zero_le _)

theorem magVal_pos {f : Fmt} {c : ℕ} : 0 < magVal f c ↔ 0 < c := by
  rw [← magVal_zero f]; exact magVal_lt

/-! ### `roundMag` -/

/-- The exponent used to round `q`. -/
def rexp (f : Fmt) (q : ℚ) : ℤ := max (ilog2 q) f.emin

/-- The significand used to round `q`. -/
def rsig (f : Fmt) (q : ℚ) : ℕ := rne (q / p2 (rexp f q - f.mb))

theorem rexp_ge (f : Fmt) (q : ℚ) : f.emin ≤ rexp f q := le_max_right _ _

theorem rsig_le (f : Fmt) {q : ℚ} (hq : 0 < q) : rsig f q ≤ 2 ^ (f.mb + 1) := by
  apply rne_le_nat (div_nonneg hq.le (p2_pos _).le)
  rw [div_le_iff₀ (p2_pos _)]
  have h := (ilog2_spec hq).2.le
  have h2 : p2 (ilog2 q + 1) ≤ p2 (rexp f q + 1) := p2_le (by unfold rexp; omega)
  have h3 : ((2 ^ (f.mb + 1) : ℕ) : ℚ) * p2 (rexp f q - f.mb) = p2 (rexp f q + 1) := by
    push_cast
    rw [← p2_nat, ← p2_add]; congr 1; push_cast; ring
  rw [h3]; exact h.trans h2

theorem rsig_ge (f : Fmt) {q : ℚ} (hq : 0 < q) : 2 ^ f.mb ≤ rsig f q ∨ rexp f q = f.emin := by
  rcases le_total (ilog2 q) f.emin with h | h
  · right; unfold rexp; exact max_eq_right h
  · left
    have he : rexp f q = ilog2 q := max_eq_left h
    apply le_rne_nat
    rw [le_div_iff₀ (p2_pos _), he]
    have h3 : ((2 ^ f.mb : ℕ) : ℚ) * p2 (ilog2 q - f.mb) = p2 (ilog2 q) := by
      push_cast
      rw [← p2_nat, ← p2_add]; congr 1; ring
    rw [h3]; exact (ilog2_spec hq).1

theorem roundMag_eq (f : Fmt) {q : ℚ} (hq : 0 < q) :
    roundMag f q = min ((rexp f q - f.emin).toNat * 2 ^ f.mb + rsig f q) f.infMag := by
  unfold roundMag
  rw [if_neg (not_le.2 hq)]
  rfl

/-- The unsaturated code. -/
def rcode (f : Fmt) (q : ℚ) : ℕ := (rexp f q - f.emin).toNat * 2 ^ f.mb + rsig f q

theorem magVal_rcode (f : Fmt) {q : ℚ} (hq : 0 < q) :
    magVal f (rcode f q) = rsig f q * p2 (rexp f q - f.mb) :=
  magVal_code f (rexp_ge f q) (rsig_le f hq) (rsig_ge f hq)

theorem rcode_err (f : Fmt) {q : ℚ} (hq : 0 < q) :
    |magVal f (rcode f q) - q| ≤ p2 (rexp f q - f.mb - 1) := by
  rw [magVal_rcode f hq]
  have h := rne_bounds (q := q / p2 (rexp f q - f.mb)) (div_nonneg hq.le (p2_pos _).le)
  have hp := p2_pos (rexp f q - f.mb)
  have : (rsig f q : ℚ) * p2 (rexp f q - f.mb) - q =
      ((rsig f q : ℚ) - q / p2 (rexp f q - f.mb)) * p2 (rexp f q - f.mb) := by
    rw [sub_mul, div_mul_cancel₀ _ hp.ne']
  rw [this, abs_mul, abs_of_pos hp]
  have h2 : p2 (rexp f q - f.mb) = 2 * p2 (rexp f q - f.mb - 1) := by
    rw [← p2_succ]; congr 1; ring
  calc |(rsig f q : ℚ) - q / p2 (rexp f q - f.mb)| * p2 (rexp f q - f.mb)
      ≤ 1 / 2 * p2 (rexp f q - f.mb) := mul_le_mul_of_nonneg_right h hp.le
    _ = p2 (rexp f q - f.mb - 1) := by rw [h2]; ring

theorem rcode_mono (f : Fmt) {q r : ℚ} (hq : 0 < q) (h : q ≤ r) : rcode f q ≤ rcode f r := by
  have hr : 0 < r := lt_of_lt_of_le hq h
  have he : rexp f q ≤ rexp f r := by unfold rexp; exact max_le_max_right _ (ilog2_mono hq h)
  have hg := rexp_ge f q
  rcases he.eq_or_lt with he | he
  · unfold rcode
    rw [he]
    apply Nat.add_le_add_left
    unfold rsig
    rw [he]
    apply rne_mono (div_nonneg hq.le (p2_pos _).le)
    exact div_le_div_of_nonneg_right h (p2_pos _).le
  · have h1 := rsig_le f hq
    have h2 : 2 ^ f.mb ≤ rsig f r := by
      rcases rsig_ge f hr with h | h
      · exact h
      · omega
    unfold rcode
    obtain ⟨d, hd⟩ := Int.eq_ofNat_of_zero_le (show 0 ≤ rexp f q - f.emin by omega)
    obtain ⟨d', hd'⟩ := Int.eq_ofNat_of_zero_le (show 0 ≤ rexp f r - f.emin by omega)
    rw [hd, hd', Int.toNat_natCast, Int.toNat_natCast]
    have hdd : d + 1 ≤ d' := by omega
    calc d * 2 ^ f.mb + rsig f q ≤ d * 2 ^ f.mb + 2 ^ (f.mb + 1) := by omega
      _ = (d + 1) * 2 ^ f.mb + 2 ^ f.mb := by rw [pow_succ]; ring
      _ ≤ d' * 2 ^ f.mb + rsig f r := Nat.add_le_add (Nat.mul_le_mul_right _ hdd) h2

theorem roundMag_of_nonpos (f : Fmt) {q : ℚ} (hq : q ≤ 0) : roundMag f q = 0 := by
  unfold roundMag; rw [if_pos hq]

theorem roundMag_rcode (f : Fmt) {q : ℚ} (hq : 0 < q) : roundMag f q = min (rcode f q) f.infMag :=
  roundMag_eq f hq

theorem roundMag_mono (f : Fmt) {q r : ℚ} (h : q ≤ r) : roundMag f q ≤ roundMag f r := by
  rcases le_or_gt q 0 with hq | hq
  · rw [roundMag_of_nonpos f hq]; exact Nat.zero_le _
  · rw [roundMag_rcode f hq, roundMag_rcode f (lt_of_lt_of_le hq h)]
    exact min_le_min_right _ (rcode_mono f hq h)

/-- A number `n·2^k` with few enough bits rounds to itself. -/
theorem rcode_exact (f : Fmt) {n : ℕ} {k : ℤ} (hn0 : 0 < n) (hn : n ≤ 2 ^ (f.mb + 1)) (hk : f.emin - f.mb ≤ k) :
    magVal f (rcode f (n * p2 k)) = n * p2 k := by
  have hn0' : (0 : ℚ) < n := by exact_mod_cast hn0
  have hq : (0 : ℚ) < n * p2 k := mul_pos hn0' (p2_pos _)
  set q := (n : ℚ) * p2 k with hqdef
  rcases Nat.lt_or_ge n (2 ^ (f.mb + 1)) with hlt | hge
  · -- exponent used is at most k + mb
    have hle : rexp f q - f.mb ≤ k := by
      have h1 : q < p2 (k + f.mb + 1) := by
        have : p2 (k + f.mb + 1) = (2 : ℚ) ^ (f.mb + 1) * p2 k := by
          rw [← p2_nat, ← p2_add]; congr 1; push_cast; ring
        rw [this]
        apply mul_lt_mul_of_pos_right _ (p2_pos _)
        exact_mod_cast hlt
      have h2 := p2_lt_iff.1 (lt_of_le_of_lt (ilog2_spec hq).1 h1)
      unfold rexp
      omega
    obtain ⟨d, hd⟩ := Int.eq_ofNat_of_zero_le (show 0 ≤ k - (rexp f q - f.mb) by omega)
    have hdiv : q / p2 (rexp f q - f.mb) = ((n * 2 ^ d : ℕ) : ℚ) := by
      rw [div_eq_iff (p2_ne _)]
      push_cast
      rw [mul_assoc, ← p2_nat, ← p2_add]
      have : (d : ℤ) + (rexp f q - f.mb) = k := by omega
      rw [this]
    rw [magVal_rcode f hq]
    unfold rsig
    rw [hdiv, rne_nat, ← hdiv, div_mul_cancel₀ _ (p2_ne _)]
  · have hn' : n = 2 ^ (f.mb + 1) := le_antisymm hn hge
    have hqp : q = p2 (k + f.mb + 1) := by
      rw [hqdef, hn']
      push_cast
      rw [← p2_nat, ← p2_add]; congr 1; push_cast; ring
    have hil : ilog2 q = k + f.mb + 1 := ilog2_unique hqp.ge (by rw [hqp]; exact p2_lt (by omega))
    have hre : rexp f q = k + f.mb + 1 := by unfold rexp; rw [hil]; omega
    have hdiv : q / p2 (rexp f q - f.mb) = ((2 ^ f.mb : ℕ) : ℚ) := by
      rw [div_eq_iff (p2_ne _), hre, hqp]
      push_cast
      rw [← p2_nat, ← p2_add]; congr 1; ring
    rw [magVal_rcode f hq]
    unfold rsig
    rw [hdiv, rne_nat, ← hdiv, div_mul_cancel₀ _ (p2_ne _)]

theorem rcode_magVal (f : Fmt) {c : ℕ} (hc : 0 < c) : rcode f (magVal f c) = c := by
  obtain ⟨e, k, he, hk, hn, rfl⟩ := code_cases f c
  have hk0 : 0 < k := by
    rcases Nat.eq_zero_or_pos k with h | h
    · subst h
      rcases hn with h | h
      · exact absurd h (by have := Nat.two_pow_pos f.mb; omega)
      · subst h; simp at hc
    · exact h
  have := rcode_exact f hk0 hk.le (k := e - f.mb) (by omega)
  rw [magVal_code f he hk.le hn]
  have h2 := magVal_code f he hk.le hn
  rw [← this] at h2
  exact (magVal_inj.1 h2).symm

theorem roundMag_magVal (f : Fmt) {c : ℕ} (hc : c ≤ f.infMag) : roundMag f (magVal f c) = c := by
  rcases Nat.eq_zero_or_pos c with h | h
  · subst h; rw [magVal_zero, roundMag_of_nonpos f le_rfl]
  · rw [roundMag_rcode f (magVal_pos.2 h), rcode_magVal f h, min_eq_left hc]

end Vdt
