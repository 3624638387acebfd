import Verif.Lemmas.Sincos
import Verif.Lemmas.Reduce
import Verif.Model.Contract
import Mathlib.Tactic.LinearCombination

/-! # The quadrant number and the three-step argument reduction of sine, cosine and tangent -/

namespace Vdt
open FP details

theorem ofInt32_toNat {j : ℤ} (h1 : 0 ≤ j) (h2 : j < 2147483648) : (BitVec.ofInt 32 j).toNat = j.toNat := by
  rw [BitVec.toNat_ofInt]; omega

theorem toInt32_of_lt {b : BitVec 32} (h : b.toNat < 2147483648) : b.toInt = b.toNat := by
  rw [BitVec.toInt_eq_toNat_cond]; simp; omega

theorem and_clear (n : ℕ) (h : n < 2147483648) : n &&& 4294967294 = 2 * (n / 2) := by
  apply Nat.eq_of_testBit_eq
  intro i
  rw [Nat.testBit_and]
  rcases i with _ | i
  · simp
  · have e1 : Nat.testBit 4294967294 (i + 1) = Nat.testBit 2147483647 i := by
      rw [Nat.testBit_succ]
    have e2 : Nat.testBit (2 * (n / 2)) (i + 1) = n.testBit (i + 1) := by
      rw [Nat.testBit_succ, Nat.testBit_succ, Nat.mul_div_cancel_left _ (by norm_num)]
    rw [e1, e2, show (2147483647 : ℕ) = 2 ^ 31 - 1 by norm_num, Nat.testBit_two_pow_sub_one]
    by_cases hi : i < 31
    · simp [hi]
    · have : n.testBit (i + 1) = false := by
        apply Nat.testBit_lt_two_pow
        calc n < 2 ^ 31 := by omega
          _ ≤ 2 ^ (i + 1) := Nat.pow_le_pow_right (by norm_num) (by omega)
      simp [hi, this]

/-- Clearing the lowest bit. -/
theorem clearLow_eq {q : ℤ} (h1 : 0 ≤ q) (h2 : q < 2147483648) : clearLow q = 2 * (q / 2) := by
  unfold clearLow
  have e : (BitVec.ofInt 32 q &&& ~~~(1#32)).toNat = 2 * (q.toNat / 2) := by
    rw [BitVec.toNat_and, ofInt32_toNat h1 h2, show (~~~(1#32)).toNat = 4294967294 by rfl, and_clear _ (by omega)]
  rw [toInt32_of_lt (by rw [e]; omega), e]; omega

theorem and_two_pow' (n i : ℕ) : n &&& 2 ^ i = 2 ^ i * (n / 2 ^ i % 2) := by
  apply Nat.eq_of_testBit_eq
  intro k
  rw [Nat.testBit_and, Nat.testBit_two_pow]
  have ht : n.testBit i = decide (n / 2 ^ i % 2 = 1) := Nat.testBit_eq_decide_div_mod_eq
  rcases Nat.mod_two_eq_zero_or_one (n / 2 ^ i) with h | h
  · rw [h] at ht ⊢
    by_cases hk : i = k
    · subst hk; simp [ht]
    · simp [hk]
  · rw [h] at ht ⊢
    rw [mul_one, Nat.testBit_two_pow]
    by_cases hk : i = k
    · subst hk; simp [ht]
    · simp [hk]

/-- Testing one bit. -/
theorem andI_pow {j : ℤ} (i : ℕ) (hi : i < 31) (h1 : 0 ≤ j) (h2 : j < 2147483648) :
    andI j (2 ^ i) = 2 ^ i * (j / 2 ^ i % 2) := by
  unfold andI
  have hp : (2 : ℤ) ^ i < 2147483648 := by
    calc (2 : ℤ) ^ i < 2 ^ 31 := pow_lt_pow_right₀ (by norm_num) hi
      _ = _ := by norm_num
  have hpn : (2 : ℕ) ^ i < 2147483648 := by exact_mod_cast hp
  have e : (BitVec.ofInt 32 j &&& BitVec.ofInt 32 (2 ^ i)).toNat = 2 ^ i * (j.toNat / 2 ^ i % 2) := by
    rw [BitVec.toNat_and, ofInt32_toNat h1 h2, ofInt32_toNat (by positivity) hp]
    have : ((2 : ℤ) ^ i).toNat = 2 ^ i := by
      have : ((2 : ℤ) ^ i) = ((2 ^ i : ℕ) : ℤ) := by push_cast; rfl
      rw [this]; rfl
    rw [this, and_two_pow']
  have hle : 2 ^ i * (j.toNat / 2 ^ i % 2) ≤ 2 ^ i * 1 := Nat.mul_le_mul_left _ (by omega)
  rw [toInt32_of_lt (by rw [e]; omega), e]
  push_cast
  rw [Int.toNat_of_nonneg h1]

theorem andI_two {j : ℤ} (h1 : 0 ≤ j) (h2 : j < 2147483648) : andI j 2 = 2 * (j / 2 % 2) := by
  simpa using andI_pow (j := j) 1 (by norm_num) h1 h2

theorem andI_four {j : ℤ} (h1 : 0 ≤ j) (h2 : j < 2147483648) : andI j 4 = 4 * (j / 4 % 2) := by
  simpa using andI_pow (j := j) 2 (by norm_num) h1 h2

variable {f : Fmt} [f.Ok]

/-- The quadrant number is even and within one of the rounded product. -/
theorem quad_spec {c x : FP f} {X M : ℚ} (hc : c.isFinite = true) (hc0 : 0 < c.val) (hx : x.isFinite = true)
    (hx0 : 0 ≤ x.val) (hxX : x.val ≤ X) (hM : c.val * X ≤ M) (hM0 : 0 < M) (hMb : M ≤ f.big)
    (hM2 : M + hulp f M < 2147483646) :
    ∃ m : ℕ, (∃ q1, quadStep strict c x = some q1 ∧ clearLow q1 = 2 * m) ∧ (m : ℚ) ≤ 1073741823 ∧
      2 * (m : ℚ) - 1 ≤ rnd f (c.val * x.val) ∧ rnd f (c.val * x.val) < 2 * m + 1 ∧
      |rnd f (c.val * x.val) - c.val * x.val| ≤ hulp f M := by
  have hle : c.val * x.val ≤ M := (mul_le_mul_of_nonneg_left hxX hc0.le).trans hM
  have h0 : 0 ≤ c.val * x.val := mul_nonneg hc0.le hx0
  have hm := mul_spec hc hx (by rw [abs_of_nonneg h0]; exact hle.trans hMb)
  have he := rnd_err f (q := c.val * x.val) hM0 (by rw [abs_of_nonneg h0]; exact hle) hMb
  have hr0 : 0 ≤ rnd f (c.val * x.val) := rnd_nonneg f h0
  generalize rnd f (c.val * x.val) = t at *
  have hlt : t < 2147483646 := by rw [abs_le] at he; linarith
  have f1 := Int.floor_le t
  have f2 := Int.lt_floor_add_one t
  have f0 : 0 ≤ ⌊t⌋ := Int.floor_nonneg.2 hr0
  have f3 : ⌊t⌋ < 2147483646 := by
    rw [Int.floor_lt]; exact_mod_cast hlt
  have hi : inI32 (truncRat (FP.mul c x).val) = true := by
    rw [hm.2, truncRat_nonneg hr0]; simp [inI32]; omega
  have hi2 : inI32 (⌊t⌋ + 1) = true := by simp [inI32]; omega
  have hs : quadStep strict c x = some (⌊t⌋ + 1) := by
    unfold quadStep
    rw [mul_def, strict_f2i hm.1 hi]
    simp only [Option.bind_eq_bind, Option.bind_some, hm.2, truncRat_nonneg hr0]
    simp [strict, hi2]
  generalize ⌊t⌋ = n at *
  refine ⟨((n + 1) / 2).toNat, ⟨n + 1, hs, ?_⟩, ?_, ?_, ?_, he⟩
  · rw [clearLow_eq (by omega) (by omega)]; omega
  · have : ((n + 1) / 2).toNat ≤ 1073741823 := by omega
    exact_mod_cast this
  · have h3 : 2 * (((n + 1) / 2).toNat : ℤ) - 1 ≤ n := by omega
    have : (2 * (((n + 1) / 2).toNat : ℚ) - 1) ≤ n := by exact_mod_cast h3
    linarith
  · have h3 : n ≤ 2 * (((n + 1) / 2).toNat : ℤ) := by omega
    have : (n : ℚ) ≤ 2 * (((n + 1) / 2).toNat : ℚ) := by exact_mod_cast h3
    linarith

/-- Exact first subtraction: `y` is a multiple of the grid of `x` and the difference is no larger. -/
theorem sub_exact_of_le {x y : FP f} {n k j : ℤ} (hx : x.isFinite = true) (hy : y.isFinite = true) (hyv : y.val = n * p2 j)
    (hk : |x.val| < p2 (k + 1)) (hkj : k - f.mb ≤ j) (hj : f.emin - f.mb ≤ j) (hle : |x.val - y.val| ≤ |x.val|) (hb : |x.val| ≤ f.big) :
    (x - y).isFinite = true ∧ (x - y).val = x.val - y.val := by
  apply sub_exact hx hy _ (hle.trans hb)
  obtain ⟨e, m, he, hm, hn, hc⟩ := code_cases f x.mag
  have hv := magVal_code f he hm.le hn
  rw [← hc] at hv
  obtain ⟨s, hs, hs1⟩ : ∃ s : ℤ, x.val = s * p2 (e - f.mb) ∧ |s| = m := by
    unfold val
    cases x.sign
    · exact ⟨m, by simp [hv], by simp⟩
    · exact ⟨-m, by simp [hv], by simp⟩
  have hej : e - f.mb ≤ j := by
    by_contra hlt
    push Not at hlt
    have hek : k + 1 ≤ e := by omega
    have hemin : f.emin < e := by omega
    have hm2 : 2 ^ f.mb ≤ m := by
      rcases hn with h | h
      · exact h
      · omega
    have : p2 (k + 1) ≤ |x.val| := by
      rw [abs_val, hv]
      have h1 : p2 (k + 1) ≤ p2 e := p2_le hek
      have h2 : p2 e = 2 ^ f.mb * p2 (e - f.mb) := by
        rw [← p2_nat, ← p2_add]; exact congrArg _ (by ring)
      have h3 : (2 : ℚ) ^ f.mb ≤ m := by exact_mod_cast hm2
      have := mul_le_mul_of_nonneg_right h3 (p2_pos (e - f.mb)).le
      linarith
    linarith
  obtain ⟨d, hd⟩ : ∃ d : ℕ, j = e - f.mb + d := ⟨(j - (e - f.mb)).toNat, by omega⟩
  have hp : p2 j = 2 ^ d * p2 (e - f.mb) := by rw [hd, p2_add, p2_nat, mul_comm]
  have hval : x.val - y.val = ((s - n * 2 ^ d : ℤ) : ℚ) * p2 (e - f.mb) := by
    rw [hs, hyv, hp]; push_cast; ring
  refine ⟨s - n * 2 ^ d, e - f.mb, hval, ?_, by omega⟩
  have hp0 := p2_pos (e - f.mb)
  rw [hval, hs, abs_mul, abs_mul, abs_of_pos hp0] at hle
  have h4 := le_of_mul_le_mul_right hle hp0
  have h5 : |s - n * 2 ^ d| ≤ |s| := by exact_mod_cast h4
  rw [hs1] at h5
  have : (m : ℤ) ≤ 2 ^ (f.mb + 1) := by exact_mod_cast hm.le
  omega

theorem reduce3_est {z z' ζ m t u η κ : ℚ} (h1 : |z - z'| ≤ u * |z'| + η) (h2 : |z' - ζ| ≤ m * t) (hm : 1 ≤ m) (hu : 0 ≤ u)
    (hη : 0 ≤ η) (hκ : (1 + u) * t + η ≤ κ) : |z - ζ| ≤ u * |ζ| + m * κ := by
  have d2 : |z'| ≤ |ζ| + |z' - ζ| := by
    have := abs_add_le ζ (z' - ζ); rwa [add_sub_cancel] at this
  have d3 : |z - ζ| ≤ |z - z'| + |z' - ζ| := abs_sub_le _ _ _
  have d4 : u * |z'| ≤ u * (|ζ| + m * t) := mul_le_mul_of_nonneg_left (by linarith) hu
  have d5 := mul_le_mul_of_nonneg_left hκ (by linarith : 0 ≤ m)
  have d6 := mul_le_mul_of_nonneg_right hm hη
  linarith

/-- The reduction `((x - y*c1) - y*c2) - y*c3` with `y = 2m` the quadrant of `x`: only the last
subtraction and the last product round. -/
theorem reduce3 (pol : Policy) {c c1 c2 c3 x p : FP f} {X M l R κ : ℚ} {N k1 j1 k2 j2 k : ℤ} {m : ℕ}
    (hx : x.isFinite = true) (hx0 : 0 ≤ x.val) (hxX : x.val ≤ X) (hXk : X < p2 (k + 1)) (hXb : X ≤ f.big)
    (hp : p.isFinite = true) (hpm : p.val = 2 * m)
    (q1 : 2 * (m : ℚ) - 1 ≤ rnd f (c.val * x.val)) (q2 : rnd f (c.val * x.val) < 2 * m + 1)
    (q3 : |rnd f (c.val * x.val) - c.val * x.val| ≤ hulp f M)
    (hc0 : 0 ≤ c.val) (hl : 0 < l) (hR : l * (1 + hulp f M) + X * |1 - c.val * l| ≤ R)
    (hN : l⁻¹ * (X + R) ≤ 2 * N)
    (h1f : c1.isFinite = true) (h1 : c1.val = k1 * p2 j1) (h1N : N * |k1| ≤ 2 ^ (f.mb + 1)) (h1j : f.emin - f.mb ≤ j1 + 1)
    (h1k : k - f.mb ≤ j1 + 1) (h1b : 2 * N * |c1.val| ≤ f.big) (h10 : 0 ≤ c1.val) (h1l : c1.val ≤ l)
    (h1c : rnd f (c.val * c1.val) < 1) (h1R : R ≤ 2 * (2 * l - c1.val))
    (h2f : c2.isFinite = true) (h2 : c2.val = k2 * p2 j2) (h2N : N * |k2| ≤ 2 ^ (f.mb + 1)) (h2j : f.emin - f.mb ≤ j2 + 1)
    (h2b : 2 * N * |c2.val| ≤ f.big) (h12 : j2 ≤ j1) (h2m : -1 - (f.mb : ℤ) ≤ j2 + 1) (hem : f.emin ≤ -1) (hc2 : rnd f (c.val * (1 / 2)) < 1)
    (hS2 : R + 2 * N * |l - c1.val - c2.val| ≤ 1) (h1big : 1 ≤ f.big)
    (h3f : c3.isFinite = true) (hP3 : 2 * N * |c3.val| ≤ 1)
    (hS3 : R + 2 * N * |l - c1.val - c2.val| + 2 ≤ f.big) (hu : f.u * 1 + f.eta ≤ 1)
    (hκ : (1 + f.u) * (2 * |l - c1.val - c2.val - c3.val| + 2 * f.u * |c3.val| + f.eta) + f.eta ≤ κ) :
    let z := reduceC pol x p c1 c2 c3
    z.isFinite = true ∧ (m : ℤ) ≤ N ∧ |x.val - 2 * m * l| ≤ R ∧ (1 ≤ m → 1 / 2 ≤ x.val) ∧ (m = 0 → z.val = x.val) ∧
      |z.val - (x.val - 2 * m * l)| ≤ f.u * |x.val - 2 * m * l| + m * κ := by
  unfold reduceC
  -- the quadrant is the right one
  have hxR : |x.val - 2 * m * l| ≤ R := by
    have hd : |c.val * x.val - 2 * m| ≤ 1 + hulp f M := by
      rw [abs_le] at q3 ⊢; constructor <;> linarith [q3.1, q3.2]
    have e : x.val - 2 * m * l = l * (c.val * x.val - 2 * m) + x.val * (1 - c.val * l) := by ring
    rw [e]
    refine (abs_add_le _ _).trans (le_trans (add_le_add ?_ ?_) hR)
    · rw [abs_mul, abs_of_pos hl]; exact mul_le_mul_of_nonneg_left hd hl.le
    · rw [abs_mul, abs_of_nonneg hx0]; exact mul_le_mul_of_nonneg_right hxX (_root_.abs_nonneg _)
  have hmN : (m : ℚ) ≤ N := by
    rw [abs_le] at hxR
    have h3 : 2 * m * l ≤ X + R := by linarith
    have h4 : 2 * (m : ℚ) ≤ l⁻¹ * (X + R) := by
      rw [inv_mul_eq_div, le_div_iff₀ hl]; exact h3
    linarith
  have hmNz : (m : ℤ) ≤ N := by exact_mod_cast hmN
  have hm0 : (0 : ℚ) ≤ m := by positivity
  have hN0 : (0 : ℚ) ≤ N := hm0.trans hmN
  have hhalf : 1 ≤ m → 1 / 2 ≤ x.val := by
    intro hm1
    by_contra hcon
    push Not at hcon
    have h5 : c.val * x.val ≤ c.val * (1 / 2) := mul_le_mul_of_nonneg_left hcon.le hc0
    have h6 := rnd_mono f h5
    have h7 : (1 : ℚ) ≤ m := by exact_mod_cast hm1
    linarith
  have bd : ∀ t : ℚ, |2 * m * t| ≤ 2 * N * |t| := fun t => by
    rw [abs_mul, abs_of_nonneg (by linarith : (0 : ℚ) ≤ 2 * m)]
    exact mul_le_mul_of_nonneg_right (by linarith) (_root_.abs_nonneg _)
  have rep : ∀ (kk jj : ℤ) (cv : ℚ), cv = kk * p2 jj → N * |kk| ≤ 2 ^ (f.mb + 1) → f.emin - f.mb ≤ jj + 1 →
      2 * (m : ℚ) * cv = ((m * kk : ℤ) : ℚ) * p2 (jj + 1) ∧ |(m * kk : ℤ)| ≤ 2 ^ (f.mb + 1) := by
    intro kk jj cv hcv hkk hjj
    refine ⟨by rw [hcv, p2_succ]; push_cast; ring, ?_⟩
    rw [abs_mul, abs_of_nonneg (by positivity : (0 : ℤ) ≤ (m : ℤ))]
    exact (mul_le_mul_of_nonneg_right hmNz (_root_.abs_nonneg _)).trans hkk
  have r1 := rep k1 j1 _ h1 h1N h1j
  have r2 := rep k2 j2 _ h2 h2N h2j
  have e1 := mul_exact hp h1f (by rw [hpm]; exact ⟨_, _, r1.1, r1.2, h1j⟩) (by rw [hpm]; exact (bd _).trans h1b)
  have e2 := mul_exact hp h2f (by rw [hpm]; exact ⟨_, _, r2.1, r2.2, h2j⟩) (by rw [hpm]; exact (bd _).trans h2b)
  rw [hpm] at e1 e2
  -- the first subtraction is exact
  have hle : |x.val - (p * c1).val| ≤ |x.val| := by
    rw [e1.2, abs_of_nonneg hx0, abs_le]
    have hnn : 0 ≤ 2 * m * c1.val := mul_nonneg (by linarith) h10
    refine ⟨?_, by linarith⟩
    have hx2 : 2 * m * c1.val ≤ 2 * x.val := by
      rcases Nat.lt_or_ge m 2 with h | h
      · have : m = 0 ∨ m = 1 := by omega
        rcases this with h | h
        · subst h; simp; exact hx0
        · subst h
          by_contra hcon
          push Not at hcon
          have h5 : c.val * x.val ≤ c.val * c1.val := mul_le_mul_of_nonneg_left (by push_cast at hcon; linarith) hc0
          have h6 := rnd_mono f h5
          push_cast at q1
          linarith
      · have h2m : (2 : ℚ) ≤ m := by exact_mod_cast h
        rw [abs_le] at hxR
        have : 2 * (2 * l - c1.val) ≤ m * (2 * l - c1.val) := mul_le_mul_of_nonneg_right h2m (by linarith)
        nlinarith
    linarith
  have s1 := sub_exact_of_le (k := k) (j := j1 + 1) (n := m * k1) hx e1.1 (by rw [e1.2]; exact r1.1)
    (by rw [abs_of_nonneg hx0]; linarith) h1k h1j hle (by rw [abs_of_nonneg hx0]; linarith)
  have hpc1 : |p.val * c1.val| ≤ f.big := by rw [hpm]; exact (bd _).trans h1b
  have s1 : (nmad (pol 0) p c1 x).isFinite = true ∧ (nmad (pol 0) p c1 x).val = x.val - 2 * m * c1.val := by
    rw [e1.2] at s1 hle
    have t := nmad_exact (pol 0) hp h1f hx e1.1 (by rw [hpm]; exact e1.2) hpc1
      (by rw [hpm]; exact hle.trans (by rw [abs_of_nonneg hx0]; linarith))
    exact ⟨t.1, t.2.trans s1.2⟩
  generalize nmad (pol 0) p c1 x = z1 at s1 ⊢
  have b12 := bd (l - c1.val - c2.val)
  have hw2 : |x.val - 2 * m * c1.val - 2 * m * c2.val| ≤ R + 2 * N * |l - c1.val - c2.val| := by
    have e : x.val - 2 * m * c1.val - 2 * m * c2.val = (x.val - 2 * m * l) + 2 * m * (l - c1.val - c2.val) := by ring
    rw [e]; exact (abs_add_le _ _).trans (add_le_add hxR b12)
  -- so is the second
  have s2 : (z1 - p * c2).isFinite = true ∧ (z1 - p * c2).val = x.val - 2 * m * c1.val - 2 * m * c2.val := by
    have := sub_exact s1.1 e2.1 (by
      rw [s1.2, e2.2]
      rcases Nat.eq_zero_or_pos m with h | h
      · subst h; simp only [Nat.cast_zero, mul_zero, zero_mul, sub_zero]; exact val_rep x
      · have hx12 := hhalf h
        obtain ⟨n, kx, hn1, hn2, hn3⟩ := rep_of_ge (x := x) (j := -1) (by
          rw [abs_of_nonneg hx0, show p2 (-1) = 1 / 2 by decide +kernel]; exact hx12)
        have up : ∀ (a : ℤ) (b : ℤ), -1 - (f.mb : ℤ) ≤ b → ∃ a' : ℤ, (a : ℚ) * p2 b = a' * p2 (-1 - f.mb) := by
          intro a b hb
          obtain ⟨d, hd⟩ : ∃ d : ℕ, b = (-1 - f.mb) + d := ⟨(b - (-1 - f.mb)).toNat, by omega⟩
          refine ⟨a * 2 ^ d, ?_⟩
          rw [hd, p2_add, p2_nat]; push_cast; ring
        obtain ⟨a0, ha0⟩ := up n kx hn3
        obtain ⟨a1, ha1⟩ := up (m * k1) (j1 + 1) (by omega)
        obtain ⟨a2, ha2⟩ := up (m * k2) (j2 + 1) h2m
        have hv : x.val - 2 * m * c1.val - 2 * m * c2.val = ((a0 - a1 - a2 : ℤ) : ℚ) * p2 (-1 - f.mb) := by
          rw [r1.1, r2.1, ha1, ha2, hn1, ha0]; push_cast; ring
        refine ⟨a0 - a1 - a2, -1 - f.mb, hv, ?_, by omega⟩
        have h9 := hw2.trans hS2
        rw [hv, abs_mul, abs_of_pos (p2_pos _)] at h9
        have h10 : p2 (-1 - f.mb) * 2 ^ (f.mb + 1) = 1 := by
          rw [← p2_nat, ← p2_add, show (-1 - (f.mb : ℤ)) + ((f.mb + 1 : ℕ) : ℤ) = 0 by push_cast; ring, p2_eq]; simp
        have h11 : |((a0 - a1 - a2 : ℤ) : ℚ)| ≤ 2 ^ (f.mb + 1) := by
          have hp0 := p2_pos (-1 - (f.mb : ℤ))
          rw [← h10] at h9
          rw [mul_comm] at h9
          exact le_of_mul_le_mul_left h9 hp0
        exact_mod_cast h11) (by rw [s1.2, e2.2]; linarith)
    rw [s1.2, e2.2] at this; exact this
  have s2 : (nmad (pol 1) p c2 z1).isFinite = true ∧
      (nmad (pol 1) p c2 z1).val = x.val - 2 * m * c1.val - 2 * m * c2.val := by
    have t := nmad_exact (pol 1) hp h2f s1.1 e2.1 (by rw [hpm]; exact e2.2) (by rw [hpm]; exact (bd _).trans h2b)
      (by rw [hpm, s1.2]; linarith)
    exact ⟨t.1, t.2.trans s2.2⟩
  generalize nmad (pol 1) p c2 z1 = z2 at s2 ⊢
  have b3 : |2 * m * c3.val| ≤ 1 := (bd _).trans hP3
  obtain ⟨w, hw, hs⟩ := nmad_split (pol 2) hp h3f s2.1 (by rw [hpm]; exact b3.trans h1big)
  rw [hpm] at hw
  have hu0 := f.u_pos
  have he0 := f.eta_pos
  have p3e : |w - 2 * m * c3.val| ≤ f.u * |2 * m * c3.val| + f.eta := by
    rcases hw with hw | hw
    · rw [hw, sub_self, abs_zero]
      exact add_nonneg (mul_nonneg hu0.le (_root_.abs_nonneg _)) he0.le
    · rw [hw]; exact rnd_err_add f (b3.trans h1big)
  have b3b : |w| ≤ 2 := by
    have h5 : |w| ≤ |2 * m * c3.val| + |w - 2 * m * c3.val| := by
      have := abs_add_le (2 * m * c3.val) (w - 2 * m * c3.val); rwa [add_sub_cancel] at this
    have h6 : f.u * |2 * m * c3.val| ≤ f.u * 1 := mul_le_mul_of_nonneg_left b3 hu0.le
    linarith
  have hz' : |z2.val - w| ≤ f.big := by
    rw [s2.2]; refine (abs_sub _ _).trans ?_; linarith
  have s3 := hs hz'
  have s3e := rnd_err_add f hz'
  rw [← s3.2] at s3e
  intro z
  have hz0 : m = 0 → z.val = x.val := by
    intro h
    subst h
    have hp3 : w = 0 := by
      simp only [Nat.cast_zero, mul_zero, zero_mul, rnd_zero, or_self] at hw; exact hw
    change (nmad (pol 2) p c3 z2).val = _
    rw [s3.2, s2.2, hp3]
    simp only [Nat.cast_zero, mul_zero, zero_mul, sub_zero]
    exact rnd_exact f (val_rep x) (by rw [abs_of_nonneg hx0]; linarith)
  refine ⟨s3.1, hmNz, hxR, hhalf, hz0, ?_⟩
  rcases Nat.eq_zero_or_pos m with h | h
  · rw [hz0 h]; subst h; simp only [Nat.cast_zero, mul_zero, zero_mul, sub_zero, sub_self, abs_zero]
    have := mul_nonneg hu0.le (_root_.abs_nonneg x.val); linarith
  · have hm1 : (1 : ℚ) ≤ m := by exact_mod_cast h
    rw [s2.2] at s3e
    obtain ⟨ζ, hζ⟩ : ∃ ζ, ζ = x.val - 2 * m * l := ⟨_, rfl⟩
    obtain ⟨z', hz'd⟩ : ∃ z', z' = x.val - 2 * m * c1.val - 2 * m * c2.val - w := ⟨_, rfl⟩
    change |z.val - _| ≤ _ at s3e
    rw [← hz'd] at s3e
    rw [← hζ]
    have d1 : |z' - ζ| ≤ m * (2 * |l - c1.val - c2.val - c3.val| + 2 * f.u * |c3.val| + f.eta) := by
      have e : z' - ζ = 2 * m * (l - c1.val - c2.val - c3.val) - (w - 2 * m * c3.val) := by rw [hz'd, hζ]; ring
      rw [e]
      refine (abs_sub _ _).trans ?_
      have g1 : |2 * m * (l - c1.val - c2.val - c3.val)| = m * (2 * |l - c1.val - c2.val - c3.val|) := by
        rw [abs_mul, abs_of_nonneg (by linarith : (0 : ℚ) ≤ 2 * m)]; ring
      have g2 : |2 * (m : ℚ) * c3.val| = m * (2 * |c3.val|) := by
        rw [abs_mul, abs_of_nonneg (by linarith : (0 : ℚ) ≤ 2 * m)]; ring
      rw [g1]
      rw [g2] at p3e
      have := mul_le_mul_of_nonneg_right hm1 he0.le
      linarith
    exact reduce3_est s3e d1 hm1 hu0.le he0.le hκ

/-! ## How close a multiple of `π/2` can be to a floating point number -/

/-- Two fractions next to `α` from below and above, neighbours in the Farey sense. -/
def distOk (α B : ℚ) (M : ℤ) (t : ℤ × ℤ × ℤ × ℤ) : Bool :=
  decide (0 < t.2.1 ∧ 0 < t.2.2.2 ∧ t.2.1 * t.2.2.1 - t.2.2.2 * t.1 = 1 ∧ 0 < B ∧ B ≤ t.2.1 * α - t.1 ∧
    B ≤ t.2.2.1 - t.2.2.2 * α ∧ M < t.2.1 + t.2.2.2)

theorem distOk_sound {α B : ℚ} {M : ℤ} {t : ℤ × ℤ × ℤ × ℤ} (h : distOk α B M t = true) {m n : ℤ} (h1 : 1 ≤ m) (h2 : m ≤ M) :
    B ≤ |m * α - n| := by
  obtain ⟨p, q, p', q'⟩ := t
  unfold distOk at h
  simp only [decide_eq_true_eq] at h
  obtain ⟨hq, hq', hdet, hB, hlo, hhi, hM⟩ := h
  have ea : (m * p' - n * q') * q + (n * q - m * p) * q' = m := by linear_combination m * hdet
  have eb : (m * p' - n * q') * p + (n * q - m * p) * p' = n := by linear_combination n * hdet
  generalize m * p' - n * q' = a at *
  generalize n * q - m * p = b at *
  have eaq : (m : ℚ) = a * q + b * q' := by exact_mod_cast ea.symm
  have ebq : (n : ℚ) = a * p + b * p' := by exact_mod_cast eb.symm
  have e : (m : ℚ) * α - n = a * (q * α - p) - b * (p' - q' * α) := by rw [eaq, ebq]; ring
  rw [e]
  rcases lt_or_ge (0 : ℤ) a with ha | ha
  · rcases lt_or_ge (0 : ℤ) b with hb | hb
    · exfalso
      have : q ≤ a * q := by nlinarith
      have : q' ≤ b * q' := by nlinarith
      omega
    · have ha' : (1 : ℚ) ≤ a := by exact_mod_cast ha
      have hb' : (b : ℚ) ≤ 0 := by exact_mod_cast hb
      refine le_trans ?_ (le_abs_self _)
      nlinarith
  · rcases lt_or_ge (0 : ℤ) b with hb | hb
    · have ha' : (a : ℚ) ≤ 0 := by exact_mod_cast ha
      have hb' : (1 : ℚ) ≤ b := by exact_mod_cast hb
      refine le_trans ?_ (neg_le_abs _)
      nlinarith
    · exfalso
      have : a * q ≤ 0 := by nlinarith
      have : b * q' ≤ 0 := by nlinarith
      omega

/-- From the table to the distance between a number with exponent `e` and a multiple of `π/2`. -/
theorem dist_of_table {x : FP f} {e M : ℤ} {h : ℚ} {B : ℚ} {t : ℤ × ℤ × ℤ × ℤ} {m : ℕ} (h1 : p2 e ≤ |x.val|)
    (ht : distOk (h * p2 (f.mb - e)) (B * p2 (f.mb - e)) M t = true) (hm : 1 ≤ m) (hM : (m : ℤ) ≤ M) :
    B ≤ |x.val - m * h| := by
  obtain ⟨n, k, hn1, hn2, hn3⟩ := rep_of_ge h1
  obtain ⟨d, hd⟩ : ∃ d : ℕ, k = (e - f.mb) + d := ⟨(k - (e - f.mb)).toNat, by omega⟩
  have := distOk_sound ht (m := m) (n := n * 2 ^ d) (by exact_mod_cast hm) hM
  have hx : x.val = ((n * 2 ^ d : ℤ) : ℚ) * p2 (e - f.mb) := by
    rw [hn1, hd, p2_add, p2_nat]; push_cast; ring
  have hp := p2_pos (f.mb - e)
  have hpp : p2 (e - f.mb) * p2 (f.mb - e) = 1 := by
    rw [← p2_add, show (e - (f.mb : ℤ)) + (f.mb - e) = 0 by ring, p2_eq]; simp
  have h3 : |x.val - m * h| * p2 (f.mb - e) = |((m : ℤ) : ℚ) * (h * p2 (f.mb - e)) - ((n * 2 ^ d : ℤ) : ℚ)| := by
    rw [← abs_of_pos hp, ← abs_mul, abs_of_pos hp, ← abs_neg]
    congr 1
    rw [hx]
    push_cast
    linear_combination -((n : ℚ) * 2 ^ d) * hpp
  rw [← h3] at this
  exact le_of_mul_le_mul_right this hp

end Vdt
