import Verif.Lemmas.CoreOrder
import Verif.Lemmas.LogFp

/-! # The reduction `(x - 1) / (x + 1)` preserves the order -/

namespace Vdt
open FP
variable {f : Fmt}

/-- A number not below `2^j` is a multiple of the last place there. -/
theorem mult_of_ge [f.Ok] {x : FP f} {j : ℤ} (h : p2 j ≤ |x.val|) : ∃ n : ℤ, x.val = n * p2 (j - f.mb) := by
  obtain ⟨n, k, hv, -, hk⟩ := rep_of_ge h
  refine ⟨n * 2 ^ (k - (j - f.mb)).toNat, ?_⟩
  rw [hv]
  have : p2 k = ((2 ^ (k - (j - f.mb)).toNat : ℤ) : ℚ) * p2 (j - f.mb) := by
    rw [Int.cast_pow, Int.cast_ofNat, ← p2_nat, ← p2_add]; congr 1; omega
  rw [this]; push_cast; ring

theorem p2_mb_mul (f : Fmt) : p2 (-(f.mb : ℤ)) * 2 ^ f.mb = 1 := by
  rw [← p2_nat, ← p2_add, p2_eq]; simp

set_option maxHeartbeats 1000000 in
/-- The quotient of the rounded difference and the rounded sum. -/
theorem quot_order [f.Ok] (hmb : 4 ≤ f.mb) (hE : f.emin ≤ 0) (hbig : 8 ≤ f.big) (hh : hulp f 3.42 = p2 (-(f.mb : ℤ)))
    {x y : FP f} (h1 : 0.4 ≤ x.val) (h : x.val ≤ y.val) (h2 : y.val ≤ 2.42) :
    0 < rnd f (x.val + 1) ∧ rnd f (x.val - 1) / rnd f (x.val + 1) ≤ rnd f (y.val - 1) / rnd f (y.val + 1) := by
  have r1 : rnd f 1 = 1 := rnd_exact f (by
    have := rep_int f (n := 1) (by
      have : (1 : ℤ) ≤ 2 ^ (f.mb + 1) := one_le_pow₀ (by norm_num)
      simpa using this) (by omega)
    simpa using this) (by rw [abs_one]; linarith)
  have d0 : 1 ≤ rnd f (x.val + 1) := by
    have := rnd_mono f (show (1 : ℚ) ≤ x.val + 1 by linarith)
    rwa [r1] at this
  have dm : rnd f (x.val + 1) ≤ rnd f (y.val + 1) := rnd_mono f (by linarith)
  have nm : rnd f (x.val - 1) ≤ rnd f (y.val - 1) := rnd_mono f (by linarith)
  refine ⟨by linarith, ?_⟩
  rw [div_le_div_iff₀ (by linarith) (by linarith)]
  rcases le_or_gt y.val 1 with hy | hy
  · -- both differences are not positive
    have n0 : rnd f (y.val - 1) ≤ 0 := by
      have := rnd_mono f (show y.val - 1 ≤ 0 by linarith)
      rwa [rnd_zero] at this
    nlinarith
  rcases le_or_gt x.val 1 with hx | hx
  · have n0 : rnd f (x.val - 1) ≤ 0 := by
      have := rnd_mono f (show x.val - 1 ≤ 0 by linarith)
      rwa [rnd_zero] at this
    have n1 : 0 ≤ rnd f (y.val - 1) := rnd_nonneg f (by linarith)
    nlinarith
  -- both are above one: the differences are exact
  rcases h.eq_or_lt with he | hl
  · rw [he]
  set e := p2 (-(f.mb : ℤ)) with hedef
  have e0 : 0 < e := p2_pos _
  have em : e * 2 ^ f.mb = 1 := p2_mb_mul f
  have e16 : e ≤ 1 / 16 := by
    have : (2 : ℚ) ^ 4 ≤ 2 ^ f.mb := pow_le_pow_right₀ (by norm_num) hmb
    nlinarith
  have grid : ∀ {z : FP f}, 1 < z.val → z.val ≤ 2.42 → ∃ n : ℤ, z.val = n * e ∧ rnd f (z.val - 1) = z.val - 1 := by
    intro z hz hz2
    obtain ⟨n, hn⟩ := mult_of_ge (x := z) (j := 0) (by rw [abs_of_pos (by linarith), p2_eq]; norm_num; exact hz.le)
    rw [zero_sub] at hn
    refine ⟨n, hn, rnd_exact f ⟨n - 2 ^ f.mb, -(f.mb : ℤ), ?_, ?_, by omega⟩ (by rw [abs_of_pos (by linarith)]; linarith)⟩
    · rw [hn]; push_cast; rw [sub_mul, mul_comm ((2 : ℚ) ^ f.mb), em]
    · have a1 : (1 : ℚ) < n * e := by rw [← hn]; exact hz
      have a2 : (n : ℚ) * e ≤ 2.42 := by rw [← hn]; exact hz2
      rw [← em, mul_comm] at a1
      have b1 : (2 : ℚ) ^ f.mb < n := lt_of_mul_lt_mul_right a1 e0.le
      have b2 : (n : ℚ) ≤ 3 * 2 ^ f.mb := by
        refine le_of_mul_le_mul_right (?_ : (n : ℚ) * e ≤ 3 * 2 ^ f.mb * e) e0
        rw [mul_assoc, mul_comm ((2 : ℚ) ^ f.mb), em]; linarith
      have c1 : (2 : ℤ) ^ f.mb < n := by exact_mod_cast b1
      have c2 : n ≤ 3 * 2 ^ f.mb := by exact_mod_cast b2
      rw [abs_of_nonneg (by linarith), pow_succ]
      linarith
  obtain ⟨n, hn, nx⟩ := grid hx (h.trans h2)
  obtain ⟨m, hm, ny⟩ := grid hy h2
  rw [nx, ny]
  have dx := abs_le.1 (rnd_err f (q := x.val + 1) (M := 3.42) (by norm_num) (by rw [abs_of_pos (by linarith)]; linarith) (by linarith))
  have dy := abs_le.1 (rnd_err f (q := y.val + 1) (M := 3.42) (by norm_num) (by rw [abs_of_pos (by linarith)]; linarith) (by linarith))
  rw [hh] at dx dy
  have gap : e ≤ y.val - x.val := by
    have : n < m := by
      have : (n : ℚ) * e < m * e := by rw [← hn, ← hm]; exact hl
      exact_mod_cast lt_of_mul_lt_mul_right this e0.le
    have : (n : ℚ) + 1 ≤ m := by exact_mod_cast this
    rw [hn, hm]; nlinarith
  rcases lt_or_ge x.val 2 with hx2 | hx2
  · have x2 : x.val ≤ 2 - e := by
      have : n < 2 * 2 ^ f.mb := by
        have : (n : ℚ) * e < 2 * 2 ^ f.mb * e := by rw [← hn, mul_assoc, mul_comm ((2 : ℚ) ^ f.mb), em]; linarith
        exact_mod_cast lt_of_mul_lt_mul_right this e0.le
      have : (n : ℚ) + 1 ≤ 2 * 2 ^ f.mb := by exact_mod_cast this
      rw [hn]; nlinarith
    have a1 : rnd f (y.val + 1) - rnd f (x.val + 1) ≤ 3 * (y.val - x.val) := by linarith
    have a2 : 3 * (x.val - 1) ≤ rnd f (x.val + 1) := by linarith
    have a3 := mul_le_mul_of_nonneg_left a1 (show 0 ≤ x.val - 1 by linarith)
    have a4 := mul_le_mul_of_nonneg_right a2 (show 0 ≤ y.val - x.val by linarith)
    nlinarith
  · -- both are above two: the sums are exact
    have ex : ∀ {z : FP f}, 2 ≤ z.val → z.val ≤ 2.42 → rnd f (z.val + 1) = z.val + 1 := by
      intro z hz hz2
      obtain ⟨n, hn⟩ := mult_of_ge (x := z) (j := 1) (by rw [abs_of_pos (by linarith), p2_eq]; norm_num; exact hz)
      have e2 : p2 (1 - (f.mb : ℤ)) = 2 * e := by
        rw [show (1 - (f.mb : ℤ)) = -(f.mb : ℤ) + 1 by ring, p2_succ]
      have ph : (2 : ℤ) ^ f.mb = 2 * 2 ^ (f.mb - 1) := by rw [← pow_succ']; congr 1; omega
      have ph' : (2 : ℚ) ^ f.mb = 2 * 2 ^ (f.mb - 1) := by exact_mod_cast ph
      have em2 : e * (2 * 2 ^ (f.mb - 1)) = 1 := by rw [← ph']; exact em
      rw [e2] at hn
      refine rnd_exact f ⟨n + 2 ^ (f.mb - 1), 1 - (f.mb : ℤ), ?_, ?_, by omega⟩ (by rw [abs_of_pos (by linarith)]; linarith)
      · rw [hn, e2]; push_cast; rw [add_mul]; linarith
      · have b2 : (n : ℚ) ≤ 2 * 2 ^ f.mb - 2 ^ (f.mb - 1) := by
          refine le_of_mul_le_mul_right (?_ : (n : ℚ) * (2 * e) ≤ _) (by linarith : 0 < 2 * e)
          have : (2 * 2 ^ f.mb - 2 ^ (f.mb - 1)) * (2 * e) = 3 * (e * (2 * 2 ^ (f.mb - 1))) := by rw [ph']; ring
          rw [← hn, this, em2]; linarith
        have b1 : (0 : ℚ) ≤ n := by
          have : 0 ≤ (n : ℚ) * (2 * e) := by rw [← hn]; linarith
          exact nonneg_of_mul_nonneg_left this (by linarith)
        have c2 : n ≤ 2 * 2 ^ f.mb - 2 ^ (f.mb - 1) := by exact_mod_cast b2
        have c1 : 0 ≤ n := by exact_mod_cast b1
        have c3 : (0 : ℤ) ≤ 2 ^ (f.mb - 1) := by positivity
        rw [abs_of_nonneg (by linarith), pow_succ]
        linarith
    rw [ex hx2 (h.trans h2), ex (hx2.trans h) h2]
    nlinarith

end Vdt
