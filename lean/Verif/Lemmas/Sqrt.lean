import Verif.Lemmas.Isqrt

/-! # The square root of the model is correctly rounded -/

namespace Vdt
open FP
variable {f : Fmt}

theorem isqrtGo_spec (n : ℕ) : ∀ (b r : ℕ), r * r ≤ n → n < (r + 2 ^ b) * (r + 2 ^ b) →
    isqrtGo n b r * isqrtGo n b r ≤ n ∧ n < (isqrtGo n b r + 1) * (isqrtGo n b r + 1)
  | 0, r, h1, h2 => ⟨h1, h2⟩
  | b + 1, r, h1, h2 => by
    unfold isqrtGo
    dsimp only
    split
    · rename_i h
      refine isqrtGo_spec n b _ h ?_
      have : r + 2 ^ b + 2 ^ b = r + 2 ^ (b + 1) := by rw [pow_succ]; ring
      rw [this]; exact h2
    · rename_i h
      exact isqrtGo_spec n b _ h1 (by omega)

theorem isqrtNat_spec (n : ℕ) : isqrtNat n * isqrtNat n ≤ n ∧ n < (isqrtNat n + 1) * (isqrtNat n + 1) := by
  refine isqrtGo_spec n _ _ (by omega) ?_
  rw [Nat.zero_add, ← pow_add]
  refine lt_of_lt_of_le Nat.lt_log2_self (Nat.pow_le_pow_right (by norm_num) ?_)
  omega

/-- The scaled radicand, its integer root, and the position of the approximation. -/
theorem sqrtApprox_spec (f : Fmt) {q : ℚ} (hq : 0 < q) : ∃ (k : ℤ) (r : ℕ) (v : ℚ), sqrtApprox f q = v * p2 (-k) ∧
    k = (f.mb : ℤ) + 2 - ilog2 q / 2 ∧ 2 ^ (f.mb + 2) ≤ r ∧ r < 2 ^ (f.mb + 3) ∧
    ((v = r ∧ q * p2 (2 * k) = r * r) ∨ (v = r + 1 / 2 ∧ (r : ℚ) * r < q * p2 (2 * k) ∧ q * p2 (2 * k) < (r + 1) * (r + 1))) := by
  obtain ⟨k, hk⟩ : ∃ k, k = (f.mb : ℤ) + 2 - ilog2 q / 2 := ⟨_, rfl⟩
  obtain ⟨s, hs⟩ : ∃ s, s = q * p2 (2 * k) := ⟨_, rfl⟩
  obtain ⟨n, hn⟩ : ∃ n, n = s.num.natAbs / s.den := ⟨_, rfl⟩
  obtain ⟨r, hr⟩ : ∃ r, r = isqrtNat n := ⟨_, rfl⟩
  have s0 : 0 ≤ s := by rw [hs]; exact mul_nonneg hq.le (p2_pos _).le
  have sp := rat_split s0
  rw [← hn] at sp
  have dp : (0 : ℚ) < s.den := by exact_mod_cast s.den_pos
  obtain ⟨m, hm⟩ : ∃ m, m = s.num.natAbs % s.den := ⟨_, rfl⟩
  have ml : m < s.den := by rw [hm]; exact Nat.mod_lt _ s.den_pos
  rw [← hm] at sp
  have fr : (0 : ℚ) ≤ m / s.den ∧ (m : ℚ) / s.den < 1 := by
    refine ⟨by positivity, ?_⟩
    rw [div_lt_one dp]; exact_mod_cast ml
  obtain ⟨r1, r2⟩ := isqrtNat_spec n
  rw [← hr] at r1 r2
  have r1q : (r : ℚ) * r ≤ n := by exact_mod_cast r1
  have r2q : (n : ℚ) + 1 ≤ (r + 1) * (r + 1) := by exact_mod_cast r2
  -- the size of `s`
  obtain ⟨e1, e2⟩ := ilog2_spec hq
  have pk := p2_pos (2 * k)
  have s1 : p2 (2 * (f.mb : ℤ) + 4) ≤ s := by
    refine le_trans (p2_le (b := ilog2 q + 2 * k) (by omega)) ?_
    rw [p2_add, hs]; exact mul_le_mul_of_nonneg_right e1 pk.le
  have s2 : s < p2 (2 * (f.mb : ℤ) + 6) := by
    refine lt_of_lt_of_le ?_ (p2_le (a := ilog2 q + 1 + 2 * k) (by omega))
    rw [p2_add, hs]; exact mul_lt_mul_of_pos_right e2 pk
  have P : ∀ j : ℕ, p2 (2 * (f.mb : ℤ) + 2 * (j : ℤ)) = (((2 : ℕ) ^ (f.mb + j) : ℕ) : ℚ) * (((2 : ℕ) ^ (f.mb + j) : ℕ) : ℚ) := by
    intro j
    push_cast
    rw [← p2_nat, ← p2_add]; congr 1; push_cast; ring
  have r3 : 2 ^ (f.mb + 2) ≤ r := by
    by_contra hc
    push Not at hc
    have h1 : r + 1 ≤ 2 ^ (f.mb + 2) := hc
    have h2 : (r + 1) * (r + 1) ≤ 2 ^ (f.mb + 2) * 2 ^ (f.mb + 2) := Nat.mul_le_mul h1 h1
    have h3 : ((r : ℚ) + 1) * (r + 1) ≤ (((2 : ℕ) ^ (f.mb + 2) : ℕ) : ℚ) * (((2 : ℕ) ^ (f.mb + 2) : ℕ) : ℚ) := by exact_mod_cast h2
    have h4 := P 2
    rw [← h4] at h3
    have e : (2 * (f.mb : ℤ) + 2 * ((2 : ℕ) : ℤ)) = 2 * (f.mb : ℤ) + 4 := by push_cast; ring
    rw [e] at h3
    linarith [fr.2]
  have r4 : r < 2 ^ (f.mb + 3) := by
    by_contra hc
    push Not at hc
    have h2 : 2 ^ (f.mb + 3) * 2 ^ (f.mb + 3) ≤ r * r := Nat.mul_le_mul hc hc
    have h3 : (((2 : ℕ) ^ (f.mb + 3) : ℕ) : ℚ) * (((2 : ℕ) ^ (f.mb + 3) : ℕ) : ℚ) ≤ (r : ℚ) * r := by exact_mod_cast h2
    have h4 := P 3
    rw [← h4] at h3
    have e : (2 * (f.mb : ℤ) + 2 * ((3 : ℕ) : ℤ)) = 2 * (f.mb : ℤ) + 6 := by push_cast; ring
    rw [e] at h3
    linarith [fr.1]
  have un : sqrtApprox f q = ((2 * r + (if decide ((r * r : ℕ) = n ∧ m = 0) then 0 else 1) : ℕ) : ℚ) * p2 (-k - 1) := by
    unfold sqrtApprox
    simp only [← hk, ← hs, ← hn, ← hr, ← hm]
  have half : p2 (-k - 1) = p2 (-k) / 2 := by
    have := p2_succ (-k - 1)
    rw [show -k - 1 + 1 = -k by ring] at this
    linarith
  by_cases ex : r * r = n ∧ m = 0
  · refine ⟨k, r, r, ?_, hk, r3, r4, Or.inl ⟨rfl, ?_⟩⟩
    · rw [un, half]; simp [ex]; ring
    · rw [← hs, sp, ex.2, ← ex.1]; push_cast; ring
  · refine ⟨k, r, r + 1 / 2, ?_, hk, r3, r4, Or.inr ⟨rfl, ?_, ?_⟩⟩
    · rw [un, half]; simp only [ex, decide_false, Bool.false_eq_true, if_false]; push_cast; ring
    · rw [← hs]
      rcases Nat.lt_or_ge (r * r) n with h | h
      · have : (r : ℚ) * r < n := by exact_mod_cast h
        linarith [fr.1]
      · have h5 : r * r = n := le_antisymm r1 h
        have m0 : 0 < m := Nat.pos_of_ne_zero (fun h6 => ex ⟨h5, h6⟩)
        have : (0 : ℚ) < m / s.den := by
          have : (0 : ℚ) < m := by exact_mod_cast m0
          positivity
        linarith
    · rw [← hs]; linarith [fr.2]

/-- Integer part of the argument: a multiple of four nearest to `r` or `r + 1/2` is within two of the root. -/
theorem grid_near {g r : ℕ} {v : ℚ} {t : ℝ} (h : |(g : ℚ) - v / 4| ≤ 1 / 2)
    (hv : (v = r ∧ t = r) ∨ (v = r + 1 / 2 ∧ (r : ℝ) < t ∧ t < r + 1)) : |4 * (g : ℝ) - t| ≤ 2 := by
  have a := abs_le.1 h
  rcases hv with ⟨h1, h2⟩ | ⟨h1, h2, h3⟩
  · rw [h1] at a
    have b1 : (4 : ℚ) * g ≤ r + 2 := by linarith
    have b2 : (r : ℚ) ≤ 4 * g + 2 := by linarith
    have c1 : (4 : ℝ) * g ≤ r + 2 := by exact_mod_cast b1
    have c2 : (r : ℝ) ≤ 4 * g + 2 := by exact_mod_cast b2
    rw [h2, abs_le]; constructor <;> linarith
  · rw [h1] at a
    have b1 : (4 : ℚ) * g < r + 3 := by linarith
    have b2 : (r : ℚ) < 4 * g + 2 := by linarith
    have c1 : 4 * g < r + 3 := by exact_mod_cast b1
    have c2 : r < 4 * g + 2 := by exact_mod_cast b2
    have d1 : 4 * g ≤ r + 2 := by omega
    have d2 : r + 1 ≤ 4 * g + 2 := by omega
    have e1 : (4 : ℝ) * g ≤ r + 2 := by exact_mod_cast d1
    have e2 : (r : ℝ) + 1 ≤ 4 * g + 2 := by exact_mod_cast d2
    rw [abs_le]; constructor <;> linarith

theorem sqrt_fin {x : FP f} (hx : x.isFinite = true) (h : 0 < x.val) : FP.sqrt x = ofRat f false (sqrtApprox f x.val) := by
  obtain ⟨h1, h2⟩ := val_pos_iff.1 h
  unfold FP.sqrt
  have : x.isZero = false := by simp [isZero]; omega
  simp [finite_not_nan hx, finite_not_inf hx, h1, this]

/-- The square root is within half a unit in the last place. -/
theorem sqrt_err [f.Ok] (hE : f.emin ≤ -(f.mb : ℤ) - 2) {x : FP f} (hx : x.isFinite = true) (h : 0 < x.val) :
    (FP.sqrt x).isFinite = true ∧ (FP.sqrt x).sign = false ∧ |(FP.sqrt x).real - Real.sqrt x.real| ≤ f.u * Real.sqrt x.real := by
  obtain ⟨k, r, v, e1, hk, r1, r2, hv⟩ := sqrtApprox_spec f h
  have r0 : (0 : ℚ) < r := by
    have : 0 < r := lt_of_lt_of_le (by positivity) r1
    exact_mod_cast this
  have v1 : (r : ℚ) ≤ v := by rcases hv with h | h <;> linarith [h.1]
  have v2 : v < r + 1 := by rcases hv with h | h <;> linarith [h.1]
  have pk := p2_pos (-k)
  have v0 : 0 < v := by linarith
  have a0 : 0 < sqrtApprox f x.val := by rw [e1]; exact mul_pos v0 pk
  -- the binade of the approximation
  have l1 : p2 ((f.mb : ℤ) + 2 - k) ≤ sqrtApprox f x.val := by
    rw [e1, show (f.mb : ℤ) + 2 - k = ((f.mb + 2 : ℕ) : ℤ) + -k by push_cast; ring, p2_add, p2_nat]
    refine mul_le_mul_of_nonneg_right ?_ pk.le
    have : ((2 ^ (f.mb + 2) : ℕ) : ℚ) ≤ r := by exact_mod_cast r1
    push_cast at this; linarith
  have l2 : sqrtApprox f x.val < p2 ((f.mb : ℤ) + 2 - k + 1) := by
    rw [e1, show (f.mb : ℤ) + 2 - k + 1 = ((f.mb + 3 : ℕ) : ℤ) + -k by push_cast; ring, p2_add, p2_nat]
    refine mul_lt_mul_of_pos_right ?_ pk
    have : ((r + 1 : ℕ) : ℚ) ≤ ((2 ^ (f.mb + 3) : ℕ) : ℚ) := by exact_mod_cast r2
    push_cast at this; linarith
  have il := ilog2_unique l1 l2
  -- the exponent of `x`
  have mx : x.mag < f.infMag := by simpa [isFinite] using hx
  have ex1 : f.emin - f.mb ≤ ilog2 x.val := by
    have hp : 0 < x.mag := (val_pos_iff.1 h).2
    have h1 : magVal f 1 ≤ x.val := by
      have := abs_val x
      rw [abs_of_pos h] at this
      rw [this]; exact magVal_le.2 hp
    have h2 : magVal f 1 = p2 (f.emin - f.mb) := by
      have k := magVal_code f (e := f.emin) (k := 1) le_rfl (Nat.one_le_two_pow) (Or.inr rfl)
      rw [sub_self, Int.toNat_zero, Nat.zero_mul, Nat.zero_add] at k
      rw [k]; simp
    rw [h2] at h1
    by_contra hc
    push Not at hc
    have h3 := (ilog2_spec h).2
    have := p2_le (a := ilog2 x.val + 1) (b := f.emin - f.mb) (by omega)
    linarith
  have rx : rexp f (sqrtApprox f x.val) = (f.mb : ℤ) + 2 - k := by
    unfold rexp
    rw [il, max_eq_left]
    omega
  have xb := finite_le_big hx
  rw [abs_of_pos h] at xb
  have ex2 : ilog2 x.val ≤ 2 - f.emin := by
    by_contra hc
    push Not at hc
    have h3 := (ilog2_spec h).1
    have h4 : 2 * f.big = p2 (2 - f.emin) := by
      unfold Fmt.big; rw [← p2_succ]; congr 1; ring
    have := p2_lt (a := 2 - f.emin) (b := ilog2 x.val) hc
    linarith
  have ab : sqrtApprox f x.val ≤ f.big := by
    refine l2.le.trans ?_
    unfold Fmt.big
    exact p2_le (by omega)
  rw [sqrt_fin hx h]
  refine ⟨finite_ofRat _ (by rw [abs_of_pos a0]; exact ab), ?_, ?_⟩
  · unfold ofRat
    simp only
    rw [if_neg a0.ne']
    exact decide_eq_false (by linarith)
  -- the rounded value
  have e2 : rnd f (sqrtApprox f x.val) = rsig f (sqrtApprox f x.val) * p2 (2 - k) := by
    unfold rnd
    rw [if_neg (by linarith), roundMag_eq_rcode f a0 ab, magVal_rcode f a0, rx]
    congr 2; ring
  have e3 : sqrtApprox f x.val / p2 (rexp f (sqrtApprox f x.val) - f.mb) = v / 4 := by
    rw [rx, e1, show (f.mb : ℤ) + 2 - k - f.mb = 2 + -k by ring, p2_add, show p2 2 = 4 by rw [p2_eq]; norm_num]
    field_simp
  have g := rne_bounds (q := v / 4) (by positivity)
  have e4 : rsig f (sqrtApprox f x.val) = rne (v / 4) := by unfold rsig; rw [e3]
  have e5 : (ofRat f false (sqrtApprox f x.val)).real = 4 * (rne (v / 4) : ℝ) * ((p2 (-k) : ℚ) : ℝ) := by
    unfold FP.real
    rw [val_ofRat, e2, e4, show 2 - k = 2 + -k by ring, p2_add, show p2 2 = 4 by rw [p2_eq]; norm_num]
    push_cast; ring
  -- the real root, scaled
  have x0 : 0 ≤ x.real := by unfold FP.real; exact_mod_cast h.le
  have pkr : (0 : ℝ) < ((p2 (-k) : ℚ) : ℝ) := by exact_mod_cast pk
  obtain ⟨t, ht⟩ : ∃ t : ℝ, t = Real.sqrt x.real / ((p2 (-k) : ℚ) : ℝ) := ⟨_, rfl⟩
  have t0 : 0 ≤ t := by rw [ht]; exact div_nonneg (Real.sqrt_nonneg _) pkr.le
  have et : Real.sqrt x.real = t * ((p2 (-k) : ℚ) : ℝ) := by rw [ht]; field_simp
  have tt : t * t = ((x.val * p2 (2 * k) : ℚ) : ℝ) := by
    have h1 : p2 (2 * k) * (p2 (-k) * p2 (-k)) = 1 := by
      rw [← p2_add, ← p2_add, show 2 * k + (-k + -k) = 0 by ring, p2_eq]; norm_num
    have h2 : (((p2 (2 * k) : ℚ) : ℝ)) * (((p2 (-k) : ℚ) : ℝ) * ((p2 (-k) : ℚ) : ℝ)) = 1 := by exact_mod_cast h1
    have h3 := Real.mul_self_sqrt x0
    rw [et] at h3
    have h4 : x.real = (x.val : ℝ) := rfl
    push_cast
    rw [← h4, ← h3]
    linear_combination (-(t * t)) * h2
  have r0R : (0 : ℝ) < r := by exact_mod_cast r0
  have near := grid_near (t := t) g (r := r) (by
    rcases hv with ⟨a, b⟩ | ⟨a, b, c⟩
    · refine Or.inl ⟨a, ?_⟩
      rw [b] at tt
      push_cast at tt
      nlinarith
    · refine Or.inr ⟨a, ?_, ?_⟩
      · have : ((r : ℝ)) * r < t * t := by rw [tt]; exact_mod_cast b
        nlinarith
      · have : t * t < ((r : ℝ) + 1) * (r + 1) := by rw [tt]; exact_mod_cast c
        nlinarith)
  rw [e5, et]
  have tl : (2 : ℝ) ^ (f.mb + 2) ≤ t := by
    have h1 : ((2 ^ (f.mb + 2) : ℕ) : ℝ) ≤ r := by exact_mod_cast r1
    push_cast at h1
    refine h1.trans ?_
    rcases hv with ⟨a, b⟩ | ⟨a, b, c⟩
    · rw [b] at tt
      push_cast at tt
      nlinarith
    · have : ((r : ℝ)) * r < t * t := by rw [tt]; exact_mod_cast b
      nlinarith
  have uv : (f.u : ℝ) * 2 ^ (f.mb + 2) = 2 := by
    have : f.u * 2 ^ (f.mb + 2) = 2 := by
      unfold Fmt.u
      rw [← p2_nat, ← p2_add, show -(f.mb : ℤ) - 1 + ((f.mb + 2 : ℕ) : ℤ) = 1 by push_cast; ring, p2_eq]; norm_num
    exact_mod_cast this
  have u0 : (0 : ℝ) < f.u := by exact_mod_cast f.u_pos
  rw [← sub_mul, abs_mul, abs_of_pos pkr, ← mul_assoc]
  refine mul_le_mul_of_nonneg_right ?_ pkr.le
  have := mul_le_mul_of_nonneg_left tl u0.le
  linarith

end Vdt
