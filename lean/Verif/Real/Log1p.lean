import Verif.Real.Tools

/-! # `log (1+x)` through `s = x/(2+x)`, and approximants of the form `x - x²/2 + x³ P/Q` -/

namespace Vdt
open Set

/-- `2 Σ_{k<14} s^(2k)/(2k+1)` -/
def log1pG : List ℚ := psq ((List.range 14).map fun k => 2 / (2 * (k : ℚ) + 1))

/-- `s * log1pG(s)`, whose derivative is `2 (1 - s^28)/(1-s²)` -/
def log1pS : List ℚ := 0 :: log1pG

theorem log1pS_deriv (s : ℝ) : pev (pder log1pS) s * (1 - s ^ 2) = 2 * (1 - s ^ 28) := by
  have e : pmul (pder log1pS) [1, 0, -1] = [2, 0, 0, 0, 0, 0, 0, 0, 0, 0, 0, 0, 0, 0, 0, 0, 0, 0, 0, 0, 0, 0, 0, 0, 0, 0, 0, 0, -2, 0, 0] := by
    decide +kernel
  have h := congrArg (fun l => pev l s) e
  simp only [pev_mul, pev_cons, pev_nil] at h
  push_cast at h
  linear_combination h

theorem log1p_series {s : ℝ} (hs : |s| ≤ 0.1717) :
    |Real.log (1 + s) - Real.log (1 - s) - s * pev log1pG s| ≤ 1 / 2 ^ 70 * |s| := by
  have key := mvt_bound (f := fun y => Real.log (1 + y) - Real.log (1 - y) - pev log1pS y)
    (f' := fun y => 1 / (1 + y) - (-1) / (1 - y) - pev (pder log1pS) y) (C := 1 / 2 ^ 70) (x := s)
    (fun y hy => by
      have hy' := abs_le.1 ((mem_uIcc_abs hy).trans hs)
      have h1 : HasDerivAt (fun y : ℝ => 1 + y) 1 y := (hasDerivAt_id y).const_add 1
      have h2 : HasDerivAt (fun y : ℝ => 1 - y) (-1) y := (hasDerivAt_id y).const_sub 1
      exact ((h1.log (by linarith)).sub (h2.log (by linarith))).sub (hasDerivAt_pev _ _))
    (fun y hy => by
      have hy' := (mem_uIcc_abs hy).trans hs
      have hy2 := abs_le.1 hy'
      have h1 : 0 < 1 - y ^ 2 := by nlinarith
      have a1 : 1 + y ≠ 0 := by linarith
      have a2 : 1 - y ≠ 0 := by linarith
      have e : 1 / (1 + y) - (-1) / (1 - y) - pev (pder log1pS) y = 2 * y ^ 28 / (1 - y ^ 2) := by
        rw [eq_div_iff h1.ne']
        have := log1pS_deriv y
        have e2 : (1 / (1 + y) - (-1) / (1 - y)) * (1 - y ^ 2) = 2 := by field_simp; ring
        rw [sub_mul, e2, this]; ring
      rw [e, abs_div, abs_of_pos h1, div_le_iff₀ h1, abs_mul, abs_pow]
      have h3 : |y| ^ 28 ≤ 0.1717 ^ 28 := pow_le_pow_left₀ (abs_nonneg _) hy' 28
      have h4 : (0.97 : ℝ) ≤ 1 - y ^ 2 := by nlinarith
      have h5 : (2 : ℝ) * 0.1717 ^ 28 ≤ 1 / 2 ^ 70 * 0.97 := by norm_num
      have h6 : (0 : ℝ) < 1 / 2 ^ 70 := by positivity
      rw [abs_two]
      have h7 := mul_le_mul_of_nonneg_left h4 h6.le
      linarith)
  simpa [log1pS] using key

/-- `(1-s)^n p(2s/(1-s))` -/
def phom : List ℚ → ℕ → List ℚ
  | [], _ => []
  | c :: p, n => padd (psmul c (ppow [1, -1] n)) (pmul [0, 2] (phom p (n - 1)))

theorem pev_phom (p : List ℚ) (n : ℕ) (h : p.length ≤ n + 1) {s x : ℝ} (hs : 1 - s ≠ 0) (hx : x = 2 * s / (1 - s)) :
    pev (phom p n) s = (1 - s) ^ n * pev p x := by
  induction p generalizing n with
  | nil => simp [phom]
  | cons c p ih =>
    simp only [List.length_cons] at h
    rw [phom, pev_add, pev_smul, pev_pow, pev_mul]
    simp only [pev_cons, pev_nil]
    push_cast
    cases n with
    | zero =>
      have : p = [] := List.eq_nil_of_length_eq_zero (by omega)
      subst this
      simp [phom]
    | succ n =>
      rw [Nat.add_sub_cancel, ih n (by omega), hx]
      field_simp
      ring

/-- Approximant `x - x²/2 + x³ P(x)/Q(x)`, numerator over `s` of the difference to the series,
in the variable `s`; common denominator `(1-s)³ Q~(s)`. -/
def logNum (P Q : List ℚ) (n : ℕ) : List ℚ :=
  let o : List ℚ := [1, -1]
  let Qh := phom Q n
  psub (padd (psub (pmul [2] (pmul (ppow o 2) Qh)) (pmul [0, 2] (pmul o Qh))) (pmul [0, 0, 8] (phom P n)))
    (pmul log1pG (pmul (ppow o 3) Qh))

def logDen (Q : List ℚ) (n : ℕ) : List ℚ := pmul [2] (pmul (ppow [1, -1] 2) (phom Q n))

/-- If the polynomial check succeeds, the approximant is `C`-close to `log(1+x)` relative to `|x|`. -/
theorem log1p_approx {P Q : List ℚ} {n : ℕ} {C : ℚ} (hP : P.length ≤ n + 1) (hQ : Q.length ≤ n + 1)
    (hc : ∀ s : ℝ, |s| ≤ 0.1717 → |pev (logNum P Q n) s| ≤ C * pev (logDen Q n) s)
    {x : ℝ} (h1 : -0.293 ≤ x) (h2 : x ≤ 0.4143) (hQ0 : 0 < pev Q x) :
    |x - x ^ 2 / 2 + x ^ 3 * pev P x / pev Q x - Real.log (1 + x)| ≤ (C + 1 / 2 ^ 70) * |x| := by
  obtain ⟨s, hs⟩ : ∃ s, s = x / (2 + x) := ⟨_, rfl⟩
  have h2x : 0 < 2 + x := by linarith
  have hsb : |s| ≤ 0.1717 := by
    rw [hs, abs_div, abs_of_pos h2x, div_le_iff₀ h2x]
    rw [abs_le]; constructor <;> nlinarith
  have hsb' := abs_le.1 hsb
  have h1s : 0 < 1 - s := by linarith
  have hx : x = 2 * s / (1 - s) := by
    have : (1 : ℝ) - s = 2 / (2 + x) := by rw [hs]; field_simp; ring
    rw [this, hs]; field_simp
  have hlog : Real.log (1 + x) = Real.log (1 + s) - Real.log (1 - s) := by
    rw [← Real.log_div (by linarith) (by linarith)]
    apply congrArg
    rw [hx]; field_simp; ring
  have ser := log1p_series hsb
  rw [← hlog] at ser
  have hr := hc s hsb
  have eQ := pev_phom Q n hQ h1s.ne' hx
  have eP := pev_phom P n hP h1s.ne' hx
  obtain ⟨q, hq⟩ : ∃ q, q = pev Q x := ⟨_, rfl⟩
  obtain ⟨p, hp⟩ : ∃ p, p = pev P x := ⟨_, rfl⟩
  obtain ⟨g, hg⟩ : ∃ g, g = pev log1pG s := ⟨_, rfl⟩
  have hqp : 0 < q := hq ▸ hQ0
  simp only [logNum, logDen, pev_sub, pev_add, pev_mul, pev_pow, pev_cons, pev_nil, eQ, eP] at hr
  rw [← hq, ← hp, ← hg] at hr
  rw [← hg] at ser
  rw [← hq, ← hp]
  push_cast at hr
  obtain ⟨w, hw⟩ : ∃ w, w = (1 - s) ^ n := ⟨_, rfl⟩
  have hwp : 0 < w := by rw [hw]; positivity
  rw [← hw] at hr
  have hsx : |s| ≤ |x| := by
    rw [hs, abs_div, abs_of_pos h2x, div_le_iff₀ h2x]
    nlinarith [abs_nonneg x]
  -- the difference in terms of the numerator
  have hD : 0 < (1 - s) ^ 3 * (w * q) := by positivity
  have e : x - x ^ 2 / 2 + x ^ 3 * p / q - s * g =
      s * ((2 * ((1 - s) ^ 2 * (w * q)) - s * 2 * ((1 - s) * (w * q)) + s * (s * 8) * (w * p)) - g * ((1 - s) ^ 3 * (w * q))) /
        ((1 - s) ^ 3 * (w * q)) := by
    rw [hx]; field_simp; ring
  have b1 : |x - x ^ 2 / 2 + x ^ 3 * p / q - s * g| ≤ C * |x| := by
    rw [e, abs_div, abs_of_pos hD, div_le_iff₀ hD, abs_mul]
    have e2 : (C : ℝ) * |x| * ((1 - s) ^ 3 * (w * q)) = |s| * (C * (2 * ((1 - s) ^ 2 * (w * q)))) := by
      rw [hx, abs_div, abs_mul, abs_two, abs_of_pos h1s]; field_simp
    rw [e2]
    apply mul_le_mul_of_nonneg_left _ (abs_nonneg _)
    have z1 : 1 + s * -1 = 1 - s := by ring
    simp only [mul_zero, add_zero, zero_add, z1] at hr
    exact hr
  have : x - x ^ 2 / 2 + x ^ 3 * p / q - Real.log (1 + x) =
      (x - x ^ 2 / 2 + x ^ 3 * p / q - s * g) - (Real.log (1 + x) - s * g) := by ring
  rw [this]
  refine (abs_sub _ _).trans ?_
  have h6 : (0 : ℝ) < 1 / 2 ^ 70 := by positivity
  have := mul_le_mul_of_nonneg_left hsx h6.le
  rw [add_mul]
  linarith

end Vdt
