import Verif.Lemmas.Newton
import Verif.Lemmas.AtanPos

/-! # The starting value of the reciprocal square root: an integer subtraction on the bit pattern (`include/sqrt.h:43-45`) -/

namespace Vdt
open FP details
variable {f : Fmt}

/-- What the magic constant `A * 2^mb + Km` must satisfy. -/
structure StartOk (f : Fmt) (A Km : ℕ) : Prop where
  km1 : 43243 * 2 ^ f.mb ≤ 100000 * Km
  km2 : 100000 * Km ≤ 43246 * 2 ^ f.mb
  ex : 2 * ((A : ℤ) - 1) + 3 * f.emin = 0
  lo : 2 ^ f.eb + 4 ≤ 2 * A
  hi : A + 1 < 2 ^ f.eb - 1
  mb : 1000000 ≤ 2 ^ f.mb

theorem start64 : StartOk b64 1534 1947582039988729 := by constructor <;> decide +kernel
theorem start32 : StartOk b32 190 3627487 := by constructor <;> decide +kernel

/-- The value of a code with a given exponent field and fraction. -/
theorem norm_val (f : Fmt) {E m : ℕ} (hE : 1 ≤ E) (hm : m ≤ 2 ^ f.mb) : magVal f (E * 2 ^ f.mb + m) = ((2 ^ f.mb + m : ℕ) : ℚ) * p2 ((E : ℤ) - 1 + f.emin - f.mb) := by
  have h := magVal_code f (e := (E : ℤ) - 1 + f.emin) (k := 2 ^ f.mb + m) (by omega) (by rw [pow_succ]; omega) (Or.inl (by omega))
  rw [← h]
  congr 1
  have : ((E : ℤ) - 1 + f.emin - f.emin).toNat = E - 1 := by omega
  rw [this]
  obtain ⟨e, rfl⟩ : ∃ e, E = e + 1 := ⟨E - 1, by omega⟩
  rw [Nat.add_sub_cancel, Nat.add_mul, Nat.one_mul, Nat.add_assoc]

/-- The product of one number and the square of another is greatest when they are equal, given their weighted sum. -/
theorem amgm3 {a b m : ℝ} (h : a + 2 * b = 3 * m) (hm : 0 ≤ m) (hb : 0 ≤ b) : a * (b * b) ≤ m ^ 3 := by
  have e : m ^ 3 - a * (b * b) = (m - b) ^ 2 * (m + 2 * b) := by rw [show a = 3 * m - 2 * b by linarith]; ring
  have := mul_nonneg (sq_nonneg (m - b)) (by linarith : 0 ≤ m + 2 * b)
  linarith

/-- Monotone comparison of products `r * z^2`. -/
theorem prod_mono {r r' z z' : ℝ} (hr : 0 ≤ r) (hr' : r ≤ r') (hz : 0 ≤ z) (hz' : z ≤ z') : r * (z * z) ≤ r' * (z' * z') :=
  mul_le_mul hr' (mul_le_mul hz' hz' hz (hz.trans hz')) (mul_nonneg hz hz) (hr.trans hr')

/-- The three shapes of `x * y0^2`. -/
theorem shapeA_bound {s t c : ℝ} (t0 : 0 ≤ t) (t1 : t ≤ c) (c1 : 0.43243 ≤ c) (c2 : c ≤ 0.43246) (s1 : 2 * t ≤ s) (s2 : s ≤ 2 * t + 0.000001) :
    0.93243 ≤ (1 + s) / 2 * ((1 + c - t) * (1 + c - t)) ∧ (1 + s) / 2 * ((1 + c - t) * (1 + c - t)) ≤ 1.06913 := by
  obtain ⟨r, rfl⟩ : ∃ r, t = c - r := ⟨c - t, by ring⟩
  have r0 : 0 ≤ r := by linarith
  have rc : r ≤ c := by linarith
  have b0 : 0 ≤ (1 + r) * (1 + r) := mul_self_nonneg _
  have b1 : (1 + r) * (1 + r) ≤ 2.1 := by nlinarith
  rw [show 1 + c - (c - r) = 1 + r by ring]
  constructor
  · have k : 0 ≤ r * (c + 3 * (c - r) + 2 * (r * (c - r))) := by
      have := mul_nonneg r0 (sub_nonneg.2 rc)
      exact mul_nonneg r0 (by linarith)
    have h : (1 + 2 * (c - r)) / 2 * ((1 + r) * (1 + r)) ≤ (1 + s) / 2 * ((1 + r) * (1 + r)) := mul_le_mul_of_nonneg_right (by linarith) b0
    have e : (1 + 2 * (c - r)) / 2 * ((1 + r) * (1 + r)) = (1 + 2 * c) / 2 + r * (c + 3 * (c - r) + 2 * (r * (c - r))) / 2 := by ring
    linarith
  · have m := amgm3 (a := 1 + 2 * (c - r)) (b := 1 + r) (m := 1 + 2 * c / 3) (by ring) (by linarith) (by linarith)
    have m2 : (1 + 2 * c / 3) ^ 3 ≤ (1 + 2 * 0.43246 / 3) ^ 3 := pow_le_pow_left₀ (by linarith) (by linarith) 3
    have h : (1 + s) / 2 * ((1 + r) * (1 + r)) ≤ (1 + (2 * (c - r) + 0.000001)) / 2 * ((1 + r) * (1 + r)) := mul_le_mul_of_nonneg_right (by linarith) b0
    norm_num at m2 h ⊢
    linarith

theorem shapeB_bound {s t c : ℝ} (t0 : c ≤ t) (t1 : t ≤ 0.5) (c1 : 0.43243 ≤ c) (c2 : c ≤ 0.43246) (s1 : 2 * t ≤ s) (s2 : s ≤ 2 * t + 0.000001) :
    0.93243 ≤ (1 + s) / 8 * ((2 + c - t) * (2 + c - t)) ∧ (1 + s) / 8 * ((2 + c - t) * (2 + c - t)) ≤ 1.06913 := by
  obtain ⟨r, rfl⟩ : ∃ r, t = c + r := ⟨t - c, by ring⟩
  have r0 : 0 ≤ r := by linarith
  have rc : r ≤ 0.0676 := by linarith
  have b0 : 0 ≤ (2 - r) * (2 - r) := mul_self_nonneg _
  have b1 : (2 - r) * (2 - r) ≤ 4 := by nlinarith
  rw [show 2 + c - (c + r) = 2 - r by ring]
  constructor
  · have k : 0 ≤ r * (2 * ((2 - r) * (2 - r)) - (1 + 2 * c) * (4 - r)) := by
      refine mul_nonneg r0 ?_
      nlinarith
    have h : (1 + 2 * (c + r)) / 8 * ((2 - r) * (2 - r)) ≤ (1 + s) / 8 * ((2 - r) * (2 - r)) := mul_le_mul_of_nonneg_right (by linarith) b0
    have e : (1 + 2 * (c + r)) / 8 * ((2 - r) * (2 - r)) = (1 + 2 * c) / 2 + r * (2 * ((2 - r) * (2 - r)) - (1 + 2 * c) * (4 - r)) / 8 := by ring
    linarith
  · have h : (1 + s) / 8 * ((2 - r) * (2 - r)) ≤ 2.1 / 8 * 4 := mul_le_mul (by linarith) b1 b0 (by norm_num)
    norm_num at h ⊢
    linarith

theorem shapeC_bound {s t c : ℝ} (t0 : 0.5 ≤ t) (t1 : t ≤ 1) (c1 : 0.43243 ≤ c) (c2 : c ≤ 0.43246) (s1 : 2 * t ≤ s) (s2 : s ≤ 2 * t + 0.000001) :
    0.93243 ≤ s / 4 * ((2 + c - t) * (2 + c - t)) ∧ s / 4 * ((2 + c - t) * (2 + c - t)) ≤ 1.06913 := by
  have b0 : 0 ≤ (2 + c - t) * (2 + c - t) := mul_self_nonneg _
  have b1 : (2 + c - t) * (2 + c - t) ≤ 4 := by nlinarith
  constructor
  · have h : (2 * t) / 4 * ((2 + 0.43243 - t) * (2 + 0.43243 - t)) ≤ s / 4 * ((2 + c - t) * (2 + c - t)) :=
      mul_le_mul (by linarith) (mul_le_mul (by linarith) (by linarith) (by linarith) (by linarith)) (mul_self_nonneg _) (by linarith)
    refine le_trans ?_ h
    obtain ⟨r, rfl⟩ : ∃ r, t = 0.5 + r := ⟨t - 0.5, by ring⟩
    have r0 : 0 ≤ r := by linarith
    have r1 : 0 ≤ 0.5 - r := by linarith
    have k1 := mul_nonneg r0 r1
    have k2 := mul_nonneg r0 (mul_self_nonneg r)
    norm_num at k1 k2 ⊢
    nlinarith
  · have m := amgm3 (a := 2 * t) (b := 2 + c - t) (m := (4 + 2 * c) / 3) (by ring) (by linarith) (by linarith)
    have m2 : ((4 + 2 * c) / 3) ^ 3 ≤ ((4 + 2 * 0.43246) / 3) ^ 3 := pow_le_pow_left₀ (by linarith) (by linarith) 3
    have h : s / 4 * ((2 + c - t) * (2 + c - t)) ≤ (2 * t + 0.000001) / 4 * ((2 + c - t) * (2 + c - t)) := mul_le_mul_of_nonneg_right (by linarith) b0
    norm_num at m2 h ⊢
    linarith

/-- The square root of a near-one product. -/
theorem sqrt_near {X Y : ℝ} (hX : 0 < X) (hY : 0 ≤ Y) (h : |X * (Y * Y) - 1| ≤ 0.0695) : |Real.sqrt X * Y - 1| ≤ 0.0354 := by
  have SS := Real.mul_self_sqrt hX.le
  have S0 := Real.sqrt_nonneg X
  generalize Real.sqrt X = S at *
  have a := abs_le.1 h
  have e : X * (Y * Y) = (S * Y) * (S * Y) := by rw [← SS]; ring
  rw [e] at a
  have z0 : 0 ≤ S * Y := mul_nonneg S0 hY
  generalize S * Y = z at *
  rw [abs_le]; constructor <;> nlinarith


theorem p2_prod3 {a b : ℤ} {n : ℕ} {k : ℤ} (h : a + 2 * b + 3 * (n : ℤ) = k) : p2 a * (p2 b * p2 b) = p2 k / ((2 : ℚ) ^ n) ^ 3 := by
  have : ((2 : ℚ) ^ n) ^ 3 = p2 (n : ℤ) * (p2 (n : ℤ) * p2 (n : ℤ)) := by rw [p2_nat]; ring
  rw [this, eq_div_iff (by have := p2_pos (n : ℤ); positivity), ← h, p2_add, p2_add, show 2 * b = b + b by ring, p2_add,
    show 3 * (n : ℤ) = n + (n + n) by ring, p2_add, p2_add]

theorem near_of_eq {v w a b : ℝ} (h : v = w) (k : a ≤ w ∧ w ≤ b) : a ≤ v ∧ v ≤ b := h ▸ k

/-- The starting value is within 4% of the reciprocal square root: the product of its square and the argument is near one. -/
theorem start_prod_tight {A Km : ℕ} (ok : StartOk f A Km) {i : ℕ} (h1 : 2 ^ f.mb ≤ i) (h2 : i < f.infMag) :
    A * 2 ^ f.mb + Km - i / 2 < f.infMag ∧
    0.93243 ≤ ((magVal f i * (magVal f (A * 2 ^ f.mb + Km - i / 2) * magVal f (A * 2 ^ f.mb + Km - i / 2)) : ℚ) : ℝ) ∧
    ((magVal f i * (magVal f (A * 2 ^ f.mb + Km - i / 2) * magVal f (A * 2 ^ f.mb + Km - i / 2)) : ℚ) : ℝ) ≤ 1.06913 := by
  obtain ⟨M, hM⟩ : ∃ M, 2 ^ f.mb = M := ⟨_, rfl⟩
  have nv : ∀ {E m : ℕ}, 1 ≤ E → m ≤ M → magVal f (E * M + m) = ((M + m : ℕ) : ℚ) * p2 ((E : ℤ) - 1 + f.emin - f.mb) := by
    intro E m; rw [← hM]; exact norm_val f
  have km1 := ok.km1; have km2 := ok.km2; have lo := ok.lo; have hi := ok.hi; have mb := ok.mb; have ex := ok.ex
  unfold Fmt.infMag at h2 ⊢
  rw [hM] at km1 km2 mb h1 h2 ⊢
  have hMQ : ((2 : ℚ) ^ f.mb) = (M : ℚ) := by rw [← hM]; push_cast; rfl
  obtain ⟨k, w, hi', hw⟩ : ∃ k w, i = k * (2 * M) + w ∧ w < 2 * M :=
    ⟨i / (2 * M), i % (2 * M), by rw [Nat.mul_comm]; exact (Nat.div_add_mod _ _).symm, Nat.mod_lt _ (by omega)⟩
  obtain ⟨h, hh⟩ : ∃ h, h = w / 2 := ⟨_, rfl⟩
  have hi2 : i / 2 = k * M + h := by
    rw [hi', show k * (2 * M) = 2 * (k * M) by ring, hh]; omega
  have hk : 2 * k < 2 ^ f.eb - 1 := by
    by_contra hc
    push Not at hc
    have := Nat.mul_le_mul_right M hc
    rw [show 2 * k * M = k * (2 * M) by ring] at this
    omega
  obtain ⟨d, hd⟩ : ∃ d, A = k + 2 + d := ⟨A - k - 2, by omega⟩
  have hAM : A * M = k * M + M + M + d * M := by rw [hd]; ring
  have hEM : (A + 2) * M ≤ (2 ^ f.eb - 1) * M := Nat.mul_le_mul_right M (by omega)
  have hEM2 : (A + 2) * M = A * M + M + M := by ring
  have hm2 : M = 2 * (M / 2) := by
    have : 1 ≤ f.mb := by
      by_contra hc
      have : f.mb = 0 := by omega
      rw [this] at hM; omega
    obtain ⟨n, hn⟩ : ∃ n, f.mb = n + 1 := ⟨f.mb - 1, by omega⟩
    rw [← hM, hn, pow_succ]; omega
  refine ⟨by rw [hi2]; omega, ?_⟩
  -- real variables
  have MR : (1000000 : ℝ) ≤ M := by exact_mod_cast mb
  have M0 : (0 : ℝ) < M := by linarith
  obtain ⟨c, hc⟩ : ∃ c : ℝ, c = Km / M := ⟨_, rfl⟩
  obtain ⟨t, ht⟩ : ∃ t : ℝ, t = h / M := ⟨_, rfl⟩
  obtain ⟨s, hs⟩ : ∃ s : ℝ, s = w / M := ⟨_, rfl⟩
  have cM : (Km : ℝ) = c * M := by rw [hc]; field_simp
  have tM : (h : ℝ) = t * M := by rw [ht]; field_simp
  have sM : (w : ℝ) = s * M := by rw [hs]; field_simp
  have c1 : 0.43243 ≤ c := by
    rw [hc, le_div_iff₀ M0]
    have : (43243 * M : ℝ) ≤ 100000 * Km := by exact_mod_cast km1
    linarith
  have c2 : c ≤ 0.43246 := by
    rw [hc, div_le_iff₀ M0]
    have : (100000 * Km : ℝ) ≤ 43246 * M := by exact_mod_cast km2
    linarith
  have s1 : 2 * t ≤ s := by
    rw [ht, hs, ← mul_div_assoc, div_le_div_iff_of_pos_right M0]
    have : 2 * h ≤ w := by omega
    exact_mod_cast this
  have s2 : s ≤ 2 * t + 0.000001 := by
    have e1 : s ≤ 2 * t + 1 / M := by
      rw [ht, hs, ← mul_div_assoc, ← add_div, div_le_div_iff_of_pos_right M0]
      have : w ≤ 2 * h + 1 := by omega
      exact_mod_cast this
    have : 1 / (M : ℝ) ≤ 0.000001 := by rw [div_le_iff₀ M0]; linarith
    linarith
  have t0 : 0 ≤ t := by rw [ht]; positivity
  rcases Nat.lt_or_ge w M with hwM | hwM
  · -- even exponent field
    have k1 : 1 ≤ k := by
      by_contra hc
      have : k = 0 := by omega
      rw [this] at hi'; omega
    have e1 : i = (2 * k) * M + w := by rw [hi']; ring
    have v1 := nv (E := 2 * k) (m := w) (by omega) hwM.le
    rcases Nat.lt_or_ge Km h with hK | hK
    · have e2 : A * M + Km - i / 2 = (d + 1) * M + (M + Km - h) := by rw [hi2, hAM, Nat.add_mul]; omega
      have v2 := nv (E := d + 1) (m := M + Km - h) (by omega) (by omega)
      have p := p2_prod3 (a := ((2 * k : ℕ) : ℤ) - 1 + f.emin - f.mb) (b := ((d + 1 : ℕ) : ℤ) - 1 + f.emin - f.mb) (n := f.mb) (k := -3) (by push_cast; omega)
      have b := shapeB_bound (s := s) (t := t) (c := c) ?_ ?_ c1 c2 s1 s2
      · rw [e2, e1, v1, v2]
        have e3 : ((M + (M + Km - h) : ℕ) : ℚ) = 2 * M + Km - h := by
          rw [show M + (M + Km - h) = 2 * M + Km - h by omega, Nat.cast_sub (by omega)]; push_cast; ring
        rw [e3]
        refine near_of_eq ?_ b
        rw [show ((M + w : ℕ) : ℚ) * p2 (((2 * k : ℕ) : ℤ) - 1 + f.emin - f.mb) * ((2 * (M : ℚ) + Km - h) * p2 (((d + 1 : ℕ) : ℤ) - 1 + f.emin - f.mb) * ((2 * (M : ℚ) + Km - h) * p2 (((d + 1 : ℕ) : ℤ) - 1 + f.emin - f.mb)))
          = ((M + w : ℕ) : ℚ) * ((2 * (M : ℚ) + Km - h) * (2 * (M : ℚ) + Km - h)) * (p2 (((2 * k : ℕ) : ℤ) - 1 + f.emin - f.mb) * (p2 (((d + 1 : ℕ) : ℤ) - 1 + f.emin - f.mb) * p2 (((d + 1 : ℕ) : ℤ) - 1 + f.emin - f.mb))) by ring, p, hMQ,
          show p2 (-3) = 1 / 8 by rw [p2_eq]; norm_num]
        push_cast
        rw [cM, tM, sM]
        field_simp
      · rw [ht, le_div_iff₀ M0, ← cM]
        exact_mod_cast hK.le
      · rw [ht, div_le_iff₀ M0]
        have : 2 * h ≤ M := by omega
        have : (2 * h : ℝ) ≤ M := by exact_mod_cast this
        linarith
    · have e2 : A * M + Km - i / 2 = (d + 2) * M + (Km - h) := by rw [hi2, hAM, Nat.add_mul]; omega
      have v2 := nv (E := d + 2) (m := Km - h) (by omega) (by omega)
      have p := p2_prod3 (a := ((2 * k : ℕ) : ℤ) - 1 + f.emin - f.mb) (b := ((d + 2 : ℕ) : ℤ) - 1 + f.emin - f.mb) (n := f.mb) (k := -1) (by push_cast; omega)
      have b := shapeA_bound (s := s) (t := t) (c := c) t0 ?_ c1 c2 s1 s2
      · rw [e2, e1, v1, v2]
        have e3 : ((M + (Km - h) : ℕ) : ℚ) = M + Km - h := by
          rw [show M + (Km - h) = M + Km - h by omega, Nat.cast_sub (by omega)]; push_cast; ring
        rw [e3]
        refine near_of_eq ?_ b
        rw [show ((M + w : ℕ) : ℚ) * p2 (((2 * k : ℕ) : ℤ) - 1 + f.emin - f.mb) * (((M : ℚ) + Km - h) * p2 (((d + 2 : ℕ) : ℤ) - 1 + f.emin - f.mb) * (((M : ℚ) + Km - h) * p2 (((d + 2 : ℕ) : ℤ) - 1 + f.emin - f.mb)))
          = ((M + w : ℕ) : ℚ) * (((M : ℚ) + Km - h) * ((M : ℚ) + Km - h)) * (p2 (((2 * k : ℕ) : ℤ) - 1 + f.emin - f.mb) * (p2 (((d + 2 : ℕ) : ℤ) - 1 + f.emin - f.mb) * p2 (((d + 2 : ℕ) : ℤ) - 1 + f.emin - f.mb))) by ring, p, hMQ,
          show p2 (-1) = 1 / 2 by rw [p2_eq]; norm_num]
        push_cast
        rw [cM, tM, sM]
        field_simp
      · rw [ht, div_le_iff₀ M0, ← cM]
        exact_mod_cast hK
  · -- odd exponent field
    have e1 : i = (2 * k + 1) * M + (w - M) := by rw [hi', Nat.add_mul, Nat.one_mul, show 2 * k * M = k * (2 * M) by ring]; omega
    have v1 := nv (E := 2 * k + 1) (m := w - M) (by omega) (by omega)
    have e2 : A * M + Km - i / 2 = (d + 1) * M + (M + Km - h) := by rw [hi2, hAM, Nat.add_mul]; omega
    have v2 := nv (E := d + 1) (m := M + Km - h) (by omega) (by omega)
    have p := p2_prod3 (a := ((2 * k + 1 : ℕ) : ℤ) - 1 + f.emin - f.mb) (b := ((d + 1 : ℕ) : ℤ) - 1 + f.emin - f.mb) (n := f.mb) (k := -2) (by push_cast; omega)
    have b := shapeC_bound (s := s) (t := t) (c := c) ?_ ?_ c1 c2 s1 s2
    · rw [e2, e1, v1, v2]
      have e3 : ((M + (M + Km - h) : ℕ) : ℚ) = 2 * M + Km - h := by
        rw [show M + (M + Km - h) = 2 * M + Km - h by omega, Nat.cast_sub (by omega)]; push_cast; ring
      rw [e3, show M + (w - M) = w by omega]
      refine near_of_eq ?_ b
      rw [show (w : ℚ) * p2 (((2 * k + 1 : ℕ) : ℤ) - 1 + f.emin - f.mb) * ((2 * (M : ℚ) + Km - h) * p2 (((d + 1 : ℕ) : ℤ) - 1 + f.emin - f.mb) * ((2 * (M : ℚ) + Km - h) * p2 (((d + 1 : ℕ) : ℤ) - 1 + f.emin - f.mb)))
        = (w : ℚ) * ((2 * (M : ℚ) + Km - h) * (2 * (M : ℚ) + Km - h)) * (p2 (((2 * k + 1 : ℕ) : ℤ) - 1 + f.emin - f.mb) * (p2 (((d + 1 : ℕ) : ℤ) - 1 + f.emin - f.mb) * p2 (((d + 1 : ℕ) : ℤ) - 1 + f.emin - f.mb))) by ring, p, hMQ,
        show p2 (-2) = 1 / 4 by rw [p2_eq]; norm_num]
      push_cast
      rw [cM, tM, sM]
      field_simp
    · rw [ht, le_div_iff₀ M0]
      have : M ≤ 2 * h := by omega
      have : (M : ℝ) ≤ 2 * h := by exact_mod_cast this
      linarith
    · rw [ht, div_le_iff₀ M0]
      have : h ≤ M := by omega
      have : (h : ℝ) ≤ M := by exact_mod_cast this
      linarith

theorem start_prod {A Km : ℕ} (ok : StartOk f A Km) {i : ℕ} (h1 : 2 ^ f.mb ≤ i) (h2 : i < f.infMag) :
    A * 2 ^ f.mb + Km - i / 2 < f.infMag ∧
    |((magVal f i * (magVal f (A * 2 ^ f.mb + Km - i / 2) * magVal f (A * 2 ^ f.mb + Km - i / 2)) : ℚ) : ℝ) - 1| ≤ 0.0695 := by
  obtain ⟨a, b, c⟩ := start_prod_tight ok h1 h2
  refine ⟨a, ?_⟩
  rw [abs_le]; constructor <;> linarith

end Vdt
