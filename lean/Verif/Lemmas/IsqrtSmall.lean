import Verif.Lemmas.Isqrt

/-! # The reciprocal square root on zero and the subnormal numbers: the loop stays positive and finite -/

namespace Vdt
open FP details
variable {f : Fmt}

/-- Rounded product with an absolute error. -/
theorem mul_add_err [f.Ok] {x y : FP f} (hx : x.isFinite = true) (hy : y.isFinite = true) (hi : |x.real * y.real| ≤ f.big) :
    (mul x y).isFinite = true ∧ |(mul x y).real - x.real * y.real| ≤ f.u * |x.real * y.real| + f.eta := by
  have e : x.real * y.real = ((x.val * y.val : ℚ) : ℝ) := by unfold FP.real; push_cast; rfl
  rw [e] at hi ⊢
  have hb : |x.val * y.val| ≤ f.big := by
    have : ((|x.val * y.val| : ℚ) : ℝ) ≤ f.big := by rw [Rat.cast_abs]; exact hi
    exact_mod_cast this
  have s := mul_spec hx hy hb
  refine ⟨s.1, ?_⟩
  have e2 : (mul x y).real = ((rnd f (x.val * y.val) : ℚ) : ℝ) := by unfold FP.real; rw [s.2]
  rw [e2]
  exact_mod_cast rnd_err_add f hb

/-- The exact map never exceeds one. -/
theorem newton_le_one {P : ℝ} (h : 0 ≤ P) : P * (3 / 2 - P * P / 2) ≤ 1 := by
  nlinarith [mul_nonneg (mul_self_nonneg (P - 1)) (by linarith : 0 ≤ P + 2)]

/-- Collected errors of `x2 * y * y` in absolute terms. -/
theorem small_prod {X v y a b u η : ℝ} (X0 : 0 ≤ X) (y1 : 1 ≤ y) (u0 : 0 < u) (u1 : u ≤ 1 / 1000000) (η0 : 0 ≤ η) (hη : η * (y * y) ≤ 0.00001)
    (hXy : X * (y * y) ≤ 1.003) (hv : |v - X / 2| ≤ u * X + η) (ha : |a - v * y| ≤ u * |v * y| + η) (hb : |b - a * y| ≤ u * |a * y| + η) :
    |b - X * (y * y) / 2| ≤ 0.0001 := by
  have y0 : 0 ≤ y := by linarith
  have yy : y ≤ y * y := by nlinarith
  have ηy : η * y ≤ η * (y * y) := mul_le_mul_of_nonneg_left yy η0
  have η1 : η ≤ η * y := by nlinarith
  have uXy : u * (X * (y * y)) ≤ 1 / 1000000 * 1.003 := mul_le_mul u1 hXy (by positivity) (by norm_num)
  -- scale the first two errors
  have e1 : |v * (y * y) - X * (y * y) / 2| ≤ 0.000012 := by
    have : v * (y * y) - X * (y * y) / 2 = (v - X / 2) * (y * y) := by ring
    rw [this, abs_mul, abs_of_nonneg (mul_nonneg y0 y0)]
    have := mul_le_mul_of_nonneg_right hv (mul_nonneg y0 y0)
    linarith
  have w1 := abs_le.1 e1
  have hvy : |v * y| * y = |v * (y * y)| := by rw [← mul_assoc, abs_mul (v * y) y, abs_of_nonneg y0]
  have k1 : |v * (y * y)| ≤ 1 := by
    rw [abs_le]
    have := mul_nonneg X0 (mul_nonneg y0 y0)
    constructor <;> linarith
  have e2 : |a * y - v * (y * y)| ≤ 0.000012 := by
    have : a * y - v * (y * y) = (a - v * y) * y := by ring
    rw [this, abs_mul, abs_of_nonneg y0]
    have h := mul_le_mul_of_nonneg_right ha y0
    rw [add_mul, mul_assoc, hvy] at h
    have : u * |v * (y * y)| ≤ 1 / 1000000 * 1 := mul_le_mul u1 k1 (abs_nonneg _) (by norm_num)
    linarith
  have w2 := abs_le.1 e2
  have k2 : |a * y| ≤ 2 := by
    have := abs_le.1 k1
    rw [abs_le]; constructor <;> linarith
  have k3 : u * |a * y| ≤ 1 / 1000000 * 2 := mul_le_mul u1 k2 (abs_nonneg _) (by norm_num)
  have w3 := abs_le.1 hb
  rw [abs_le]; constructor <;> linarith

/-- The last product. -/
theorem small_last {S P y c b r u η : ℝ} (S0 : 0 ≤ S) (S1 : S ≤ 1) (hP : S * y = P) (hP1 : P ≤ 1.001) (y1 : 2 ≤ y) (u0 : 0 < u) (u1 : u ≤ 1 / 1000000)
    (η0 : 0 ≤ η) (η1 : η ≤ 0.00001) (hb : |b - P * P / 2| ≤ 0.0001) (hc : |c - (3 / 2 - b)| ≤ u * 2) (hr : |r - y * c| ≤ u * |y * c| + η) :
    y / 2 ≤ r ∧ r ≤ 2 * y ∧ S * r ≤ 1.001 := by
  have y0 : 0 ≤ y := by linarith
  have P0 : 0 ≤ P := by rw [← hP]; exact mul_nonneg S0 y0
  have pp : P * P ≤ 1.003 := by nlinarith
  have pp0 : 0 ≤ P * P := mul_nonneg P0 P0
  have b1 := abs_le.1 hb
  have c1 := abs_le.1 hc
  have c2 : 0.9 ≤ c := by linarith
  have c3 : c ≤ 1.51 := by linarith
  have yc0 : 0 ≤ y * c := mul_nonneg y0 (by linarith)
  rw [abs_of_nonneg yc0] at hr
  have ycu : u * (y * c) ≤ 0.000001 * (y * c) := mul_le_mul_of_nonneg_right (by linarith) yc0
  have r1 := abs_le.1 hr
  have yc1 : 0.9 * y ≤ y * c := by nlinarith
  have yc2 : y * c ≤ 1.51 * y := by nlinarith
  refine ⟨by linarith, by linarith, ?_⟩
  have n := newton_le_one P0
  have cP : P * c ≤ P * (3 / 2 - P * P / 2 + 0.0002) := mul_le_mul_of_nonneg_left (by linarith) P0
  have e : S * r ≤ S * (y * c + (0.000001 * (y * c) + 0.00001)) := mul_le_mul_of_nonneg_left (by linarith) S0
  have e2 : S * (y * c + (0.000001 * (y * c) + 0.00001)) = 1.000001 * (P * c) + 0.00001 * S := by rw [← hP]; ring
  rw [e2] at e
  nlinarith

/-- One step when `x` is small. -/
theorem small_step [f.Ok] {A : ℝ} (ok : NewtOk f A) (fu : Bool) {X hi : ℝ} {x2 y : FP f} (X0 : 0 ≤ X) (X1 : X ≤ 1) (h2f : x2.isFinite = true)
    (h2 : |x2.real - X / 2| ≤ f.u * X + f.eta) (hy : y.isFinite = true) (y1 : 2 ≤ y.real) (yh : y.real ≤ hi) (hη : f.eta * (hi * hi) ≤ 0.00001)
    (hb : 4 * hi ≤ f.big) (hP : Real.sqrt X * y.real ≤ 1.001) :
    (y * nmad fu (x2 * y) y (lit 1.5)).isFinite = true ∧ y.real / 2 ≤ (y * nmad fu (x2 * y) y (lit 1.5)).real ∧
    (y * nmad fu (x2 * y) y (lit 1.5)).real ≤ 2 * y.real ∧ Real.sqrt X * (y * nmad fu (x2 * y) y (lit 1.5)).real ≤ 1.001 := by
  have SS := Real.mul_self_sqrt X0
  have S0 := Real.sqrt_nonneg X
  have S1 : Real.sqrt X ≤ 1 := Real.sqrt_le_one.2 X1
  generalize Real.sqrt X = S at *
  have u0 := ok.u0
  have u1 : (f.u : ℝ) ≤ 1 / 1000000 := ok.u1.trans (by norm_num)
  have A2 : A ≤ 1 / 1000000 := ok.A1.trans (by norm_num)
  have A0 := ok.A0
  have η0 : (0 : ℝ) ≤ f.eta := by rw [ok.eta]; exact mul_nonneg u0.le A0.le
  obtain ⟨η, hηv⟩ : ∃ v : ℝ, (f.eta : ℝ) = v := ⟨_, rfl⟩
  obtain ⟨G, hG⟩ : ∃ v : ℝ, (f.big : ℝ) = v := ⟨_, rfl⟩
  obtain ⟨P, hPv⟩ : ∃ v, S * y.real = v := ⟨_, rfl⟩
  have y0 : 0 ≤ y.real := by linarith
  have P0 : 0 ≤ P := by rw [← hPv]; exact mul_nonneg S0 y0
  have PP : X * (y.real * y.real) = P * P := by rw [← SS, ← hPv]; ring
  rw [hPv] at hP
  have pp : P * P ≤ 1.003 := by nlinarith
  have pp0 : 0 ≤ P * P := mul_nonneg P0 P0
  rw [hηv] at η0 h2 hη
  rw [hG] at hb
  have hiy : η * (y.real * y.real) ≤ 0.00001 :=
    (mul_le_mul_of_nonneg_left (mul_le_mul yh yh y0 (y0.trans yh)) η0).trans hη
  have η1 : η ≤ 0.00001 := by
    refine le_trans ?_ hiy
    exact le_mul_of_one_le_right η0 (by nlinarith)
  have h2s : |x2.real| ≤ 1 := by
    have h3 : f.u * X ≤ 1 / 1000000 * 1 := mul_le_mul u1 X1 X0 (by norm_num)
    have := abs_le.1 h2
    rw [abs_le]; constructor <;> linarith
  have q1 : |x2.real * y.real| ≤ y.real := by
    rw [abs_mul, abs_of_nonneg y0]; exact mul_le_of_le_one_left y0 h2s
  obtain ⟨f1, e1⟩ := mul_add_err h2f hy (by rw [hG]; linarith)
  rw [hηv] at e1
  -- the size of `x2*y*y`
  have q2 : |(mul x2 y).real * y.real| ≤ 4 := by
    have t1 : |x2.real * y.real| * y.real ≤ 1 := by
      have t2 : |x2.real| ≤ X + η := by
        have h3 : f.u * X ≤ 1 / 1000000 * X := mul_le_mul_of_nonneg_right u1 X0
        have := abs_le.1 h2
        rw [abs_le]; constructor <;> linarith
      have t3 : |x2.real| ≤ X * (1 / 2 + 1 / 1000000) + η := by
        have h3 : f.u * X ≤ 1 / 1000000 * X := mul_le_mul_of_nonneg_right u1 X0
        have := abs_le.1 h2
        rw [abs_le]; constructor <;> linarith
      rw [abs_mul, abs_of_nonneg y0, mul_assoc]
      have := mul_le_mul_of_nonneg_right t3 (mul_nonneg y0 y0)
      have e : (X * (1 / 2 + 1 / 1000000) + η) * (y.real * y.real) = (1 / 2 + 1 / 1000000) * (X * (y.real * y.real)) + η * (y.real * y.real) := by ring
      rw [e, PP] at this
      linarith
    have t4 : |(mul x2 y).real| ≤ 2 * |x2.real * y.real| + η := by
      have h3 : f.u * |x2.real * y.real| ≤ 1 / 1000000 * |x2.real * y.real| := mul_le_mul_of_nonneg_right u1 (abs_nonneg _)
      have := abs_sub_abs_le_abs_sub (mul x2 y).real (x2.real * y.real)
      have := abs_nonneg (x2.real * y.real)
      linarith
    rw [abs_mul, abs_of_nonneg y0]
    have := mul_le_mul_of_nonneg_right t4 y0
    have t5 : η * y.real ≤ η * (y.real * y.real) := mul_le_mul_of_nonneg_left (by nlinarith) η0
    have e : (2 * |x2.real * y.real| + η) * y.real = 2 * (|x2.real * y.real| * y.real) + η * y.real := by ring
    rw [e] at this
    linarith
  have G8 : 8 ≤ G := by linarith
  obtain ⟨f2, e2⟩ := mul_add_err f1 hy (by rw [hG]; linarith)
  rw [hηv] at e2
  obtain ⟨b, hb2, hd⟩ := nmad_err ok fu f1 hy ok.th.1 (by rw [hG]; linarith)
  have e2b : |b - (mul x2 y).real * y.real| ≤ f.u * |(mul x2 y).real * y.real| + η := by
    rcases hb2 with hb2 | hb2
    · rw [hb2, sub_self, abs_zero]; positivity
    · rw [hb2]; exact e2
  have sp := small_prod X0 (by linarith) u0 u1 η0 hiy (by rw [PP]; exact pp) h2 e1 e2b
  rw [PP] at sp
  have b1 := abs_le.1 sp
  have t1 : (lit 1.5 : FP f).real = 3 / 2 := by unfold FP.real; rw [ok.th.2]; norm_num
  obtain ⟨f3, e3⟩ := hd 2
    (by rw [t1, abs_le]; constructor <;> linarith) (by linarith) (by rw [hG]; linarith)
  rw [t1] at e3
  obtain ⟨c, hc⟩ : ∃ v, (nmad fu (mul x2 y) y (lit 1.5)).real = v := ⟨_, rfl⟩
  rw [hc] at e3
  have c1 : |c| ≤ 2 := by
    have := abs_le.1 e3
    rw [abs_le]; constructor <;> linarith
  have q3 : |y.real * c| ≤ 2 * y.real := by
    rw [abs_mul, abs_of_nonneg y0]; have := mul_le_mul_of_nonneg_left c1 y0; linarith
  obtain ⟨f4, e4⟩ := mul_add_err (x := y) (y := nmad fu (mul x2 y) y (lit 1.5)) hy f3 (by rw [hc, hG]; linarith)
  rw [hc, hηv] at e4
  exact ⟨f4, small_last S0 S1 hPv hP y1 u0 u1 η0 η1 sp e3 e4⟩

/-- The loop when `x` is small. -/
theorem small_loop [f.Ok] {A : ℝ} (ok : NewtOk f A) (p : Policy) {X : ℝ} {x2 : FP f} (X0 : 0 ≤ X) (X1 : X ≤ 1) (h2f : x2.isFinite = true)
    (h2 : |x2.real - X / 2| ≤ f.u * X + f.eta) (n : ℕ) : ∀ (y : FP f) (hi : ℝ), y.isFinite = true → 2 ^ (n + 1) ≤ y.real → y.real * 2 ^ n ≤ hi →
    f.eta * (hi * hi) ≤ 0.00001 → 4 * hi ≤ f.big → Real.sqrt X * y.real ≤ 1.001 →
      (isqrtLoopC p x2 n y).isFinite = true ∧ 2 ≤ (isqrtLoopC p x2 n y).real ∧ (isqrtLoopC p x2 n y).real ≤ hi ∧
      Real.sqrt X * (isqrtLoopC p x2 n y).real ≤ 1.001 := by
  induction n with
  | zero => intro y hi hy h1 h2 _ _ h5; simp only [zero_add, pow_one, pow_zero, mul_one] at h1 h2; exact ⟨hy, h1, h2, h5⟩
  | succ n ih =>
    intro y hi hy h1 hh h3 h4 h5
    have p1 : (1 : ℝ) ≤ 2 ^ n := one_le_pow₀ (by norm_num)
    have e1 : (2 : ℝ) ^ (n + 1 + 1) = 2 * (2 * 2 ^ n) := by ring
    have e2 : (2 : ℝ) ^ (n + 1) = 2 * 2 ^ n := by ring
    rw [e1] at h1
    rw [e2] at hh
    have y0 : 0 ≤ y.real := by linarith
    have yh : y.real ≤ hi := by nlinarith
    have s := small_step ok (p n) X0 X1 h2f h2 hy (by linarith) yh h3 h4 h5
    refine ih _ hi s.1 ?_ ?_ h3 h4 s.2.2.2
    · rw [e2]; linarith [s.2.1]
    · have := mul_le_mul_of_nonneg_right s.2.2.1 (by linarith : (0 : ℝ) ≤ 2 ^ n)
      linarith

def shapeD (q : ℚ) : List ℚ := pmul [0.000001, 2] (pmul [1 + q, -1] [1 + q, -1])
def shapeE (q : ℚ) : List ℚ := pmul [0.000001 / 4, 1 / 2] (pmul [2 + q, -1] [2 + q, -1])
theorem shapeD_hi : pratio (shapeD 0.43246) [1] 1 (grid 0 0.43246 40) = true := by decide +kernel
theorem shapeE_hi : pratio (shapeE 0.43246) [1] 1 (grid 0.43243 0.5 40) = true := by decide +kernel

theorem shapeD_bound {s t c : ℝ} (t0 : 0 ≤ t) (t1 : t ≤ 0.43246) (c1 : 0.43243 ≤ c) (c2 : c ≤ 0.43246) (s1 : 0 ≤ s) (s2 : s ≤ 2 * t + 0.000001) :
    s * ((1 + c - t) * (1 + c - t)) ≤ 1 := by
  have h := pratio_sound shapeD_hi (a := 0) (b := 0.43246) (by decide +kernel) (x := t) (by push_cast; exact t0) (by push_cast; exact t1)
  unfold shapeD at h
  rw [pev_mul, pev_mul] at h
  simp only [pev_cons, pev_nil] at h
  push_cast at h
  have := (abs_le.1 h).2
  refine (prod_mono (r' := 2 * t + 0.000001) (z' := 1 + 0.43246 - t) s1 s2 (by linarith) (by linarith)).trans ?_
  linarith

theorem shapeE_bound {s t c : ℝ} (t0 : 0.43243 ≤ t) (t1 : t ≤ 0.5) (c1 : 0.43243 ≤ c) (c2 : c ≤ 0.43246) (s1 : 0 ≤ s) (s2 : s ≤ 2 * t + 0.000001) :
    s / 4 * ((2 + c - t) * (2 + c - t)) ≤ 1 := by
  have h := pratio_sound shapeE_hi (a := 0.43243) (b := 0.5) (by decide +kernel) (x := t) (by push_cast; exact t0) (by push_cast; exact t1)
  unfold shapeE at h
  rw [pev_mul, pev_mul] at h
  simp only [pev_cons, pev_nil] at h
  push_cast at h
  have := (abs_le.1 h).2
  refine (prod_mono (r' := (2 * t + 0.000001) / 4) (z' := 2 + 0.43246 - t) (by linarith) (by linarith) (by linarith) (by linarith)).trans ?_
  linarith

/-- The starting value below the normal range. -/
theorem start_prod_small {A Km : ℕ} (ok : StartOk f A Km) {i : ℕ} (h1 : i < 2 ^ f.mb) :
    ((magVal f i * (magVal f (A * 2 ^ f.mb + Km - i / 2) * magVal f (A * 2 ^ f.mb + Km - i / 2)) : ℚ) : ℝ) ≤ 1 := by
  obtain ⟨M, hM⟩ : ∃ M, 2 ^ f.mb = M := ⟨_, rfl⟩
  have nv : ∀ {E m : ℕ}, 1 ≤ E → m ≤ M → magVal f (E * M + m) = ((M + m : ℕ) : ℚ) * p2 ((E : ℤ) - 1 + f.emin - f.mb) := by
    intro E m; rw [← hM]; exact norm_val f
  have km1 := ok.km1; have km2 := ok.km2; have lo := ok.lo; have hi := ok.hi; have mb := ok.mb; have ex := ok.ex
  have v1 := magVal_code f (e := f.emin) (k := i) le_rfl (by rw [pow_succ]; omega) (Or.inr rfl)
  rw [sub_self, Int.toNat_zero, Nat.zero_mul, Nat.zero_add] at v1
  rw [hM] at km1 km2 mb h1 ⊢
  have hMQ : ((2 : ℚ) ^ f.mb) = (M : ℚ) := by rw [← hM]; push_cast; rfl
  obtain ⟨h, hh⟩ : ∃ h, h = i / 2 := ⟨_, rfl⟩
  rw [← hh]
  obtain ⟨d, hd⟩ : ∃ d, A = 2 + d := ⟨A - 2, by have : 1 ≤ 2 ^ f.eb := Nat.one_le_two_pow; omega⟩
  have hAM : A * M = M + M + d * M := by rw [hd]; ring
  have MR : (1000000 : ℝ) ≤ M := by exact_mod_cast mb
  have M0 : (0 : ℝ) < M := by linarith
  obtain ⟨c, hc⟩ : ∃ c : ℝ, c = Km / M := ⟨_, rfl⟩
  obtain ⟨t, ht⟩ : ∃ t : ℝ, t = h / M := ⟨_, rfl⟩
  obtain ⟨s, hs⟩ : ∃ s : ℝ, s = i / M := ⟨_, rfl⟩
  have cM : (Km : ℝ) = c * M := by rw [hc]; field_simp
  have tM : (h : ℝ) = t * M := by rw [ht]; field_simp
  have sM : (i : ℝ) = s * M := by rw [hs]; field_simp
  have c1 : 0.43243 ≤ c := by
    rw [hc, le_div_iff₀ M0]
    have : (43243 * M : ℝ) ≤ 100000 * Km := by exact_mod_cast km1
    linarith
  have c2 : c ≤ 0.43246 := by
    rw [hc, div_le_iff₀ M0]
    have : (100000 * Km : ℝ) ≤ 43246 * M := by exact_mod_cast km2
    linarith
  have s1 : 0 ≤ s := by rw [hs]; positivity
  have s2 : s ≤ 2 * t + 0.000001 := by
    have e1 : s ≤ 2 * t + 1 / M := by
      rw [ht, hs, ← mul_div_assoc, ← add_div, div_le_div_iff_of_pos_right M0]
      have : i ≤ 2 * h + 1 := by omega
      exact_mod_cast this
    have : 1 / (M : ℝ) ≤ 0.000001 := by rw [div_le_iff₀ M0]; linarith
    linarith
  have t0 : 0 ≤ t := by rw [ht]; positivity
  rw [v1]
  rcases Nat.lt_or_ge Km h with hK | hK
  · have e2 : A * M + Km - h = (d + 1) * M + (M + Km - h) := by rw [hAM, Nat.add_mul]; omega
    have v2 := nv (E := d + 1) (m := M + Km - h) (by omega) (by omega)
    have p := p2_prod3 (a := f.emin - f.mb) (b := ((d + 1 : ℕ) : ℤ) - 1 + f.emin - f.mb) (n := f.mb) (k := -2) (by push_cast; omega)
    have b := shapeE_bound (s := s) (t := t) (c := c) ?_ ?_ c1 c2 s1 s2
    · rw [e2, v2]
      have e3 : ((M + (M + Km - h) : ℕ) : ℚ) = 2 * M + Km - h := by
        rw [show M + (M + Km - h) = 2 * M + Km - h by omega, Nat.cast_sub (by omega)]; push_cast; ring
      rw [e3]
      refine le_trans (le_of_eq ?_) b
      rw [show (i : ℚ) * p2 (f.emin - f.mb) * ((2 * (M : ℚ) + Km - h) * p2 (((d + 1 : ℕ) : ℤ) - 1 + f.emin - f.mb) * ((2 * (M : ℚ) + Km - h) * p2 (((d + 1 : ℕ) : ℤ) - 1 + f.emin - f.mb)))
        = (i : ℚ) * ((2 * (M : ℚ) + Km - h) * (2 * (M : ℚ) + Km - h)) * (p2 (f.emin - f.mb) * (p2 (((d + 1 : ℕ) : ℤ) - 1 + f.emin - f.mb) * p2 (((d + 1 : ℕ) : ℤ) - 1 + f.emin - f.mb))) by ring, p, hMQ,
        show p2 (-2) = 1 / 4 by rw [p2_eq]; norm_num]
      push_cast
      rw [cM, tM, sM]
      field_simp
    · rw [ht, le_div_iff₀ M0]
      have : (Km : ℝ) ≤ h := by exact_mod_cast hK.le
      rw [cM] at this
      nlinarith
    · rw [ht, div_le_iff₀ M0]
      have : 2 * h ≤ M := by omega
      have : (2 * h : ℝ) ≤ M := by exact_mod_cast this
      linarith
  · have e2 : A * M + Km - h = (d + 2) * M + (Km - h) := by rw [hAM, Nat.add_mul]; omega
    have v2 := nv (E := d + 2) (m := Km - h) (by omega) (by omega)
    have p := p2_prod3 (a := f.emin - f.mb) (b := ((d + 2 : ℕ) : ℤ) - 1 + f.emin - f.mb) (n := f.mb) (k := 0) (by push_cast; omega)
    have b := shapeD_bound (s := s) (t := t) (c := c) t0 ?_ c1 c2 s1 s2
    · rw [e2, v2]
      have e3 : ((M + (Km - h) : ℕ) : ℚ) = M + Km - h := by
        rw [show M + (Km - h) = M + Km - h by omega, Nat.cast_sub (by omega)]; push_cast; ring
      rw [e3]
      refine le_trans (le_of_eq ?_) b
      rw [show (i : ℚ) * p2 (f.emin - f.mb) * (((M : ℚ) + Km - h) * p2 (((d + 2 : ℕ) : ℤ) - 1 + f.emin - f.mb) * (((M : ℚ) + Km - h) * p2 (((d + 2 : ℕ) : ℤ) - 1 + f.emin - f.mb)))
        = (i : ℚ) * (((M : ℚ) + Km - h) * ((M : ℚ) + Km - h)) * (p2 (f.emin - f.mb) * (p2 (((d + 2 : ℕ) : ℤ) - 1 + f.emin - f.mb) * p2 (((d + 2 : ℕ) : ℤ) - 1 + f.emin - f.mb))) by ring, p, hMQ,
        show p2 0 = 1 by rw [p2_eq]; norm_num]
      push_cast
      rw [cM, tM, sM]
      field_simp
    · rw [ht, div_le_iff₀ M0]
      have : (h : ℝ) ≤ Km := by exact_mod_cast hK
      rw [cM] at this
      nlinarith

/-- Zero and subnormal arguments: the result is finite and at least 2. -/
theorem isqrt_small [f.Ok] {A hi : ℝ} {B Km : ℕ} (ok : NewtOk f A) (p : Policy) (st : StartOk f B Km) {x : FP f} (hs : x.sign = false) (hm : x.mag < 2 ^ f.mb)
    (hx1 : x.real ≤ 1) (n : ℕ) (r1 : ((2 : ℕ) : ℚ) ^ (n + 1) ≤ magVal f (B * 2 ^ f.mb + Km - 2 ^ f.mb)) (r2 : ((magVal f (B * 2 ^ f.mb + Km) * 2 ^ n : ℚ) : ℝ) ≤ hi)
    (r3 : B * 2 ^ f.mb + Km < f.infMag) (h3 : f.eta * (hi * hi) ≤ 0.00001) (h4 : 4 * hi ≤ f.big) :
    (isqrtLoopC p (x * lit 0.5) n (isqrtStart st x)).isFinite = true ∧ 2 ≤ (isqrtLoopC p (x * lit 0.5) n (isqrtStart st x)).real := by
  have km1 := st.km1; have mb := st.mb
  have xf : x.isFinite = true := by
    refine decide_eq_true ?_
    have := Nat.le_mul_of_pos_left (2 ^ f.mb) (by have := st.lo; have : 1 ≤ 2 ^ f.eb := Nat.one_le_two_pow; omega : 0 < B)
    omega
  have v0 := val_nonneg_of_sign hs
  have x0 : 0 ≤ x.real := by unfold FP.real; exact_mod_cast v0
  have hb := finite_le_big xf
  rw [abs_of_nonneg v0] at hb
  have e : x.val * (lit 0.5 : FP f).val = x.val / 2 := by rw [ok.half.2]; ring
  have hb2 : |x.val * (lit 0.5 : FP f).val| ≤ f.big := by rw [e, abs_of_nonneg (by linarith)]; linarith
  have s := mul_spec xf ok.half.1 hb2
  have h2 : |(x * lit 0.5 : FP f).real - x.real / 2| ≤ f.u * x.real + f.eta := by
    have e2 : (mul x (lit 0.5)).real = ((rnd f (x.val / 2) : ℚ) : ℝ) := by unfold FP.real; rw [s.2, e]
    have e3 : x.real / 2 = ((x.val / 2 : ℚ) : ℝ) := by unfold FP.real; push_cast; rfl
    rw [mul_def, e2, e3]
    rw [e] at hb2
    have k := rnd_err_add f hb2
    rw [abs_of_nonneg (by linarith : 0 ≤ x.val / 2)] at k
    have k2 : f.u * (x.val / 2) ≤ f.u * x.val := mul_le_mul_of_nonneg_left (by linarith) f.u_pos.le
    unfold FP.real
    have k3 : |rnd f (x.val / 2) - x.val / 2| ≤ f.u * x.val + f.eta := by linarith
    exact_mod_cast k3
  have yv : (isqrtStart st x).real = ((magVal f (B * 2 ^ f.mb + Km - x.mag / 2) : ℚ) : ℝ) := real_of_pos rfl
  have l := small_loop ok p x0 hx1 s.1 h2 n (isqrtStart st x) hi (decide_eq_true (by show B * 2 ^ f.mb + Km - x.mag / 2 < f.infMag; omega)) ?_ ?_ h3 h4 ?_
  · exact ⟨l.1, l.2.1⟩
  · rw [yv]
    have : ((2 : ℕ) : ℚ) ^ (n + 1) ≤ magVal f (B * 2 ^ f.mb + Km - x.mag / 2) := r1.trans (magVal_le.2 (by omega))
    exact_mod_cast this
  · rw [yv]
    refine le_trans ?_ r2
    have : magVal f (B * 2 ^ f.mb + Km - x.mag / 2) * 2 ^ n ≤ magVal f (B * 2 ^ f.mb + Km) * 2 ^ n :=
      mul_le_mul_of_nonneg_right (magVal_le.2 (by omega)) (by positivity)
    exact_mod_cast this
  · have p := start_prod_small st hm
    push_cast at p
    rw [← yv, ← real_of_pos hs] at p
    have y0 : 0 ≤ (isqrtStart st x).real := by rw [yv]; exact_mod_cast magVal_nonneg _ _
    have SS := Real.mul_self_sqrt x0
    have S0 := Real.sqrt_nonneg x.real
    generalize Real.sqrt x.real = S at *
    generalize (isqrtStart st x).real = Y at *
    have e4 : x.real * (Y * Y) = (S * Y) * (S * Y) := by rw [← SS]; ring
    rw [e4] at p
    have := mul_nonneg S0 y0
    nlinarith

end Vdt
