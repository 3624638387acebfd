import Verif.Lemmas.Tanh

/-! # Accuracy of the hyperbolic tangent -/

namespace Vdt
open FP details

variable {f : Fmt}

/-! ## One doubling -/

/-- Perturbation of `2t/(1+t^2)`. -/
theorem dbl_real {t τ e h : ℝ} (ht : 0 ≤ t) (ht1 : t ≤ 1) (hτ : 0 ≤ τ) (hτ1 : τ ≤ 1) (hh : 0 ≤ h) (b : |t - τ| ≤ e * τ + h) :
    |2 * t / (t ^ 2 + 1) - 2 * τ / (τ ^ 2 + 1)| ≤ e * (2 * τ / (τ ^ 2 + 1)) + 2 * h := by
  have p1 : 0 < t ^ 2 + 1 := by positivity
  have p2 : 0 < τ ^ 2 + 1 := by positivity
  have e1 : 2 * t / (t ^ 2 + 1) - 2 * τ / (τ ^ 2 + 1) = (t - τ) * (2 * (1 - t * τ) / ((t ^ 2 + 1) * (τ ^ 2 + 1))) := by
    field_simp; ring
  have tτ : 0 ≤ t * τ := mul_nonneg ht hτ
  have tτ1 : t * τ ≤ 1 := by nlinarith
  have e2 : |2 * (1 - t * τ) / ((t ^ 2 + 1) * (τ ^ 2 + 1))| ≤ 2 / (τ ^ 2 + 1) := by
    rw [abs_of_nonneg (div_nonneg (by linarith) (by positivity)), div_le_div_iff₀ (by positivity) p2]
    have : 2 * (1 - t * τ) ≤ 2 * (t ^ 2 + 1) := by nlinarith
    nlinarith
  rw [e1, abs_mul]
  refine (mul_le_mul b e2 (abs_nonneg _) ((abs_nonneg _).trans b)).trans ?_
  have : (e * τ + h) * (2 / (τ ^ 2 + 1)) = e * (2 * τ / (τ ^ 2 + 1)) + h * (2 / (τ ^ 2 + 1)) := by field_simp
  rw [this]
  have : 2 / (τ ^ 2 + 1) ≤ 2 := by rw [div_le_iff₀ p2]; nlinarith [sq_nonneg τ]
  nlinarith

/-- Rounding errors of one doubling. -/
theorem dbl_round {U η t s d q r : ℝ} (hU : 0 < U) (hU1 : U ≤ 1 / 1000) (hη : 0 < η) (hη1 : η ≤ U / 1000) (ht : 0 ≤ t) (ht1 : t ≤ 1)
    (hs : |s - t ^ 2| ≤ U * t ^ 2 + η) (hs0 : 0 ≤ s) (hd : |d - (s + 1)| ≤ U * (s + 1) + η) (hq : q = 2 * t / d) (hd0 : 0 < d)
    (hr : |r - q| ≤ U * q + η) : |r - 2 * t / (t ^ 2 + 1)| ≤ 2.53 * U * (2 * t / (t ^ 2 + 1)) + η := by
  have p1 : 0 < t ^ 2 + 1 := by positivity
  obtain ⟨g, hg⟩ : ∃ g, g = 2 * t / (t ^ 2 + 1) := ⟨_, rfl⟩
  have g0 : 0 ≤ g := by rw [hg]; positivity
  have ht2 := sq_nonneg t
  have hd2 : |d - (t ^ 2 + 1)| ≤ 1.51 * U * (t ^ 2 + 1) := by
    have e : d - (t ^ 2 + 1) = (d - (s + 1)) + (s - t ^ 2) := by ring
    rw [e]
    refine (abs_add_le _ _).trans ((add_le_add hd hs).trans ?_)
    have a1 : t ^ 2 ≤ 1 := by nlinarith
    have a2 : U * (s + 1) ≤ U * (t ^ 2 + U * t ^ 2 + η + 1) := by
      rw [abs_le] at hs
      exact mul_le_mul_of_nonneg_left (by linarith [hs.2]) hU.le
    have a3 : U * (U * t ^ 2) ≤ U * (1 / 1000 * t ^ 2) := mul_le_mul_of_nonneg_left (mul_le_mul_of_nonneg_right hU1 ht2) hU.le
    have a4 : U * η ≤ 1 * η := mul_le_mul_of_nonneg_right (by linarith) hη.le
    have a5 : U * t ^ 2 ≤ U * ((t ^ 2 + 1) / 2) := mul_le_mul_of_nonneg_left (by linarith) hU.le
    have a6 : 0 ≤ U * t ^ 2 := mul_nonneg hU.le ht2
    nlinarith
  have hq2 : |q - g| ≤ 1.515 * U * g := by
    have e : q - g = -(g * ((d - (t ^ 2 + 1)) / d)) := by
      rw [hq, hg]; field_simp; ring
    rw [e, abs_neg, abs_mul, abs_of_nonneg g0, abs_div, abs_of_pos hd0, mul_comm]
    refine mul_le_mul_of_nonneg_right ?_ g0
    rw [div_le_iff₀ hd0]
    refine hd2.trans ?_
    rw [abs_le] at hd2
    have b1 : (t ^ 2 + 1) * (1 - 1.51 * U) ≤ d := by linarith [hd2.1]
    have b2 : U * ((t ^ 2 + 1) * (1 - 1.51 * U)) ≤ U * d := mul_le_mul_of_nonneg_left b1 hU.le
    have b3 : U * (t ^ 2 + 1) * U ≤ U * (t ^ 2 + 1) * (1 / 1000) := mul_le_mul_of_nonneg_left hU1 (by positivity)
    have b4 : 0 ≤ U * (t ^ 2 + 1) := by positivity
    nlinarith
  rw [← hg]
  have e : r - g = (r - q) + (q - g) := by ring
  rw [e]
  refine (abs_add_le _ _).trans ((add_le_add hr hq2).trans ?_)
  rw [abs_le] at hq2
  have : U * q ≤ U * (g + 1.515 * U * g) := mul_le_mul_of_nonneg_left (by linarith) hU.le
  have k : U * U * g ≤ 1 / 1000 * U * g := by
    have := mul_le_mul_of_nonneg_right hU1 (mul_nonneg hU.le g0)
    nlinarith
  nlinarith

theorem real_rnd_err [f.Ok] {q : ℚ} (hb : |q| ≤ f.big) : |((rnd f q : ℚ) : ℝ) - (q : ℝ)| ≤ (f.u : ℝ) * |(q : ℝ)| + (f.eta : ℝ) := by
  have := rnd_err_add f hb
  have h : ((|rnd f q - q| : ℚ) : ℝ) ≤ ((f.u * |q| + f.eta : ℚ) : ℝ) := by exact_mod_cast this
  push_cast at h
  exact h

/-- Size of the rounding unit. -/
structure SmallU (f : Fmt) : Prop where
  u : f.u ≤ 1 / 1000
  eta : f.eta ≤ f.u / 1000

theorem smallU64 : SmallU b64 := ⟨by decide +kernel, by decide +kernel⟩
theorem smallU32 : SmallU b32 := ⟨by decide +kernel, by decide +kernel⟩

/-- One doubling: range and error. -/
theorem dbl_err [f.Ok] (ok : DblOk f) (bb : Bool) (su : SmallU f) {t : FP f} {τ e h : ℝ} (ht : t.isFinite = true) (hs : t.sign = false) (h1 : |t.val| ≤ 1)
    (hτ : 0 ≤ τ) (hτ1 : τ ≤ 1) (hh : 0 ≤ h) (he : 0 ≤ e) (he1 : e ≤ 1 / 100) (b : |t.real - τ| ≤ e * τ + h) :
    |(tanhDoubleC bb t).real - 2 * τ / (τ ^ 2 + 1)| ≤ (e + 2.56 * (f.u : ℝ)) * (2 * τ / (τ ^ 2 + 1)) + (2.01 * h + (f.eta : ℝ)) := by
  obtain ⟨-, -, -, hv, -⟩ := dbl_range ok bb ht h1
  have t0 : 0 ≤ t.val := val_nonneg_of_sign hs
  rw [abs_of_nonneg t0] at h1
  have tr0 : 0 ≤ t.real := by unfold FP.real; exact_mod_cast t0
  have tr1 : t.real ≤ 1 := by unfold FP.real; exact_mod_cast h1
  have hb := ok.big
  have hu : (0 : ℝ) < f.u := by exact_mod_cast f.u_pos
  have heta : (0 : ℝ) < f.eta := by exact_mod_cast f.eta_pos
  have su1 : (f.u : ℝ) ≤ 1 / 1000 := by
    have : ((f.u : ℚ) : ℝ) ≤ ((1 / 1000 : ℚ) : ℝ) := by exact_mod_cast su.u
    push_cast at this; exact this
  have su2 : (f.eta : ℝ) ≤ f.u / 1000 := by
    have : ((f.eta : ℚ) : ℝ) ≤ ((f.u / 1000 : ℚ) : ℝ) := by exact_mod_cast su.eta
    push_cast at this; exact this
  obtain ⟨-, -, -, -, c2, d1, d2, -⟩ := dbl_facts ok bb ht (by rw [abs_of_nonneg t0]; exact h1)
  rw [c2] at d1 d2
  have q0 : 0 ≤ t.val * t.val := mul_self_nonneg _
  have q1 : t.val * t.val ≤ 1 := by nlinarith
  have r1 : rnd f 1 = 1 := by
    have := val_rep (ofInt 1 : FP f)
    rw [ok.one.2] at this
    exact rnd_exact f this (by rw [abs_one]; linarith)
  obtain ⟨s0, s1⟩ := sqv_range ok bb (t := t) (by rw [abs_of_nonneg t0]; exact h1)
  have es : |((sqv bb t : ℚ) : ℝ) - ((t.val * t.val : ℚ) : ℝ)| ≤ (f.u : ℝ) * |((t.val * t.val : ℚ) : ℝ)| + (f.eta : ℝ) := by
    unfold sqv
    split
    · rw [sub_self, abs_zero]; positivity
    · exact real_rnd_err (f := f) (q := t.val * t.val) (by rw [abs_of_nonneg q0]; linarith)
  have ed := real_rnd_err (f := f) (q := sqv bb t + 1) (by rw [abs_of_nonneg (by linarith)]; linarith)
  have dq : 0 ≤ 2 * t.val / rnd f (sqv bb t + 1) := div_nonneg (by linarith) (by linarith)
  have er := real_rnd_err (f := f) (q := 2 * t.val / rnd f (sqv bb t + 1)) (by
    rw [abs_of_nonneg dq, div_le_iff₀ (by linarith)]; nlinarith)
  rw [← hv] at er
  have s0r : (0 : ℝ) ≤ ((sqv bb t : ℚ) : ℝ) := by exact_mod_cast s0
  have d0r : (0 : ℝ) < ((rnd f (sqv bb t + 1) : ℚ) : ℝ) := by
    have : 0 < rnd f (sqv bb t + 1) := by linarith
    exact_mod_cast this
  have key := dbl_round (U := f.u) (η := f.eta) (t := t.real) (s := ((sqv bb t : ℚ) : ℝ))
    (d := ((rnd f (sqv bb t + 1) : ℚ) : ℝ)) (q := 2 * t.real / ((rnd f (sqv bb t + 1) : ℚ) : ℝ))
    (r := (tanhDoubleC bb t).real) hu su1 heta su2 tr0 tr1
    (by
      have e1 : t.real ^ 2 = ((t.val * t.val : ℚ) : ℝ) := by unfold FP.real; push_cast; ring
      rw [e1]
      refine es.trans (le_of_eq ?_)
      rw [abs_of_nonneg (by exact_mod_cast q0)])
    s0r
    (by
      have e1 : ((sqv bb t : ℚ) : ℝ) + 1 = ((sqv bb t + 1 : ℚ) : ℝ) := by push_cast; ring
      rw [e1]
      refine ed.trans (le_of_eq ?_)
      rw [abs_of_nonneg (by rw [← e1]; linarith)])
    rfl d0r
    (by
      have e1 : 2 * t.real / ((rnd f (sqv bb t + 1) : ℚ) : ℝ) = ((2 * t.val / rnd f (sqv bb t + 1) : ℚ) : ℝ) := by
        unfold FP.real; push_cast; ring
      rw [e1]
      refine er.trans (le_of_eq ?_)
      rw [abs_of_nonneg (by exact_mod_cast dq)])
  have pert := dbl_real tr0 tr1 hτ hτ1 hh b
  have g0 : 0 ≤ 2 * τ / (τ ^ 2 + 1) := by positivity
  generalize 2 * τ / (τ ^ 2 + 1) = G at *
  generalize 2 * t.real / (t.real ^ 2 + 1) = g at *
  have b1 := (abs_sub_le (tanhDoubleC bb t).real g G).trans (add_le_add key pert)
  have b2 : g ≤ G + (e * G + 2 * h) := by
    rw [abs_le] at pert; linarith [pert.2]
  have b3 : (f.u : ℝ) * g ≤ f.u * (G + (e * G + 2 * h)) := mul_le_mul_of_nonneg_left b2 hu.le
  have b4 : (f.u : ℝ) * (e * G) ≤ f.u * (1 / 100 * G) := mul_le_mul_of_nonneg_left (mul_le_mul_of_nonneg_right he1 g0) hu.le
  have b5 : (f.u : ℝ) * h ≤ 1 / 1000 * h := mul_le_mul_of_nonneg_right su1 hh
  have b6 : 0 ≤ (f.u : ℝ) * G := mul_nonneg hu.le g0
  nlinarith

/-- Three doublings. -/
theorem dbl_three [f.Ok] (ok : DblOk f) (c1 c2 c3 : Bool) (su : SmallU f) {t : FP f} {a e h : ℝ} (ht : t.isFinite = true) (hs : t.sign = false) (h1 : |t.val| ≤ 1)
    (ha : 0 ≤ a) (hh : 0 ≤ h) (he : 0 ≤ e) (he1 : e + 6 * (f.u : ℝ) ≤ 1 / 100) (b : |t.real - Real.tanh a| ≤ e * Real.tanh a + h) :
    (tanhDoubleC c3 (tanhDoubleC c2 (tanhDoubleC c1 t))).isFinite = true ∧ |(tanhDoubleC c3 (tanhDoubleC c2 (tanhDoubleC c1 t))).val| ≤ 1 ∧
    (tanhDoubleC c3 (tanhDoubleC c2 (tanhDoubleC c1 t))).sign = false ∧
    |(tanhDoubleC c3 (tanhDoubleC c2 (tanhDoubleC c1 t))).real - Real.tanh (8 * a)| ≤
      (e + 7.68 * (f.u : ℝ)) * Real.tanh (8 * a) + (8.13 * h + 7.1 * (f.eta : ℝ)) := by
  have hu : (0 : ℝ) < f.u := by exact_mod_cast f.u_pos
  have heta : (0 : ℝ) < f.eta := by exact_mod_cast f.eta_pos
  obtain ⟨f1, m1, s1, -, -⟩ := dbl_range ok c1 ht h1
  obtain ⟨f2, m2, s2, -, -⟩ := dbl_range ok c2 f1 m1
  obtain ⟨f3, m3, s3, -, -⟩ := dbl_range ok c3 f2 m2
  have x1 := dbl_err ok c1 su ht hs h1 (tanh_nonneg ha) (Real.tanh_lt_one a).le hh he (by linarith) b
  rw [← tanh_double] at x1
  have x2 := dbl_err ok c2 su f1 (s1.trans hs) m1 (tanh_nonneg (by linarith)) (Real.tanh_lt_one _).le (by positivity) (by positivity) (by linarith) x1
  rw [← tanh_double] at x2
  have x3 := dbl_err ok c3 su f2 (s2.trans (s1.trans hs)) m2 (tanh_nonneg (by linarith)) (Real.tanh_lt_one _).le (by positivity) (by positivity) (by linarith) x2
  rw [← tanh_double] at x3
  have e8 : 2 * (2 * (2 * a)) = 8 * a := by ring
  rw [e8] at x3
  refine ⟨f3, m3, s3.trans (s2.trans (s1.trans hs)), x3.trans ?_⟩
  have t0 := tanh_nonneg (show 0 ≤ 8 * a by linarith)
  refine add_le_add (mul_le_mul_of_nonneg_right (by linarith) t0) ?_
  linarith

/-! ## The approximants -/

/-- A Padé approximant `p/q` of the tangent, given through `A = q+p`, `B = q-p`. -/
theorem pade_tanh {A B : List ℚ} {D X : ℚ} (n : ℕ) (hD : 0 < D) {w : ℝ} (hw : 0 ≤ w) (hX : w ≤ (X : ℝ))
    (pA : ∀ y : ℝ, ((0 : ℚ) : ℝ) ≤ y → y ≤ (X : ℝ) → (0 : ℝ) < pev A y) (pB : ∀ y : ℝ, ((0 : ℚ) : ℝ) ≤ y → y ≤ (X : ℝ) → (0 : ℝ) < pev B y)
    (h0 : pev A 0 = pev B 0) (hid : ∀ y : ℝ, pev (pder A) y * pev B y - pev A y * pev (pder B) y - 2 * (pev A y * pev B y) = 2 * y ^ n)
    (hAB : ∀ y : ℝ, ((0 : ℚ) : ℝ) ≤ y → y ≤ (X : ℝ) → (D : ℝ) ≤ pev A y * pev B y) :
    ∃ a : ℝ, w ≤ a ∧ a - w ≤ w ^ (n + 1) / ((n + 1) * D) ∧ Real.tanh a = (pev A w - pev B w) / (pev A w + pev B w) := by
  have up : ∀ y ∈ Set.Icc 0 w, ((0 : ℚ) : ℝ) ≤ y ∧ y ≤ (X : ℝ) := fun y hy => ⟨by push_cast; exact hy.1, hy.2.trans hX⟩
  have k := pade_area (A := pev A) (A' := pev (pder A)) (B := pev B) (B' := pev (pder B)) (W := w) (D := D) n hw (by exact_mod_cast hD)
    (fun y _ => hasDerivAt_pev A y) (fun y _ => hasDerivAt_pev B y) (fun y hy => pA y (up y hy).1 (up y hy).2)
    (fun y hy => pB y (up y hy).1 (up y hy).2) h0 (fun y _ => hid y) (fun y hy => hAB y (up y hy).1 (up y hy).2)
  have hw' : w ∈ Set.Icc 0 w := ⟨hw, le_rfl⟩
  refine ⟨(Real.log (pev A w) - Real.log (pev B w)) / 2, by linarith [k.1], k.2, ?_⟩
  exact tanh_half_log (pA w (up w hw').1 (up w hw').2) (pB w (up w hw').1 (up w hw').2)

def tanhA : List ℚ := [135135, 135135, 62370, 17325, 3150, 378, 28, 1]
def tanhB : List ℚ := [135135, -135135, 62370, -17325, 3150, -378, 28, -1]

theorem tanhE_real (w : ℝ) : tanhE.evalR (fun _ => w) = (pev tanhA w - pev tanhB w) / (pev tanhA w + pev tanhB w) := by
  have e : tanhE.evalR (fun _ => w) = w * tanhNumE.evalR (fun _ => w) / tanhDenE.evalR (fun _ => w) := rfl
  rw [e, tanhNumE_real, tanhDenE_real]
  simp only [tanhA, tanhB, pev_cons, pev_nil]
  push_cast
  have h : 0 < 135135 + w * w * (62370 + w * w * (3150 + w * w * 28)) := by
    have := mul_self_nonneg w
    positivity
  rw [div_eq_div_iff h.ne' (by nlinarith)]
  ring

theorem tanh_id (y : ℝ) : pev (pder tanhA) y * pev tanhB y - pev tanhA y * pev (pder tanhB) y - 2 * (pev tanhA y * pev tanhB y) = 2 * y ^ 14 := by
  have e1 : pder tanhA = [135135, 124740, 51975, 12600, 1890, 168, 7, 0] := by norm_num [pder, padd, tanhA]
  have e2 : pder tanhB = [-135135, 124740, -51975, 12600, -1890, 168, -7, 0] := by norm_num [pder, padd, tanhB]
  rw [e1, e2]
  simp only [tanhA, tanhB, pev_cons, pev_nil]
  push_cast
  ring

theorem tanhE_ok : covers (okRel1 b64 tanhE (7.6 * 2 ^ (-53 : ℤ)) 1.01) [0, 15 / 16, 21 / 16, 95 / 64, 107 / 64, 119 / 64, 127 / 64, 67 / 32, 71 / 32, 147 / 64, 153 / 64, 5 / 2] = true := by decide +kernel

/-- The Padé approximant at `w` is the tangent of a number slightly above `w`. -/
theorem tanh_area {w : ℝ} (hw : 0 ≤ w) (hX : w ≤ 2.5) :
    ∃ a : ℝ, w ≤ a ∧ a - w ≤ w ^ 15 / (15 * 1.05e10) ∧ Real.tanh a = tanhE.evalR (fun _ => w) := by
  obtain ⟨a, h1, h2, h3⟩ := pade_tanh (A := tanhA) (B := tanhB) (D := 1.05e10) (X := 2.5) 14 (by norm_num) hw (by push_cast; exact hX)
    (fun y h1 h2 => by
      push_cast at h1
      simp only [tanhA, pev_cons, pev_nil]; push_cast; positivity)
    (fun y h1 h2 => by
      have := plower_sound (p := tanhB) (c := 1000) (l := grid 0 2.5 32) (a := 0) (b := 2.5) (by decide +kernel) (by decide +kernel) h1 h2
      push_cast at this; linarith)
    (by simp [tanhA, tanhB, pev_cons]) tanh_id
    (fun y h1 h2 => by
      rw [← pev_mul]
      exact plower_sound (p := pmul tanhA tanhB) (c := 1.05e10) (l := grid 0 2.5 32) (a := 0) (b := 2.5) (by decide +kernel) (by decide +kernel) h1 h2)
  refine ⟨a, h1, ?_, by rw [h3, tanhE_real]⟩
  push_cast at h2
  norm_num at h2 ⊢
  exact h2

/-- `tanh (8a)` against `tanh (8w)`. -/
theorem tanh_area_shift {w a : ℝ} (hw : 0 ≤ w) (h1 : w ≤ a) (h2 : a - w ≤ w ^ 15 / (15 * 1.05e10)) :
    |Real.tanh (8 * a) - Real.tanh (8 * w)| ≤ 0.39 * 2 ^ (-53 : ℤ) * Real.tanh (8 * w) := by
  rcases hw.eq_or_lt with rfl | hw
  · have : a = 0 := by
      norm_num at h2; linarith
    rw [this]; simp
  have e : 8 * a = 8 * w + 8 * (a - w) := by ring
  rw [e]
  refine tanh_shift (by linarith) (by linarith) ?_
  have y0 : 0 ≤ 2 * (8 * w) := by linarith
  have s := sinh_three 6 y0
  norm_num [Nat.factorial] at s
  generalize hy : 2 * (8 * w) = y at *
  have ew : w = y / 16 := by rw [← hy]; ring
  rw [ew] at h2
  have k : 2.75 * (y ^ 15 / 1307674368000) ≤ Real.sinh y := by
    refine le_trans ?_ s
    have h13 := pow_nonneg y0 13
    have : 0 ≤ y ^ 13 * ((y ^ 2 - 238) ^ 2 + 476) := by positivity
    nlinarith
  have k2 : 2 * (8 * (a - w)) ≤ 16 * ((y / 16) ^ 15 / (15 * 1.05e10)) := by rw [ew]; linarith
  refine k2.trans ?_
  have k3 := mul_le_mul_of_nonneg_left k (show (0 : ℝ) ≤ 0.39 * 2 ^ (-53 : ℤ) by positivity)
  refine le_trans ?_ k3
  have h15 := pow_nonneg y0 15
  rw [div_pow]
  norm_num
  nlinarith

/-- The first approximation stays below one. -/
theorem tanhE_le {w : ℝ} (hw : 0 ≤ w) (hX : w ≤ 2.5) : tanhE.evalR (fun _ => w) ≤ 0.99 := by
  have := plower_sound (p := padd (psmul 1.99 tanhB) (psmul (-0.01) tanhA)) (c := 100) (l := grid 0 2.5 32) (a := 0) (b := 2.5) (by decide +kernel) (by decide +kernel)
    (x := w) (by push_cast; exact hw) (by push_cast; exact hX)
  rw [pev_add, pev_smul, pev_smul] at this
  push_cast at this
  have hA : (0 : ℝ) < pev tanhA w + pev tanhB w := by
    simp only [tanhA, tanhB, pev_cons, pev_nil]; push_cast
    have := mul_nonneg hw hw
    have e : (0 : ℝ) < 2 * (135135 + w * w * (62370 + w * w * (3150 + w * w * 28))) := by positivity
    nlinarith
  rw [tanhE_real, div_le_iff₀ hA]
  linarith

/-- From the error of `t` against `tanh a` to that against `tanh x`. -/
theorem tanh_assemble {t Ta Tw Tx e E k d : ℝ} (he : 0 ≤ e) (hE : 0 ≤ E) (h1 : |t - Ta| ≤ e * Ta + k) (h2 : |Ta - Tw| ≤ E * Tw)
    (h3 : |Tw - Tx| ≤ d) : |t - Tx| ≤ (e + E + e * E) * (Tx + d) + k + d := by
  rw [abs_le] at *
  have a1 : e * Ta ≤ e * ((1 + E) * Tw) := mul_le_mul_of_nonneg_left (by linarith) he
  have a2 : (e + E + e * E) * Tw ≤ (e + E + e * E) * (Tx + d) := mul_le_mul_of_nonneg_left (by linarith) (by positivity)
  constructor <;> nlinarith

/-- Nonnegative arguments up to 20. -/
theorem tanh_mid64 (p : Policy) {x : F64} (hx : x.isFinite = true) (hs : x.sign = false) (h : |x.val| ≤ 20) :
    (tanhPadeC p x).isFinite = true ∧ |(tanhPadeC p x).val| ≤ 1 ∧
    |(tanhDoubleC (p 8) (tanhDoubleC (p 7) (tanhDoubleC (p 6) (tanhPadeC p x)))).real - Real.tanh x.real| ≤
      15.68 * 2 ^ (-53 : ℤ) * Real.tanh x.real + 24 * (b64.eta : ℝ) := by
  have sg := (pade64 p hx h).1
  obtain ⟨w1, w2, w3, w4, w5⟩ := eighth (c := lit 0.125) (X := 20) hx (by decide +kernel) (by decide +kernel) h
    ⟨5, -1, by rw [p2_eq]; norm_num, by norm_num [b64], by decide⟩ (by decide +kernel)
  have e0 : tanhPadeC p x = tanhQuoC p (mul x (lit 0.125)) := tanhPadeC_eq p x
  generalize mul x (lit 0.125) = w at *
  have hw := real_le_of_val w2
  norm_num at hw
  have v0 : 0 ≤ w.val := val_nonneg_of_sign (w3.trans hs)
  have r0 : 0 ≤ w.real := by unfold FP.real; exact_mod_cast v0
  have x0 : 0 ≤ x.real := by
    unfold FP.real; exact_mod_cast val_nonneg_of_sign hs
  have hX : w.real ≤ 2.5 := by norm_num; exact hw.2
  obtain ⟨s, t, hst, h1, h2⟩ := covers_spans tanhE_ok (a := 0) (b := 2.5) (by decide +kernel) (x := w.real) (by push_cast; exact r0) (by push_cast; exact hX)
  have rn := okRel1_con (by norm_num) hst w1 h1 h2 (tanhE_con p w)
  obtain ⟨a, a1, a2, a3⟩ := tanh_area r0 hX
  rw [← e0, ← a3] at rn
  have c1 : ((7.6 * 2 ^ (-53 : ℤ) : ℚ) : ℝ) = 7.6 * 2 ^ (-53 : ℤ) := by norm_num
  have c2 : ((1.01 : ℚ) : ℝ) = 1.01 := by norm_num
  have ta0 : 0 ≤ Real.tanh a := tanh_nonneg (r0.trans a1)
  rw [abs_of_nonneg ta0, c1, c2] at rn
  have eta : (b64.eta : ℝ) ≤ 1 / 1152921504606846976 := by
    have : b64.eta ≤ 1 / 1152921504606846976 := by decide +kernel
    have := (Rat.cast_le (K := ℝ)).2 this
    push_cast at this
    exact this
  have eta0 : (0 : ℝ) < b64.eta := by exact_mod_cast b64.eta_pos
  have eu : (b64.u : ℝ) = 2 ^ (-53 : ℤ) := by
    have : b64.u = 2 ^ (-53 : ℤ) := by decide +kernel
    rw [this]; push_cast; rfl
  have t1 : |(tanhPadeC p x).val| ≤ 1 := by
    have l := tanhE_le r0 hX
    rw [← a3] at l
    have rn2 := rn.2
    rw [abs_le] at rn2
    have : (tanhPadeC p x).real ≤ 1 := by
      norm_num at rn2 l eta ⊢
      nlinarith
    have v1 : (tanhPadeC p x).val ≤ 1 := by
      unfold FP.real at this; exact_mod_cast this
    rw [abs_of_nonneg (val_nonneg_of_sign (sg.trans hs))]
    exact v1
  refine ⟨rn.1, t1, ?_⟩
  have d3 := dbl_three dblOk64 (p 6) (p 7) (p 8) smallU64 (a := a) (e := 7.6 * 2 ^ (-53 : ℤ)) (h := 1.01 * b64.eta) rn.1 (sg.trans hs) t1 (r0.trans a1) (mul_nonneg (by norm_num) eta0.le) (by positivity)
    (by rw [eu]; norm_num) rn.2
  have sh := tanh_area_shift r0 a1 a2
  have lp : |Real.tanh (8 * w.real) - Real.tanh x.real| ≤ 8 * b64.eta := by
    refine (tanh_lip (by linarith) x0).trans ?_
    have w4' : |w.real - x.real / 8| ≤ b64.eta := by
      unfold FP.real; exact_mod_cast w4
    have e8 : 8 * w.real - x.real = 8 * (w.real - x.real / 8) := by ring
    rw [e8, abs_mul, abs_of_pos (by norm_num : (0:ℝ) < 8)]
    linarith
  have fin := tanh_assemble (by rw [eu]; positivity) (by positivity) d3.2.2.2 sh lp
  refine fin.trans ?_
  have tx0 := tanh_nonneg x0
  rw [eu]
  norm_num
  generalize (b64.eta : ℝ) = η at *
  nlinarith

/-! ## Single precision -/

def tanhfA : List ℚ := [15, 15, 6, 1]
def tanhfB : List ℚ := [15, -15, 6, -1]

theorem tanhfE_real (w : ℝ) : tanhfE.evalR (fun _ => w) = (pev tanhfA w - pev tanhfB w) / (pev tanhfA w + pev tanhfB w) := by
  have e : tanhfE.evalR (fun _ => w) = w * tanhfNumE.evalR (fun _ => w) / tanhfDenE.evalR (fun _ => w) := rfl
  rw [e, tanhfNumE_real, tanhfDenE_real]
  simp only [tanhfA, tanhfB, pev_cons, pev_nil]
  push_cast
  have h : 0 < 6 * (w * w) + 15 := by
    have := mul_self_nonneg w
    positivity
  rw [div_eq_div_iff h.ne' (by nlinarith)]
  ring

theorem tanhf_id (y : ℝ) : pev (pder tanhfA) y * pev tanhfB y - pev tanhfA y * pev (pder tanhfB) y - 2 * (pev tanhfA y * pev tanhfB y) = 2 * y ^ 6 := by
  have e1 : pder tanhfA = [15, 12, 3, 0] := by norm_num [pder, padd, tanhfA]
  have e2 : pder tanhfB = [-15, 12, -3, 0] := by norm_num [pder, padd, tanhfB]
  rw [e1, e2]
  simp only [tanhfA, tanhfB, pev_cons, pev_nil]
  push_cast
  ring

theorem tanhfE_ok : covers (okRel1 b32 tanhfE (4.6 * 2 ^ (-24 : ℤ)) 1.07) [0, 41 / 64, 59 / 64, 1, 35 / 32, 711 / 625] = true := by decide +kernel

theorem tanhf_area {w : ℝ} (hw : 0 ≤ w) (hX : w ≤ 1.1376) :
    ∃ a : ℝ, w ≤ a ∧ a - w ≤ w ^ 7 / (7 * 174) ∧ Real.tanh a = tanhfE.evalR (fun _ => w) := by
  obtain ⟨a, h1, h2, h3⟩ := pade_tanh (A := tanhfA) (B := tanhfB) (D := 174) (X := 1.1376) 6 (by norm_num) hw (by push_cast; exact hX)
    (fun y h1 h2 => by
      push_cast at h1
      simp only [tanhfA, pev_cons, pev_nil]; push_cast; positivity)
    (fun y h1 h2 => by
      have := plower_sound (p := tanhfB) (c := 1) (l := grid 0 1.1376 16) (a := 0) (b := 1.1376) (by decide +kernel) (by decide +kernel) h1 h2
      push_cast at this; linarith)
    (by simp [tanhfA, tanhfB, pev_cons]) tanhf_id
    (fun y h1 h2 => by
      rw [← pev_mul]
      exact plower_sound (p := pmul tanhfA tanhfB) (c := 174) (l := grid 0 1.1376 64) (a := 0) (b := 1.1376) (by decide +kernel) (by decide +kernel) h1 h2)
  refine ⟨a, h1, ?_, by rw [h3, tanhfE_real]⟩
  push_cast at h2
  norm_num at h2 ⊢
  exact h2

theorem tanhf_area_shift {w a : ℝ} (hw : 0 ≤ w) (h1 : w ≤ a) (h2 : a - w ≤ w ^ 7 / (7 * 174)) :
    |Real.tanh (8 * a) - Real.tanh (8 * w)| ≤ 1.66 * 2 ^ (-24 : ℤ) * Real.tanh (8 * w) := by
  rcases hw.eq_or_lt with rfl | hw
  · have : a = 0 := by
      norm_num at h2; linarith
    rw [this]; simp
  have e : 8 * a = 8 * w + 8 * (a - w) := by ring
  rw [e]
  refine tanh_shift (by linarith) (by linarith) ?_
  have y0 : 0 ≤ 2 * (8 * w) := by linarith
  have s := sinh_three 2 y0
  norm_num [Nat.factorial] at s
  generalize hy : 2 * (8 * w) = y at *
  have ew : w = y / 16 := by rw [← hy]; ring
  rw [ew] at h2
  have k : 2.5 * (y ^ 7 / 5040) ≤ Real.sinh y := by
    refine le_trans ?_ s
    have h13 := pow_nonneg y0 5
    have : 0 ≤ y ^ 5 * ((y ^ 2 - 54) ^ 2 + 108) := by positivity
    nlinarith
  have k2 : 2 * (8 * (a - w)) ≤ 16 * ((y / 16) ^ 7 / (7 * 174)) := by rw [ew]; linarith
  refine k2.trans ?_
  have k3 := mul_le_mul_of_nonneg_left k (show (0 : ℝ) ≤ 1.66 * 2 ^ (-24 : ℤ) by positivity)
  refine le_trans ?_ k3
  have h15 := pow_nonneg y0 7
  rw [div_pow]
  norm_num
  nlinarith

theorem tanhfE_le {w : ℝ} (hw : 0 ≤ w) (hX : w ≤ 1.1376) : tanhfE.evalR (fun _ => w) ≤ 0.9 := by
  have := plower_sound (p := padd (psmul 1.9 tanhfB) (psmul (-0.1) tanhfA)) (c := 0) (l := grid 0 1.1376 32) (a := 0) (b := 1.1376) (by decide +kernel) (by decide +kernel)
    (x := w) (by push_cast; exact hw) (by push_cast; exact hX)
  rw [pev_add, pev_smul, pev_smul] at this
  push_cast at this
  have hA : (0 : ℝ) < pev tanhfA w + pev tanhfB w := by
    simp only [tanhfA, tanhfB, pev_cons, pev_nil]; push_cast
    nlinarith
  rw [tanhfE_real, div_le_iff₀ hA]
  linarith

/-- Nonnegative arguments up to 9.1f. -/
theorem tanh_mid32 (p : Policy) {x : F32} (hx : x.isFinite = true) (hs : x.sign = false) (h : |x.val| ≤ (lit 9.1 : F32).val) :
    (tanhPadefC p x).isFinite = true ∧ |(tanhPadefC p x).val| ≤ 1 ∧
    |(tanhDoubleC (p 4) (tanhDoubleC (p 3) (tanhDoubleC (p 2) (tanhPadefC p x)))).real - Real.tanh x.real| ≤
      13.95 * 2 ^ (-24 : ℤ) * Real.tanh x.real + 25 * (b32.eta : ℝ) := by
  have sg := (pade32 p hx h).1
  obtain ⟨w1, w2, w3, w4, w5⟩ := eighth (c := lit 0.125) (X := (lit 9.1 : F32).val) hx (by decide +kernel) (by decide +kernel) h
    ⟨9542042, -23, by decide +kernel, by norm_num [b32], by decide⟩ (by decide +kernel)
  have hv : (lit 9.1 : F32).val / 8 ≤ 1.1376 := by decide +kernel
  have e0 : tanhPadefC p x = tanhfQuoC p (mul x (lit 0.125)) := tanhPadefC_eq p x
  generalize mul x (lit 0.125) = w at *
  have hw := real_le_of_val (w2.trans hv)
  push_cast at hw
  have v0 : 0 ≤ w.val := val_nonneg_of_sign (w3.trans hs)
  have r0 : 0 ≤ w.real := by unfold FP.real; exact_mod_cast v0
  have x0 : 0 ≤ x.real := by
    unfold FP.real; exact_mod_cast val_nonneg_of_sign hs
  have hX : w.real ≤ 1.1376 := hw.2
  obtain ⟨s, t, hst, h1, h2⟩ := covers_spans tanhfE_ok (a := 0) (b := 1.1376) (by decide +kernel) (x := w.real) (by push_cast; exact r0) (by push_cast; exact hX)
  have rn := okRel1_con (by norm_num) hst w1 h1 h2 (tanhfE_con p w)
  obtain ⟨a, a1, a2, a3⟩ := tanhf_area r0 hX
  rw [← e0, ← a3] at rn
  have c1 : ((4.6 * 2 ^ (-24 : ℤ) : ℚ) : ℝ) = 4.6 * 2 ^ (-24 : ℤ) := by norm_num
  have c2 : ((1.07 : ℚ) : ℝ) = 1.07 := by norm_num
  have ta0 : 0 ≤ Real.tanh a := tanh_nonneg (r0.trans a1)
  rw [abs_of_nonneg ta0, c1, c2] at rn
  have eta : (b32.eta : ℝ) ≤ 1 / 1152921504606846976 := by
    have : b32.eta ≤ 1 / 1152921504606846976 := by decide +kernel
    have := (Rat.cast_le (K := ℝ)).2 this
    push_cast at this
    exact this
  have eta0 : (0 : ℝ) < b32.eta := by exact_mod_cast b32.eta_pos
  have eu : (b32.u : ℝ) = 2 ^ (-24 : ℤ) := by
    have : b32.u = 2 ^ (-24 : ℤ) := by decide +kernel
    rw [this]; push_cast; rfl
  have t1 : |(tanhPadefC p x).val| ≤ 1 := by
    have l := tanhfE_le r0 hX
    rw [← a3] at l
    have rn2 := rn.2
    rw [abs_le] at rn2
    have : (tanhPadefC p x).real ≤ 1 := by
      norm_num at rn2 l eta ⊢
      nlinarith
    have v1 : (tanhPadefC p x).val ≤ 1 := by
      unfold FP.real at this; exact_mod_cast this
    rw [abs_of_nonneg (val_nonneg_of_sign (sg.trans hs))]
    exact v1
  refine ⟨rn.1, t1, ?_⟩
  have d3 := dbl_three dblOk32 (p 2) (p 3) (p 4) smallU32 (a := a) (e := 4.6 * 2 ^ (-24 : ℤ)) (h := 1.07 * b32.eta) rn.1 (sg.trans hs) t1 (r0.trans a1) (mul_nonneg (by norm_num) eta0.le) (by positivity)
    (by rw [eu]; norm_num) rn.2
  have sh := tanhf_area_shift r0 a1 a2
  have lp : |Real.tanh (8 * w.real) - Real.tanh x.real| ≤ 8 * b32.eta := by
    refine (tanh_lip (by linarith) x0).trans ?_
    have w4' : |w.real - x.real / 8| ≤ b32.eta := by
      unfold FP.real; exact_mod_cast w4
    have e8 : 8 * w.real - x.real = 8 * (w.real - x.real / 8) := by ring
    rw [e8, abs_mul, abs_of_pos (by norm_num : (0:ℝ) < 8)]
    linarith
  have fin := tanh_assemble (by rw [eu]; positivity) (by positivity) d3.2.2.2 sh lp
  refine fin.trans ?_
  have tx0 := tanh_nonneg x0
  rw [eu]
  norm_num
  generalize (b32.eta : ℝ) = η at *
  nlinarith

end Vdt
