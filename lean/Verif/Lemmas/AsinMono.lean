import Verif.Lemmas.AsinPos
import Verif.Lemmas.AsinfMono
import Verif.Lemmas.AtanfMono
import Verif.Lemmas.AdjOrder

/-! # `fast_asin` preserves the order -/

namespace Vdt
open FP details
variable {f : Fmt}

/-- The distance of a real to its nearest number. -/
theorem nearest_err [f.Ok] {s : FP f} {σ : ℝ} {e : ℤ} (h : s.Nearest σ) (h0 : 0 ≤ σ) (h1 : σ ≤ (p2 e : ℚ)) (he : f.emin + 1 ≤ e) (hb : p2 e ≤ f.big) :
    |s.real - σ| ≤ ((p2 (e - f.mb - 2) : ℚ) : ℝ) := by
  have g0 : (0 : ℝ) < ((p2 (e - f.mb - 1) : ℚ) : ℝ) := by exact_mod_cast p2_pos _
  have gg : ((p2 (e - f.mb - 1) : ℚ) : ℝ) = 2 * ((p2 (e - f.mb - 2) : ℚ) : ℝ) := by
    rw [show e - (f.mb : ℤ) - 1 = (e - f.mb - 2) + 1 by ring, p2_succ]; push_cast; ring
  have ge : ((p2 e : ℚ) : ℝ) = 2 ^ (f.mb + 1) * ((p2 (e - f.mb - 1) : ℚ) : ℝ) := by
    have : p2 e = 2 ^ (f.mb + 1) * p2 (e - f.mb - 1) := by
      rw [← p2_nat, ← p2_add]; congr 1; push_cast; ring
    rw [this]; push_cast; ring
  generalize hg : ((p2 (e - f.mb - 1) : ℚ) : ℝ) = g at *
  have rd := abs_le.1 (abs_sub_round (σ / g))
  set n := round (σ / g)
  have n0 : 0 ≤ n := by
    have : (-1 : ℝ) < n := by
      have := div_nonneg h0 g0.le
      linarith [rd.2]
    have : -1 < n := by exact_mod_cast this
    omega
  have n1 : n ≤ 2 ^ (f.mb + 1) := by
    have : σ / g ≤ 2 ^ (f.mb + 1) := by rw [div_le_iff₀ g0]; linarith
    have : (n : ℝ) < ((2 ^ (f.mb + 1) + 1 : ℤ) : ℝ) := by push_cast; linarith [rd.1]
    have : n < 2 ^ (f.mb + 1) + 1 := by exact_mod_cast this
    omega
  have bp := f.big_pos
  have nq : |(n : ℚ) * p2 (e - f.mb - 1)| ≤ p2 e := by
    rw [abs_of_nonneg (mul_nonneg (by exact_mod_cast n0) (p2_pos _).le)]
    have : p2 e = 2 ^ (f.mb + 1) * p2 (e - f.mb - 1) := by
      rw [← p2_nat, ← p2_add]; congr 1; push_cast; ring
    rw [this]
    exact mul_le_mul_of_nonneg_right (by exact_mod_cast n1) (p2_pos _).le
  obtain ⟨t1, t2⟩ := finite_rep f (q := n * p2 (e - f.mb - 1)) false ⟨n, _, rfl, by rw [abs_of_nonneg n0]; exact n1, by omega⟩ (by linarith)
  refine (h.2.1 _ t1).trans ?_
  have e1 : (ofRat f false ((n : ℚ) * p2 (e - f.mb - 1))).real = n * g := by
    unfold FP.real; rw [t2]; push_cast; rw [hg]
  rw [e1]
  have e2 : σ = (σ / g) * g := by field_simp
  rw [e2, ← sub_mul, abs_mul, abs_of_pos g0]
  have := mul_le_mul_of_nonneg_right (abs_sub_round (σ / g)) g0.le
  rw [abs_sub_comm] at this
  linarith

/-! ## The branch above 0.625 -/

/-- The square root of the large branch. -/
def asinS (a : F64) : F64 := FP.sqrt ((lit 1.0 - a) + (lit 1.0 - a))
noncomputable def asinSr (a : F64) : ℝ := √(2 * (1 - a.real))

theorem asinS_err {a : F64} (ha : a.isFinite = true) (h1 : 1 / 2 ≤ a.val) (h2 : a.val ≤ 1) {e : ℤ} (he : -5 ≤ e ∧ e ≤ 0) (hs : asinSr a ≤ (p2 e : ℚ)) :
    (asinS a).isFinite = true ∧ |(asinS a).real - asinSr a| ≤ ((p2 (e - 54) : ℚ) : ℝ) := by
  have l := lit1_64
  have b1 : (1 : ℚ) ≤ b64.big := by decide +kernel
  have d := sub_exact (x := lit 1.0) (y := a) l.1 ha (by rw [l.2.1]; exact rep_one_sub emin64 h1 h2)
    (by rw [l.2.1, abs_of_nonneg (by linarith)]; linarith)
  rw [l.2.1] at d
  obtain ⟨r1, r2, r3, r4, r5⟩ := asin_root ha h1 h2
  refine ⟨r3, ?_⟩
  unfold asinS asinSr at *
  generalize lit 1.0 - a = D at *
  have ee := add_exact d.1 d.1 (by rw [d.2, ← two_mul]; exact rep_two_mul (rep_one_sub emin64 h1 h2))
    (by rw [d.2, abs_of_nonneg (by linarith)]; linarith)
  have er : (D + D).real = 2 * (1 - a.real) := by
    unfold FP.real; rw [ee.2, d.2]; push_cast; ring
  have pp : (0 : ℝ) < ((p2 (e - 54) : ℚ) : ℝ) := by exact_mod_cast p2_pos _
  rcases h2.eq_or_lt with h | h
  · have : a.real = 1 := by unfold FP.real; rw [h]; norm_num
    rw [this] at r5 ⊢
    simp only [sub_self, mul_zero, Real.sqrt_zero] at r5 ⊢
    exact r5.trans pp.le
  · have n := sqrt_nearest emin64 ee.1 (by rw [ee.2, d.2]; linarith)
    rw [er] at n
    have := nearest_err n (Real.sqrt_nonneg _) hs (by have : b64.emin = -1022 := by decide
                                                      omega) (by
      have h0 : p2 0 ≤ b64.big := by decide +kernel
      exact (p2_le he.2).trans h0)
    have e2 : e - (b64.mb : ℤ) - 2 = e - 54 := by have : b64.mb = 52 := rfl
                                                  omega
    rwa [e2] at this

/-- Two arguments in the upper half of `[0, 1]` are at least `2^-53` apart. -/
theorem half_apart {x y : F64} (h1 : 1 / 2 ≤ x.val) (h : x.val < y.val) : p2 (-53) ≤ y.val - x.val := by
  have e : (1 / 2 : ℚ) = p2 (-1) := by rw [p2_eq]; norm_num
  obtain ⟨n, hn⟩ := mult_of_ge (x := x) (j := -1) (by rw [← e]; exact h1.trans (le_abs_self _))
  obtain ⟨m, hm⟩ := mult_of_ge (x := y) (j := -1) (by rw [← e]; exact (h1.trans h.le).trans (le_abs_self _))
  have e2 : (-1 : ℤ) - (b64.mb : ℤ) = -53 := by decide
  rw [e2] at hn hm
  have hp := p2_pos (-53)
  have lt : n < m := by
    rw [hn, hm] at h
    exact_mod_cast lt_of_mul_lt_mul_right h hp.le
  rw [hn, hm, ← sub_mul]
  have : (1 : ℚ) ≤ m - n := by
    have : (n : ℚ) + 1 ≤ m := by exact_mod_cast lt
    linarith
  calc p2 (-53) = 1 * p2 (-53) := by ring
    _ ≤ _ := mul_le_mul_of_nonneg_right this hp.le

theorem asinSr_gap {x y : F64} {M : ℝ} (h1 : 1 / 2 ≤ x.val) (h : x.val < y.val) (h2 : y.val ≤ 1) (hM : asinSr x ≤ M) :
    ((p2 (-53) : ℚ) : ℝ) ≤ M * (asinSr x - asinSr y) ∧ asinSr y < asinSr x := by
  have g := half_apart h1 h
  have g' : ((p2 (-53) : ℚ) : ℝ) ≤ y.real - x.real := by unfold FP.real; exact_mod_cast g
  have hp : (0 : ℝ) < ((p2 (-53) : ℚ) : ℝ) := by exact_mod_cast p2_pos _
  have y1 : y.real ≤ 1 := by unfold FP.real; exact_mod_cast h2
  have qx := Real.mul_self_sqrt (show 0 ≤ 2 * (1 - x.real) by linarith)
  have qy := Real.mul_self_sqrt (show 0 ≤ 2 * (1 - y.real) by linarith)
  have y0 := Real.sqrt_nonneg (2 * (1 - y.real))
  have lt : √(2 * (1 - y.real)) < √(2 * (1 - x.real)) := Real.sqrt_lt_sqrt (by linarith) (by linarith)
  unfold asinSr at *
  generalize √(2 * (1 - x.real)) = s at *
  generalize √(2 * (1 - y.real)) = t at *
  refine ⟨?_, lt⟩
  have k : (s - t) * (s + t) = 2 * (y.real - x.real) := by linarith
  have : (s - t) * (s + t) ≤ (s - t) * (2 * M) := mul_le_mul_of_nonneg_left (by linarith) (by linarith)
  linarith

theorem asinSr_le {x : F64} {M : ℝ} (hM : 0 ≤ M) (h : 2 * (1 - x.real) ≤ M * M) : asinSr x ≤ M := by
  unfold asinSr
  exact Real.sqrt_le_iff.2 ⟨hM, by rw [sq]; exact h⟩

theorem pio4_facts : PIO4.isFinite = true ∧ 0.785 ≤ PIO4.val ∧ PIO4.val ≤ 0.7854 ∧ 4 ≤ b64.big ∧ hulp b64 0.391 = p2 (-55) ∧ hulp b64 0.7854 = p2 (-54) := by
  decide +kernel

/-- The difference when the square root is at most one half. -/
theorem asin_gap_round {x y : F64} {M : ℝ} {B : ℚ} {k : ℤ} (hx : x.isFinite = true) (hy : y.isFinite = true) (h1 : 0.875 ≤ x.val) (h : x.val < y.val) (h2 : y.val ≤ 1)
    (hM : asinSr x ≤ M) (M1 : M ≤ 1 / 2) (hB0 : 0 < B) (hB1 : B ≤ 4) (hB : hulp b64 B = p2 k)
    (hc : ((p2 (-53) : ℚ) : ℝ) + 2 * ((p2 (-55) : ℚ) : ℝ) + 2 * ((p2 k : ℚ) : ℝ) ≤ ((p2 (-53) : ℚ) : ℝ) / M) (M0 : 0 < M)
    (bx : |PIO4.val - (asinS x).val| ≤ B) (byy : |PIO4.val - (asinS y).val| ≤ B) :
    (PIO4 - asinS x).isFinite = true ∧ (PIO4 - asinS y).isFinite = true ∧ (PIO4 - asinS x).val + p2 (-53) ≤ (PIO4 - asinS y).val := by
  obtain ⟨p1, -, -, big, -⟩ := pio4_facts
  have h1' : 1 / 2 ≤ x.val := le_trans (by norm_num) h1
  obtain ⟨g1, g2⟩ := asinSr_gap h1' h h2 hM
  have hh : ((p2 (-1) : ℚ) : ℝ) = 1 / 2 := by rw [p2_eq]; norm_num
  obtain ⟨sx, ex⟩ := asinS_err hx h1' (h.le.trans h2) (e := -1) (by norm_num) (by rw [hh]; linarith)
  obtain ⟨sy, ey⟩ := asinS_err hy (h1'.trans h.le) h2 (e := -1) (by norm_num) (by rw [hh]; linarith)
  have tx := subS p1 sx (bx.trans (hB1.trans big))
  have ty := subS p1 sy (byy.trans (hB1.trans big))
  refine ⟨tx.1, ty.1, ?_⟩
  have rx := rnd_err b64 hB0 bx (hB1.trans big)
  have ry := rnd_err b64 hB0 byy (hB1.trans big)
  rw [tx.2, ty.2]
  rw [hB] at rx ry
  have rx' := (abs_le.1 rx).2
  have ry' := (abs_le.1 ry).1
  have e55 : (-1 : ℤ) - 54 = -55 := by norm_num
  rw [e55] at ex ey
  have ex' := (abs_le.1 ex).1
  have ey' := (abs_le.1 ey).2
  have key : p2 (-53) + 2 * p2 k ≤ (asinS x).val - (asinS y).val := by
    apply (Rat.cast_le (K := ℝ)).1
    push_cast
    have d : ((p2 (-53) : ℚ) : ℝ) / M ≤ asinSr x - asinSr y := by
      rw [div_le_iff₀ M0]; linarith
    change _ ≤ (asinS x).real - (asinS y).real
    linarith
  linarith

theorem asinS_real_bounds {a : F64} {lo hi : ℝ} (ha : a.isFinite = true) (h1 : 0.625 ≤ a.val) (h2 : a.val ≤ 1) (hlo : lo ≤ asinSr a) (hhi : asinSr a ≤ hi) :
    lo - 1 / 10 ^ 9 ≤ (asinS a).real ∧ (asinS a).real ≤ hi + 1 / 10 ^ 9 := by
  have r1 := le_real_iff.2 h1
  push_cast at r1
  have s1 : asinSr a ≤ ((p2 0 : ℚ) : ℝ) := by
    have : ((p2 0 : ℚ) : ℝ) = 1 := by rw [p2_eq]; norm_num
    rw [this]
    exact asinSr_le (by norm_num) (by norm_num at *; linarith)
  obtain ⟨-, e⟩ := asinS_err ha (le_trans (by norm_num) h1) h2 (by norm_num) s1
  have : ((p2 (0 - 54) : ℚ) : ℝ) ≤ 1 / 10 ^ 9 := by rw [p2_eq]; norm_num
  have e' := abs_le.1 e
  generalize ((p2 (0 - 54) : ℚ) : ℝ) = g at *
  constructor <;> linarith [e'.1, e'.2]

theorem le_asinSr {a : F64} {lo : ℝ} (h : lo * lo ≤ 2 * (1 - a.real)) : lo ≤ asinSr a := by
  unfold asinSr
  exact Real.le_sqrt_of_sq_le (by rw [sq]; exact h)

/-- The middle part: the difference is below one half. -/
theorem asin_gap_mid {x y : F64} (hx : x.isFinite = true) (hy : y.isFinite = true) (h1 : 0.875 ≤ x.val) (h : x.val < y.val) (h2 : y.val ≤ 0.921875) :
    (PIO4 - asinS x).isFinite = true ∧ (PIO4 - asinS y).isFinite = true ∧ (PIO4 - asinS x).val + p2 (-53) ≤ (PIO4 - asinS y).val := by
  obtain ⟨p1, p2', p3, big, hu, -⟩ := pio4_facts
  have P := le_real_iff.2 p2'
  have P' := real_le_iff.2 p3
  have b : ∀ {a : F64}, a.isFinite = true → 0.875 ≤ a.val → a.val ≤ 0.921875 → asinSr a ≤ 1 / 2 ∧ |PIO4.val - (asinS a).val| ≤ 0.391 := by
    intro a ha c1 c2
    have r1 := le_real_iff.2 c1
    have r2 := real_le_iff.2 c2
    push_cast at r1 r2
    have u : asinSr a ≤ 1 / 2 := asinSr_le (by norm_num) (by norm_num at *; linarith)
    have l : 0.3952 ≤ asinSr a := le_asinSr (by norm_num at *; linarith)
    have k := asinS_real_bounds ha (le_trans (by norm_num) c1) (c2.trans (by norm_num)) l u
    refine ⟨u, ?_⟩
    apply (Rat.cast_le (K := ℝ)).1
    push_cast
    change |PIO4.real - (asinS a).real| ≤ _
    push_cast at P P'
    rw [abs_le]
    norm_num at *
    constructor <;> linarith [k.1, k.2]
  obtain ⟨u, bx⟩ := b hx h1 (h.le.trans h2)
  obtain ⟨-, byy⟩ := b hy (h1.trans h.le) h2
  exact asin_gap_round hx hy h1 h (h2.trans (by norm_num)) u le_rfl (by norm_num) (by norm_num) hu (by rw [p2_eq, p2_eq]; norm_num) (by norm_num) bx byy

/-- The top. -/
theorem asin_gap_top {x y : F64} (hx : x.isFinite = true) (hy : y.isFinite = true) (h1 : 0.921875 ≤ x.val) (h : x.val < y.val) (h2 : y.val ≤ 1) :
    (PIO4 - asinS x).isFinite = true ∧ (PIO4 - asinS y).isFinite = true ∧ (PIO4 - asinS x).val + p2 (-53) ≤ (PIO4 - asinS y).val := by
  obtain ⟨p1, p2', p3, big, -, hu⟩ := pio4_facts
  have P := le_real_iff.2 p2'
  have P' := real_le_iff.2 p3
  have b : ∀ {a : F64}, a.isFinite = true → 0.921875 ≤ a.val → a.val ≤ 1 → asinSr a ≤ 2 / 5 ∧ |PIO4.val - (asinS a).val| ≤ 0.7854 := by
    intro a ha c1 c2
    have r1 := le_real_iff.2 c1
    have r2 := real_le_iff.2 c2
    push_cast at r1 r2
    have u : asinSr a ≤ 2 / 5 := asinSr_le (by norm_num) (by norm_num at *; linarith)
    have s0 := val_nonneg_of_sign (asin_root ha (le_trans (by norm_num) c1) c2).2.2.2.1
    have k := (asinS_real_bounds ha (le_trans (by norm_num) c1) c2 (le_refl (asinSr a)) u).2
    refine ⟨u, ?_⟩
    have k' : (asinS a).val ≤ 0.5 := by
      apply real_le_iff.1; push_cast; norm_num at *; linarith
    change 0 ≤ (asinS a).val at s0
    rw [abs_le]
    norm_num at *
    constructor <;> linarith
  obtain ⟨u, bx⟩ := b hx h1 (h.le.trans h2)
  obtain ⟨-, byy⟩ := b hy (h1.trans h.le) h2
  exact asin_gap_round hx hy (le_trans (by norm_num) h1) h h2 u (by norm_num) (by norm_num) (by norm_num) hu (by rw [p2_eq, p2_eq, p2_eq]; norm_num) (by norm_num) bx byy

/-- The bottom: everything is exact. -/
theorem asin_gap_low {x y : F64} (hx : x.isFinite = true) (hy : y.isFinite = true) (h1 : 0.625 ≤ x.val) (h : x.val < y.val) (h2 : y.val ≤ 0.875) :
    (PIO4 - asinS x).isFinite = true ∧ (PIO4 - asinS y).isFinite = true ∧ (PIO4 - asinS x).val + p2 (-53) ≤ (PIO4 - asinS y).val := by
  obtain ⟨p1, p2', p3, big, -⟩ := pio4_facts
  have h1' : 1 / 2 ≤ x.val := le_trans (by norm_num) h1
  have h2' : y.val ≤ 1 := h2.trans (by norm_num)
  have half : (1 / 2 : ℚ) = p2 (-1) := by rw [p2_eq]; norm_num
  have e53 : (-1 : ℤ) - (b64.mb : ℤ) = -53 := by decide
  obtain ⟨m, hm⟩ := mult_of_ge (x := PIO4) (j := -1) (by rw [← half]; exact le_trans (by norm_num at *; linarith) (le_abs_self _))
  rw [e53] at hm
  have b : ∀ {a : F64}, a.isFinite = true → 0.625 ≤ a.val → a.val ≤ 0.875 →
      asinSr a ≤ 0.8661 ∧ (asinS a).isFinite = true ∧ |(asinS a).real - asinSr a| ≤ ((p2 (-54) : ℚ) : ℝ) ∧ (∃ n : ℤ, (asinS a).val = n * p2 (-53)) ∧
      (PIO4 - asinS a).isFinite = true ∧ (PIO4 - asinS a).val = PIO4.val - (asinS a).val := by
    intro a ha c1 c2
    have r1 := le_real_iff.2 c1
    have r2 := real_le_iff.2 c2
    push_cast at r1 r2
    have u : asinSr a ≤ 0.8661 := asinSr_le (by norm_num) (by norm_num at *; linarith)
    have one : ((p2 0 : ℚ) : ℝ) = 1 := by rw [p2_eq]; norm_num
    obtain ⟨f1, e1⟩ := asinS_err ha (le_trans (by norm_num) c1) (c2.trans (by norm_num)) (e := 0) (by norm_num) (by rw [one]; norm_num at *; linarith)
    -- the root is at least one half
    have lo : 1 / 2 ≤ (asinS a).val := by
      have q : (FP.sqrt (ofBits 0x3fd0000000000000#64 : F64)).val = 1 / 2 ∧ (ofBits 0x3fd0000000000000#64 : F64).isFinite = true ∧
        (ofBits 0x3fd0000000000000#64 : F64).sign = false ∧ (ofBits 0x3fd0000000000000#64 : F64).val = 1 / 4 := by decide +kernel
      have l := lit1_64
      have d1 : (1 : ℚ) ≤ b64.big := by linarith
      have g1 : 1 / 2 ≤ a.val := le_trans (by norm_num) c1
      have g2 : a.val ≤ 1 := c2.trans (by norm_num)
      have d := sub_exact (x := lit 1.0) (y := a) l.1 ha (by rw [l.2.1]; exact rep_one_sub emin64 g1 g2)
        (by rw [l.2.1, abs_of_nonneg (by linarith)]; linarith)
      have ds : (lit 1.0 - a).sign = false := sub_sign_nonneg l.1 ha l.2.2 (by rw [l.2.1]; exact g2)
      rw [l.2.1] at d
      unfold asinS
      generalize lit 1.0 - a = D at *
      have ee := add_exact d.1 d.1 (by rw [d.2, ← two_mul]; exact rep_two_mul (rep_one_sub emin64 g1 g2))
        (by rw [d.2, abs_of_nonneg (by linarith)]; linarith)
      have es : (D + D).sign = false := add_sign_nonneg d.1 d.1 ds (by rw [d.2]; linarith)
      rw [← q.1]
      refine sqrt_mono emin64 q.2.1 ee.1 q.2.2.1 es ?_
      rw [q.2.2.2, ee.2, d.2]
      norm_num at *; linarith
    have hi : (asinS a).val ≤ 1 := by
      have k := (asinS_real_bounds ha c1 (c2.trans (by norm_num)) (le_refl (asinSr a)) u).2
      apply real_le_iff.1; push_cast; norm_num at *; linarith
    obtain ⟨n, hn⟩ := mult_of_ge (x := asinS a) (j := -1) (by rw [← half]; exact lo.trans (le_abs_self _))
    rw [e53] at hn
    have ab : |PIO4.val - (asinS a).val| ≤ 1 := by rw [abs_le]; norm_num at *; constructor <;> linarith
    have ex := sub_exact p1 f1 (by
      refine ⟨m - n, -53, by rw [hm, hn]; push_cast; ring, ?_, by decide⟩
      have k : |((m - n : ℤ) : ℚ)| * p2 (-53) ≤ 2 ^ 53 * p2 (-53) := by
        rw [← abs_of_pos (p2_pos (-53)), ← abs_mul, abs_of_pos (p2_pos (-53)), Int.cast_sub, sub_mul, ← hm, ← hn]
        refine ab.trans (le_of_eq ?_)
        rw [p2_eq]; norm_num
      have := le_of_mul_le_mul_right k (p2_pos _)
      exact_mod_cast this) (by linarith)
    exact ⟨u, f1, e1, ⟨n, hn⟩, ex⟩
  obtain ⟨ux, fx, ex, ⟨n, hn⟩, dx⟩ := b hx h1 (h.le.trans h2)
  obtain ⟨-, fy, ey, ⟨k, hk⟩, dy⟩ := b hy (h1.trans h.le) h2
  refine ⟨dx.1, dy.1, ?_⟩
  obtain ⟨g1, g2⟩ := asinSr_gap h1' h h2' ux
  have pos : (0 : ℝ) < ((p2 (-54) : ℚ) : ℝ) := by exact_mod_cast p2_pos _
  have e2 : ((p2 (-53) : ℚ) : ℝ) = 2 * ((p2 (-54) : ℚ) : ℝ) := by
    rw [show (-53 : ℤ) = -54 + 1 by norm_num, p2_succ]; push_cast; ring
  have lt : (asinS y).val < (asinS x).val := by
    apply (Rat.cast_lt (K := ℝ)).1
    change (asinS y).real < (asinS x).real
    have := (abs_le.1 ex).1
    have := (abs_le.1 ey).2
    norm_num at *
    linarith
  rw [dx.2, dy.2]
  have hp := p2_pos (-53)
  rw [hn, hk] at lt ⊢
  have ik : k < n := by exact_mod_cast lt_of_mul_lt_mul_right lt hp.le
  have : (k : ℚ) + 1 ≤ n := by exact_mod_cast ik
  have := mul_le_mul_of_nonneg_right this hp.le
  linarith

/-- The correction increases with the distance to one. -/
theorem asinRS_slope {s t : ℝ} (h0 : 0 ≤ s) (h : s ≤ t) (h1 : t ≤ 0.375) :
    0 ≤ s * pev asinRl s / pev asinSl s ∧ s * pev asinRl s / pev asinSl s ≤ t * pev asinRl t / pev asinSl t := by
  have key : ∀ {s t : ℝ}, 0 ≤ s → s ≤ t → t ≤ 0.375 → s * pev asinRl s / pev asinSl s ≤ t * pev asinRl t / pev asinSl t := by
    intro s t h0 h h1
    have := pslope_sound (N := 0 :: asinRl) (D := asinSl) (c := 0) (l := grid 0 0.375 8) (a := 0) (b := 0.375) (by decide +kernel) (by decide +kernel)
      (fun x h1 h2 => by push_cast at h1 h2; have := asinS_pos h1 h2; linarith) (x := s) (y := t) (by push_cast; exact h0) h (by push_cast; exact h1)
    rw [pev_cons, pev_cons] at this
    push_cast at this
    simp only [zero_mul, zero_add] at this
    linarith
  refine ⟨?_, key h0 h h1⟩
  have := key le_rfl h0 (h.trans h1)
  simpa using this

theorem asinCorrE_real (z σ : ℝ) : asinCorrE.evalR (pick z σ) = σ * (z * pev asinRl z / pev asinSl z) - MOREBITS.real := by
  have : asinCorrE.evalR (pick z σ) = σ * (z * (asinRE (.var 0)).evalR (pick z σ) / (asinSE (.var 0)).evalR (pick z σ)) - MOREBITS.real := rfl
  rw [this, asinRE_real, asinSE_real]; rfl

/-- The computed correction is close to one that decreases. -/
theorem asinCorr_near (p : Policy) {a : F64} (ha : a.isFinite = true) (h1 : 0.625 ≤ a.val) (h2 : a.val ≤ 1) :
    (asinCorrC p (lit 1.0 - a) (asinS a)).isFinite = true ∧
    |(asinCorrC p (lit 1.0 - a) (asinS a)).real - (asinSr a * ((1 - a.real) * pev asinRl (1 - a.real) / pev asinSl (1 - a.real)) - MOREBITS.real)| ≤ 4 / 10 ^ 17 := by
  have r1 := le_real_iff.2 h1
  have r2 := real_le_iff.2 h2
  push_cast at r1 r2
  obtain ⟨d1, d2, s1, s3, s2⟩ := asin_root ha (le_trans (by norm_num) h1) h2
  have q0 : 0 ≤ asinSr a := Real.sqrt_nonneg _
  have q2 : asinSr a * asinSr a = 2 * (1 - a.real) := Real.mul_self_sqrt (by linarith)
  have q1 : asinSr a ≤ 0.8661 := asinSr_le (by norm_num) (by norm_num at *; linarith)
  obtain ⟨s, t, hst, g1, g2⟩ := covers_spans asinCorrE_ok (a := 0) (b := 0.8661) (by decide +kernel) (x := asinSr a) (by push_cast; exact q0) (by push_cast; exact q1)
  have k := okAbsS_con hst d1 s1 (σ := asinSr a) (by rw [d2, q2]; push_cast; ring) s2 g1 g2 (asinCorr_con p _ _)
  rw [d2, asinCorrE_real] at k
  refine ⟨k.1, k.2.1.trans (le_of_eq ?_)⟩
  push_cast; norm_num

theorem asinLarge_step (p : Policy) {x y : F64} (hx : x.isFinite = true) (hy : y.isFinite = true) (h1 : 0.625 ≤ x.val) (h : x.val < y.val) (h2 : y.val ≤ 1)
    (hg : (PIO4 - asinS x).isFinite = true ∧ (PIO4 - asinS y).isFinite = true ∧ (PIO4 - asinS x).val + p2 (-53) ≤ (PIO4 - asinS y).val) :
    (asinLargeC p x).val ≤ (asinLargeC p y).val := by
  obtain ⟨zx, zy, hz⟩ := hg
  obtain ⟨cx, nx⟩ := asinCorr_near p hx h1 (h.le.trans h2)
  obtain ⟨cy, ny⟩ := asinCorr_near p hy (h1.trans h.le) h2
  have fx := (asin_large_acc p hx h1 (h.le.trans h2)).1
  have fy := (asin_large_acc p hy (h1.trans h.le) h2).1
  have P := pio4_facts.1
  have r1 := le_real_iff.2 h1
  have r2 := real_le_iff.2 h2
  push_cast at r1 r2
  have r3 : x.real ≤ y.real := by unfold FP.real; exact_mod_cast h.le
  obtain ⟨m0, m1⟩ := asinRS_slope (s := 1 - y.real) (t := 1 - x.real) (by linarith) (by linarith) (by norm_num at *; linarith)
  have ss : asinSr y ≤ asinSr x := by unfold asinSr; exact Real.sqrt_le_sqrt (by linarith)
  have s0 : 0 ≤ asinSr x := Real.sqrt_nonneg _
  have mm := mul_le_mul ss m1 m0 s0
  have cc : (asinCorrC p (lit 1.0 - y) (asinS y)).val ≤ (asinCorrC p (lit 1.0 - x) (asinS x)).val + p2 (-53) := by
    apply (Rat.cast_le (K := ℝ)).1
    push_cast
    change (asinCorrC p (lit 1.0 - y) (asinS y)).real ≤ (asinCorrC p (lit 1.0 - x) (asinS x)).real + _
    have e : ((p2 (-53) : ℚ) : ℝ) ≥ 8 / 10 ^ 17 := by rw [p2_eq]; norm_num
    have := (abs_le.1 nx).1
    have := (abs_le.1 ny).2
    norm_num at *
    linarith
  rw [asinLargeC_eq] at fx fy ⊢
  rw [asinLargeC_eq]
  change ((PIO4 - asinS x - asinCorrC p (lit 1.0 - x) (asinS x)) + PIO4).isFinite = true at fx
  change ((PIO4 - asinS y - asinCorrC p (lit 1.0 - y) (asinS y)) + PIO4).isFinite = true at fy
  change ((PIO4 - asinS x - asinCorrC p (lit 1.0 - x) (asinS x)) + PIO4).val ≤ ((PIO4 - asinS y - asinCorrC p (lit 1.0 - y) (asinS y)) + PIO4).val
  generalize asinCorrC p (lit 1.0 - x) (asinS x) = c at *
  generalize asinCorrC p (lit 1.0 - y) (asinS y) = d at *
  generalize PIO4 - asinS x = z at *
  generalize PIO4 - asinS y = w at *
  have gx := add_finite_left fx P
  have gy := add_finite_left fy P
  have v : (z - c).val ≤ (w - d).val := by
    rw [sub_def, sub_def, sub_fin zx cx, sub_fin zy cy, val_ofRat, val_ofRat]
    exact rnd_mono b64 (by linarith)
  rw [add_def, add_def, add_fin gx P, add_fin gy P, val_ofRat, val_ofRat]
  exact rnd_mono b64 (by linarith)

theorem asinLarge_order (p : Policy) {x y : F64} (hx : x.isFinite = true) (hy : y.isFinite = true) (h1 : 0.625 ≤ x.val) (h : x.val ≤ y.val) (h2 : y.val ≤ 1) (sx : x.sign = false) (sy : y.sign = false) :
    (asinLargeC p x).val ≤ (asinLargeC p y).val := by
  rcases h.eq_or_lt with e | h
  · have : x = y := by
      have : x.val ≠ 0 := by
        intro c; rw [c] at h1; norm_num at h1
      exact eq_of_val_ne this e
    rw [this]
  have P : (lit 0.875 : F64).isFinite = true ∧ (lit 0.875 : F64).val = 0.875 ∧ (lit 0.921875 : F64).isFinite = true ∧ (lit 0.921875 : F64).val = 0.921875 := by
    decide +kernel
  obtain ⟨a1, a2, b1, b2⟩ := P
  have low : ∀ {x y : F64}, x.isFinite = true → y.isFinite = true → 0.625 ≤ x.val → x.val < y.val → y.val ≤ 0.875 → (asinLargeC p x).val ≤ (asinLargeC p y).val :=
    fun hx hy h1 h h2 => asinLarge_step p hx hy h1 h (h2.trans (by norm_num)) (asin_gap_low hx hy h1 h h2)
  have mid : ∀ {x y : F64}, x.isFinite = true → y.isFinite = true → 0.875 ≤ x.val → x.val < y.val → y.val ≤ 0.921875 → (asinLargeC p x).val ≤ (asinLargeC p y).val :=
    fun hx hy h1 h h2 => asinLarge_step p hx hy (le_trans (by norm_num) h1) h (h2.trans (by norm_num)) (asin_gap_mid hx hy h1 h h2)
  have top : ∀ {x y : F64}, x.isFinite = true → y.isFinite = true → 0.921875 ≤ x.val → x.val < y.val → y.val ≤ 1 → (asinLargeC p x).val ≤ (asinLargeC p y).val :=
    fun hx hy h1 h h2 => asinLarge_step p hx hy (le_trans (by norm_num) h1) h h2 (asin_gap_top hx hy h1 h h2)
  -- from anywhere above 0.875
  have up : ∀ {x y : F64}, x.isFinite = true → y.isFinite = true → 0.875 ≤ x.val → x.val < y.val → y.val ≤ 1 → (asinLargeC p x).val ≤ (asinLargeC p y).val := by
    intro x y hx hy h1 h h2
    rcases le_or_gt y.val 0.921875 with c | c
    · exact mid hx hy h1 h c
    rcases le_or_gt 0.921875 x.val with d | d
    · exact top hx hy d h h2
    · exact (mid hx b1 h1 (by rw [b2]; exact d) b2.le).trans (top b1 hy b2.ge (by rw [b2]; exact c) h2)
  rcases le_or_gt y.val 0.875 with c | c
  · exact low hx hy h1 h c
  rcases le_or_gt 0.875 x.val with d | d
  · exact up hx hy d h h2
  · exact (low hx a1 h1 (by rw [a2]; exact d) a2.le).trans (up a1 hy a2.ge (by rw [a2]; exact c) h2)

/-! ## The branch below 0.625 -/

/-- include/asin.h:140-144, without the last sum -/
def asinTail (a : F64) : F64 := a * (a * a * getPX (a * a) / getQX (a * a))
theorem asinSmall_eq (a : F64) : asinSmall a = asinTail a + a := rfl
def asinTE : E b64 := (E.var 0).mul (((E.var 1).mul (asinPE (.var 1))).div (asinQE (.var 1)))
theorem asinTE_eval (a : F64) : asinTE.evalF (withSq a) = asinTail a := rfl

theorem asinTail_con (a : F64) : ((E.var 1).mul ((((E.var 0).mul (.var 0)).mul (asinPE ((E.var 0).mul (.var 0)))).div (asinQE ((E.var 0).mul (.var 0)))) : E b64).Con (fun _ => a) (asinTail a) := by
  unfold asinPE asinQE asinTail getPX getQX; con
theorem asinTail_lin : covers (okLin b64 ((E.var 1).mul ((((E.var 0).mul (.var 0)).mul (asinPE ((E.var 0).mul (.var 0)))).div (asinQE ((E.var 0).mul (.var 0)))))
    (0.49 * 2 ^ (-53 : ℤ)) 4) (grid 0 0.46875 15) = true := by decide +kernel
theorem asinTail_ok1 : okD b64 (-54) asinTE 0.46875 0.5 = true := by decide +kernel
theorem asinTail_ok2 : covers (okD b64 (-53) asinTE) [0.5, 0.5625, 0.59375, 0.625] = true ∧ spans [0.5, 0.5625, 0.59375, 0.625] 0.5 0.625 = true := by decide +kernel

noncomputable def asinG (z : ℝ) : ℝ := z * (z * z * pev asinPl (z * z) / pev asinQl (z * z))

theorem asinG_mono {x y : ℝ} (h0 : 0 ≤ x) (h : x ≤ y) (h1 : y ≤ 0.625) : asinG x ≤ asinG y := by
  have key : ∀ {s t : ℝ}, 0 ≤ s → s ≤ t → t ≤ 0.390625 → s * pev asinPl s / pev asinQl s ≤ t * pev asinPl t / pev asinQl t := by
    intro s t h0 h h1
    have := pslope_sound (N := pneg (0 :: asinPl)) (D := pneg asinQl) (c := 0) (l := grid 0 0.390625 8) (a := 0) (b := 0.390625) (by decide +kernel) (by decide +kernel)
      (fun x h1 h2 => by push_cast at h1 h2; rw [pev_neg]; have := asinQ_neg h1 h2; linarith) (x := s) (y := t) (by push_cast; exact h0) h (by push_cast; exact h1)
    rw [pev_neg, pev_neg, pev_neg, pev_neg, pev_cons, pev_cons] at this
    push_cast at this
    simp only [zero_mul, zero_add, neg_div_neg_eq] at this
    linarith
  have xy : x * x ≤ y * y := mul_self_le_mul_self h0 h
  have y2 : y * y ≤ 0.390625 := by
    have := mul_self_le_mul_self (h0.trans h) h1
    norm_num at *; linarith
  unfold asinG
  refine mul_le_mul h (key (mul_self_nonneg x) xy y2) ?_ (h0.trans h)
  have := key le_rfl (mul_self_nonneg x) (xy.trans y2)
  simpa using this

theorem asinTail_err {a : F64} (ha : a.isFinite = true) (h1 : p2 (-27) ≤ a.val) (h2 : a.val ≤ 0.46875) :
    (asinTail a).isFinite = true ∧ |((asinTail a).val : ℝ) - asinG a.real| ≤ 0.499 * 2 ^ (-53 : ℤ) * |a.real| := by
  have r1 : ((p2 (-27) : ℚ) : ℝ) ≤ a.real := by unfold FP.real; exact_mod_cast h1
  have r2 := real_le_iff.2 h2
  have e27 : ((p2 (-27) : ℚ) : ℝ) = 2 ^ (-27 : ℤ) := by rw [p2_eq]; norm_num
  rw [e27] at r1
  have r0 : 0 < a.real := lt_of_lt_of_le (by positivity) r1
  obtain ⟨s, t, hst, g1, g2⟩ := covers_spans asinTail_lin (a := 0) (b := 0.46875) (by decide +kernel) (x := a.real) (by push_cast; exact r0.le) r2
  have k := okLin_con hst ha g1 g2 (asinTail_con a)
  refine ⟨k.1, ?_⟩
  have er : ((E.var 1).mul ((((E.var 0).mul (.var 0)).mul (asinPE ((E.var 0).mul (.var 0)))).div (asinQE ((E.var 0).mul (.var 0)))) : E b64).evalR (fun _ => a.real) = asinG a.real := by
    have : ((E.var 1).mul ((((E.var 0).mul (.var 0)).mul (asinPE ((E.var 0).mul (.var 0)))).div (asinQE ((E.var 0).mul (.var 0)))) : E b64).evalR (fun _ => a.real) =
      a.real * (a.real * a.real * (asinPE ((E.var 0).mul (.var 0))).evalR (fun _ => a.real) / (asinQE ((E.var 0).mul (.var 0))).evalR (fun _ => a.real)) := rfl
    rw [this, asinPE_real, asinQE_real]; rfl
  rw [er] at k
  have c1 : ((0.49 * 2 ^ (-53 : ℤ) : ℚ) : ℝ) = 0.49 * 2 ^ (-53 : ℤ) := by norm_num
  have c2 : ((4 : ℚ) : ℝ) = 4 := by norm_num
  rw [c1, c2] at k
  refine k.2.trans ?_
  have et : (4 : ℝ) * (b64.eta : ℝ) ≤ 0.009 * 2 ^ (-53 : ℤ) * 2 ^ (-27 : ℤ) := by
    have : 4 * b64.eta ≤ 0.009 * 2 ^ (-53 : ℤ) * 2 ^ (-27 : ℤ) := by decide +kernel
    have := (Rat.cast_le (K := ℝ)).2 this
    push_cast at this ⊢
    exact this
  rw [abs_of_pos r0]
  have := mul_le_mul_of_nonneg_left r1 (show (0 : ℝ) ≤ 0.009 * 2 ^ (-53 : ℤ) by positivity)
  linarith

/-- Up to 0.46875 the error is too small to change the order. -/
theorem asinSmall_low {x y : F64} (hx : x.isFinite = true) (hy : y.isFinite = true) (h1 : p2 (-27) ≤ x.val) (h : x.val ≤ y.val) (h2 : y.val ≤ 0.46875) :
    (asinSmall x).val ≤ (asinSmall y).val := by
  obtain ⟨fx, ex⟩ := asinTail_err hx h1 (h.trans h2)
  obtain ⟨fy, ey⟩ := asinTail_err hy (h1.trans h) h2
  have x0 : 0 < x.val := (p2_pos _).trans_le h1
  have big : (4 : ℚ) ≤ b64.big := pio4_facts.2.2.2.1
  have r0 : 0 ≤ x.real := by unfold FP.real; exact_mod_cast x0.le
  have r1 : x.real ≤ y.real := by unfold FP.real; exact_mod_cast h
  have r2 := real_le_iff.2 h2
  push_cast at r2
  have r3 : y.real ≤ 0.625 := r2.trans (by norm_num)
  have u : (b64.u : ℝ) = 2 ^ (-53 : ℤ) := by
    have : b64.u = 2 ^ (-53 : ℤ) := by decide +kernel
    rw [this]; push_cast; rfl
  have k := core_order (T := fun a => (asinTail a).val) (G := asinG) (c := 1) (K := 0.499 * 2 ^ (-53 : ℤ)) h (by linarith [asinG_mono r0 r1 r3]) ex ey (by positivity)
    (by rw [u]; norm_num)
  have tb : ∀ {a : F64}, 0 < a.val → a.val ≤ 0.46875 → |((asinTail a).val : ℝ) - asinG a.real| ≤ 0.499 * 2 ^ (-53 : ℤ) * |a.real| → |(asinTail a).val + a.val| ≤ b64.big := by
    intro a a0 a1 e
    have b0 : 0 < a.real := by unfold FP.real; exact_mod_cast a0
    have b1 := real_le_iff.2 a1
    push_cast at b1
    have g1 := asinG_mono le_rfl b0.le (b1.trans (by norm_num))
    have g2 := asinG_mono b0.le (show a.real ≤ 0.625 from b1.trans (by norm_num)) le_rfl
    have g3 : asinG 0.625 ≤ 1 := by
      have e := asin_small_approx (s := 0.625 * 0.625) (by norm_num) (by norm_num)
      have m : pabs 0.390625 asinT ≤ 1.2 := by decide +kernel
      have k := pabs_bound asinT (r := 0.390625) (t := 0.625 * 0.625) (by rw [abs_of_nonneg (by norm_num)]; push_cast; norm_num)
      have m' := (Rat.cast_le (K := ℝ)).2 m
      have k' := (le_abs_self _).trans (k.trans m')
      have e' := (abs_le.1 e).2
      unfold asinG
      generalize (0.625 * 0.625 * pev asinPl (0.625 * 0.625) / pev asinQl (0.625 * 0.625) : ℝ) = q at *
      generalize pev asinT (0.625 * 0.625) = r at *
      push_cast at k'
      norm_num at *
      linarith
    have g0 : asinG 0 = 0 := by unfold asinG; simp
    have : |(asinTail a).val + a.val| ≤ 4 := by
      apply (Rat.cast_le (K := ℝ)).1
      push_cast
      change |((asinTail a).val : ℝ) + a.real| ≤ 4
      rw [abs_of_pos b0] at e
      have e' := abs_le.1 e
      rw [abs_le]
      norm_num at *
      constructor <;> linarith [e'.1, e'.2]
    linarith
  rw [asinSmall_eq, asinSmall_eq, (addS fx hx (tb x0 (h.trans h2) ex)).2, (addS fy hy (tb (x0.trans_le h) h2 ey)).2]
  exact rnd_mono b64 k

/-- From one number to the next. -/
theorem asinTail_next {x y : F64} (hx : x.isFinite = true) (hy : y.isFinite = true) (sx : x.sign = false) (sy : y.sign = false) (hm : y.mag = x.mag + 1)
    (h1 : 0.46875 ≤ x.val) (h2 : y.val ≤ 0.625) : (asinSmall x).val ≤ (asinSmall y).val := by
  have hlt : x.val < y.val := by
    have ex : x.val = magVal b64 x.mag := by unfold FP.val; simp [sx]
    have ey : y.val = magVal b64 y.mag := by unfold FP.val; simp [sy]
    rw [ex, ey]; exact magVal_lt.2 (by omega)
  have x0 : 0 < x.val := lt_of_lt_of_le (by norm_num) h1
  have big : (4 : ℚ) ≤ b64.big := pio4_facts.2.2.2.1
  have em : b64.emin = -1022 := by decide
  have mb : b64.mb = 52 := rfl
  have ph : p2 (-1) = 1 / 2 := by rw [p2_eq]; norm_num
  have pq : p2 (-2) = 1 / 4 := by rw [p2_eq]; norm_num
  have k : (asinTail x).isFinite = true ∧ (asinTail y).isFinite = true ∧ |(asinTail x).val| ≤ 1 ∧ |(asinTail y).val| ≤ 1 ∧
      (asinTail x).val + x.val ≤ (asinTail y).val + y.val := by
    rcases lt_or_ge x.val (1 / 2) with c | c
    · have l1 : p2 (-2) ≤ x.val := by rw [pq]; norm_num at *; linarith
      have nv := next_val sx sy hm (by rw [em]; norm_num) l1 (by rw [show (-2 : ℤ) + 1 = -1 by norm_num, ph]; exact c)
      have mu := mult_of_ge (x := x) (j := -2) (by rw [abs_of_pos x0]; exact l1)
      have eg : -2 - (b64.mb : ℤ) = -54 := by rw [mb]; norm_num
      rw [eg] at nv mu
      exact okD_sound asinTail_ok1 hx hy h1 (c.le.trans (by norm_num)) nv mu
    · have l1 : p2 (-1) ≤ x.val := by rw [ph]; exact c
      have nv := next_val sx sy hm (by rw [em]; norm_num) l1 (by rw [show (-1 : ℤ) + 1 = 0 by norm_num, p2_eq]; norm_num at *; linarith)
      have mu := mult_of_ge (x := x) (j := -1) (by rw [abs_of_pos x0]; exact l1)
      have eg : -1 - (b64.mb : ℤ) = -53 := by rw [mb]; norm_num
      rw [eg] at nv mu
      obtain ⟨s, t, hst, g1, g2⟩ := covers_spans asinTail_ok2.1 asinTail_ok2.2 (x := x.real) (by unfold FP.real; exact Rat.cast_le.2 (le_trans (by norm_num) c))
        (by unfold FP.real; exact Rat.cast_le.2 (hlt.le.trans h2))
      exact okD_sound hst hx hy (Rat.cast_le.1 g1) (Rat.cast_le.1 g2) nv mu
  obtain ⟨k1, k2, k3, k4, k5⟩ := k
  have y1 : y.val ≤ 1 := h2.trans (by norm_num)
  rw [asinSmall_eq, asinSmall_eq, (addS k1 hx _).2, (addS k2 hy _).2]
  · exact rnd_mono b64 k5
  · refine (abs_add_le _ _).trans ?_
    rw [abs_of_pos (x0.trans hlt)]
    linarith
  · refine (abs_add_le _ _).trans ?_
    rw [abs_of_pos x0]
    linarith

theorem asinSmall_order {x y : F64} (hx : x.isFinite = true) (hy : y.isFinite = true) (sx : x.sign = false) (sy : y.sign = false) (h1 : p2 (-27) ≤ x.val) (h : x.val ≤ y.val)
    (h2 : y.val ≤ 0.625) : (asinSmall x).val ≤ (asinSmall y).val := by
  have ev : ∀ {a : F64}, a.sign = false → a.val = magVal b64 a.mag := by intro a s; unfold FP.val; simp [s]
  have up : ∀ {x y : F64}, y.isFinite = true → x.sign = false → y.sign = false → 0.46875 ≤ x.val → x.val ≤ y.val → y.val ≤ 0.625 → (asinSmall x).val ≤ (asinSmall y).val := by
    intro x y hy sx sy h1 h h2
    refine adj_run (P := fun a => (asinSmall a).val) (Q := fun a => a.isFinite = true ∧ 0.46875 ≤ a.val ∧ a.val ≤ 0.625)
      (fun a b sa sb hm qa qb => asinTail_next qa.1 qb.1 sa sb hm qa.2.1 qb.2.2) sx sy (by rw [ev sx, ev sy] at h; exact magVal_le.1 h) (fun a sa c1 c2 => ?_)
    have d1 := magVal_le (f := b64).2 c1
    have d2 := magVal_le (f := b64).2 c2
    rw [← ev sx, ← ev sa] at d1
    rw [← ev sa, ← ev sy] at d2
    refine ⟨?_, h1.trans d1, d2.trans h2⟩
    simp only [isFinite, decide_eq_true_eq] at hy ⊢
    omega
  have L : (lit 0.46875 : F64).isFinite = true ∧ (lit 0.46875 : F64).val = 0.46875 ∧ (lit 0.46875 : F64).sign = false := by decide +kernel
  obtain ⟨l1, l2, l3⟩ := L
  rcases le_or_gt y.val 0.46875 with c | c
  · exact asinSmall_low hx hy h1 h c
  rcases le_or_gt 0.46875 x.val with d | d
  · exact up hy sx sy d h h2
  · exact (asinSmall_low hx l1 h1 (by rw [l2]; exact d.le) l2.le).trans (up hy l3 sy l2.ge (by rw [l2]; exact c.le) h2)

/-! ## All together -/

theorem asinPos_order {x y : F64} (hx : x.isFinite = true) (hy : y.isFinite = true) (sx : x.sign = false) (sy : y.sign = false)
    (h : x.val ≤ y.val) (h2 : y.val ≤ 1) : (asinPos x).val ≤ (asinPos y).val := by
  have L : (lit 0.625 : F64).isFinite = true ∧ (lit 0.625 : F64).val = 0.625 ∧ (lit 1e-8 : F64).isFinite = true ∧ p2 (-27) ≤ (lit 1e-8 : F64).val ∧
      (lit 1e-8 : F64).val ≤ (asinSmall (lit 1e-8)).val ∧ (lit 1e-8 : F64).sign = false ∧ (lit 0.625 : F64).sign = false ∧ (lit 1e-8 : F64).val ≤ 0.6 ∧
      (asinSmall (lit 0.625)).val ≤ (asinLargeC (fun _ => false) (lit 0.625)).val := by decide +kernel
  obtain ⟨l1, l2, l3, l4, l5, l6, l7, l8, l9⟩ := L
  have cases : ∀ {a : F64}, a.isFinite = true → (a.val < (lit 1e-8 : F64).val → asinPos a = a) ∧
      ((lit 1e-8 : F64).val ≤ a.val → a.val < 0.625 → asinPos a = asinSmall a) ∧ (0.625 ≤ a.val → asinPos a = asinLargeC (fun _ => false) a) := by
    intro a ha
    refine ⟨fun c => ?_, fun c d => ?_, fun d => ?_⟩
    · unfold asinPos; simp only; rw [lt_fin ha l3]; simp [c]
    · unfold asinPos; simp only; rw [lt_fin ha l3, lt_fin ha l1, l2]; simp [d, not_lt.2 c]
    · have c : (lit 1e-8 : F64).val ≤ a.val := l8.trans (le_trans (by norm_num) d)
      rw [← asinPos_plain]
      unfold asinPosC; simp only; rw [lt_fin ha l3, lt_fin ha l1, l2]; simp [not_lt.2 d, not_lt.2 c]
  have low : ∀ {a b : F64}, a.sign = false → b.sign = false → a.isFinite = true → b.isFinite = true → a.val ≤ b.val → (lit 1e-8 : F64).val ≤ b.val → b.val ≤ 0.625 →
      a.val < 0.625 → (asinPos a).val ≤ (asinSmall b).val := by
    intro a b sa sb ha hb hab c d v
    rcases lt_or_ge a.val (lit 1e-8 : F64).val with u | u
    · rw [(cases ha).1 u]
      exact u.le.trans (l5.trans (asinSmall_order l3 hb l6 sb l4 c d))
    · rw [(cases ha).2.1 u v]
      exact asinSmall_order ha hb sa sb (l4.trans u) hab d
  rcases lt_or_ge y.val (lit 1e-8 : F64).val with c | c
  · rw [(cases hx).1 (h.trans_lt c), (cases hy).1 c]; exact h
  rcases lt_or_ge y.val 0.625 with d | d
  · rw [(cases hy).2.1 c d]
    exact low sx sy hx hy h c d.le (h.trans_lt d)
  · rw [(cases hy).2.2 d]
    rcases lt_or_ge x.val 0.625 with e | e
    · refine (low sx l7 hx l1 (by rw [l2]; exact e.le) (by rw [l2]; exact l8.trans (by norm_num)) l2.le e).trans (l9.trans ?_)
      exact asinLarge_order _ l1 hy l2.ge (by rw [l2]; exact d) h2 l7 sy
    · rw [(cases hx).2.2 e]
      exact asinLarge_order _ hx hy e h h2 sx sy

end Vdt
