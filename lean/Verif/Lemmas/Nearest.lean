import Verif.Lemmas.Sqrt

/-!
# Rounding to nearest, ties to even: the formats' numbers as competitors
-/

namespace Vdt
open FP

variable {f : Fmt}

/-- A point of the grid of exponent `e` within half a step of `t` is nearest among all numbers of the
format, and is reached only with an even significand when another one is as near. -/
theorem grid_nearest (f : Fmt) {t : ℝ} {e : ℤ} {n : ℕ} (he : f.emin ≤ e)
    (hlo : (2 : ℝ) ^ f.mb * ((p2 (e - f.mb) : ℚ) : ℝ) ≤ t ∨ e = f.emin)
    (hn : n ≤ 2 ^ (f.mb + 1)) (hn' : 2 ^ f.mb ≤ n ∨ e = f.emin)
    (h : |(n : ℝ) * ((p2 (e - f.mb) : ℚ) : ℝ) - t| ≤ ((p2 (e - f.mb) : ℚ) : ℝ) / 2)
    (htie : |(n : ℝ) * ((p2 (e - f.mb) : ℚ) : ℝ) - t| = ((p2 (e - f.mb) : ℚ) : ℝ) / 2 → n % 2 = 0) (c : ℕ) :
    |((magVal f ((e - f.emin).toNat * 2 ^ f.mb + n) : ℚ) : ℝ) - t| ≤ |((magVal f c : ℚ) : ℝ) - t| ∧
    (|((magVal f ((e - f.emin).toNat * 2 ^ f.mb + n) : ℚ) : ℝ) - t| = |((magVal f c : ℚ) : ℝ) - t| →
      c ≠ (e - f.emin).toNat * 2 ^ f.mb + n → n % 2 = 0) := by
  have ev := magVal_code f he hn hn'
  have P0 : (0 : ℝ) < ((p2 (e - f.mb) : ℚ) : ℝ) := by exact_mod_cast p2_pos _
  have evr : ((magVal f ((e - f.emin).toNat * 2 ^ f.mb + n) : ℚ) : ℝ) = (n : ℝ) * ((p2 (e - f.mb) : ℚ) : ℝ) := by
    rw [ev]; push_cast; rfl
  -- another point of the same grid
  have far : ∀ K : ℕ, K ≠ n → ((p2 (e - f.mb) : ℚ) : ℝ) / 2 ≤ |(K : ℝ) * ((p2 (e - f.mb) : ℚ) : ℝ) - t| := by
    intro K hK
    generalize ((p2 (e - f.mb) : ℚ) : ℝ) = P at *
    have h1 : (1 : ℝ) ≤ |(K : ℝ) - n| := by
      have : (1 : ℤ) ≤ |(K : ℤ) - n| := Int.one_le_abs (by omega)
      exact_mod_cast this
    have h2 : P ≤ |(K : ℝ) * P - n * P| := by
      rw [← sub_mul, abs_mul, abs_of_pos P0]; nlinarith
    have h3 := abs_sub_le ((K : ℝ) * P) t (n * P)
    rw [abs_sub_comm t] at h3
    linarith
  have near : ∀ K : ℕ, |(n : ℝ) * ((p2 (e - f.mb) : ℚ) : ℝ) - t| ≤ |(K : ℝ) * ((p2 (e - f.mb) : ℚ) : ℝ) - t| := by
    intro K
    rcases eq_or_ne K n with hK | hK
    · rw [hK]
    · exact h.trans (far K hK)
  rw [evr]
  obtain ⟨e', k, he', hk, hk', hc⟩ := code_cases f c
  have evc : ((magVal f c : ℚ) : ℝ) = (k : ℝ) * ((p2 (e' - f.mb) : ℚ) : ℝ) := by
    rw [hc, magVal_code f he' hk.le hk']; push_cast; rfl
  rcases le_or_gt e e' with hle | hgt
  · -- on the grid
    obtain ⟨d, hd⟩ : ∃ d : ℕ, e' = e + d := ⟨(e' - e).toNat, by omega⟩
    have evK : ((magVal f c : ℚ) : ℝ) = ((k * 2 ^ d : ℕ) : ℝ) * ((p2 (e - f.mb) : ℚ) : ℝ) := by
      rw [evc, hd, show e + (d : ℤ) - f.mb = (d : ℤ) + (e - f.mb) by ring, p2_add, p2_nat]
      push_cast; ring
    rw [evK]
    refine ⟨near _, fun heq hne => ?_⟩
    have hK : k * 2 ^ d ≠ n := by
      intro hK
      apply hne
      apply (magVal_inj (f := f)).1
      have : ((magVal f c : ℚ) : ℝ) = ((magVal f ((e - f.emin).toNat * 2 ^ f.mb + n) : ℚ) : ℝ) := by
        rw [evK, evr, hK]
      exact_mod_cast this
    have := far _ hK
    exact htie (le_antisymm h (by rw [heq]; exact this))
  · -- below the binade
    have lo : (2 : ℝ) ^ f.mb * ((p2 (e - f.mb) : ℚ) : ℝ) ≤ t := hlo.resolve_right (by omega)
    have lt : ((magVal f c : ℚ) : ℝ) < (2 : ℝ) ^ f.mb * ((p2 (e - f.mb) : ℚ) : ℝ) := by
      have h1 : magVal f c < 2 ^ f.mb * p2 (e - f.mb) := by
        rw [hc, magVal_code f he' hk.le hk']
        have h2 : (k : ℚ) < 2 ^ (f.mb + 1) := by exact_mod_cast hk
        have h3 : (k : ℚ) * p2 (e' - f.mb) < 2 ^ (f.mb + 1) * p2 (e' - f.mb) := mul_lt_mul_of_pos_right h2 (p2_pos _)
        refine h3.trans_le ?_
        rw [← p2_nat, ← p2_nat, ← p2_add, ← p2_add]
        exact p2_le (by push_cast; omega)
      exact_mod_cast h1
    have key : |(n : ℝ) * ((p2 (e - f.mb) : ℚ) : ℝ) - t| < |((magVal f c : ℚ) : ℝ) - t| := by
      refine lt_of_le_of_lt (near (2 ^ f.mb)) ?_
      push_cast
      rw [abs_of_nonpos (by linarith), abs_of_neg (by linarith)]
      linarith
    exact ⟨key.le, fun heq => absurd heq key.ne⟩

/-- `y` is the number of the format nearest to the real `r`, the one with the even significand in
case of a tie (IEEE 754, roundTiesToEven, below the overflow threshold). -/
def FP.Nearest (y : FP f) (r : ℝ) : Prop :=
  y.isFinite = true ∧ (∀ z : FP f, z.isFinite = true → |y.real - r| ≤ |z.real - r|) ∧
  ∀ z : FP f, z.isFinite = true → z.real ≠ y.real → |y.real - r| = |z.real - r| → y.mag % 2 = 0

/-- From magnitudes to numbers with sign. -/
theorem nearest_of_mag {y : FP f} {t : ℝ} (hy : y.isFinite = true) (hs : y.sign = false) (t0 : 0 ≤ t)
    (h : ∀ c : ℕ, |((magVal f y.mag : ℚ) : ℝ) - t| ≤ |((magVal f c : ℚ) : ℝ) - t| ∧
      (|((magVal f y.mag : ℚ) : ℝ) - t| = |((magVal f c : ℚ) : ℝ) - t| → c ≠ y.mag → y.mag % 2 = 0)) :
    y.Nearest t := by
  have yv : y.real = ((magVal f y.mag : ℚ) : ℝ) := by unfold FP.real FP.val; rw [hs]; simp
  have zv : ∀ z : FP f, |((magVal f z.mag : ℚ) : ℝ) - t| ≤ |z.real - t| := by
    intro z
    unfold FP.real FP.val
    split
    · have m0 : (0 : ℝ) ≤ ((magVal f z.mag : ℚ) : ℝ) := by exact_mod_cast magVal_nonneg f _
      push_cast
      rw [abs_of_nonpos (a := -((magVal f z.mag : ℚ) : ℝ) - t) (by linarith), abs_le]
      constructor <;> linarith
    · exact le_rfl
  refine ⟨hy, fun z _ => ?_, fun z _ hne heq => ?_⟩
  · rw [yv]; exact (h z.mag).1.trans (zv z)
  · rw [yv] at heq
    by_cases hm : z.mag = y.mag
    · -- then `z = -y`, and zero is strictly nearer
      have zs : z.real = -((magVal f y.mag : ℚ) : ℝ) := by
        unfold FP.real FP.val
        split
        · rw [hm]; push_cast; rfl
        · rename_i hz
          exfalso; apply hne
          rw [yv]; unfold FP.real FP.val; rw [if_neg hz, hm]
      have m0 : (0 : ℝ) ≤ ((magVal f y.mag : ℚ) : ℝ) := by exact_mod_cast magVal_nonneg f _
      have h0 := (h 0).1
      rw [heq, zs, magVal_zero, Rat.cast_zero, zero_sub, abs_neg, abs_of_nonneg t0] at h0
      rw [abs_of_nonpos (by linarith)] at h0
      have : ((magVal f y.mag : ℚ) : ℝ) = 0 := by linarith
      exfalso; apply hne
      rw [zs, yv, this]; simp
    · exact (h z.mag).2 (le_antisymm (h z.mag).1 (by rw [heq]; exact zv z)) hm

theorem real_neg (x : FP f) : (neg x).real = -x.real := by
  unfold FP.real; rw [val_neg]; push_cast; rfl

theorem nearest_neg {y : FP f} {r : ℝ} (h : y.Nearest r) : (neg y).Nearest (-r) := by
  obtain ⟨a, b, c⟩ := h
  have e : ∀ z : FP f, |(neg z).real - -r| = |z.real - r| := by
    intro z
    rw [real_neg, ← abs_neg]; congr 1; ring
  refine ⟨a, fun z hz => ?_, fun z hz hne heq => ?_⟩
  · have := b (neg z) hz
    rwa [e, ← e (neg z), neg_neg'] at *
  · have h1 : (neg z).real ≠ y.real := by
      intro h2; apply hne; rw [real_neg] at h2 ⊢; linarith
    refine c (neg z) hz h1 ?_
    rw [← e y, heq, ← e (neg z), neg_neg']

/-- The overflow threshold: half a step above the largest finite number. -/
def Fmt.ovf (f : Fmt) : ℚ := p2 (2 - f.emin) - p2 (-f.emin - f.mb)

theorem infMag_code (f : Fmt) [f.Ok] : f.infMag = (1 - f.emin - f.emin).toNat * 2 ^ f.mb + 2 ^ (f.mb + 1) := by
  obtain ⟨d, hd, hde, -⟩ := infMag_eq f
  rw [hd, ← hde, Int.toNat_natCast, pow_succ]; ring

theorem magVal_inf (f : Fmt) [f.Ok] : magVal f f.infMag = p2 (2 - f.emin) := by
  obtain ⟨d, -, hde, -⟩ := infMag_eq f
  rw [infMag_code f, magVal_code f (by omega) le_rfl (Or.inl (Nat.pow_le_pow_right (by norm_num) (by omega)))]
  push_cast
  rw [← p2_nat, ← p2_add]; congr 1; push_cast; ring

/-- Rounding to an integer below an even number. -/
theorem rne_lt_even {s : ℚ} {M : ℕ} (s0 : 0 ≤ s) (hM : M % 2 = 0) (h0 : 0 < M) : rne s < M ↔ s < M - 1 / 2 := by
  have b := abs_le.1 (rne_bounds s0)
  constructor
  · intro h
    by_contra hc
    push Not at hc
    have h1 : (rne s : ℚ) + 1 ≤ M := by exact_mod_cast h
    have h2 : (rne s : ℚ) + 1 = M := by linarith [b.1]
    have h3 : |(rne s : ℚ) - s| = 1 / 2 := by
      have : (rne s : ℚ) - s = -(1 / 2) := by linarith [b.1]
      rw [this]; norm_num
    have h4 := rne_tie s0 h3
    have h5 : rne s + 1 = M := by exact_mod_cast h2
    omega
  · intro h
    have : (rne s : ℚ) < M := by linarith [b.2]
    exact_mod_cast this

/-- The code of a positive rational is that of a finite number exactly below the threshold. -/
theorem rcode_lt_inf (f : Fmt) [f.Ok] {q : ℚ} (hq : 0 < q) : rcode f q < f.infMag ↔ q < f.ovf := by
  obtain ⟨d, -, hde, hd1⟩ := infMag_eq f
  rw [← magVal_lt (f := f), magVal_inf]
  obtain ⟨l1, l2⟩ := ilog2_spec hq
  have hs : p2 (2 - f.emin) = 2 * p2 (1 - f.emin) := by rw [← p2_succ]; congr 1; ring
  have hle : p2 (-f.emin - f.mb) ≤ p2 (-f.emin) := p2_le (by omega)
  have hs' : p2 (1 - f.emin) = 2 * p2 (-f.emin) := by rw [← p2_succ]; congr 1; ring
  have hp := p2_pos (-f.emin)
  have hp' := p2_pos (-f.emin - f.mb)
  rcases lt_trichotomy (ilog2 q) (1 - f.emin) with h | h | h
  · have hq1 : q < p2 (1 - f.emin) := l2.trans_le (p2_le (by omega))
    refine iff_of_true ?_ ?_
    · rw [← magVal_inf, magVal_lt]
      exact lt_of_le_of_lt (rcode_mono f hq hq1.le) (rcode_big_lt f)
    · unfold Fmt.ovf; linarith
  · have hr : rexp f q = 1 - f.emin := by unfold rexp; rw [h]; omega
    have hP := p2_pos (1 - f.emin - f.mb)
    have hM : p2 (2 - f.emin) = ((2 ^ (f.mb + 1) : ℕ) : ℚ) * p2 (1 - f.emin - f.mb) := by
      push_cast; rw [← p2_nat, ← p2_add]; congr 1; push_cast; ring
    have hh : p2 (-f.emin - f.mb) = 1 / 2 * p2 (1 - f.emin - f.mb) := by
      have := p2_succ (-f.emin - f.mb)
      rw [show -f.emin - (f.mb : ℤ) + 1 = 1 - f.emin - f.mb by ring] at this
      linarith
    have hr2 : rsig f q = rne (q / p2 (1 - f.emin - f.mb)) := by unfold rsig; rw [hr]
    rw [magVal_rcode f hq, hr, hM, mul_lt_mul_iff_left₀ hP, Nat.cast_lt, hr2,
      rne_lt_even (by positivity) (by rw [pow_succ]; omega) (by positivity), div_lt_iff₀ hP]
    unfold Fmt.ovf
    rw [hM, hh, sub_mul]
  · have hq1 : p2 (2 - f.emin) ≤ q := (p2_le (by omega)).trans l1
    refine iff_of_false (not_lt.2 ?_) (not_lt.2 ?_)
    · have h1 := rcode_mono f (p2_pos _) hq1
      have h2 : magVal f (rcode f (p2 (2 - f.emin))) = p2 (2 - f.emin) := by
        have := rcode_exact f (n := 1) (k := 2 - f.emin) (by norm_num) (Nat.one_le_two_pow) (by omega)
        simpa using this
      rw [← h2]; exact magVal_le.2 h1
    · unfold Fmt.ovf; linarith

/-- Rounding of a positive rational. -/
theorem ofRat_nearest_pos (f : Fmt) [hf : f.Ok] (zs : Bool) {q : ℚ} (hq : 0 < q) (h : q < f.ovf) :
    (ofRat f zs q).Nearest q := by
  have hc := (rcode_lt_inf f hq).2 h
  have hm : (ofRat f zs q).mag = rcode f q := by
    show roundMag f (if q < 0 then -q else q) = _
    rw [if_neg (not_lt.2 hq.le), roundMag_rcode f hq, min_eq_left hc.le]
  have hs : (ofRat f zs q).sign = false := by rw [ofRat_sign_ne hq.ne']; exact decide_eq_false (not_lt.2 hq.le)
  have P0 := p2_pos (rexp f q - f.mb)
  have b := rne_bounds (q := q / p2 (rexp f q - f.mb)) (by positivity)
  have e : ∀ n : ℕ, |(n : ℚ) * p2 (rexp f q - f.mb) - q| = |(n : ℚ) - q / p2 (rexp f q - f.mb)| * p2 (rexp f q - f.mb) := by
    intro n
    rw [← abs_of_pos P0, ← abs_mul, abs_of_pos P0, sub_mul, div_mul_cancel₀ _ P0.ne']
  have er : ∀ n : ℕ, |(n : ℝ) * ((p2 (rexp f q - f.mb) : ℚ) : ℝ) - (q : ℝ)| =
      ((|(n : ℚ) - q / p2 (rexp f q - f.mb)| * p2 (rexp f q - f.mb) : ℚ) : ℝ) := by
    intro n; rw [← e]; push_cast; rfl
  refine nearest_of_mag (by simp only [isFinite, hm, decide_eq_true_eq]; exact hc) hs (by exact_mod_cast hq.le) fun c => ?_
  rw [hm]
  have g := grid_nearest f (t := (q : ℝ)) (e := rexp f q) (n := rsig f q) (rexp_ge f q) ?_ (rsig_le f hq) (rsig_ge f hq) ?_ ?_ c
  · refine ⟨g.1, fun h1 h2 => ?_⟩
    have h3 := g.2 h1 h2
    show ((rexp f q - f.emin).toNat * 2 ^ f.mb + rsig f q) % 2 = 0
    obtain ⟨m, hm⟩ : ∃ m, f.mb = m + 1 := ⟨f.mb - 1, by have := hf.mb1; omega⟩
    rw [hm, pow_succ, ← mul_assoc]; omega
  · rcases le_total (ilog2 q) f.emin with h1 | h1
    · right; unfold rexp; exact max_eq_right h1
    · left
      have h2 : rexp f q = ilog2 q := by unfold rexp; exact max_eq_left h1
      have h3 := (ilog2_spec hq).1
      have h4 : 2 ^ f.mb * p2 (rexp f q - f.mb) ≤ q := by
        rw [← p2_nat, ← p2_add, h2]; convert h3 using 2; ring
      exact_mod_cast h4
  · rw [er]
    have : |(rsig f q : ℚ) - q / p2 (rexp f q - f.mb)| * p2 (rexp f q - f.mb) ≤ 1 / 2 * p2 (rexp f q - f.mb) :=
      mul_le_mul_of_nonneg_right b P0.le
    have h2 := (Rat.cast_le (K := ℝ)).2 this
    push_cast at h2 ⊢
    linarith
  · intro h1
    rw [er] at h1
    refine rne_tie (by positivity) ?_
    have h2 : |(rsig f q : ℚ) - q / p2 (rexp f q - f.mb)| * p2 (rexp f q - f.mb) = 1 / 2 * p2 (rexp f q - f.mb) := by
      have : (((|(rsig f q : ℚ) - q / p2 (rexp f q - f.mb)| * p2 (rexp f q - f.mb) : ℚ)) : ℝ) =
          ((1 / 2 * p2 (rexp f q - f.mb) : ℚ) : ℝ) := by rw [h1]; push_cast; ring
      exact_mod_cast this
    exact mul_right_cancel₀ P0.ne' h2

theorem nearest_zero {y : FP f} (hy : y.mag = 0) [f.Ok] : y.Nearest 0 := by
  have hf : y.isFinite = true := by
    simp only [isFinite, hy, decide_eq_true_eq]
    rw [infMag_code f]; positivity
  have yr : y.real = 0 := by unfold FP.real; rw [val_eq_zero.2 hy]; simp
  refine ⟨hf, fun z _ => ?_, fun z _ _ _ => by rw [hy]⟩
  rw [yr, sub_zero, abs_zero]; exact abs_nonneg _

/-- Rounding below the overflow threshold. -/
theorem ofRat_nearest (f : Fmt) [f.Ok] (zs : Bool) {q : ℚ} (h : |q| < f.ovf) : (ofRat f zs q).Nearest q := by
  rcases lt_trichotomy q 0 with hq | hq | hq
  · have h1 := ofRat_nearest_pos f (!zs) (q := -q) (by linarith) (by rwa [abs_of_neg hq] at h)
    have h2 := nearest_neg h1
    rw [ofRat_neg, neg_neg'] at h2
    push_cast at h2
    rwa [neg_neg] at h2
  · rw [hq, ofRat_zero]; push_cast; exact nearest_zero rfl
  · exact ofRat_nearest_pos f zs hq (by rwa [abs_of_pos hq] at h)

/-- Rounding at or above the threshold. -/
theorem ofRat_overflow (f : Fmt) [f.Ok] (zs : Bool) {q : ℚ} (h : f.ovf ≤ |q|) : ofRat f zs q = inf (decide (q < 0)) := by
  have o0 : 0 < f.ovf := by
    by_contra hc
    have h1 := (rcode_lt_inf f f.big_pos).1 (rcode_big_lt f)
    linarith [f.big_pos]
  have q0 : q ≠ 0 := by intro hq; rw [hq, abs_zero] at h; linarith
  have hm : ∀ r : ℚ, 0 < r → f.ovf ≤ r → roundMag f r = f.infMag := by
    intro r hr h1
    rw [roundMag_rcode f hr, min_eq_right]
    exact not_lt.1 fun h2 => absurd ((rcode_lt_inf f hr).1 h2) (not_lt.2 h1)
  ext
  · exact ofRat_sign_ne q0
  · show roundMag f (if q < 0 then -q else q) = f.infMag
    split
    · rename_i hq; exact hm _ (by linarith) (by rwa [abs_of_neg hq] at h)
    · rename_i hq
      have hq' : 0 < q := lt_of_le_of_ne (not_lt.1 hq) (Ne.symm q0)
      exact hm _ hq' (by rwa [abs_of_pos hq'] at h)

/-- The square root is correctly rounded. -/
theorem sqrt_nearest [f.Ok] (hE : f.emin ≤ -(f.mb : ℤ) - 2) {x : FP f} (hx : x.isFinite = true) (h : 0 < x.val) :
    (FP.sqrt x).Nearest (Real.sqrt x.real) := by
  obtain ⟨k, r, v, e1, hk, r1, r2, hv⟩ := sqrtApprox_spec f h
  have r0 : (0 : ℚ) < r := by
    have : 0 < r := lt_of_lt_of_le (by positivity) r1
    exact_mod_cast this
  have v1 : (r : ℚ) ≤ v := by rcases hv with h | h <;> linarith [h.1]
  have v2 : v < r + 1 := by rcases hv with h | h <;> linarith [h.1]
  have pk := p2_pos (-k)
  have v0 : 0 < v := by linarith
  have a0 : 0 < sqrtApprox f x.val := by rw [e1]; exact mul_pos v0 pk
  -- the binade of the approximation
  have l1 : p2 ((f.mb : ℤ) + 2 - k) ≤ sqrtApprox f x.val := by
    rw [e1, show (f.mb : ℤ) + 2 - k = ((f.mb + 2 : ℕ) : ℤ) + -k by push_cast; ring, p2_add, p2_nat]
    refine mul_le_mul_of_nonneg_right ?_ pk.le
    have : ((2 ^ (f.mb + 2) : ℕ) : ℚ) ≤ r := by exact_mod_cast r1
    push_cast at this; linarith
  have l2 : sqrtApprox f x.val < p2 ((f.mb : ℤ) + 2 - k + 1) := by
    rw [e1, show (f.mb : ℤ) + 2 - k + 1 = ((f.mb + 3 : ℕ) : ℤ) + -k by push_cast; ring, p2_add, p2_nat]
    refine mul_lt_mul_of_pos_right ?_ pk
    have : ((r + 1 : ℕ) : ℚ) ≤ ((2 ^ (f.mb + 3) : ℕ) : ℚ) := by exact_mod_cast r2
    push_cast at this; linarith
  have il := ilog2_unique l1 l2
  -- the exponent of `x`
  have mx : x.mag < f.infMag := by simpa [isFinite] using hx
  have ex1 : f.emin - f.mb ≤ ilog2 x.val := by
    have hp : 0 < x.mag := (val_pos_iff.1 h).2
    have h1 : magVal f 1 ≤ x.val := by
      have := abs_val x
      rw [abs_of_pos h] at this
      rw [this]; exact magVal_le.2 hp
    have h2 : magVal f 1 = p2 (f.emin - f.mb) := by
      have k := magVal_code f (e := f.emin) (k := 1) le_rfl (Nat.one_le_two_pow) (Or.inr rfl)
      rw [sub_self, Int.toNat_zero, Nat.zero_mul, Nat.zero_add] at k
      rw [k]; simp
    rw [h2] at h1
    by_contra hc
    push Not at hc
    have h3 := (ilog2_spec h).2
    have := p2_le (a := ilog2 x.val + 1) (b := f.emin - f.mb) (by omega)
    linarith
  have rx : rexp f (sqrtApprox f x.val) = (f.mb : ℤ) + 2 - k := by
    unfold rexp
    rw [il, max_eq_left]
    omega
  have xb := finite_le_big hx
  rw [abs_of_pos h] at xb
  have ex2 : ilog2 x.val ≤ 2 - f.emin := by
    by_contra hc
    push Not at hc
    have h3 := (ilog2_spec h).1
    have h4 : 2 * f.big = p2 (2 - f.emin) := by
      unfold Fmt.big; rw [← p2_succ]; congr 1; ring
    have := p2_lt (a := 2 - f.emin) (b := ilog2 x.val) hc
    linarith
  have ab : sqrtApprox f x.val ≤ f.big := by
    refine l2.le.trans ?_
    unfold Fmt.big
    exact p2_le (by omega)
  have e3 : sqrtApprox f x.val / p2 (rexp f (sqrtApprox f x.val) - f.mb) = v / 4 := by
    rw [rx, e1, show (f.mb : ℤ) + 2 - k - f.mb = 2 + -k by ring, p2_add, show p2 2 = 4 by rw [p2_eq]; norm_num]
    field_simp
  have g := rne_bounds (q := v / 4) (by positivity)
  have e4 : rsig f (sqrtApprox f x.val) = rne (v / 4) := by unfold rsig; rw [e3]
  -- the real root, scaled
  have x0 : 0 ≤ x.real := by unfold FP.real; exact_mod_cast h.le
  have pkr : (0 : ℝ) < ((p2 (-k) : ℚ) : ℝ) := by exact_mod_cast pk
  obtain ⟨t, ht⟩ : ∃ t : ℝ, t = Real.sqrt x.real / ((p2 (-k) : ℚ) : ℝ) := ⟨_, rfl⟩
  have t0 : 0 ≤ t := by rw [ht]; exact div_nonneg (Real.sqrt_nonneg _) pkr.le
  have et : Real.sqrt x.real = t * ((p2 (-k) : ℚ) : ℝ) := by rw [ht]; field_simp
  have tt : t * t = ((x.val * p2 (2 * k) : ℚ) : ℝ) := by
    have h1 : p2 (2 * k) * (p2 (-k) * p2 (-k)) = 1 := by
      rw [← p2_add, ← p2_add, show 2 * k + (-k + -k) = 0 by ring, p2_eq]; norm_num
    have h2 : (((p2 (2 * k) : ℚ) : ℝ)) * (((p2 (-k) : ℚ) : ℝ) * ((p2 (-k) : ℚ) : ℝ)) = 1 := by exact_mod_cast h1
    have h3 := Real.mul_self_sqrt x0
    rw [et] at h3
    have h4 : x.real = (x.val : ℝ) := rfl
    push_cast
    rw [← h4, ← h3]
    linear_combination (-(t * t)) * h2
  have r0R : (0 : ℝ) < r := by exact_mod_cast r0
  have hvt : (v = r ∧ t = r) ∨ (v = r + 1 / 2 ∧ (r : ℝ) < t ∧ t < r + 1) := by
    rcases hv with ⟨a, b⟩ | ⟨a, b, c⟩
    · refine Or.inl ⟨a, ?_⟩
      rw [b] at tt
      push_cast at tt
      nlinarith
    · refine Or.inr ⟨a, ?_, ?_⟩
      · have : ((r : ℝ)) * r < t * t := by rw [tt]; exact_mod_cast b
        nlinarith
      · have : t * t < ((r : ℝ) + 1) * (r + 1) := by rw [tt]; exact_mod_cast c
        nlinarith
  have near := grid_near g hvt
  have tl : (2 : ℝ) ^ (f.mb + 2) ≤ t := by
    have h1 : ((2 ^ (f.mb + 2) : ℕ) : ℝ) ≤ r := by exact_mod_cast r1
    push_cast at h1
    refine h1.trans ?_
    rcases hv with ⟨a, b⟩ | ⟨a, b, c⟩
    · rw [b] at tt
      push_cast at tt
      nlinarith
    · have : ((r : ℝ)) * r < t * t := by rw [tt]; exact_mod_cast b
      nlinarith
  have hmag : (ofRat f false (sqrtApprox f x.val)).mag = rcode f (sqrtApprox f x.val) := by
    show roundMag f (if _ < 0 then _ else _) = _
    rw [if_neg (not_lt.2 a0.le), roundMag_eq_rcode f a0 ab]
  have hsign : (ofRat f false (sqrtApprox f x.val)).sign = false := by
    rw [ofRat_sign_ne a0.ne']; exact decide_eq_false (not_lt.2 a0.le)
  have hP : p2 (rexp f (sqrtApprox f x.val) - f.mb) = 4 * p2 (-k) := by
    rw [rx, show (f.mb : ℤ) + 2 - k - f.mb = 2 + -k by ring, p2_add, show p2 2 = 4 by rw [p2_eq]; norm_num]
  have hPr : ((p2 (rexp f (sqrtApprox f x.val) - f.mb) : ℚ) : ℝ) = 4 * ((p2 (-k) : ℚ) : ℝ) := by rw [hP]; push_cast; rfl
  rw [sqrt_fin hx h]
  refine nearest_of_mag (finite_ofRat _ (by rw [abs_of_pos a0]; exact ab)) hsign (Real.sqrt_nonneg _) fun c => ?_
  rw [hmag]
  have G := grid_nearest f (t := Real.sqrt x.real) (e := rexp f (sqrtApprox f x.val)) (n := rsig f (sqrtApprox f x.val))
    (rexp_ge f _) ?_ (rsig_le f a0) (rsig_ge f a0) ?_ ?_ c
  · refine ⟨G.1, fun h1 h2 => ?_⟩
    have h3 := G.2 h1 h2
    show ((rexp f _ - f.emin).toNat * 2 ^ f.mb + rsig f _) % 2 = 0
    obtain ⟨m, hm⟩ : ∃ m, f.mb = m + 1 := ⟨f.mb - 1, by have := (inferInstance : f.Ok).mb1; omega⟩
    rw [hm, pow_succ, ← mul_assoc]; omega
  · left
    rw [hPr, et]
    have : (2 : ℝ) ^ f.mb * (4 * ((p2 (-k) : ℚ) : ℝ)) = 2 ^ (f.mb + 2) * ((p2 (-k) : ℚ) : ℝ) := by rw [pow_add]; ring
    rw [this]
    exact mul_le_mul_of_nonneg_right tl pkr.le
  · rw [hPr, et, e4]
    have : (rne (v / 4) : ℝ) * (4 * ((p2 (-k) : ℚ) : ℝ)) - t * ((p2 (-k) : ℚ) : ℝ) = (4 * (rne (v / 4) : ℝ) - t) * ((p2 (-k) : ℚ) : ℝ) := by ring
    rw [this, abs_mul, abs_of_pos pkr]
    nlinarith
  · intro h1
    rw [hPr, et, e4] at h1
    have : (rne (v / 4) : ℝ) * (4 * ((p2 (-k) : ℚ) : ℝ)) - t * ((p2 (-k) : ℚ) : ℝ) = (4 * (rne (v / 4) : ℝ) - t) * ((p2 (-k) : ℚ) : ℝ) := by ring
    rw [this, abs_mul, abs_of_pos pkr] at h1
    have h2 : |4 * (rne (v / 4) : ℝ) - t| = 2 := by
      apply mul_right_cancel₀ pkr.ne'; rw [h1]; ring
    rw [e4]
    rcases hvt with ⟨a, b⟩ | ⟨a, b, c⟩
    · refine rne_tie (by positivity) ?_
      rw [b] at h2
      have h3 : |4 * (rne (v / 4) : ℚ) - r| = 2 := by exact_mod_cast h2
      rw [← a] at h3
      have h4 : 4 * (rne (v / 4) : ℚ) - v = 4 * ((rne (v / 4) : ℚ) - v / 4) := by ring
      rw [h4, abs_mul, abs_of_pos (by norm_num : (0 : ℚ) < 4)] at h3
      linarith
    · exfalso
      rcases abs_eq (by norm_num : (0 : ℝ) ≤ 2) |>.1 h2 with h5 | h5
      · have e : t = ((4 * (rne (v / 4) : ℤ) - 2 : ℤ) : ℝ) := by push_cast; linarith
        rw [e] at b c
        have b' : (r : ℤ) < 4 * (rne (v / 4) : ℤ) - 2 := by exact_mod_cast b
        have c' : 4 * (rne (v / 4) : ℤ) - 2 < (r : ℤ) + 1 := by exact_mod_cast c
        omega
      · have e : t = ((4 * (rne (v / 4) : ℤ) + 2 : ℤ) : ℝ) := by push_cast; linarith
        rw [e] at b c
        have b' : (r : ℤ) < 4 * (rne (v / 4) : ℤ) + 2 := by exact_mod_cast b
        have c' : 4 * (rne (v / 4) : ℤ) + 2 < (r : ℤ) + 1 := by exact_mod_cast c
        omega

/-- The nearest number is determined, up to the sign of zero. -/
theorem nearest_unique [f.Ok] {y z : FP f} {r : ℝ} (hy : y.Nearest r) (hz : z.Nearest r) : y.val = z.val := by
  -- for numbers of which the first is the smaller one
  have main : ∀ y z : FP f, y.Nearest r → z.Nearest r → ¬ y.val < z.val := by
    intro y z hy hz hlt
    have hltr : y.real < z.real := by unfold FP.real; exact_mod_cast hlt
    have heq : |y.real - r| = |z.real - r| := le_antisymm (hy.2.1 z hz.1) (hz.2.1 y hy.1)
    have mid : z.real - r = r - y.real := by
      rcases abs_eq_abs.1 heq with h | h <;> linarith
    have ey := hy.2.2 z hz.1 hltr.ne' heq
    have ez := hz.2.2 y hy.1 hltr.ne heq.symm
    -- nothing lies strictly between
    have gap : ∀ w : FP f, w.isFinite = true → ¬ (y.val < w.val ∧ w.val < z.val) := by
      rintro w hw ⟨h1, h2⟩
      have h1' : y.real < w.real := by unfold FP.real; exact_mod_cast h1
      have h2' : w.real < z.real := by unfold FP.real; exact_mod_cast h2
      have h3 := hy.2.1 w hw
      rw [abs_of_nonpos (by linarith)] at h3
      have : |w.real - r| < r - y.real := by rw [abs_lt]; constructor <;> linarith
      linarith
    have finm : ∀ (s : Bool) (m : ℕ) (hm : m < f.infMag), (⟨s, m, hm.trans f.infMag_lt⟩ : FP f).isFinite = true := by
      intro s m hm; simp [isFinite, hm]
    have my : y.mag < f.infMag := by simpa [isFinite] using hy.1
    have mz : z.mag < f.infMag := by simpa [isFinite] using hz.1
    have vy : y.val = if y.sign then -magVal f y.mag else magVal f y.mag := rfl
    have vz : z.val = if z.sign then -magVal f z.mag else magVal f z.mag := rfl
    have ny := magVal_nonneg f y.mag
    have nz := magVal_nonneg f z.mag
    rcases lt_or_ge y.val 0 with y0 | y0
    · obtain ⟨s1, s2⟩ := val_neg_iff.1 y0
      rw [s1, if_pos rfl] at vy
      -- the next number is `-(mag - 1)`
      have g := gap ⟨true, y.mag - 1, by have := y.bound; omega⟩ (finm true (y.mag - 1) (by omega))
      have v1 : (⟨true, y.mag - 1, by have := y.bound; omega⟩ : FP f).val = -magVal f (y.mag - 1) := rfl
      rw [v1] at g
      have l1 : magVal f (y.mag - 1) < magVal f y.mag := magVal_lt.2 (by omega)
      have h4 : z.val ≤ -magVal f (y.mag - 1) := by
        by_contra hc; push Not at hc
        exact g ⟨by rw [vy]; linarith, hc⟩
      rcases lt_or_ge z.val 0 with z0 | z0
      · obtain ⟨t1, t2⟩ := val_neg_iff.1 z0
        rw [t1, if_pos rfl] at vz
        rw [vz] at h4
        have h5 : y.mag - 1 ≤ z.mag := magVal_le.1 (by linarith)
        have h6 : z.mag < y.mag := by
          apply (magVal_lt (f := f)).1; rw [vy, vz] at hlt; linarith
        omega
      · have h7 : magVal f (y.mag - 1) = 0 := by
          have := magVal_nonneg f (y.mag - 1); linarith
        have h8 : y.mag - 1 = 0 := by
          by_contra hc
          have := (magVal_pos (f := f) (c := y.mag - 1)).2 (by omega)
          linarith
        omega
    · rcases eq_or_ne y.val 0 with y1 | y1
      · have z1 : 0 < z.val := by rw [y1] at hlt; exact hlt
        obtain ⟨t1, t2⟩ := val_pos_iff.1 z1
        rw [t1] at vz
        have g := gap ⟨false, z.mag - 1, by have := z.bound; omega⟩ (finm false (z.mag - 1) (by omega))
        have v1 : (⟨false, z.mag - 1, by have := z.bound; omega⟩ : FP f).val = magVal f (z.mag - 1) := rfl
        rw [v1, y1, vz] at g
        have h8 : z.mag - 1 = 0 := by
          by_contra hc
          exact g ⟨magVal_pos.2 (by omega), magVal_lt.2 (by omega)⟩
        omega
      · have y2 : 0 < y.val := lt_of_le_of_ne y0 (Ne.symm y1)
        obtain ⟨s1, s2⟩ := val_pos_iff.1 y2
        obtain ⟨t1, t2⟩ := val_pos_iff.1 (y2.trans hlt)
        rw [s1] at vy
        rw [t1] at vz
        simp only [Bool.false_eq_true, if_false] at vy vz
        have h6 : y.mag < z.mag := by apply (magVal_lt (f := f)).1; rw [← vy, ← vz]; exact hlt
        have g := gap ⟨false, z.mag - 1, by have := z.bound; omega⟩ (finm false (z.mag - 1) (by omega))
        have v1 : (⟨false, z.mag - 1, by have := z.bound; omega⟩ : FP f).val = magVal f (z.mag - 1) := rfl
        rw [v1, vy, vz] at g
        have h8 : z.mag - 1 ≤ y.mag := by
          by_contra hc
          exact g ⟨magVal_lt.2 (by omega), magVal_lt.2 (by omega)⟩
        omega
  exact le_antisymm (not_lt.1 (main z y hz hy)) (not_lt.1 (main y z hy hz))

end Vdt
