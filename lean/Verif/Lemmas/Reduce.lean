import Verif.Lemmas.Round
import Verif.Float.Fused
import Verif.Lemmas.ExpBasic

/-! # Cody-Waite argument reduction, for both precisions -/

namespace Vdt
open FP
variable {f : Fmt} [f.Ok]

/-- A number that is at least `2^j` in magnitude is a multiple of `2^(j-mb)`. -/
theorem rep_of_ge {x : FP f} {j : ℤ} (h : p2 j ≤ |x.val|) :
    ∃ (n k : ℤ), x.val = n * p2 k ∧ |n| ≤ 2 ^ (f.mb + 1) ∧ j - f.mb ≤ k := by
  obtain ⟨e, k, he, hk, hn, hc⟩ := code_cases f x.mag
  have hv := magVal_code f he hk.le hn
  rw [← hc] at hv
  have hk' : (k : ℤ) ≤ 2 ^ (f.mb + 1) := by exact_mod_cast hk.le
  have hj : j ≤ e := by
    by_contra hlt
    push Not at hlt
    rw [abs_val, hv] at h
    have h1 : (k : ℚ) < 2 ^ (f.mb + 1) := by exact_mod_cast hk
    have h2 : (k : ℚ) * p2 (e - f.mb) < p2 (e + 1) := by
      have : p2 (e + 1) = 2 ^ (f.mb + 1) * p2 (e - f.mb) := by
        rw [← p2_nat, ← p2_add]; congr 1; push_cast; ring
      rw [this]; exact mul_lt_mul_of_pos_right h1 (p2_pos _)
    have h3 : p2 (e + 1) ≤ p2 j := p2_le (by omega)
    linarith
  unfold val
  cases x.sign
  · exact ⟨k, e - f.mb, by simp [hv], by rw [abs_of_nonneg (by omega)]; exact hk', by omega⟩
  · exact ⟨-k, e - f.mb, by simp [hv], by rw [abs_neg, abs_of_nonneg (by omega)]; exact hk', by omega⟩

/-- Representable numbers up to the overflow threshold are finite. -/
theorem finite_rep (f : Fmt) [f.Ok] {q : ℚ} (zs : Bool) (h : Rep f q) (hb : |q| < 2 * f.big) :
    (ofRat f zs q).isFinite = true ∧ (ofRat f zs q).val = q := by
  have hinf : magVal f f.infMag = 2 * f.big := by
    obtain ⟨d, hd, hde, hd1⟩ := infMag_eq f
    have hc := magVal_code f (e := 1 - f.emin) (k := 2 ^ (f.mb + 1)) (by omega) le_rfl
      (Or.inl (Nat.pow_le_pow_right (by norm_num) (by omega)))
    have : (1 - f.emin - f.emin).toNat * 2 ^ f.mb + 2 ^ (f.mb + 1) = f.infMag := by
      have : (1 - f.emin - f.emin).toNat = d := by omega
      rw [this, hd, pow_succ]; ring
    rw [this] at hc
    rw [hc]
    unfold Fmt.big
    push_cast
    rw [← p2_nat, ← p2_add, ← p2_succ]
    exact congrArg _ (by push_cast; ring)
  have key : ∀ (m : ℕ) (k : ℤ), 0 < m → m ≤ 2 ^ (f.mb + 1) → f.emin - f.mb ≤ k → (m : ℚ) * p2 k < 2 * f.big →
      roundMag f (m * p2 k) < f.infMag ∧ magVal f (roundMag f (m * p2 k)) = m * p2 k := by
    intro m k hm hm2 hk hmb
    have hpos : (0 : ℚ) < m * p2 k := mul_pos (by exact_mod_cast hm) (p2_pos _)
    have he := rcode_exact f hm hm2 hk
    have hlt : rcode f (m * p2 k) < f.infMag := by
      rw [← magVal_lt (f := f), he, hinf]; exact hmb
    rw [roundMag_rcode f hpos, min_eq_left hlt.le]
    exact ⟨hlt, he⟩
  obtain ⟨n, k, rfl, hn, hk⟩ := h
  rw [val_ofRat]
  rcases lt_trichotomy n 0 with h | h | h
  · obtain ⟨m, rfl⟩ : ∃ m : ℕ, n = -(m : ℤ) := ⟨n.natAbs, by omega⟩
    have hm0 : 0 < m := by omega
    have hm : m ≤ 2 ^ (f.mb + 1) := by
      rw [abs_neg, abs_of_nonneg (by omega)] at hn; exact_mod_cast hn
    have hneg : ((-(m : ℤ) : ℤ) : ℚ) * p2 k = -((m : ℚ) * p2 k) := by push_cast; ring
    have hpos : (0 : ℚ) < m * p2 k := mul_pos (by exact_mod_cast hm0) (p2_pos _)
    rw [hneg] at hb ⊢
    rw [abs_neg, abs_of_pos hpos] at hb
    have kk := key m k hm0 hm hk hb
    constructor
    · unfold ofRat isFinite
      have hlt : -((m : ℚ) * p2 k) < 0 := by linarith
      simp only [decide_eq_true_eq]
      rw [if_pos hlt, neg_neg]
      exact kk.1
    · rw [rnd_neg]
      unfold rnd
      rw [if_neg (not_lt.2 hpos.le), kk.2]
  · subst h
    have : ((0 : ℤ) : ℚ) * p2 k = 0 := by simp
    rw [this, rnd_zero]
    exact ⟨finite_ofRat _ (by simp [f.big_pos.le]), rfl⟩
  · obtain ⟨m, rfl⟩ : ∃ m : ℕ, n = (m : ℤ) := ⟨n.natAbs, by omega⟩
    have hm0 : 0 < m := by omega
    have hm : m ≤ 2 ^ (f.mb + 1) := by
      rw [abs_of_nonneg (by omega)] at hn; exact_mod_cast hn
    have hc : (((m : ℤ) : ℤ) : ℚ) = (m : ℚ) := by push_cast; rfl
    have hpos : (0 : ℚ) < m * p2 k := mul_pos (by exact_mod_cast hm0) (p2_pos _)
    rw [hc] at hb ⊢
    rw [abs_of_pos hpos] at hb
    have kk := key m k hm0 hm hk hb
    constructor
    · unfold ofRat isFinite
      simp only [decide_eq_true_eq]
      rw [if_neg (not_lt.2 hpos.le)]
      exact kk.1
    · unfold rnd
      rw [if_neg (not_lt.2 hpos.le), kk.2]

/-- Multiplication by a power of two is exact as long as the result stays normal. -/
theorem mul_p2_exact {x p : FP f} {j n : ℤ} (hx : x.isFinite = true) (hp : p.isFinite = true) (hv : p.val = p2 n)
    (hj : p2 j ≤ |x.val|) (he : f.emin ≤ j + n) (hb : |x.val * p2 n| < 2 * f.big) :
    (x * p).isFinite = true ∧ (x * p).val = x.val * p2 n := by
  rw [mul_def, mul_fin hx hp, hv]
  obtain ⟨m, k, h1, h2, h3⟩ := rep_of_ge hj
  exact finite_rep f _ ⟨m, k + n, by rw [h1, p2_add]; ring, h2, by omega⟩ hb

/-- Everything about `n = floor(L*x + 1/2)` and the first conversion. -/
theorem reduce_int (b : Bool) {x L h : FP f} {X M l : ℚ} {N : ℕ} (hx : x.isFinite = true) (hxX : |x.val| ≤ X)
    (hL : L.isFinite = true) (hL0 : 0 < L.val) (hh : h.isFinite = true) (hhv : h.val = 1 / 2)
    (hM : L.val * X + 1 ≤ M) (hMb : M ≤ f.big) (hE : 2 * hulp f M ≤ 1 / 2) (hM2 : M < 2147483646)
    (hN : L.val * X + 1 / 2 + 2 * hulp f M < N + 1) (hl : 0 < l) :
    let a := mad b L x h
    let n := expN a a.sign
    f2iDefined a = true ∧ |n| ≤ N ∧ |x.val - n * l| ≤ l * (1 / 2 + 2 * hulp f M) + X * |1 - L.val * l| := by
  have hX0 : 0 ≤ X := (_root_.abs_nonneg _).trans hxX
  have hp : |L.val * x.val| ≤ L.val * X := by
    rw [abs_mul, abs_of_pos hL0]; exact mul_le_mul_of_nonneg_left hxX hL0.le
  have hM0 : 0 < M := by nlinarith
  have hu := hulp_pos f M
  obtain ⟨w, hw, hs⟩ := mad_split b hL hx hh (by linarith)
  have m1' : |w - L.val * x.val| ≤ hulp f M := by
    rcases hw with hw | hw
    · rw [hw, sub_self, abs_zero]; exact hu.le
    · rw [hw]; exact rnd_err f hM0 (by linarith) hMb
  have hp' := hp
  rw [abs_le] at m1' hp'
  have hwM : |w + h.val| ≤ M := by rw [hhv, abs_le]; constructor <;> linarith
  have a1 := hs (hwM.trans hMb)
  have a1' := rnd_err f hM0 hwM hMb
  rw [← a1.2, hhv, abs_le] at a1'
  intro a n
  have ha : |a.val - (L.val * x.val + 1 / 2)| ≤ 2 * hulp f M := by
    rw [abs_le]; constructor <;> linarith
  have hab : |a.val| < 2147483647 := by
    rw [abs_le] at ha; rw [abs_lt]; constructor <;> linarith
  have fs := floor_step hab
  have hn : n = wrap32 (truncRat a.val - (if a.sign then 1 else 0)) := rfl
  simp only at fs
  rw [← hn] at fs
  rw [abs_le] at ha
  have hd : |L.val * x.val - n| ≤ 1 / 2 + 2 * hulp f M := by
    rw [abs_le]; constructor <;> linarith [fs.1, fs.2]
  refine ⟨f2i_true a1.1 (by rw [abs_lt] at hab; linarith) (by rw [abs_lt] at hab; linarith), ?_, ?_⟩
  · rw [abs_le]
    have h1 : (n : ℚ) < N + 1 := by linarith [fs.2]
    have h2 : -((N : ℚ) + 1) < n := by linarith [fs.1]
    have h3 : n < (N : ℤ) + 1 := by exact_mod_cast h1
    have h4 : -((N : ℤ) + 1) < n := by exact_mod_cast h2
    omega
  · have : x.val - n * l = l * (L.val * x.val - n) + x.val * (1 - L.val * l) := by ring
    rw [this]
    refine (abs_add_le _ _).trans (add_le_add ?_ ?_)
    · rw [abs_mul, abs_of_pos hl]; exact mul_le_mul_of_nonneg_left hd hl.le
    · rw [abs_mul]; exact mul_le_mul_of_nonneg_right hxX (_root_.abs_nonneg _)

/-- The two-step subtraction `(x - n*c1) - n*c2`. -/
theorem reduce_sub (b b' : Bool) {x p c1 c2 : FP f} {n : ℤ} {N : ℕ} {R l M1 M2 M3 : ℚ} {k j : ℤ}
    (hx : x.isFinite = true) (hp : p.isFinite = true) (hpn : p.val = n)
    (hc1 : c1.isFinite = true) (hc2 : c2.isFinite = true) (hN : |n| ≤ N) (hR : |x.val - n * l| ≤ R)
    (hk : c1.val = k * p2 j) (hkN : (N : ℤ) * |k| ≤ 2 ^ (f.mb + 1)) (hj : f.emin - f.mb ≤ j)
    (h0 : N * |c1.val| ≤ f.big)
    (h1 : R + N * |l - c1.val| ≤ M1) (h1' : 0 < M1) (h1b : M1 ≤ f.big)
    (h2 : N * |c2.val| ≤ M2) (h2' : 0 < M2) (h2b : M2 ≤ f.big)
    (h3 : R + N * |l - c1.val - c2.val| + hulp f M1 + hulp f M2 ≤ M3) (h3' : 0 < M3) (h3b : M3 ≤ f.big) :
    let z := nmad b' p c2 (nmad b p c1 x)
    z.isFinite = true ∧ |z.val - (x.val - n * l)| ≤ hulp f M1 + hulp f M2 + hulp f M3 + N * |l - c1.val - c2.val| := by
  have hnN : |(n : ℚ)| ≤ N := by
    have : ((|n| : ℤ) : ℚ) ≤ ((N : ℤ) : ℚ) := by exact_mod_cast hN
    push_cast at this; exact this
  have bd : ∀ t : ℚ, |n * t| ≤ N * |t| := fun t => by
    rw [abs_mul]; exact mul_le_mul_of_nonneg_right hnN (_root_.abs_nonneg _)
  have e0 := mul_exact hp hc1 (by
    rw [hpn, hk]
    refine ⟨n * k, j, by push_cast; ring, ?_, hj⟩
    rw [abs_mul]
    exact (mul_le_mul_of_nonneg_right hN (_root_.abs_nonneg _)).trans hkN) (by rw [hpn]; exact (bd _).trans h0)
  have b1 := bd (l - c1.val)
  have b12 := bd (l - c1.val - c2.val)
  rw [abs_le] at hR b1 b12
  have hx1 : |x.val - n * c1.val| ≤ M1 := by
    rw [abs_le]; constructor <;> linarith [b1.1, b1.2, hR.1, hR.2]
  have s1 := nmad_exact b hp hc1 hx e0.1 e0.2 (by rw [hpn]; exact (bd _).trans h0) (by rw [hpn]; exact hx1.trans h1b)
  have s1' := (sub_near (M := M1) hx e0.1 h1' (by rw [e0.2, hpn]; exact hx1) h1b).2
  rw [← s1.2, e0.2, hpn, abs_le] at s1'
  obtain ⟨w, hw, hs⟩ := nmad_split b' hp hc2 s1.1 (by rw [hpn]; exact ((bd _).trans h2).trans h2b)
  have q2' : |w - n * c2.val| ≤ hulp f M2 := by
    rw [hpn] at hw
    rcases hw with hw | hw
    · rw [hw, sub_self, abs_zero]; exact (hulp_pos f M2).le
    · rw [hw]; exact rnd_err f h2' ((bd _).trans h2) h2b
  rw [abs_le] at q2'
  have hM3 : |(nmad b p c1 x).val - w| ≤ M3 := by
    rw [abs_le]; constructor <;> linarith [b12.1, b12.2, hR.1, hR.2, s1'.1, s1'.2, q2'.1, q2'.2]
  have s3 := hs (hM3.trans h3b)
  have s3' := rnd_err f h3' hM3 h3b
  rw [← s3.2] at s3'
  intro z
  refine ⟨s3.1, ?_⟩
  rw [abs_le] at s3' ⊢
  constructor <;> linarith [b12.1, b12.2, s1'.1, s1'.2, q2'.1, q2'.2, s3'.1, s3'.2]

end Vdt
