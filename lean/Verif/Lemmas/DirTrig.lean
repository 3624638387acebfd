import Verif.Lemmas.DirLog
import Verif.Lemmas.FlushTrig

/-! # Sine and cosine in every rounding direction -/

namespace Vdt.Flush
open FP details
variable {f : Fmt} {m : Mode}

section ops
variable [f.Ok] (hm : m.Dir)

theorem Faithful.nonneg {w : FP f} {t : ℝ} (h : Faithful w t) (h0 : 0 ≤ t) : 0 ≤ w.val := by
  by_contra c
  push Not at c
  have z0 : (ofRat f false 0).real = 0 := by unfold FP.real; rw [val_ofRat, rnd_zero]; simp
  have c' : w.real < 0 := by unfold FP.real; exact_mod_cast c
  have := (h.2 (ofRat f false 0) (finite_ofRat _ (by rw [abs_zero]; exact f.big_pos.le))).1 (by rw [z0]; exact c'.le) (by rw [z0]; exact h0)
  rw [z0] at this
  exact absurd this.symm c'.ne

/-- The quadrant number is even and within one of the product. -/
theorem quad_dir {c x t : FP f} {X M : ℚ} (ht : Faithful t ((c.val * x.val : ℚ) : ℝ)) (hc0 : 0 < c.val)
    (hx0 : 0 ≤ x.val) (hxX : x.val ≤ X) (hM : c.val * X ≤ M) (hMb : M ≤ f.big)
    (hM2 : M + 2 * hulp f M < 2147483646) :
    ∃ n : ℕ, (∃ q0, strict.f2i t = some q0 ∧ ∃ q1, strict.i32 (q0 + 1) = some q1 ∧ clearLow q1 = 2 * n) ∧ (n : ℚ) ≤ 1073741823 ∧
      2 * (n : ℚ) - 1 ≤ t.val ∧ t.val < 2 * n + 1 ∧
      |t.val - c.val * x.val| ≤ 2 * hulp f M := by
  have hle : c.val * x.val ≤ M := (mul_le_mul_of_nonneg_left hxX hc0.le).trans hM
  have h0 : 0 ≤ c.val * x.val := mul_nonneg hc0.le hx0
  have he := ht.err (M := M) (by rw [abs_of_nonneg h0]; exact hle) hMb
  have hr0 : 0 ≤ t.val := ht.nonneg (by exact_mod_cast h0)
  have hlt : t.val < 2147483646 := by rw [abs_le] at he; linarith
  have f1 := Int.floor_le t.val
  have f2 := Int.lt_floor_add_one t.val
  have f0 : 0 ≤ ⌊t.val⌋ := Int.floor_nonneg.2 hr0
  have f3 : ⌊t.val⌋ < 2147483646 := by
    rw [Int.floor_lt]; exact_mod_cast hlt
  have hi : inI32 (truncRat t.val) = true := by
    rw [truncRat_nonneg hr0]; simp [inI32]; omega
  have hi2 : inI32 (⌊t.val⌋ + 1) = true := by simp [inI32]; omega
  have hs : strict.f2i t = some ⌊t.val⌋ := by
    rw [strict_f2i ht.1 hi, truncRat_nonneg hr0]
  have hs2 : strict.i32 (⌊t.val⌋ + 1) = some (⌊t.val⌋ + 1) := by
    simp [strict, hi2]
  generalize ⌊t.val⌋ = n at *
  refine ⟨((n + 1) / 2).toNat, ⟨n, hs, n + 1, hs2, ?_⟩, ?_, ?_, ?_, he⟩
  · rw [clearLow_eq (by omega) (by omega)]; omega
  · have : ((n + 1) / 2).toNat ≤ 1073741823 := by omega
    exact_mod_cast this
  · have h3 : 2 * (((n + 1) / 2).toNat : ℤ) - 1 ≤ n := by omega
    have : (2 * (((n + 1) / 2).toNat : ℚ) - 1) ≤ n := by exact_mod_cast h3
    linarith
  · have h3 : n ≤ 2 * (((n + 1) / 2).toNat : ℤ) := by omega
    have : (n : ℚ) ≤ 2 * (((n + 1) / 2).toNat : ℚ) := by exact_mod_cast h3
    linarith

omit [f.Ok] in
/-- `x - y` has no more digits than `x` if `y` is on the grid and the difference is no larger. -/
theorem rep_sub_of_le {x : FP f} {y : ℚ} {n k j : ℤ} (hyv : y = n * p2 j)
    (hk : |x.val| < p2 (k + 1)) (hkj : k - f.mb ≤ j) (hj : f.emin - f.mb ≤ j) (hle : |x.val - y| ≤ |x.val|) : Rep f (x.val - y) := by
  obtain ⟨e, m, he, hm, hn, hc⟩ := code_cases f x.mag
  have hv := magVal_code f he hm.le hn
  rw [← hc] at hv
  obtain ⟨s, hs, hs1⟩ : ∃ s : ℤ, x.val = s * p2 (e - f.mb) ∧ |s| = m := by
    unfold val
    cases x.sign
    · exact ⟨m, by simp [hv], by simp⟩
    · exact ⟨-m, by simp [hv], by simp⟩
  have hej : e - f.mb ≤ j := by
    by_contra hlt
    push Not at hlt
    have hek : k + 1 ≤ e := by omega
    have hemin : f.emin < e := by omega
    have hm2 : 2 ^ f.mb ≤ m := by
      rcases hn with h | h
      · exact h
      · omega
    have : p2 (k + 1) ≤ |x.val| := by
      rw [abs_val, hv]
      have h1 : p2 (k + 1) ≤ p2 e := p2_le hek
      have h2 : p2 e = 2 ^ f.mb * p2 (e - f.mb) := by
        rw [← p2_nat, ← p2_add]; exact congrArg _ (by ring)
      have h3 : (2 : ℚ) ^ f.mb ≤ m := by exact_mod_cast hm2
      have := mul_le_mul_of_nonneg_right h3 (p2_pos (e - f.mb)).le
      linarith
    linarith
  obtain ⟨d, hd⟩ : ∃ d : ℕ, j = e - f.mb + d := ⟨(j - (e - f.mb)).toNat, by omega⟩
  have hp : p2 j = 2 ^ d * p2 (e - f.mb) := by rw [hd, p2_add, p2_nat, mul_comm]
  have hval : x.val - y = ((s - n * 2 ^ d : ℤ) : ℚ) * p2 (e - f.mb) := by
    rw [hs, hyv, hp]; push_cast; ring
  refine ⟨s - n * 2 ^ d, e - f.mb, hval, ?_, by omega⟩
  have hp0 := p2_pos (e - f.mb)
  rw [hval, hs, abs_mul, abs_mul, abs_of_pos hp0] at hle
  have h4 := le_of_mul_le_mul_right hle hp0
  have h5 : |s - n * 2 ^ d| ≤ |s| := by exact_mod_cast h4
  rw [hs1] at h5
  have : (m : ℤ) ≤ 2 ^ (f.mb + 1) := by exact_mod_cast hm.le
  omega

include hm

/-- The reduction `((x - y*c1) - y*c2) - y*c3` with `y = 2n` the quadrant of `x`: only the last
subtraction and the last product round. -/
theorem reduce3D {c c1 c2 c3 x p t : FP f} {X M l R κ : ℚ} {N k1 j1 k2 j2 k : ℤ} {n : ℕ} (ht : Faithful t ((c.val * x.val : ℚ) : ℝ))
    (hx : x.isFinite = true) (hx0 : 0 ≤ x.val) (hxX : x.val ≤ X) (hXk : X < p2 (k + 1)) (hXb : X ≤ f.big)
    (hp : p.isFinite = true) (hpm : p.val = 2 * n)
    (q1 : 2 * (n : ℚ) - 1 ≤ t.val) (q2 : t.val < 2 * n + 1)
    (q3 : |t.val - c.val * x.val| ≤ 2 * hulp f M)
    (hc0 : 0 ≤ c.val) (hl : 0 < l) (hR : l * (1 + 2 * hulp f M) + X * |1 - c.val * l| ≤ R)
    (hN : l⁻¹ * (X + R) ≤ 2 * N)
    (h1f : c1.isFinite = true) (h1 : c1.val = k1 * p2 j1) (h1N : N * |k1| ≤ 2 ^ (f.mb + 1)) (h1j : f.emin - f.mb ≤ j1 + 1)
    (h1k : k - f.mb ≤ j1 + 1) (h1b : 2 * N * |c1.val| ≤ f.big) (h10 : 0 ≤ c1.val) (h1l : c1.val ≤ l)
    (h1c : c.val * c1.val + 2 * hulp f 1 < 1) (h1R : R ≤ 2 * (2 * l - c1.val))
    (h2f : c2.isFinite = true) (h2 : c2.val = k2 * p2 j2) (h2N : N * |k2| ≤ 2 ^ (f.mb + 1)) (h2j : f.emin - f.mb ≤ j2 + 1)
    (h2b : 2 * N * |c2.val| ≤ f.big) (h12 : j2 ≤ j1) (h2m : -1 - (f.mb : ℤ) ≤ j2 + 1) (hem : f.emin ≤ -1) (hc2 : c.val * (1 / 2) + 2 * hulp f 1 < 1)
    (hS2 : R + 2 * N * |l - c1.val - c2.val| ≤ 1) (h1big : 1 ≤ f.big)
    (h3f : c3.isFinite = true) (hP3 : 2 * N * |c3.val| ≤ 1)
    (hS3 : R + 2 * N * |l - c1.val - c2.val| + 2 ≤ f.big) (hu : 2 * f.u * 1 + 2 * f.eta ≤ 1)
    (hκ : (1 + 2 * f.u) * (2 * |l - c1.val - c2.val - c3.val| + 2 * (2 * f.u) * |c3.val| + 2 * f.eta) + 2 * f.eta ≤ κ) :
    let z := (((of x - of p * of c1) - of p * of c2) - of p * of c3 : Z m f).v
    z.isFinite = true ∧ (n : ℤ) ≤ N ∧ |x.val - 2 * n * l| ≤ R ∧ (1 ≤ n → 1 / 2 ≤ x.val) ∧ (n = 0 → z.val = x.val) ∧
      |z.val - (x.val - 2 * n * l)| ≤ 2 * f.u * |x.val - 2 * n * l| + n * κ := by
  -- the quadrant is the right one
  have hxR : |x.val - 2 * n * l| ≤ R := by
    have hd : |c.val * x.val - 2 * n| ≤ 1 + 2 * hulp f M := by
      rw [abs_le] at q3 ⊢; constructor <;> linarith [q3.1, q3.2]
    have e : x.val - 2 * n * l = l * (c.val * x.val - 2 * n) + x.val * (1 - c.val * l) := by ring
    rw [e]
    refine (abs_add_le _ _).trans (le_trans (add_le_add ?_ ?_) hR)
    · rw [abs_mul, abs_of_pos hl]; exact mul_le_mul_of_nonneg_left hd hl.le
    · rw [abs_mul, abs_of_nonneg hx0]; exact mul_le_mul_of_nonneg_right hxX (_root_.abs_nonneg _)
  have hmN : (n : ℚ) ≤ N := by
    rw [abs_le] at hxR
    have h3 : 2 * n * l ≤ X + R := by linarith
    have h4 : 2 * (n : ℚ) ≤ l⁻¹ * (X + R) := by
      rw [inv_mul_eq_div, le_div_iff₀ hl]; exact h3
    linarith
  have hmNz : (n : ℤ) ≤ N := by exact_mod_cast hmN
  have hm0 : (0 : ℚ) ≤ n := by positivity
  have hN0 : (0 : ℚ) ≤ N := hm0.trans hmN
  -- a small product gives no quadrant
  have low : ∀ s : ℚ, x.val ≤ s → c.val * s + 2 * hulp f 1 < 1 → t.val < 1 := by
    intro s hs hlt
    have h5 : c.val * x.val ≤ c.val * s := mul_le_mul_of_nonneg_left hs hc0
    have hp1 := hulp_pos f 1
    have h6 := ht.err (M := 1) (by rw [abs_of_nonneg (mul_nonneg hc0 hx0)]; linarith) h1big
    rw [abs_le] at h6
    linarith [h6.2]
  have hhalf : 1 ≤ n → 1 / 2 ≤ x.val := by
    intro hm1
    by_contra hcon
    push Not at hcon
    have h6 := low _ hcon.le hc2
    have h7 : (1 : ℚ) ≤ n := by exact_mod_cast hm1
    linarith
  have bd : ∀ t : ℚ, |2 * n * t| ≤ 2 * N * |t| := fun t => by
    rw [abs_mul, abs_of_nonneg (by linarith : (0 : ℚ) ≤ 2 * n)]
    exact mul_le_mul_of_nonneg_right (by linarith) (_root_.abs_nonneg _)
  have rep : ∀ (kk jj : ℤ) (cv : ℚ), cv = kk * p2 jj → N * |kk| ≤ 2 ^ (f.mb + 1) → f.emin - f.mb ≤ jj + 1 →
      2 * (n : ℚ) * cv = ((n * kk : ℤ) : ℚ) * p2 (jj + 1) ∧ |(n * kk : ℤ)| ≤ 2 ^ (f.mb + 1) := by
    intro kk jj cv hcv hkk hjj
    refine ⟨by rw [hcv, p2_succ]; push_cast; ring, ?_⟩
    rw [abs_mul, abs_of_nonneg (by positivity : (0 : ℤ) ≤ (n : ℤ))]
    exact (mul_le_mul_of_nonneg_right hmNz (_root_.abs_nonneg _)).trans hkk
  have r1 := rep k1 j1 _ h1 h1N h1j
  have r2 := rep k2 j2 _ h2 h2N h2j
  have e1 : (of p * of c1 : Z m f).v.isFinite = true ∧ (of p * of c1 : Z m f).v.val = p.val * c1.val :=
    mul_exactD hm (a := of p) (b := of c1) hp h1f (by show Rep f (p.val * c1.val); rw [hpm]; exact ⟨_, _, r1.1, r1.2, h1j⟩)
      (by show |p.val * c1.val| ≤ _; rw [hpm]; exact (bd _).trans h1b)
  have e2 : (of p * of c2 : Z m f).v.isFinite = true ∧ (of p * of c2 : Z m f).v.val = p.val * c2.val :=
    mul_exactD hm (a := of p) (b := of c2) hp h2f (by show Rep f (p.val * c2.val); rw [hpm]; exact ⟨_, _, r2.1, r2.2, h2j⟩)
      (by show |p.val * c2.val| ≤ _; rw [hpm]; exact (bd _).trans h2b)
  rw [hpm] at e1 e2
  -- the first subtraction is exact
  have hle : |x.val - 2 * n * c1.val| ≤ |x.val| := by
    rw [abs_of_nonneg hx0, abs_le]
    have hnn : 0 ≤ 2 * n * c1.val := mul_nonneg (by linarith) h10
    refine ⟨?_, by linarith⟩
    have hx2 : 2 * n * c1.val ≤ 2 * x.val := by
      rcases Nat.lt_or_ge n 2 with h | h
      · have : n = 0 ∨ n = 1 := by omega
        rcases this with h | h
        · subst h; simp; exact hx0
        · subst h
          by_contra hcon
          push Not at hcon
          have h6 := low c1.val (by push_cast at hcon; linarith) h1c
          push_cast at q1
          linarith
      · have h2m : (2 : ℚ) ≤ n := by exact_mod_cast h
        rw [abs_le] at hxR
        have : 2 * (2 * l - c1.val) ≤ n * (2 * l - c1.val) := mul_le_mul_of_nonneg_right h2m (by linarith)
        nlinarith
    linarith
  have s1 : (of x - of p * of c1 : Z m f).v.isFinite = true ∧ (of x - of p * of c1 : Z m f).v.val = x.val - 2 * n * c1.val := by
    have s := sub_exactD hm (a := of x) (b := of p * of c1) hx e1.1
      (by rw [e1.2]; exact rep_sub_of_le (x := x) (k := k) (j := j1 + 1) (n := n * k1) r1.1 (by rw [abs_of_nonneg hx0]; linarith) h1k h1j hle)
      (by rw [e1.2]; exact hle.trans (by rw [abs_of_nonneg hx0]; linarith))
    rw [e1.2] at s
    exact s
  generalize (of x - of p * of c1 : Z m f) = z1 at s1 ⊢
  have b12 := bd (l - c1.val - c2.val)
  have hw2 : |x.val - 2 * n * c1.val - 2 * n * c2.val| ≤ R + 2 * N * |l - c1.val - c2.val| := by
    have e : x.val - 2 * n * c1.val - 2 * n * c2.val = (x.val - 2 * n * l) + 2 * n * (l - c1.val - c2.val) := by ring
    rw [e]; exact (abs_add_le _ _).trans (add_le_add hxR b12)
  -- so is the second
  have s2 : (z1 - of p * of c2).v.isFinite = true ∧ (z1 - of p * of c2).v.val = x.val - 2 * n * c1.val - 2 * n * c2.val := by
    have := sub_exactD hm (a := z1) (b := of p * of c2) s1.1 e2.1 (by
      rw [s1.2, e2.2]
      rcases Nat.eq_zero_or_pos n with h | h
      · subst h; simp only [Nat.cast_zero, mul_zero, zero_mul, sub_zero]; exact val_rep x
      · have hx12 := hhalf h
        obtain ⟨n', kx, hn1, hn2, hn3⟩ := rep_of_ge (x := x) (j := -1) (by
          rw [abs_of_nonneg hx0, show p2 (-1) = 1 / 2 by decide +kernel]; exact hx12)
        have up : ∀ (a : ℤ) (b : ℤ), -1 - (f.mb : ℤ) ≤ b → ∃ a' : ℤ, (a : ℚ) * p2 b = a' * p2 (-1 - f.mb) := by
          intro a b hb
          obtain ⟨d, hd⟩ : ∃ d : ℕ, b = (-1 - f.mb) + d := ⟨(b - (-1 - f.mb)).toNat, by omega⟩
          refine ⟨a * 2 ^ d, ?_⟩
          rw [hd, p2_add, p2_nat]; push_cast; ring
        obtain ⟨a0, ha0⟩ := up n' kx hn3
        obtain ⟨a1, ha1⟩ := up (n * k1) (j1 + 1) (by omega)
        obtain ⟨a2, ha2⟩ := up (n * k2) (j2 + 1) h2m
        have hv : x.val - 2 * n * c1.val - 2 * n * c2.val = ((a0 - a1 - a2 : ℤ) : ℚ) * p2 (-1 - f.mb) := by
          rw [r1.1, r2.1, ha1, ha2, hn1, ha0]; push_cast; ring
        refine ⟨a0 - a1 - a2, -1 - f.mb, hv, ?_, by omega⟩
        have h9 := hw2.trans hS2
        rw [hv, abs_mul, abs_of_pos (p2_pos _)] at h9
        have h10 : p2 (-1 - f.mb) * 2 ^ (f.mb + 1) = 1 := by
          rw [← p2_nat, ← p2_add, show (-1 - (f.mb : ℤ)) + ((f.mb + 1 : ℕ) : ℤ) = 0 by push_cast; ring, p2_eq]; simp
        have h11 : |((a0 - a1 - a2 : ℤ) : ℚ)| ≤ 2 ^ (f.mb + 1) := by
          have hp0 := p2_pos (-1 - (f.mb : ℤ))
          rw [← h10] at h9
          rw [mul_comm] at h9
          exact le_of_mul_le_mul_left h9 hp0
        exact_mod_cast h11) (by rw [s1.2, e2.2]; linarith)
    rw [s1.2, e2.2] at this; exact this
  generalize (z1 - of p * of c2 : Z m f) = z2 at s2 ⊢
  have b3 : |2 * n * c3.val| ≤ 1 := (bd _).trans hP3
  have hw := mul_dir hm (a := of p) (b := of c3) hp h3f (by show |p.val * c3.val| ≤ _; rw [hpm]; exact b3.trans h1big)
  have p3e := hw.err_add (by show |p.val * c3.val| ≤ _; rw [hpm]; exact b3.trans h1big)
  change |(of p * of c3 : Z m f).v.val - p.val * c3.val| ≤ 2 * f.u * |p.val * c3.val| + _ at p3e
  rw [hpm] at p3e
  have hu0 := f.u_pos
  have he0 := f.eta_pos
  have b3b : |(of p * of c3 : Z m f).v.val| ≤ 2 := by
    have h5 : |(of p * of c3 : Z m f).v.val| ≤ |2 * n * c3.val| + |(of p * of c3 : Z m f).v.val - 2 * n * c3.val| := by
      have := abs_add_le (2 * n * c3.val) ((of p * of c3 : Z m f).v.val - 2 * n * c3.val); rwa [add_sub_cancel] at this
    have h6 : 2 * f.u * |2 * n * c3.val| ≤ 2 * f.u * 1 := mul_le_mul_of_nonneg_left b3 (by linarith)
    linarith
  have hz' : |z2.v.val - (of p * of c3 : Z m f).v.val| ≤ f.big := by
    rw [s2.2]; refine (abs_sub _ _).trans ?_; linarith
  have s3 := sub_dir hm (a := z2) (b := of p * of c3) s2.1 hw.1 hz'
  have s3e := s3.err_add hz'
  intro z
  have hz0 : n = 0 → z.val = x.val := by
    intro h
    subst h
    have hp3 : (of p * of c3 : Z m f).v.val = 0 := by
      have := hw.exactQ (q := (of p : Z m f).v.val * (of c3 : Z m f).v.val) (by
        show Rep f (p.val * c3.val); rw [hpm]; simp only [Nat.cast_zero, mul_zero, zero_mul]
        exact ⟨0, f.emin - f.mb, by simp, by simp, le_rfl⟩) (by
        show |p.val * c3.val| ≤ _; rw [hpm]; exact b3.trans h1big)
      rw [this]; show p.val * c3.val = 0; rw [hpm]; simp
    have e : z2.v.val - (of p * of c3 : Z m f).v.val = x.val := by rw [s2.2, hp3]; simp
    have := s3.exactQ (by rw [e]; exact val_rep x) hz'
    show (z2 - of p * of c3 : Z m f).v.val = _
    rw [this, e]
  refine ⟨s3.1, hmNz, hxR, hhalf, hz0, ?_⟩
  rcases Nat.eq_zero_or_pos n with h | h
  · rw [hz0 h]; subst h; simp only [Nat.cast_zero, mul_zero, zero_mul, sub_zero, sub_self, abs_zero]
    have := mul_nonneg hu0.le (_root_.abs_nonneg x.val); linarith
  · have hm1 : (1 : ℚ) ≤ n := by exact_mod_cast h
    rw [s2.2] at s3e
    generalize (of p * of c3 : Z m f).v.val = w at *
    obtain ⟨ζ, hζ⟩ : ∃ ζ, ζ = x.val - 2 * n * l := ⟨_, rfl⟩
    obtain ⟨z', hz'd⟩ : ∃ z', z' = x.val - 2 * n * c1.val - 2 * n * c2.val - w := ⟨_, rfl⟩
    change |z.val - _| ≤ _ at s3e
    rw [← hz'd] at s3e
    rw [← hζ]
    have d1 : |z' - ζ| ≤ n * (2 * |l - c1.val - c2.val - c3.val| + 2 * (2 * f.u) * |c3.val| + 2 * f.eta) := by
      have e : z' - ζ = 2 * n * (l - c1.val - c2.val - c3.val) - (w - 2 * n * c3.val) := by rw [hz'd, hζ]; ring
      rw [e]
      refine (abs_sub _ _).trans ?_
      have g1 : |2 * n * (l - c1.val - c2.val - c3.val)| = n * (2 * |l - c1.val - c2.val - c3.val|) := by
        rw [abs_mul, abs_of_nonneg (by linarith : (0 : ℚ) ≤ 2 * n)]; ring
      have g2 : |2 * (n : ℚ) * c3.val| = n * (2 * |c3.val|) := by
        rw [abs_mul, abs_of_nonneg (by linarith : (0 : ℚ) ≤ 2 * n)]; ring
      rw [g1]
      rw [g2] at p3e
      have := mul_le_mul_of_nonneg_right hm1 he0.le
      linarith
    exact reduce3_est s3e d1 hm1 (by linarith) (by linarith) hκ

end ops

/-! ## Double precision -/

/-- What the reduction delivers (double precision): the number `n` of quarter turns and the reduced argument
within `2u|ζ| + nκ` of `ζ = |x| - nπ/2`. -/
theorem reduce64D (hm : m.Dir) {x : F64} (hx : x.isFinite = true) (h : |x.val| ≤ 2 ^ 27) :
    ∃ n : ℕ, (∃ q0, strict.f2i (of ONEOPIO4 * of (FP.abs x) : Z m b64).v = some q0 ∧ ∃ q1, strict.i32 (q0 + 1) = some q1 ∧ clearLow q1 = 2 * n) ∧ (n : ℚ) ≤ 85445661 ∧
      (((of (FP.abs x) - of (ofInt (2 * n)) * of DP1) - of (ofInt (2 * n)) * of DP2) - of (ofInt (2 * n)) * of DP3 : Z m b64).v.isFinite = true ∧
      |(((of (FP.abs x) - of (ofInt (2 * n)) * of DP1) - of (ofInt (2 * n)) * of DP2) - of (ofInt (2 * n)) * of DP3 : Z m b64).v.real| ≤ 0.787 ∧
      (n = 0 → (((of (FP.abs x) - of (ofInt (2 * n)) * of DP1) - of (ofInt (2 * n)) * of DP2) - of (ofInt (2 * n)) * of DP3 : Z m b64).v.val = |x.val|) ∧
      (1 ≤ n → 1 / 2 ≤ |x.val|) ∧ |(|x.real| - n * (Real.pi / 2))| ≤ 0.7869 ∧
      |(((of (FP.abs x) - of (ofInt (2 * n)) * of DP1) - of (ofInt (2 * n)) * of DP2) - of (ofInt (2 * n)) * of DP3 : Z m b64).v.real - (|x.real| - n * (Real.pi / 2))| ≤
        2 ^ (-52 : ℤ) * |(|x.real| - n * (Real.pi / 2))| + n * (2 / 2 ^ 106) := by
  have hax : (FP.abs x).isFinite = true := by simpa using hx
  have hav : (FP.abs x).val = |x.val| := val_abs x
  have h0 := abs_val_nonneg x
  rw [← hav] at h
  have hcx : ONEOPIO4.val * (FP.abs x).val ≤ 170891319 :=
    (mul_le_mul_of_nonneg_left h (by decide +kernel)).trans (show ONEOPIO4.val * 2 ^ 27 ≤ 170891319 by decide +kernel)
  have hw := mul_dir hm (a := of ONEOPIO4) (b := of (FP.abs x)) (show ONEOPIO4.isFinite = true by decide +kernel) hax (by
    show |ONEOPIO4.val * (FP.abs x).val| ≤ _
    rw [abs_of_nonneg (mul_nonneg (by decide +kernel) h0)]
    exact hcx.trans (by decide +kernel))
  change Faithful _ ((ONEOPIO4.val * (FP.abs x).val : ℚ) : ℝ) at hw
  generalize (of ONEOPIO4 * of (FP.abs x) : Z m b64).v = w at *
  obtain ⟨n, hq, hn, q1, q2, q3⟩ := quad_dir (f := b64) (c := ONEOPIO4) (X := 2 ^ 27) (M := 170891319) hw (by decide +kernel)
    h0 h (by decide +kernel) (by decide +kernel) (by decide +kernel)
  have hm8 : (n : ℚ) ≤ 170891319 := by
    have h2 : 2 * hulp b64 170891319 ≤ 1 := by decide +kernel
    rw [abs_le] at q3; linarith [q3.2]
  have i := ofInt_spec64 (n := 2 * n) (by
    have : n ≤ 170891319 := by exact_mod_cast hm8
    rw [abs_of_nonneg (by omega)]; omega)
  have r := reduce3D hm (f := b64) (c := ONEOPIO4) (c1 := DP1) (c2 := DP2) (c3 := DP3) (X := 2 ^ 27) (M := 170891319) (l := piQ / 4)
    (R := 0.7868) (κ := (1.8 / 2 ^ 106)) (N := 85445661) (k1 := 26353589) (j1 := -25) (k2 := 8947107) (j2 := -50)
    (k := 27) (n := n) (p := ofInt (2 * n)) hw hax h0 h (by decide +kernel) (by decide +kernel) i.1 (by rw [i.2]; push_cast; rfl) q1 q2 q3
    (by decide +kernel) (by decide +kernel) (by decide +kernel) (by decide +kernel)
    (by decide +kernel) (by decide +kernel) (by decide +kernel) (by decide +kernel) (by decide +kernel) (by decide +kernel)
    (by decide +kernel) (by decide +kernel) (by decide +kernel) (by decide +kernel)
    (by decide +kernel) (by decide +kernel) (by decide +kernel) (by decide +kernel) (by decide +kernel)
    (by decide +kernel) (by decide +kernel) (by decide +kernel) (by decide +kernel) (by decide +kernel) (by decide +kernel)
    (by decide +kernel) (by decide +kernel) (by decide +kernel) (by decide +kernel) (by decide +kernel)
  obtain ⟨r1, r2, r3, r4, r5, r6⟩ := r
  have hmN : (n : ℚ) ≤ 85445661 := by exact_mod_cast r2
  rw [hav] at r3 r4 r5 r6
  refine ⟨n, hq, hmN, r1, ?_⟩
  generalize (((of (FP.abs x) - of (ofInt (2 * n)) * of DP1) - of (ofInt (2 * n)) * of DP2) - of (ofInt (2 * n)) * of DP3 : Z m b64).v = z at *
  have hmR : (n : ℝ) ≤ 85445661 := by exact_mod_cast hmN
  have hm0 : (0 : ℝ) ≤ n := by positivity
  have hp := pi_near
  have hu : 2 * b64.u = p2 (-52) := by decide +kernel
  have r3' : |(|x.real| - 2 * n * (piQ / 4))| ≤ 0.7868 := by
    have : ((|(|x.val| - 2 * n * (piQ / 4))| : ℚ) : ℝ) ≤ ((0.7868 : ℚ) : ℝ) := by exact_mod_cast r3
    push_cast at this; unfold FP.real; exact this
  have r6' : |z.real - (|x.real| - 2 * n * (piQ / 4))| ≤ 2 ^ (-52 : ℤ) * |(|x.real| - 2 * n * (piQ / 4))| + n * (1.8 / 2 ^ 106) := by
    have : ((|z.val - (|x.val| - 2 * n * (piQ / 4))| : ℚ) : ℝ) ≤
        ((2 * b64.u * |(|x.val| - 2 * n * (piQ / 4))| + n * (1.8 / 2 ^ 106) : ℚ) : ℝ) := by exact_mod_cast r6
    rw [hu, p2_eq] at this
    push_cast at this; unfold FP.real; exact this
  have e : |x.real| - n * (Real.pi / 2) = (|x.real| - 2 * n * (piQ / 4)) - n / 2 * (Real.pi - piQ) := by ring
  obtain ⟨ζ, hζ⟩ : ∃ ζ, ζ = |x.real| - n * (Real.pi / 2) := ⟨_, rfl⟩
  obtain ⟨ζ', hζ'⟩ : ∃ ζ', ζ' = |x.real| - 2 * n * (piQ / 4 : ℝ) := ⟨_, rfl⟩
  rw [← hζ, ← hζ'] at e
  rw [← hζ'] at r3' r6'
  have hd : |n / 2 * (Real.pi - piQ)| ≤ n * (1 / 10 ^ 38) := by
    rw [abs_mul, abs_of_nonneg (by positivity : (0 : ℝ) ≤ n / 2)]
    have h1 : (n : ℝ) / 2 ≤ n := by linarith
    exact mul_le_mul h1 hp (_root_.abs_nonneg _) hm0
  have hdz : |ζ' - ζ| ≤ n * (1 / 10 ^ 38) := by
    rw [e]; refine le_trans (le_of_eq ?_) hd; congr 1; ring
  have hz1 : |ζ'| ≤ |ζ| + n * (1 / 10 ^ 38) := by
    have := abs_add_le ζ (ζ' - ζ); rw [add_sub_cancel] at this; linarith
  have hz2 : |ζ| ≤ |ζ'| + n * (1 / 10 ^ 38) := by
    have := abs_add_le ζ' (ζ - ζ'); rw [add_sub_cancel, abs_sub_comm ζ ζ'] at this; linarith
  have hfin : |z.real - ζ| ≤ 2 ^ (-52 : ℤ) * |ζ| + n * (2 / 2 ^ 106) := by
    have h1 := abs_sub_le z.real ζ' ζ
    have h2 : (2 : ℝ) ^ (-52 : ℤ) * |ζ'| ≤ 2 ^ (-52 : ℤ) * (|ζ| + n * (1 / 10 ^ 38)) := mul_le_mul_of_nonneg_left hz1 (by positivity)
    have h3 : (n : ℝ) * ((1.8 / 2 ^ 106) + (1 + 2 ^ (-52 : ℤ)) * (1 / 10 ^ 38)) ≤ n * (2 / 2 ^ 106) := mul_le_mul_of_nonneg_left (by norm_num) hm0
    nlinarith
  have hnb : (n : ℝ) * (2 / 2 ^ 106) ≤ 0.00002 := by
    refine (mul_le_mul_of_nonneg_right hmR (by positivity)).trans ?_
    norm_num
  have hzb : |ζ| ≤ 0.7869 := by
    have : (n : ℝ) * (1 / 10 ^ 38) ≤ 85445661 * (1 / 10 ^ 38) := mul_le_mul_of_nonneg_right hmR (by positivity)
    have : (85445661 : ℝ) * (1 / 10 ^ 38) ≤ 0.0001 := by norm_num
    linarith
  rw [← hζ]
  refine ⟨?_, r5, r4, hzb, hfin⟩
  have h1 := abs_add_le ζ (z.real - ζ)
  rw [add_sub_cancel] at h1
  have h4 : (2 : ℝ) ^ (-52 : ℤ) * |ζ| ≤ 2 ^ (-52 : ℤ) * 0.7869 := mul_le_mul_of_nonneg_left hzb (by positivity)
  have h5 : (2 : ℝ) ^ (-52 : ℤ) * 0.7869 ≤ 0.00005 := by norm_num
  linarith

theorem sinE_okD : covers (okLinD b64 sinE (2.6 * 2 ^ (-53 : ℤ)) 4.5) [-787 / 1000, -21 / 32, 31 / 64, 47 / 64, 787 / 1000] = true := by decide +kernel
theorem cosE_okD : covers (okAbsD b64 cosE (4.05 * 2 ^ (-53 : ℤ))) [-787 / 1000, -1 / 64, 11 / 64, 787 / 1000] = true := by decide +kernel

/-- Double precision on the reduced interval: the error of the sine is relative to the argument. -/
theorem sincos_coreD (hm : m.Dir) {z : F64} (hz : z.isFinite = true) (h : |z.real| ≤ 0.787) :
    (sin45 (of z) : Z m b64).v.isFinite = true ∧ (cos45 (of z) : Z m b64).v.isFinite = true ∧
    |(sin45 (of z) : Z m b64).v.real - Real.sin z.real| ≤ 2.73 * 2 ^ (-53 : ℤ) * |z.real| + 4.5 * b64.eta ∧
    |(cos45 (of z) : Z m b64).v.real - Real.cos z.real| ≤ 4.1 * 2 ^ (-53 : ℤ) := by
  have a1 := sin_approx h
  have a2 := cos_approx h
  rw [abs_le] at h
  obtain ⟨s, t, hst, h1, h2⟩ := covers_spans sinE_okD (a := -0.787) (b := 0.787) (by decide +kernel)
    (x := z.real) (by push_cast; linarith) (by push_cast; linarith)
  have r := okLinD_sound hm hst hz h1 h2
  rw [sinE_real, ← sinZ] at r
  obtain ⟨s', t', hst', h1', h2'⟩ := covers_spans cosE_okD (a := -0.787) (b := 0.787) (by decide +kernel)
    (x := z.real) (by push_cast; linarith) (by push_cast; linarith)
  have r' := okAbsD_sound hm hst' hz h1' h2'
  rw [cosE_real, ← cosZ] at r'
  refine ⟨r.1, r'.1, ?_, ?_⟩
  · have e := (abs_sub_le _ _ (Real.sin z.real)).trans (add_le_add r.2 a1)
    refine e.trans (le_of_eq ?_)
    push_cast; ring
  · have e := (abs_sub_le _ _ (Real.cos z.real)).trans (add_le_add r'.2 a2)
    refine e.trans (le_of_eq ?_)
    push_cast; ring

theorem sincos_split (hm : m.Dir) {x : F64} {n : ℕ} {q0 q1 : ℤ} (h0 : strict.f2i (of ONEOPIO4 * of (FP.abs x) : Z m b64).v = some q0)
    (h1 : strict.i32 (q0 + 1) = some q1) (h2 : clearLow q1 = 2 * n) :
    fast_sincos m x = some (sincosTail
      ((sin45 (((of (FP.abs x) - of (ofInt (2 * n)) * of DP1) - of (ofInt (2 * n)) * of DP2) - of (ofInt (2 * n)) * of DP3 : Z m b64)).v,
       (cos45 (((of (FP.abs x) - of (ofInt (2 * n)) * of DP1) - of (ofInt (2 * n)) * of DP2) - of (ofInt (2 * n)) * of DP3 : Z m b64)).v)
      (2 * n) (FP.lt x (lit 0))) := by
  unfold fast_sincos
  dsimp only
  simp only [Option.bind_eq_bind, Option.pure_def]
  rw [hm.arg, h0]
  simp only [Option.bind_some]
  rw [h1]
  simp only [Option.bind_some]
  rw [h2]
  have l : m.lt x (lit 0) = FP.lt x (lit 0) := by
    unfold Mode.lt
    rw [hm.arg, hm.arg]
  rw [l]
  rfl

/-- Double precision, everything together. -/
theorem sincos_dir (hm : m.Dir) {x : F64} (hx : x.isFinite = true) (h : |x.val| ≤ 2 ^ 27) :
    ∃ s c, fast_sincos m x = some (s, c) ∧ s.isFinite = true ∧ c.isFinite = true ∧
      |s.real - Real.sin x.real| ≤ 5.7 * 2 ^ (-53 : ℤ) ∧ |c.real - Real.cos x.real| ≤ 5.7 * 2 ^ (-53 : ℤ) := by
  obtain ⟨n, ⟨q0, hq0, q1, hq1, hq2⟩, hmN, r1, r2, -, -, r4, r5⟩ := reduce64D hm hx h
  have hn : (n : ℚ) ≤ 1073741823 := by linarith
  have r3 := r5.trans (show _ ≤ 1.59 * (2 : ℝ) ^ (-53 : ℤ) by
    have hmR : (n : ℝ) ≤ 85445661 := by exact_mod_cast hmN
    have h1 : (n : ℝ) * (2 / 2 ^ 106) ≤ 85445661 * (2 / 2 ^ 106) := mul_le_mul_of_nonneg_right hmR (by positivity)
    have h2 : (2 : ℝ) ^ (-52 : ℤ) * |(|x.real| - n * (Real.pi / 2))| ≤ 2 ^ (-52 : ℤ) * 0.7869 := mul_le_mul_of_nonneg_left r4 (by positivity)
    have h3 : (2 : ℝ) ^ (-52 : ℤ) * 0.7869 + 85445661 * (2 / 2 ^ 106) ≤ 1.59 * 2 ^ (-53 : ℤ) := by norm_num
    linarith)
  have e := sincos_split hm hq0 hq1 hq2
  generalize (((of (FP.abs x) - of (ofInt (2 * n)) * of DP1) - of (ofInt (2 * n)) * of DP2) - of (ofInt (2 * n)) * of DP3 : Z m b64) = z at *
  obtain ⟨c1, c2, c3, c4⟩ := sincos_coreD hm r1 r2
  rw [show (of z.v : Z m b64) = z from rfl] at c1 c2 c3 c4
  have heta : ((b64.eta : ℚ) : ℝ) ≤ 1 / 2 ^ 100 := by
    have : b64.eta ≤ 1 / 2 ^ 100 := by decide +kernel
    have : ((b64.eta : ℚ) : ℝ) ≤ ((1 / 2 ^ 100 : ℚ) : ℝ) := by exact_mod_cast this
    push_cast at this; exact this
  have c3' : |(sin45 z).v.real - Real.sin z.v.real| ≤ 4.1 * 2 ^ (-53 : ℤ) := by
    refine c3.trans ?_
    have : (2.73 : ℝ) * 2 ^ (-53 : ℤ) * |z.v.real| ≤ 2.73 * 2 ^ (-53 : ℤ) * 0.787 := mul_le_mul_of_nonneg_left r2 (by positivity)
    refine (add_le_add this (mul_le_mul_of_nonneg_left heta (by norm_num))).trans ?_
    norm_num
  have t := tail_acc (sc := ((sin45 z).v, (cos45 z).v)) (neg := FP.lt x (lit 0)) hn c1 c2 c3' (c4.trans (by norm_num)) r3
    (lt_zero_real hx (by decide +kernel) (by decide +kernel))
  exact ⟨_, _, e, t.1, t.2.1, t.2.2.1.trans (by norm_num), t.2.2.2.trans (by norm_num)⟩

/-! ## Single precision -/

/-- What the reduction delivers (single precision): the number `n` of quarter turns and the reduced argument
within `2u|ζ| + nκ` of `ζ = |x| - nπ/2`. -/
theorem reduce32D (hm : m.Dir) {x : F32} (hx : x.isFinite = true) (h : |x.val| ≤ 8192) :
    ∃ n : ℕ, (∃ q0, strict.f2i (of ONEOPIO4F * of (FP.abs x) : Z m b32).v = some q0 ∧ ∃ q1, strict.i32 (q0 + 1) = some q1 ∧ clearLow q1 = 2 * n) ∧ (n : ℚ) ≤ 5216 ∧
      (((of (FP.abs x) - of (ofInt (2 * n)) * of DP1F) - of (ofInt (2 * n)) * of DP2F) - of (ofInt (2 * n)) * of DP3F : Z m b32).v.isFinite = true ∧
      |(((of (FP.abs x) - of (ofInt (2 * n)) * of DP1F) - of (ofInt (2 * n)) * of DP2F) - of (ofInt (2 * n)) * of DP3F : Z m b32).v.real| ≤ 0.787 ∧
      (n = 0 → (((of (FP.abs x) - of (ofInt (2 * n)) * of DP1F) - of (ofInt (2 * n)) * of DP2F) - of (ofInt (2 * n)) * of DP3F : Z m b32).v.val = |x.val|) ∧
      (1 ≤ n → 1 / 2 ≤ |x.val|) ∧ |(|x.real| - n * (Real.pi / 2))| ≤ 0.7869 ∧
      |(((of (FP.abs x) - of (ofInt (2 * n)) * of DP1F) - of (ofInt (2 * n)) * of DP2F) - of (ofInt (2 * n)) * of DP3F : Z m b32).v.real - (|x.real| - n * (Real.pi / 2))| ≤
        2 ^ (-23 : ℤ) * |(|x.real| - n * (Real.pi / 2))| + n * (1.6 / 2 ^ 47) := by
  have hax : (FP.abs x).isFinite = true := by simpa using hx
  have hav : (FP.abs x).val = |x.val| := val_abs x
  have h0 := abs_val_nonneg x
  rw [← hav] at h
  have hcx : ONEOPIO4F.val * (FP.abs x).val ≤ 10431 :=
    (mul_le_mul_of_nonneg_left h (by decide +kernel)).trans (show ONEOPIO4F.val * 8192 ≤ 10431 by decide +kernel)
  have hw := mul_dir hm (a := of ONEOPIO4F) (b := of (FP.abs x)) (show ONEOPIO4F.isFinite = true by decide +kernel) hax (by
    show |ONEOPIO4F.val * (FP.abs x).val| ≤ _
    rw [abs_of_nonneg (mul_nonneg (by decide +kernel) h0)]
    exact hcx.trans (by decide +kernel))
  change Faithful _ ((ONEOPIO4F.val * (FP.abs x).val : ℚ) : ℝ) at hw
  generalize (of ONEOPIO4F * of (FP.abs x) : Z m b32).v = w at *
  obtain ⟨n, hq, hn, q1, q2, q3⟩ := quad_dir (f := b32) (c := ONEOPIO4F) (X := 8192) (M := 10431) hw (by decide +kernel)
    h0 h (by decide +kernel) (by decide +kernel) (by decide +kernel)
  have hm8 : (n : ℚ) ≤ 10431 := by
    have h2 : 2 * hulp b32 10431 ≤ 1 := by decide +kernel
    rw [abs_le] at q3; linarith [q3.2]
  have i := ofInt_spec32 (n := 2 * n) (by
    have : n ≤ 10431 := by exact_mod_cast hm8
    rw [abs_of_nonneg (by omega)]; omega)
  have r := reduce3D hm (f := b32) (c := ONEOPIO4F) (c1 := DP1F) (c2 := DP2F) (c3 := DP3F) (X := 8192) (M := 10431) (l := piQ / 4)
    (R := 0.7868) (κ := (1.55 / 2 ^ 47)) (N := 5216) (k1 := 201) (j1 := -8) (k2 := 2029) (j2 := -23)
    (k := 13) (n := n) (p := ofInt (2 * n)) hw hax h0 h (by decide +kernel) (by decide +kernel) i.1 (by rw [i.2]; push_cast; rfl) q1 q2 q3
    (by decide +kernel) (by decide +kernel) (by decide +kernel) (by decide +kernel)
    (by decide +kernel) (by decide +kernel) (by decide +kernel) (by decide +kernel) (by decide +kernel) (by decide +kernel)
    (by decide +kernel) (by decide +kernel) (by decide +kernel) (by decide +kernel)
    (by decide +kernel) (by decide +kernel) (by decide +kernel) (by decide +kernel) (by decide +kernel)
    (by decide +kernel) (by decide +kernel) (by decide +kernel) (by decide +kernel) (by decide +kernel) (by decide +kernel)
    (by decide +kernel) (by decide +kernel) (by decide +kernel) (by decide +kernel) (by decide +kernel)
  obtain ⟨r1, r2, r3, r4, r5, r6⟩ := r
  have hmN : (n : ℚ) ≤ 5216 := by exact_mod_cast r2
  rw [hav] at r3 r4 r5 r6
  refine ⟨n, hq, hmN, r1, ?_⟩
  generalize (((of (FP.abs x) - of (ofInt (2 * n)) * of DP1F) - of (ofInt (2 * n)) * of DP2F) - of (ofInt (2 * n)) * of DP3F : Z m b32).v = z at *
  have hmR : (n : ℝ) ≤ 5216 := by exact_mod_cast hmN
  have hm0 : (0 : ℝ) ≤ n := by positivity
  have hp := pi_near
  have hu : 2 * b32.u = p2 (-23) := by decide +kernel
  have r3' : |(|x.real| - 2 * n * (piQ / 4))| ≤ 0.7868 := by
    have : ((|(|x.val| - 2 * n * (piQ / 4))| : ℚ) : ℝ) ≤ ((0.7868 : ℚ) : ℝ) := by exact_mod_cast r3
    push_cast at this; unfold FP.real; exact this
  have r6' : |z.real - (|x.real| - 2 * n * (piQ / 4))| ≤ 2 ^ (-23 : ℤ) * |(|x.real| - 2 * n * (piQ / 4))| + n * (1.55 / 2 ^ 47) := by
    have : ((|z.val - (|x.val| - 2 * n * (piQ / 4))| : ℚ) : ℝ) ≤
        ((2 * b32.u * |(|x.val| - 2 * n * (piQ / 4))| + n * (1.55 / 2 ^ 47) : ℚ) : ℝ) := by exact_mod_cast r6
    rw [hu, p2_eq] at this
    push_cast at this; unfold FP.real; exact this
  have e : |x.real| - n * (Real.pi / 2) = (|x.real| - 2 * n * (piQ / 4)) - n / 2 * (Real.pi - piQ) := by ring
  obtain ⟨ζ, hζ⟩ : ∃ ζ, ζ = |x.real| - n * (Real.pi / 2) := ⟨_, rfl⟩
  obtain ⟨ζ', hζ'⟩ : ∃ ζ', ζ' = |x.real| - 2 * n * (piQ / 4 : ℝ) := ⟨_, rfl⟩
  rw [← hζ, ← hζ'] at e
  rw [← hζ'] at r3' r6'
  have hd : |n / 2 * (Real.pi - piQ)| ≤ n * (1 / 10 ^ 38) := by
    rw [abs_mul, abs_of_nonneg (by positivity : (0 : ℝ) ≤ n / 2)]
    have h1 : (n : ℝ) / 2 ≤ n := by linarith
    exact mul_le_mul h1 hp (_root_.abs_nonneg _) hm0
  have hdz : |ζ' - ζ| ≤ n * (1 / 10 ^ 38) := by
    rw [e]; refine le_trans (le_of_eq ?_) hd; congr 1; ring
  have hz1 : |ζ'| ≤ |ζ| + n * (1 / 10 ^ 38) := by
    have := abs_add_le ζ (ζ' - ζ); rw [add_sub_cancel] at this; linarith
  have hz2 : |ζ| ≤ |ζ'| + n * (1 / 10 ^ 38) := by
    have := abs_add_le ζ' (ζ - ζ'); rw [add_sub_cancel, abs_sub_comm ζ ζ'] at this; linarith
  have hfin : |z.real - ζ| ≤ 2 ^ (-23 : ℤ) * |ζ| + n * (1.6 / 2 ^ 47) := by
    have h1 := abs_sub_le z.real ζ' ζ
    have h2 : (2 : ℝ) ^ (-23 : ℤ) * |ζ'| ≤ 2 ^ (-23 : ℤ) * (|ζ| + n * (1 / 10 ^ 38)) := mul_le_mul_of_nonneg_left hz1 (by positivity)
    have h3 : (n : ℝ) * ((1.55 / 2 ^ 47) + (1 + 2 ^ (-23 : ℤ)) * (1 / 10 ^ 38)) ≤ n * (1.6 / 2 ^ 47) := mul_le_mul_of_nonneg_left (by norm_num) hm0
    nlinarith
  have hnb : (n : ℝ) * (1.6 / 2 ^ 47) ≤ 0.00002 := by
    refine (mul_le_mul_of_nonneg_right hmR (by positivity)).trans ?_
    norm_num
  have hzb : |ζ| ≤ 0.7869 := by
    have : (n : ℝ) * (1 / 10 ^ 38) ≤ 5216 * (1 / 10 ^ 38) := mul_le_mul_of_nonneg_right hmR (by positivity)
    have : (5216 : ℝ) * (1 / 10 ^ 38) ≤ 0.0001 := by norm_num
    linarith
  rw [← hζ]
  refine ⟨?_, r5, r4, hzb, hfin⟩
  have h1 := abs_add_le ζ (z.real - ζ)
  rw [add_sub_cancel] at h1
  have h4 : (2 : ℝ) ^ (-23 : ℤ) * |ζ| ≤ 2 ^ (-23 : ℤ) * 0.7869 := mul_le_mul_of_nonneg_left hzb (by positivity)
  have h5 : (2 : ℝ) ^ (-23 : ℤ) * 0.7869 ≤ 0.00005 := by norm_num
  linarith

theorem sinfE_okD : covers (okLinD b32 sinfE (2.6 * 2 ^ (-24 : ℤ)) 4.5) [-787 / 1000, -43 / 64, 11 / 64, 45 / 64, 787 / 1000] = true := by decide +kernel
theorem cosfE_okD : covers (okAbsD b32 cosfE (2.2 * 2 ^ (-24 : ℤ))) [-787 / 1000, -3 / 16, 11 / 32, 787 / 1000] = true := by decide +kernel

/-- Single precision on the reduced interval: the error of the sine is relative to the argument. -/
theorem sincosf_coreD (hm : m.Dir) {z : F32} (hz : z.isFinite = true) (h : |z.real| ≤ 0.787) :
    (sinf45 (of z) : Z m b32).v.isFinite = true ∧ (cosf45 (of z) : Z m b32).v.isFinite = true ∧
    |(sinf45 (of z) : Z m b32).v.real - Real.sin z.real| ≤ 3.1 * 2 ^ (-24 : ℤ) * |z.real| + 4.5 * b32.eta ∧
    |(cosf45 (of z) : Z m b32).v.real - Real.cos z.real| ≤ 2.25 * 2 ^ (-24 : ℤ) := by
  have a1 := sinf_approx h
  have a2 := cosf_approx h
  rw [abs_le] at h
  obtain ⟨s, t, hst, h1, h2⟩ := covers_spans sinfE_okD (a := -0.787) (b := 0.787) (by decide +kernel)
    (x := z.real) (by push_cast; linarith) (by push_cast; linarith)
  have r := okLinD_sound hm hst hz h1 h2
  rw [sinfE_real, ← sinfZ] at r
  obtain ⟨s', t', hst', h1', h2'⟩ := covers_spans cosfE_okD (a := -0.787) (b := 0.787) (by decide +kernel)
    (x := z.real) (by push_cast; linarith) (by push_cast; linarith)
  have r' := okAbsD_sound hm hst' hz h1' h2'
  rw [cosfE_real, ← cosfZ] at r'
  refine ⟨r.1, r'.1, ?_, ?_⟩
  · have e := (abs_sub_le _ _ (Real.sin z.real)).trans (add_le_add r.2 a1)
    refine e.trans (le_of_eq ?_)
    push_cast; ring
  · have e := (abs_sub_le _ _ (Real.cos z.real)).trans (add_le_add r'.2 a2)
    refine e.trans (le_of_eq ?_)
    push_cast; ring

theorem sincosf_split (hm : m.Dir) {x : F32} {n : ℕ} {q0 q1 : ℤ} (h0 : strict.f2i (of ONEOPIO4F * of (FP.abs x) : Z m b32).v = some q0)
    (h1 : strict.i32 (q0 + 1) = some q1) (h2 : clearLow q1 = 2 * n) :
    fast_sincosf m x = some (sincosTail
      ((sinf45 (((of (FP.abs x) - of (ofInt (2 * n)) * of DP1F) - of (ofInt (2 * n)) * of DP2F) - of (ofInt (2 * n)) * of DP3F : Z m b32)).v,
       (cosf45 (((of (FP.abs x) - of (ofInt (2 * n)) * of DP1F) - of (ofInt (2 * n)) * of DP2F) - of (ofInt (2 * n)) * of DP3F : Z m b32)).v)
      (2 * n) (FP.lt x (ofInt 0))) := by
  unfold fast_sincosf
  dsimp only
  simp only [Option.bind_eq_bind, Option.pure_def]
  rw [hm.arg, h0]
  simp only [Option.bind_some]
  rw [h1]
  simp only [Option.bind_some]
  rw [h2]
  have l : m.lt x (ofInt 0) = FP.lt x (ofInt 0) := by
    unfold Mode.lt
    rw [hm.arg, hm.arg]
  rw [l]
  rfl

/-- Single precision, everything together. -/
theorem sincosf_dir (hm : m.Dir) {x : F32} (hx : x.isFinite = true) (h : |x.val| ≤ 8192) :
    ∃ s c, fast_sincosf m x = some (s, c) ∧ s.isFinite = true ∧ c.isFinite = true ∧
      |s.real - Real.sin x.real| ≤ 4.1 * 2 ^ (-24 : ℤ) ∧ |c.real - Real.cos x.real| ≤ 4.1 * 2 ^ (-24 : ℤ) := by
  obtain ⟨n, ⟨q0, hq0, q1, hq1, hq2⟩, hmN, r1, r2, -, -, r4, r5⟩ := reduce32D hm hx h
  have hn : (n : ℚ) ≤ 1073741823 := by linarith
  have r3 := r5.trans (show _ ≤ 1.59 * (2 : ℝ) ^ (-24 : ℤ) by
    have hmR : (n : ℝ) ≤ 5216 := by exact_mod_cast hmN
    have h1 : (n : ℝ) * (1.6 / 2 ^ 47) ≤ 5216 * (1.6 / 2 ^ 47) := mul_le_mul_of_nonneg_right hmR (by positivity)
    have h2 : (2 : ℝ) ^ (-23 : ℤ) * |(|x.real| - n * (Real.pi / 2))| ≤ 2 ^ (-23 : ℤ) * 0.7869 := mul_le_mul_of_nonneg_left r4 (by positivity)
    have h3 : (2 : ℝ) ^ (-23 : ℤ) * 0.7869 + 5216 * (1.6 / 2 ^ 47) ≤ 1.59 * 2 ^ (-24 : ℤ) := by norm_num
    linarith)
  have e := sincosf_split hm hq0 hq1 hq2
  generalize (((of (FP.abs x) - of (ofInt (2 * n)) * of DP1F) - of (ofInt (2 * n)) * of DP2F) - of (ofInt (2 * n)) * of DP3F : Z m b32) = z at *
  obtain ⟨c1, c2, c3, c4⟩ := sincosf_coreD hm r1 r2
  rw [show (of z.v : Z m b32) = z from rfl] at c1 c2 c3 c4
  have heta : ((b32.eta : ℚ) : ℝ) ≤ 1 / 2 ^ 100 := by
    have : b32.eta ≤ 1 / 2 ^ 100 := by decide +kernel
    have : ((b32.eta : ℚ) : ℝ) ≤ ((1 / 2 ^ 100 : ℚ) : ℝ) := by exact_mod_cast this
    push_cast at this; exact this
  have c3' : |(sinf45 z).v.real - Real.sin z.v.real| ≤ 2.45 * 2 ^ (-24 : ℤ) := by
    refine c3.trans ?_
    have : (3.1 : ℝ) * 2 ^ (-24 : ℤ) * |z.v.real| ≤ 3.1 * 2 ^ (-24 : ℤ) * 0.787 := mul_le_mul_of_nonneg_left r2 (by positivity)
    refine (add_le_add this (mul_le_mul_of_nonneg_left heta (by norm_num))).trans ?_
    norm_num
  have t := tail_acc (sc := ((sinf45 z).v, (cosf45 z).v)) (neg := FP.lt x (ofInt 0)) hn c1 c2 c3' (c4.trans (by norm_num)) r3
    (lt_zero_real hx (by decide +kernel) (by decide +kernel))
  exact ⟨_, _, e, t.1, t.2.1, t.2.2.1.trans (by norm_num), t.2.2.2.trans (by norm_num)⟩

end Vdt.Flush
