import Verif.Lemmas.Directed
import Verif.Lemmas.ExpfAcc

/-! # The exponential in every rounding direction -/

namespace Vdt.Flush
open FP details
variable {f : Fmt} {m : Mode}

/-! ## Single operations -/

section ops
variable [f.Ok] (hm : m.Dir) {a b : Z m f}
include hm

theorem add_dir (ha : a.v.isFinite = true) (hb : b.v.isFinite = true) (h : |a.v.val + b.v.val| ≤ f.big) :
    Faithful (a + b).v ((a.v.val + b.v.val : ℚ) : ℝ) := by
  show Faithful (m.res .add (m.arg _) (m.arg _) (m.arg _ + m.arg _)) _
  rw [hm.arg, hm.arg, Rat.cast_add]
  exact hm.add _ _ ha hb h

theorem sub_dir (ha : a.v.isFinite = true) (hb : b.v.isFinite = true) (h : |a.v.val - b.v.val| ≤ f.big) :
    Faithful (a - b).v ((a.v.val - b.v.val : ℚ) : ℝ) := by
  show Faithful (m.res .sub (m.arg _) (m.arg _) (m.arg _ - m.arg _)) _
  rw [hm.arg, hm.arg, Rat.cast_sub]
  exact hm.sub _ _ ha hb h

theorem mul_dir (ha : a.v.isFinite = true) (hb : b.v.isFinite = true) (h : |a.v.val * b.v.val| ≤ f.big) :
    Faithful (a * b).v ((a.v.val * b.v.val : ℚ) : ℝ) := by
  show Faithful (m.res .mul (m.arg _) (m.arg _) (m.arg _ * m.arg _)) _
  rw [hm.arg, hm.arg, Rat.cast_mul]
  exact hm.mul _ _ ha hb h

theorem div_dir (ha : a.v.isFinite = true) (hb : b.v.isFinite = true) (h0 : b.v.val ≠ 0) (h : |a.v.val / b.v.val| ≤ f.big) :
    Faithful (a / b).v ((a.v.val / b.v.val : ℚ) : ℝ) := by
  show Faithful (m.res .div (m.arg _) (m.arg _) (m.arg _ / m.arg _)) _
  rw [hm.arg, hm.arg, Rat.cast_div]
  exact hm.div _ _ ha hb h0 h

/-- Everything about `n = floor(L*x + 1/2)` and the first conversion. -/
theorem reduce_intD {x L h : FP f} {X M l : ℚ} {N : ℕ} (hx : x.isFinite = true) (hxX : |x.val| ≤ X)
    (hL : L.isFinite = true) (hL0 : 0 < L.val) (hh : h.isFinite = true) (hhv : h.val = 1 / 2)
    (hM : L.val * X + 1 ≤ M) (hMb : M ≤ f.big) (hE : 4 * hulp f M ≤ 1 / 2) (hM2 : M < 2147483646)
    (hN : L.val * X + 1 / 2 + 4 * hulp f M < N + 1) (hl : 0 < l) :
    let a := (of L * of x + of h : Z m f).v
    let n := expN a a.sign
    a.isFinite = true ∧ f2iDefined a = true ∧ |n| ≤ N ∧ |x.val - n * l| ≤ l * (1 / 2 + 4 * hulp f M) + X * |1 - L.val * l| := by
  have hX0 : 0 ≤ X := (_root_.abs_nonneg _).trans hxX
  have hp : |L.val * x.val| ≤ L.val * X := by
    rw [abs_mul, abs_of_pos hL0]; exact mul_le_mul_of_nonneg_left hxX hL0.le
  have hM0 : 0 < M := by nlinarith
  have hu := hulp_pos f M
  have w := mul_dir hm (a := of L) (b := of x) hL hx (by show |L.val * x.val| ≤ _; linarith)
  have w' := w.err (M := M) (by show |L.val * x.val| ≤ _; linarith) hMb
  change |(of L * of x : Z m f).v.val - L.val * x.val| ≤ _ at w'
  have hp' := hp
  rw [abs_le] at w' hp'
  have hwM : |(of L * of x : Z m f).v.val + (of h : Z m f).v.val| ≤ M := by
    show |(of L * of x : Z m f).v.val + h.val| ≤ _
    rw [hhv, abs_le]; constructor <;> linarith
  have t := add_dir hm (a := of L * of x) (b := of h) w.1 hh (hwM.trans hMb)
  have t' := t.err hwM hMb
  change |(of L * of x + of h : Z m f).v.val - ((of L * of x : Z m f).v.val + h.val)| ≤ _ at t'
  rw [hhv, abs_le] at t'
  intro a n
  have ha : |a.val - (L.val * x.val + 1 / 2)| ≤ 4 * hulp f M := by
    rw [abs_le]; constructor <;> linarith [t'.1, t'.2]
  have hab : |a.val| < 2147483647 := by
    rw [abs_le] at ha; rw [abs_lt]; constructor <;> linarith
  have fs := floor_step hab
  have hn : n = wrap32 (truncRat a.val - (if a.sign then 1 else 0)) := rfl
  simp only at fs
  rw [← hn] at fs
  rw [abs_le] at ha
  have hd : |L.val * x.val - n| ≤ 1 / 2 + 4 * hulp f M := by
    rw [abs_le]; constructor <;> linarith [fs.1, fs.2]
  refine ⟨t.1, f2i_true t.1 (by rw [abs_lt] at hab; linarith) (by rw [abs_lt] at hab; linarith), ?_, ?_⟩
  · rw [abs_le]
    have h1 : (n : ℚ) < N + 1 := by linarith [fs.2]
    have h2 : -((N : ℚ) + 1) < n := by linarith [fs.1]
    have h3 : n < (N : ℤ) + 1 := by exact_mod_cast h1
    have h4 : -((N : ℤ) + 1) < n := by exact_mod_cast h2
    omega
  · have : x.val - n * l = l * (L.val * x.val - n) + x.val * (1 - L.val * l) := by ring
    rw [this]
    refine (abs_add_le _ _).trans (add_le_add ?_ ?_)
    · rw [abs_mul, abs_of_pos hl]; exact mul_le_mul_of_nonneg_left hd hl.le
    · rw [abs_mul]; exact mul_le_mul_of_nonneg_right hxX (_root_.abs_nonneg _)

/-- The two-step subtraction `(x - n*c1) - n*c2`. -/
theorem reduce_subD {x p c1 c2 : FP f} {n : ℤ} {N : ℕ} {R l M1 M2 M3 : ℚ} {k j : ℤ}
    (hx : x.isFinite = true) (hp : p.isFinite = true) (hpn : p.val = n)
    (hc1 : c1.isFinite = true) (hc2 : c2.isFinite = true) (hN : |n| ≤ N) (hR : |x.val - n * l| ≤ R)
    (hk : c1.val = k * p2 j) (hkN : (N : ℤ) * |k| ≤ 2 ^ (f.mb + 1)) (hj : f.emin - f.mb ≤ j)
    (h0 : N * |c1.val| ≤ f.big)
    (h1 : R + N * |l - c1.val| ≤ M1) (h1b : M1 ≤ f.big)
    (h2 : N * |c2.val| ≤ M2) (h2b : M2 ≤ f.big)
    (h3 : R + N * |l - c1.val - c2.val| + 2 * hulp f M1 + 2 * hulp f M2 ≤ M3) (h3b : M3 ≤ f.big) :
    let z := (of x - of p * of c1 - of p * of c2 : Z m f).v
    z.isFinite = true ∧ |z.val - (x.val - n * l)| ≤ 2 * hulp f M1 + 2 * hulp f M2 + 2 * hulp f M3 + N * |l - c1.val - c2.val| := by
  have hnN : |(n : ℚ)| ≤ N := by
    have : ((|n| : ℤ) : ℚ) ≤ ((N : ℤ) : ℚ) := by exact_mod_cast hN
    push_cast at this; exact this
  have bd : ∀ t : ℚ, |n * t| ≤ N * |t| := fun t => by
    rw [abs_mul]; exact mul_le_mul_of_nonneg_right hnN (_root_.abs_nonneg _)
  have e0f := mul_dir hm (a := of p) (b := of c1) hp hc1 (by show |p.val * c1.val| ≤ _; rw [hpn]; exact (bd _).trans h0)
  have e0 : (of p * of c1 : Z m f).v.val = n * c1.val := by
    have := e0f.exactQ (by
      show Rep f (p.val * c1.val)
      rw [hpn, hk]
      refine ⟨n * k, j, by push_cast; ring, ?_, hj⟩
      rw [abs_mul]
      exact (mul_le_mul_of_nonneg_right hN (_root_.abs_nonneg _)).trans hkN) (by show |p.val * c1.val| ≤ _; rw [hpn]; exact (bd _).trans h0)
    rw [this]; show p.val * c1.val = _; rw [hpn]
  have b1 := bd (l - c1.val)
  have b12 := bd (l - c1.val - c2.val)
  rw [abs_le] at hR b1 b12
  have hx1 : |x.val - n * c1.val| ≤ M1 := by
    rw [abs_le]; constructor <;> linarith [b1.1, b1.2, hR.1, hR.2]
  have s1 := sub_dir hm (a := of x) (b := of p * of c1) hx e0f.1 (by rw [e0]; exact hx1.trans h1b)
  have s1' := s1.err (M := M1) (by rw [e0]; exact hx1) h1b
  rw [e0] at s1'
  change |(of x - of p * of c1 : Z m f).v.val - (x.val - n * c1.val)| ≤ _ at s1'
  have q2 := mul_dir hm (a := of p) (b := of c2) hp hc2 (by show |p.val * c2.val| ≤ _; rw [hpn]; exact ((bd _).trans h2).trans h2b)
  have q2' := q2.err (M := M2) (by show |p.val * c2.val| ≤ _; rw [hpn]; exact (bd _).trans h2) h2b
  change |(of p * of c2 : Z m f).v.val - p.val * c2.val| ≤ _ at q2'
  rw [hpn, abs_le] at q2'
  rw [abs_le] at s1'
  have hM3 : |(of x - of p * of c1 : Z m f).v.val - (of p * of c2 : Z m f).v.val| ≤ M3 := by
    rw [abs_le]; constructor <;> linarith [b12.1, b12.2, hR.1, hR.2, s1'.1, s1'.2, q2'.1, q2'.2]
  have s3 := sub_dir hm s1.1 q2.1 (hM3.trans h3b)
  have s3' := s3.err hM3 h3b
  intro z
  refine ⟨s3.1, ?_⟩
  rw [abs_le] at s3' ⊢
  constructor <;> linarith [b12.1, b12.2, s1'.1, s1'.2, q2'.1, q2'.2, s3'.1, s3'.2]

/-- Multiplication by a power of two. -/
theorem mul_p2D {x p : FP f} {j n : ℤ} (hx : x.isFinite = true) (hp : p.isFinite = true) (hv : p.val = p2 n)
    (hj : p2 j ≤ |x.val|) (he : f.emin ≤ j + n) (hb : |x.val * p2 n| ≤ f.big) :
    (of x * of p : Z m f).v.isFinite = true ∧ (of x * of p : Z m f).v.val = x.val * p2 n := by
  have hb' : |(of x : Z m f).v.val * (of p : Z m f).v.val| ≤ f.big := by show |x.val * p.val| ≤ _; rw [hv]; exact hb
  have t := mul_dir hm (a := of x) (b := of p) hx hp hb'
  refine ⟨t.1, ?_⟩
  obtain ⟨k, i, h1, h2, h3⟩ := rep_of_ge hj
  rw [t.exactQ ⟨k, i + n, by show x.val * p.val = _; rw [h1, hv, p2_add]; ring, h2, by omega⟩ hb']
  show x.val * p.val = _
  rw [hv]
end ops

/-! ## Double precision -/

theorem expE_okD : covers (okRelD b64 expE (5.6 * 2 ^ (-53 : ℤ))) [-0.3475, -15 / 64, 7 / 64, 0.3475] = true := by decide +kernel

/-- What the cores deliver. -/
theorem core_eps {y : FP f} {z r δ e : ℝ} (he : r = Real.exp (z + δ)) (h : |y.real - r| ≤ e * r) :
    ∃ ε : ℝ, |ε| ≤ e ∧ y.real = Real.exp (z + δ) * (1 + ε) := by
  rw [he] at h
  have hp := Real.exp_pos (z + δ)
  refine ⟨y.real / Real.exp (z + δ) - 1, ?_, ?_⟩
  · have : y.real / Real.exp (z + δ) - 1 = (y.real - Real.exp (z + δ)) / Real.exp (z + δ) := by
      field_simp
    rw [this, abs_div, abs_of_pos hp, div_le_iff₀ hp]
    exact h
  · field_simp; ring

theorem expCore_dir (hm : m.Dir) {z : F64} (hz : z.isFinite = true) (h : |z.real| ≤ 0.3475) :
    (expCore (of z : Z m b64)).v.isFinite = true ∧ ∃ ε δ : ℝ, |ε| ≤ 5.6 * 2 ^ (-53 : ℤ) ∧ |δ| ≤ 2 ^ (-59 : ℤ) ∧
      (expCore (of z : Z m b64)).v.real = Real.exp (z.real + δ) * (1 + ε) := by
  have h' : |z.real| ≤ 0.35 := h.trans (by norm_num)
  rw [abs_le] at h
  obtain ⟨s, t, hst, h1, h2⟩ := covers_spans expE_okD (a := -0.3475) (b := 0.3475) (by decide +kernel)
    (x := z.real) (by push_cast; linarith) (by push_cast; linarith)
  have r := okRelD_sound hm (by positivity) hst hz h1 h2
  rw [expE_real h'] at r
  obtain ⟨δ, hδ, he⟩ := exp_approx h'
  change (expCore (of z : Z m b64)).v.isFinite = true ∧ |(expCore (of z : Z m b64)).v.real - _| ≤ _ at r
  obtain ⟨ε, k1, k2⟩ := core_eps he r.2
  exact ⟨r.1, ε, δ, k1.trans (le_of_eq (by push_cast; rfl)), hδ, k2⟩

theorem exp_reduceD (hm : m.Dir) {x : F64} (hx : x.isFinite = true) (h : |x.val| ≤ 708) :
    let a := (of LOG2E * of x + of (lit 0.5) : Z m b64).v
    let n := expN a a.sign
    let z := (expReduce (of x) (of (ofInt n)) : Z m b64).v
    a.isFinite = true ∧ f2iDefined a = true ∧ |n| ≤ 1021 ∧ z.isFinite = true ∧ |z.real| ≤ 0.3475 ∧
      |z.real - (x.real - n * Real.log 2)| ≤ 1.02 * 2 ^ (-53 : ℤ) := by
  intro a n z
  have r := reduce_intD hm (f := b64) (L := LOG2E) (h := lit 0.5) (X := 708) (M := 1023) (l := ln2Q) (N := 1021) hx h
    (by decide +kernel) (by decide +kernel) (by decide +kernel) (by decide +kernel) (by decide +kernel) (by decide +kernel)
    (by decide +kernel) (by decide +kernel) (by decide +kernel) (by decide +kernel)
  obtain ⟨r0, r1, r2, r3⟩ := r
  change |n| ≤ 1021 at r2
  change |x.val - n * ln2Q| ≤ _ at r3
  have i := ofInt_spec64 (n := n) (by refine r2.trans ?_; norm_num)
  have r3' : |x.val - n * ln2Q| ≤ 0.3466 := r3.trans (by decide +kernel)
  have s := reduce_subD hm (f := b64) (c1 := lit 6.93145751953125E-1) (c2 := lit 1.42860682030941723212E-6) (N := 1021)
    (M1 := 0.36) (M2 := 0.0015) (M3 := 0.36) (k := 22713) (j := -15) hx i.1 i.2 (by decide +kernel) (by decide +kernel)
    (by exact_mod_cast r2) r3'
    (by decide +kernel) (by decide +kernel) (by decide +kernel) (by decide +kernel) (by decide +kernel) (by decide +kernel)
    (by decide +kernel) (by decide +kernel) (by decide +kernel) (by decide +kernel)
  obtain ⟨s1, s2⟩ := s
  change z.isFinite = true at s1
  change |z.val - _| ≤ _ at s2
  have s3 : |z.val - (x.val - n * ln2Q)| ≤ 1.01 * p2 (-53) := s2.trans (by decide +kernel)
  have s4 : |z.val| ≤ 0.3475 := by
    have : (1.01 : ℚ) * p2 (-53) ≤ 0.0001 := by decide +kernel
    rw [abs_le] at *; constructor <;> linarith [s3.1, s3.2, r3'.1, r3'.2]
  refine ⟨r0, r1, r2, s1, ?_, ?_⟩
  · have : ((|z.val| : ℚ) : ℝ) ≤ ((0.3475 : ℚ) : ℝ) := by exact_mod_cast s4
    push_cast at this; exact this
  · have hl := ln2_near
    have hn : |(n : ℝ)| ≤ 1021 := by exact_mod_cast r2
    have s5 : |z.real - (x.real - n * ln2Q)| ≤ ((1.01 * p2 (-53) : ℚ) : ℝ) := by
      unfold FP.real; exact_mod_cast s3
    have : z.real - (x.real - n * Real.log 2) = (z.real - (x.real - n * ln2Q)) + n * (Real.log 2 - ln2Q) := by ring
    rw [this]
    refine (abs_add_le _ _).trans ?_
    rw [abs_mul]
    have := mul_le_mul hn hl (_root_.abs_nonneg _) (by norm_num)
    rw [p2_eq] at s5
    push_cast at s5
    refine (add_le_add s5 this).trans ?_
    norm_num

theorem fpfloor_dir (hm : m.Dir) {a : F64} (hf : a.isFinite = true) (h : f2iDefined a = true) : fpfloor m a = some (ofInt (expN a a.sign)) := by
  unfold fpfloor
  rw [hm.arg]
  simp only [strict, h, if_true, Option.pure_def, Option.bind_eq_bind, Option.bind_some]
  rw [sp_signbit, hm.cvt _ _ (convert_sign (finite_not_nan hf))]
  rfl

/-- Putting the parts of the exponential together. -/
theorem exp_parts {z δ ε x T e u : ℝ} {n : ℤ} (h5 : |z - (x - n * Real.log 2)| + |δ| ≤ T) (hT : T ≤ 1) (c2 : |ε| ≤ e) (hu : e + T + T ^ 2 + e * (T + T ^ 2) ≤ u) :
    |Real.exp (z + δ) * (1 + ε) * 2 ^ n - Real.exp x| ≤ u * Real.exp x := by
  rw [real_exp_split x n]
  obtain ⟨t, ht⟩ : ∃ t, t = z + δ - (x - n * Real.log 2) := ⟨_, rfl⟩
  have e1 : Real.exp (z + δ) = Real.exp (x - n * Real.log 2) * Real.exp t := by
    rw [← Real.exp_add, ht]; exact congrArg _ (by ring)
  have tb : |t| ≤ T := by
    have : t = (z - (x - n * Real.log 2)) + δ := by rw [ht]; ring
    rw [this]
    exact (abs_add_le _ _).trans h5
  have ee := exp_eps tb hT c2
  have hE := Real.exp_pos (x - n * Real.log 2)
  have h2n : (0 : ℝ) < 2 ^ n := by positivity
  have : Real.exp (z + δ) * (1 + ε) * 2 ^ n - Real.exp (x - n * Real.log 2) * 2 ^ n =
      (Real.exp t * (1 + ε) - 1) * (Real.exp (x - n * Real.log 2) * 2 ^ n) := by rw [e1]; ring
  rw [this, abs_mul, abs_of_pos (mul_pos hE h2n)]
  exact mul_le_mul_of_nonneg_right (ee.trans hu) (mul_pos hE h2n).le

theorem core_range {c : FP f} {z ε δ : ℝ} (r4 : |z| ≤ 0.3475) (c2 : |ε| ≤ 0.001) (c3 : |δ| ≤ 0.001) (c4 : c.real = Real.exp (z + δ) * (1 + ε)) :
    (1 : ℚ) / 2 ≤ c.val ∧ c.val ≤ 2 := by
  have hlo : (1 : ℝ) / 2 ≤ c.real := by
    have h1 : Real.exp (z + δ) ≥ 0.65 := by
      have := Real.add_one_le_exp (z + δ)
      rw [abs_le] at r4 c3; linarith
    rw [abs_le] at c2
    rw [c4]; nlinarith
  have hhi : c.real ≤ 2 := by
    have h1 : Real.exp (z + δ) ≤ 1.9 := by
      have ht : |z + δ| ≤ 0.35 := by rw [abs_le] at *; constructor <;> linarith
      have := Real.abs_exp_sub_one_sub_id_le (x := z + δ) (ht.trans (by norm_num))
      rw [abs_le] at this ht
      nlinarith
    have h3 := Real.exp_pos (z + δ)
    rw [abs_le] at c2
    rw [c4]; nlinarith
  constructor
  · have : (((1 : ℚ) / 2 : ℚ) : ℝ) ≤ ((c.val : ℚ) : ℝ) := by push_cast; exact hlo
    exact_mod_cast this
  · unfold FP.real at hhi; exact_mod_cast hhi

theorem exp_dir (hm : m.Dir) {x : F64} (hx : x.isFinite = true) (h : |x.val| ≤ 708) :
    ∃ y, fast_exp m x = some y ∧ y.isFinite = true ∧ 0 < y.val ∧ |y.real - Real.exp x.real| ≤ 7 * 2 ^ (-53 : ℤ) * Real.exp x.real := by
  obtain ⟨r0, r1, r2, r3, r4, r5⟩ := exp_reduceD hm hx h
  unfold fast_exp
  simp only [Option.bind_eq_bind, Option.pure_def]
  generalize (of LOG2E * of x + of (lit 0.5) : Z m b64) = a at *
  rw [fpfloor_dir hm r0 r1]
  generalize expN a.v a.v.sign = n at *
  rw [abs_le] at r2
  have hn : strict.f2i (m.arg (ofInt n : F64)) = some n := by
    have hs := ofInt_spec64 (n := n) (by rw [abs_le]; constructor <;> omega)
    rw [hm.arg, strict_f2i hs.1 (by rw [hs.2, truncRat_int]; simp [inI32]; omega), hs.2, truncRat_int]
  simp only [Option.bind_some, hn]
  generalize (expReduce (of x) (of (ofInt n)) : Z m b64) = z at *
  obtain ⟨c1, ε, δ, c2, c3, c4⟩ := expCore_dir hm (z := z.v) r3 r4
  change (expCore z).v.isFinite = true at c1
  change (expCore z).v.real = _ at c4
  generalize expCore z = c at *
  obtain ⟨hloq, hhiq⟩ := core_range r4 (c2.trans (by norm_num)) (c3.trans (by norm_num)) c4
  have pw := pow2n_spec (n := n) (by omega) (by omega)
  have hp0 := p2_pos n
  have hbig : |c.v.val * p2 n| ≤ b64.big := by
    rw [abs_of_pos (mul_pos (by linarith) hp0)]
    have h1 : p2 n ≤ p2 1021 := p2_le (by omega)
    have h2 : 2 * p2 1021 ≤ b64.big := by decide +kernel
    nlinarith
  have mx := mul_p2D hm (j := -1) c1 pw.1 pw.2 (by
      rw [abs_of_pos (by linarith)]
      have : p2 (-1) = 1 / 2 := by decide +kernel
      rw [this]; exact hloq) (by have : b64.emin = -1022 := by decide
                                 rw [this]; omega) hbig
  have lim : FP.gt x EXP_LIMIT = false ∧ FP.lt x (-EXP_LIMIT) = false := by
    have lf : EXP_LIMIT.isFinite = true ∧ EXP_LIMIT.val = 708 := by decide +kernel
    rw [abs_le] at h
    rw [gt_fin hx lf.1, neg_def, lt_fin hx (by simpa using lf.1), val_neg, lf.2]
    simp; exact ⟨h.2, h.1⟩
  refine ⟨(c * of (pow2n n)).v, ?_, mx.1, ?_, ?_⟩
  · simp only [Mode.gt, Mode.lt, hm.arg, lim.1, lim.2, Bool.false_eq_true, if_false]
  · change 0 < (of c.v * of (pow2n n) : Z m b64).v.val
    rw [mx.2]; exact mul_pos (by linarith) hp0
  · have hv : (c * of (pow2n n)).v.real = c.v.real * 2 ^ n := by
      have e0 : (c * of (pow2n n)).v.val = c.v.val * p2 n := mx.2
      unfold FP.real; rw [e0]; push_cast; rw [p2_real]
    rw [hv, c4]
    exact exp_parts (T := 1.04 * 2 ^ (-53 : ℤ)) (by refine (add_le_add r5 c3).trans ?_; norm_num) (by norm_num) c2 (by norm_num)

/-! ## Single precision -/

theorem expfE_okD : covers (okRelD b32 expfE (4.5 * 2 ^ (-24 : ℤ))) (grid (-0.3475) 0.3475 8) = true := by decide +kernel

theorem expfCore_dir (hm : m.Dir) {z : F32} (hz : z.isFinite = true) (h : |z.real| ≤ 0.3475) :
    (expfCore (of z : Z m b32)).v.isFinite = true ∧ ∃ ε δ : ℝ, |ε| ≤ 4.5 * 2 ^ (-24 : ℤ) ∧ |δ| ≤ 0.18 * 2 ^ (-24 : ℤ) ∧
      (expfCore (of z : Z m b32)).v.real = Real.exp (z.real + δ) * (1 + ε) := by
  obtain ⟨δ, hδ, he⟩ := expf_approx h
  rw [abs_le] at h
  obtain ⟨s, t, hst, h1, h2⟩ := covers_spans expfE_okD (a := -0.3475) (b := 0.3475) (by decide +kernel)
    (x := z.real) (by push_cast; linarith) (by push_cast; linarith)
  have r := okRelD_sound hm (by positivity) hst hz h1 h2
  rw [expfE_real] at r
  change (expfCore (of z : Z m b32)).v.isFinite = true ∧ |(expfCore (of z : Z m b32)).v.real - _| ≤ _ at r
  obtain ⟨ε, k1, k2⟩ := core_eps he r.2
  exact ⟨r.1, ε, δ, k1.trans (le_of_eq (by push_cast; rfl)), hδ, k2⟩

theorem expf_reduceD (hm : m.Dir) {x : F32} (hx : x.isFinite = true) (h : |x.val| ≤ 86.5) :
    let a := (of LOG2EF * of x + of (lit 0.5) : Z m b32).v
    let n := expN a a.sign
    let z := (expfReduce (of x) (of (ofInt n)) : Z m b32).v
    a.isFinite = true ∧ f2iDefined a = true ∧ |n| ≤ 125 ∧ z.isFinite = true ∧ |z.real| ≤ 0.3475 ∧
      |z.real - (x.real - n * Real.log 2)| ≤ 1.1 * 2 ^ (-24 : ℤ) := by
  intro a n z
  have r := reduce_intD hm (f := b32) (L := LOG2EF) (h := lit 0.5) (X := 86.5) (M := 127) (l := ln2Q) (N := 125) hx h
    (by decide +kernel) (by decide +kernel) (by decide +kernel) (by decide +kernel) (by decide +kernel) (by decide +kernel)
    (by decide +kernel) (by decide +kernel) (by decide +kernel) (by decide +kernel)
  obtain ⟨r0, r1, r2, r3⟩ := r
  change |n| ≤ 125 at r2
  change |x.val - n * ln2Q| ≤ _ at r3
  have i := ofInt_spec32 (n := n) (by refine r2.trans ?_; norm_num)
  have r3' : |x.val - n * ln2Q| ≤ 0.3467 := r3.trans (by decide +kernel)
  have s := reduce_subD hm (f := b32) (c1 := C1F) (c2 := C2F) (N := 125)
    (M1 := 0.4) (M2 := 0.03) (M3 := 0.4) (k := 355) (j := -9) hx i.1 i.2 (by decide +kernel) (by decide +kernel)
    (by exact_mod_cast r2) r3'
    (by decide +kernel) (by decide +kernel) (by decide +kernel) (by decide +kernel) (by decide +kernel) (by decide +kernel)
    (by decide +kernel) (by decide +kernel) (by decide +kernel) (by decide +kernel)
  obtain ⟨s1, s2⟩ := s
  change z.isFinite = true at s1
  change |z.val - _| ≤ _ at s2
  have s3 : |z.val - (x.val - n * ln2Q)| ≤ 1.098 * p2 (-24) := s2.trans (by decide +kernel)
  have s4 : |z.val| ≤ 0.3475 := by
    have : (1.098 : ℚ) * p2 (-24) ≤ 0.0001 := by decide +kernel
    rw [abs_le] at *; constructor <;> linarith [s3.1, s3.2, r3'.1, r3'.2]
  refine ⟨r0, r1, r2, s1, ?_, ?_⟩
  · have : ((|z.val| : ℚ) : ℝ) ≤ ((0.3475 : ℚ) : ℝ) := by exact_mod_cast s4
    push_cast at this; exact this
  · have hl := ln2_near
    have hn : |(n : ℝ)| ≤ 125 := by exact_mod_cast r2
    have s5 : |z.real - (x.real - n * ln2Q)| ≤ ((1.098 * p2 (-24) : ℚ) : ℝ) := by
      unfold FP.real; exact_mod_cast s3
    have : z.real - (x.real - n * Real.log 2) = (z.real - (x.real - n * ln2Q)) + n * (Real.log 2 - ln2Q) := by ring
    rw [this]
    refine (abs_add_le _ _).trans ?_
    rw [abs_mul]
    have := mul_le_mul hn hl (_root_.abs_nonneg _) (by norm_num)
    rw [p2_eq] at s5
    push_cast at s5
    refine (add_le_add s5 this).trans ?_
    norm_num

theorem fpfloorf_dir (hm : m.Dir) {a : F32} (h : f2iDefined a = true) : fpfloorf m a = some (ofInt (expN a a.sign)) := by
  unfold fpfloorf
  rw [hm.arg]
  simp only [strict, h, if_true, Option.pure_def, Option.bind_eq_bind, Option.bind_some]
  rw [sp_signbit]
  rfl

theorem expf_dir (hm : m.Dir) {x : F32} (hx : x.isFinite = true) (h : |x.val| ≤ 86.5) :
    ∃ y, fast_expf m x = some y ∧ y.isFinite = true ∧ 0 < y.val ∧ |y.real - Real.exp x.real| ≤ 6 * 2 ^ (-24 : ℤ) * Real.exp x.real := by
  obtain ⟨r0, r1, r2, r3, r4, r5⟩ := expf_reduceD hm hx h
  unfold fast_expf
  simp only [Option.bind_eq_bind, Option.pure_def]
  generalize (of LOG2EF * of x + of (lit 0.5) : Z m b32) = a at *
  rw [fpfloorf_dir hm r1]
  generalize expN a.v a.v.sign = n at *
  rw [abs_le] at r2
  have hn : strict.f2i (m.arg (ofInt n : F32)) = some n := by
    have hs := ofInt_spec32 (n := n) (by rw [abs_le]; constructor <;> omega)
    rw [hm.arg, strict_f2i hs.1 (by rw [hs.2, truncRat_int]; simp [inI32]; omega), hs.2, truncRat_int]
  have hi : strict.i32 (n + 0x7f) = some (n + 0x7f) := by
    simp [strict, inI32]; omega
  have hsh : strict.shl (n + 0x7f) 23 = some (wrap32 ((n + 0x7f) * 2 ^ 23)) := by
    simp only [strict]; rw [if_pos (by omega)]
  simp only [Option.bind_some, hn, hi, hsh]
  generalize (expfReduce (of x) (of (ofInt n)) : Z m b32) = z at *
  obtain ⟨c1, ε, δ, c2, c3, c4⟩ := expfCore_dir hm (z := z.v) r3 r4
  change (expfCore z).v.isFinite = true at c1
  change (expfCore z).v.real = _ at c4
  generalize expfCore z = c at *
  obtain ⟨hloq, hhiq⟩ := core_range r4 (c2.trans (by norm_num)) (c3.trans (by norm_num)) c4
  have pw := pow2nf_spec (n := n) (by omega) (by omega)
  have hp0 := p2_pos n
  have hbig : |c.v.val * p2 n| ≤ b32.big := by
    rw [abs_of_pos (mul_pos (by linarith) hp0)]
    have h1 : p2 n ≤ p2 125 := p2_le (by omega)
    have h2 : 2 * p2 125 ≤ b32.big := by decide +kernel
    nlinarith
  have mx := mul_p2D hm (j := -1) c1 pw.1 pw.2 (by
      rw [abs_of_pos (by linarith)]
      have : p2 (-1) = 1 / 2 := by decide +kernel
      rw [this]; exact hloq) (by have : b32.emin = -126 := by decide
                                 rw [this]; omega) hbig
  have lim : FP.gt x MAXLOGF = false ∧ FP.lt x MINLOGF = false := by
    have lf : MAXLOGF.isFinite = true ∧ 86.5 < MAXLOGF.val ∧ MINLOGF.isFinite = true ∧ MINLOGF.val < -86.5 := by decide +kernel
    rw [abs_le] at h
    rw [gt_fin hx lf.1, lt_fin hx lf.2.2.1]
    simp
    constructor <;> linarith [lf.2.1, lf.2.2.2, h.1, h.2]
  refine ⟨(c * of (pow2nf n)).v, ?_, mx.1, ?_, ?_⟩
  · simp only [Mode.gt, Mode.lt, hm.arg, lim.1, lim.2, Bool.false_eq_true, if_false]
    rfl
  · change 0 < (of c.v * of (pow2nf n) : Z m b32).v.val
    rw [mx.2]; exact mul_pos (by linarith) hp0
  · have hv : (c * of (pow2nf n)).v.real = c.v.real * 2 ^ n := by
      have e0 : (c * of (pow2nf n)).v.val = c.v.val * p2 n := mx.2
      unfold FP.real; rw [e0]; push_cast; rw [p2_real]
    rw [hv, c4]
    exact exp_parts (T := 1.3 * 2 ^ (-24 : ℤ)) (by refine (add_le_add r5 c3).trans ?_; norm_num) (by norm_num) c2 (by norm_num)

end Vdt.Flush
