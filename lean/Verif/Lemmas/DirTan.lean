import Verif.Lemmas.DirNewton
import Verif.Lemmas.DirTrig
import Verif.Lemmas.FlushTan

/-! # The tangent in every rounding direction -/

namespace Vdt.Flush
open FP details
variable {f : Fmt} {m : Mode}

/-! ## The rational function -/

/-- The square of a number in the reduced interval and its comparison with `1e-14`. -/
theorem square_testD [f.Ok] (hm : m.Dir) {z c : FP f} {U : ℚ} (hz : z.isFinite = true) (h : |z.val| ≤ 0.787) (hc : c.isFinite = true)
    (hU : 0 < U) (hb : (1 : ℚ) ≤ f.big) (h1 : c.val + U ≤ 1.001e-14) (h2 : 0.99e-14 ≤ c.val - U)
    (hu : 2 * f.u * 1.01e-14 + 2 * f.eta ≤ U) (hu1 : 2 * f.u ≤ 0.001) :
    (m.gt (of z * of z : Z m f).v c = true → 0.98e-7 ≤ |z.val|) ∧ (m.gt (of z * of z : Z m f).v c = false → z.val * z.val ≤ 1.001e-14) := by
  have hsq : |z.val * z.val| ≤ 1 := by
    rw [abs_mul]; nlinarith [abs_nonneg z.val]
  have s := mul_dir hm (a := of z) (b := of z) hz hz (hsq.trans hb)
  have e := s.err_add (hsq.trans hb)
  change |(of z * of z : Z m f).v.val - z.val * z.val| ≤ 2 * f.u * |z.val * z.val| + 2 * f.eta at e
  have g : m.gt (of z * of z : Z m f).v c = FP.gt (of z * of z : Z m f).v c := by unfold Mode.gt; rw [hm.arg, hm.arg]
  rw [g, gt_fin s.1 hc, decide_eq_true_eq, decide_eq_false_iff_not, not_lt]
  generalize (of z * of z : Z m f).v.val = w at *
  have hn : 0 ≤ z.val * z.val := mul_self_nonneg _
  rw [abs_of_nonneg hn] at e
  have u0 := f.u_pos
  have e0 := f.eta_pos
  constructor
  · intro hg
    by_contra hcon
    push Not at hcon
    have h3 : z.val * z.val ≤ 0.98e-7 * 0.98e-7 := by
      rw [← abs_mul_abs_self]; nlinarith [abs_nonneg z.val]
    have h4 : 2 * f.u * (z.val * z.val) ≤ 2 * f.u * 1.01e-14 := mul_le_mul_of_nonneg_left (h3.trans (by norm_num)) (by linarith)
    rw [abs_le] at e
    norm_num at h3 h2
    linarith [e.2]
  · intro hg
    rcases le_or_gt (z.val * z.val) 1.01e-14 with h3 | h3
    · have h4 : 2 * f.u * (z.val * z.val) ≤ 2 * f.u * 1.01e-14 := mul_le_mul_of_nonneg_left h3 (by linarith)
      rw [abs_le] at e
      linarith [e.1]
    · exfalso
      have h4 := mul_le_mul_of_nonneg_right hu1 hn
      have h5 : 2 * f.eta ≤ U := by
        have : 0 ≤ 2 * f.u * 1.01e-14 := by positivity
        linarith
      rw [abs_le] at e
      norm_num at h1 h3 h4
      linarith [e.1]

theorem tanE_okD : covers (okLinD b64 tanE (6.4 * 2 ^ (-53 : ℤ)) 5) [-787 / 1000, 1 / 16, 787 / 1000] = true := by decide +kernel
theorem tanfE_okD : covers (okLinD b32 tanfE (4.75 * 2 ^ (-24 : ℤ)) 4.1) [-787 / 1000, 787 / 1000] = true := by decide +kernel

/-- Double precision on the reduced interval. -/
theorem tan_coreD (hm : m.Dir) {z : F64} (hz : z.isFinite = true) (h : |z.real| ≤ 0.787) :
    (tanCore (of z) : Z m b64).v.isFinite = true ∧ |(tanCore (of z) : Z m b64).v.real - Real.tan z.real| ≤ 2 ^ (-48 : ℤ) * |z.real| ∧
    (1.1e-7 ≤ |z.real| → |(tanCore (of z) : Z m b64).v.real - Real.tan z.real| ≤ 7.1 * 2 ^ (-53 : ℤ) * |z.real|) := by
  have hq : |z.val| ≤ 0.787 := by
    have : ((|z.val| : ℚ) : ℝ) ≤ ((0.787 : ℚ) : ℝ) := by rw [← real_abs]; push_cast; exact h
    exact_mod_cast this
  have t := square_testD hm (c := lit 1.0e-14) (U := 1e-18) hz hq (by decide +kernel) (by norm_num) (by decide +kernel)
    (by decide +kernel) (by decide +kernel) (by decide +kernel) (by decide +kernel)
  rw [tanCore_Z]
  have heta : ((b64.eta : ℚ) : ℝ) ≤ 1 / 2 ^ 100 := by
    have : b64.eta ≤ 1 / 2 ^ 100 := by decide +kernel
    have : ((b64.eta : ℚ) : ℝ) ≤ ((1 / 2 ^ 100 : ℚ) : ℝ) := by exact_mod_cast this
    push_cast at this; exact this
  cases hg : m.gt (of z * of z : Z m b64).v (lit 1.0e-14 : F64)
  · rw [if_neg (by simp)]
    have t2 := t.2 hg
    have t3 : z.real * z.real ≤ ((1.001e-14 : ℚ) : ℝ) := by unfold FP.real; exact_mod_cast t2
    refine ⟨hz, tan_tiny t3, fun hh => ?_⟩
    exfalso
    rw [← abs_mul_abs_self] at t3
    push_cast at t3
    nlinarith
  · rw [if_pos rfl]
    have t1 : 0.98e-7 ≤ |z.real| := by
      have : ((0.98e-7 : ℚ) : ℝ) ≤ ((|z.val| : ℚ) : ℝ) := by exact_mod_cast t.1 hg
      rw [real_abs]; push_cast at this ⊢; exact this
    have a := tan_approx h
    have hh := h
    rw [abs_le] at hh
    obtain ⟨s, t, hst, h1, h2⟩ := covers_spans tanE_okD (a := -0.787) (b := 0.787) (by decide +kernel)
      (x := z.real) (by push_cast; linarith) (by push_cast; linarith)
    have r := okLinD_sound hm hst hz h1 h2
    rw [tanE_real h] at r
    have b : |(evalZ m (fun _ => z) tanE).v.real - Real.tan z.real| ≤ 7.1 * 2 ^ (-53 : ℤ) * |z.real| := by
      have e := (abs_sub_le _ _ (Real.tan z.real)).trans (add_le_add r.2 a)
      refine e.trans ?_
      push_cast
      have : (5 : ℝ) * ((b64.eta : ℚ) : ℝ) ≤ 0.1 * 2 ^ (-53 : ℤ) * |z.real| := by
        have h3 : (5 : ℝ) * ((b64.eta : ℚ) : ℝ) ≤ 5 * (1 / 2 ^ 100) := mul_le_mul_of_nonneg_left heta (by norm_num)
        have h4 : (0.1 : ℝ) * 2 ^ (-53 : ℤ) * 0.98e-7 ≤ 0.1 * 2 ^ (-53 : ℤ) * |z.real| := mul_le_mul_of_nonneg_left t1 (by positivity)
        have h5 : (5 : ℝ) * (1 / 2 ^ 100) ≤ 0.1 * 2 ^ (-53 : ℤ) * 0.98e-7 := by norm_num
        linarith
      refine (add_le_add_left (add_le_add_right this _) _).trans (le_of_eq ?_)
      ring
    refine ⟨r.1, b.trans ?_, fun _ => b⟩
    exact mul_le_mul_of_nonneg_right (by norm_num) (abs_nonneg _)

/-- Single precision on the reduced interval. -/
theorem tanf_coreD (hm : m.Dir) {z : F32} (hz : z.isFinite = true) (h : |z.real| ≤ 0.787) :
    (tanfCore (of z) : Z m b32).v.isFinite = true ∧ |(tanfCore (of z) : Z m b32).v.real - Real.tan z.real| ≤ 5.6 * 2 ^ (-24 : ℤ) * |z.real| := by
  have hq : |z.val| ≤ 0.787 := by
    have : ((|z.val| : ℚ) : ℝ) ≤ ((0.787 : ℚ) : ℝ) := by rw [← real_abs]; push_cast; exact h
    exact_mod_cast this
  have t := square_testD hm (c := lit 1.0e-14) (U := 1e-18) hz hq (by decide +kernel) (by norm_num) (by decide +kernel)
    (by decide +kernel) (by decide +kernel) (by decide +kernel) (by decide +kernel)
  rw [tanfCore_Z]
  have heta : ((b32.eta : ℚ) : ℝ) ≤ 1 / 2 ^ 100 := by
    have : b32.eta ≤ 1 / 2 ^ 100 := by decide +kernel
    have : ((b32.eta : ℚ) : ℝ) ≤ ((1 / 2 ^ 100 : ℚ) : ℝ) := by exact_mod_cast this
    push_cast at this; exact this
  cases hg : m.gt (of z * of z : Z m b32).v (lit 1.0e-14 : F32)
  · rw [if_neg (by simp)]
    have t2 := t.2 hg
    have t3 : z.real * z.real ≤ ((1.001e-14 : ℚ) : ℝ) := by unfold FP.real; exact_mod_cast t2
    refine ⟨hz, (tan_tiny t3).trans ?_⟩
    exact mul_le_mul_of_nonneg_right (by norm_num) (abs_nonneg _)
  · rw [if_pos rfl]
    have t1 : 0.98e-7 ≤ |z.real| := by
      have : ((0.98e-7 : ℚ) : ℝ) ≤ ((|z.val| : ℚ) : ℝ) := by exact_mod_cast t.1 hg
      rw [real_abs]; push_cast at this ⊢; exact this
    have a := tanf_approx h
    have hh := h
    rw [abs_le] at hh
    obtain ⟨s, t, hst, h1, h2⟩ := covers_spans tanfE_okD (a := -0.787) (b := 0.787) (by decide +kernel)
      (x := z.real) (by push_cast; linarith) (by push_cast; linarith)
    have r := okLinD_sound hm hst hz h1 h2
    rw [tanfE_real] at r
    refine ⟨r.1, ?_⟩
    have e := (abs_sub_le _ _ (Real.tan z.real)).trans (add_le_add r.2 a)
    refine e.trans ?_
    push_cast
    have : (4.1 : ℝ) * ((b32.eta : ℚ) : ℝ) ≤ 0.1 * 2 ^ (-24 : ℤ) * |z.real| := by
      have h3 : (4.1 : ℝ) * ((b32.eta : ℚ) : ℝ) ≤ 4.1 * (1 / 2 ^ 100) := mul_le_mul_of_nonneg_left heta (by norm_num)
      have h4 : (0.1 : ℝ) * 2 ^ (-24 : ℤ) * 0.98e-7 ≤ 0.1 * 2 ^ (-24 : ℤ) * |z.real| := mul_le_mul_of_nonneg_left t1 (by positivity)
      have h5 : (4.1 : ℝ) * (1 / 2 ^ 100) ≤ 0.1 * 2 ^ (-24 : ℤ) * 0.98e-7 := by norm_num
      linarith
    have h6 : (0 : ℝ) ≤ 2 ^ (-24 : ℤ) * |z.real| := by positivity
    generalize (2 : ℝ) ^ (-24 : ℤ) = k at *
    linarith

/-! ## The selection of the quadrant -/

/-- A sum, product or quotient whose exact value is the value of a number. -/
theorem exact_val [f.Ok] {w v : FP f} {q : ℚ} (h : Faithful w (q : ℝ)) (e : q = v.val) (hb : |v.val| ≤ f.big) : w.isFinite = true ∧ w.val = v.val := by
  rw [e] at h
  exact ⟨h.1, h.exactQ (val_rep v) hb⟩

/-- The last lines for `x ≠ 0`: only the division rounds. -/
theorem finish_dir [f.Ok] (hm : m.Dir) (C : TanC f) {x r : FP f} (hx : x.isFinite = true) (hx0 : x.val ≠ 0) {n : ℕ} (hn : (n : ℚ) ≤ 1073741823)
    (hr : r.isFinite = true) (hlo : 1 / 2 ^ 101 ≤ |r.val|) (hhi : |r.val| ≤ 2) (hbig : (2 : ℚ) ^ 102 ≤ f.big) (heta : f.eta ≤ f.u / 2) (hu1 : f.u ≤ 1 / 4)
    {xor : FP f → FP f} (hxor : ∀ y : FP f, xor y = ⟨y.sign ^^ x.sign, y.mag, y.bound⟩) :
    ∃ v : ℚ, (tanFinish xor x (of r : Z m f) (2 * n)).v.isFinite = true ∧
      (tanFinish xor x (of r : Z m f) (2 * n)).v.val = (if x.val < 0 then -1 else 1) * v ∧
      (if n % 2 = 1 then |v - -1 / r.val| ≤ 2 * f.u * (1 / |r.val|) else v = r.val) := by
  rw [fin_Z xor x r hn]
  have e : m.eq x (lit 0) = false := by
    unfold Mode.eq
    rw [hm.arg, hm.arg, eq_fin hx C.l0_f, C.l0_v, decide_eq_false_iff_not]; exact hx0
  rw [e]
  show ∃ v : ℚ, (of (xor ((of (ofInt (if decide (n % 2 = 1) then 1 else 0)) * (of (-lit 1) / (of r + of (ofInt 0))) +
      of (ofInt (if decide (n % 2 = 1) then 0 else 1)) * (of r + of (ofInt 0)) : Z m f)).v) * (of (lit 1) - of (ofInt 0)) : Z m f).v.isFinite = true ∧
    (of (xor ((of (ofInt (if decide (n % 2 = 1) then 1 else 0)) * (of (-lit 1) / (of r + of (ofInt 0))) +
      of (ofInt (if decide (n % 2 = 1) then 0 else 1)) * (of r + of (ofInt 0)) : Z m f)).v) * (of (lit 1) - of (ofInt 0)) : Z m f).v.val = _ ∧ _
  have b2 : (2 : ℚ) ≤ f.big := le_trans (by norm_num) hbig
  have b0 : |(0 : ℚ)| ≤ f.big := by rw [abs_zero]; linarith
  have rb : |r.val| ≤ f.big := hhi.trans b2
  have rp : 0 < |r.val| := lt_of_lt_of_le (by norm_num) hlo
  have r0 : r.val ≠ 0 := abs_pos.1 rp
  -- `res + 0`
  have a := exact_val (v := r) (add_dir hm (a := of r) (b := of (ofInt 0)) hr C.i0_f (by
    show |r.val + (ofInt 0 : FP f).val| ≤ _
    rw [C.i0_v, add_zero]; exact rb)) (by show r.val + (ofInt 0 : FP f).val = _; rw [C.i0_v, add_zero]) rb
  generalize (of r + of (ofInt 0) : Z m f) = s at *
  -- `-1 / res`
  have iv : 1 / |r.val| ≤ 2 ^ 101 := by
    rw [div_le_iff₀ rp]
    have := mul_le_mul_of_nonneg_left hlo (by positivity : (0 : ℚ) ≤ 2 ^ 101)
    refine le_trans (le_of_eq ?_) this; norm_num
  have ia : |-1 / r.val| = 1 / |r.val| := by rw [abs_div, abs_neg, abs_one]
  have ed : (of (-lit 1) : Z m f).v.val / s.v.val = -1 / r.val := by
    show (neg (lit 1) : FP f).val / s.v.val = _
    rw [val_neg, C.one_v, a.2]
  have db : |-1 / r.val| ≤ f.big := by rw [ia]; exact iv.trans (le_trans (by norm_num) hbig)
  have d := div_dir hm (a := of (-lit 1)) (b := s) (show (neg (lit 1) : FP f).isFinite = true by simpa using C.one_f) a.1 (by rw [a.2]; exact r0) (by rw [ed]; exact db)
  rw [ed] at d
  have de : |(of (-lit 1) / s : Z m f).v.val - -1 / r.val| ≤ 2 * f.u * (1 / |r.val|) := by
    have e1 := d.err_size (M := 1 / |(r.val : ℝ)|) (by rw [← Rat.cast_abs, ia]; push_cast; exact le_rfl) (by
      have h2 : 1 / 2 ≤ 1 / |r.val| := by rw [div_le_div_iff₀ (by norm_num) rp]; linarith
      have h3 : f.eta ≤ f.u * (1 / |r.val|) := by
        have := mul_le_mul_of_nonneg_left h2 f.u_pos.le
        linarith
      have := (Rat.cast_le (K := ℝ)).2 h3
      push_cast at this
      exact this) db
    have e2 : ((|(of (-lit 1) / s : Z m f).v.val - -1 / r.val| : ℚ) : ℝ) ≤ ((2 * f.u * (1 / |r.val|) : ℚ) : ℝ) := by
      push_cast
      unfold FP.real at e1
      push_cast at e1
      exact e1
    exact (Rat.cast_le (K := ℝ)).1 e2
  have dab : |(of (-lit 1) / s : Z m f).v.val| ≤ f.big := by
    have h3 := abs_add_le (-1 / r.val) ((of (-lit 1) / s : Z m f).v.val - -1 / r.val)
    rw [add_sub_cancel, ia] at h3
    have h4 : 2 * f.u * (1 / |r.val|) ≤ 1 * (1 / |r.val|) := mul_le_mul_of_nonneg_right (by linarith) (by positivity)
    have h5 : (2 : ℚ) ^ 102 = 2 ^ 101 + 2 ^ 101 := by norm_num
    linarith
  have df := d.1
  clear d
  generalize (of (-lit 1) / s : Z m f) = t at *
  -- the last product
  have one := exact_val (v := (lit 1 : FP f)) (sub_dir hm (a := of (lit 1)) (b := of (ofInt 0)) C.one_f C.i0_f (by
    show |(lit 1 : FP f).val - (ofInt 0 : FP f).val| ≤ _
    rw [C.i0_v, sub_zero, C.one_v, abs_one]; exact C.big)) (by
    show (lit 1 : FP f).val - (ofInt 0 : FP f).val = _
    rw [C.i0_v, sub_zero]) (by rw [C.one_v, abs_one]; exact C.big)
  rw [C.one_v] at one
  generalize (of (lit 1) - of (ofInt 0) : Z m f) = o at *
  have key : ∀ v : FP f, v.isFinite = true → |v.val| ≤ f.big → (of (xor v) * o : Z m f).v.isFinite = true ∧
      (of (xor v) * o : Z m f).v.val = (if x.val < 0 then -1 else 1) * v.val := by
    intro v hv hvb
    have hx1 : (xor v).isFinite = true := by rw [hxor]; simpa [isFinite] using hv
    have hx2 : (xor v).val = (if x.val < 0 then -1 else 1) * v.val := by
      rw [hxor]
      have hs : x.sign = decide (x.val < 0) := by
        cases hs : x.sign
        · have : 0 ≤ x.val := by unfold val; rw [hs]; exact magVal_nonneg _ _
          simp [this]
        · have : x.val ≤ 0 := by unfold val; rw [hs]; simpa using magVal_nonneg _ _
          have := lt_of_le_of_ne this hx0
          simp [this]
      rw [hs]
      by_cases hn : x.val < 0
      · simp only [hn, decide_true, Bool.xor_true, if_true]
        have := val_neg v
        unfold FP.neg at this
        rw [this]; ring
      · simp only [hn, decide_false, Bool.xor_false, if_false, one_mul]
    have hx3 : |(xor v).val| ≤ f.big := by rw [hx2]; split_ifs <;> simpa using hvb
    have m1 := exact_val (v := xor v) (mul_dir hm (a := of (xor v)) (b := o) hx1 one.1 (by rw [one.2, mul_one]; exact hx3))
      (by rw [one.2, mul_one]; rfl) hx3
    rw [hx2] at m1
    exact m1
  -- the two products and their sum
  have sel : ∀ {p q : FP f} {a b : Z m f}, p.isFinite = true → p.val = 0 → q.isFinite = true → q.val = 1 → a.v.isFinite = true → b.v.isFinite = true →
      |b.v.val| ≤ f.big → ((of p * a + of q * b : Z m f).v.isFinite = true ∧ (of p * a + of q * b : Z m f).v.val = b.v.val) ∧
        ((of q * b + of p * a : Z m f).v.isFinite = true ∧ (of q * b + of p * a : Z m f).v.val = b.v.val) := by
    intro p q a b pf p0 qf q1 af bf bb
    have m1 := exact_val (v := (ofInt 0 : FP f)) (mul_dir hm (a := of p) (b := a) pf af (by show |p.val * _| ≤ _; rw [p0, zero_mul]; exact b0))
      (by show p.val * _ = _; rw [p0, zero_mul, C.i0_v]) (by rw [C.i0_v]; exact b0)
    have m2 := exact_val (v := b.v) (mul_dir hm (a := of q) (b := b) qf bf (by show |q.val * _| ≤ _; rw [q1, one_mul]; exact bb))
      (by show q.val * _ = _; rw [q1, one_mul]) bb
    rw [C.i0_v] at m1
    exact ⟨exact_val (v := b.v) (add_dir hm m1.1 m2.1 (by rw [m1.2, m2.2, zero_add]; exact bb)) (by rw [m1.2, m2.2, zero_add]) bb,
      exact_val (v := b.v) (add_dir hm m2.1 m1.1 (by rw [m1.2, m2.2, add_zero]; exact bb)) (by rw [m1.2, m2.2, add_zero]) bb⟩
  rcases Nat.mod_two_eq_zero_or_one n with h | h
  · rw [h]
    have q := (sel (p := ofInt 0) (q := ofInt 1) (a := t) (b := s) C.i0_f C.i0_v C.i1_f C.i1_v df a.1 (by rw [a.2]; exact rb)).1
    have k := key _ q.1 (by rw [q.2, a.2]; exact rb)
    rw [q.2, a.2] at k
    exact ⟨r.val, k.1, k.2, by rw [if_neg (by norm_num)]⟩
  · rw [h]
    have q := (sel (p := ofInt 0) (q := ofInt 1) (a := s) (b := t) C.i0_f C.i0_v C.i1_f C.i1_v a.1 df dab).2
    have k := key _ q.1 (by rw [q.2]; exact dab)
    rw [q.2] at k
    exact ⟨t.v.val, k.1, k.2, by rw [if_pos rfl]; exact de⟩

/-- The pieces put together, for both precisions. -/
theorem assemble_dir [f.Ok] (hm : m.Dir) (C : TanC f) {x res : FP f} {z A κ w U : ℝ} {n : ℕ} {xor : FP f → FP f} (hU : U = 2 * f.u)
    (hx : x.isFinite = true) (hx0 : x.val ≠ 0) (hn : (n : ℚ) ≤ 1073741823) (hr : res.isFinite = true)
    (hz : |z| ≤ 0.787) (hζ : |(|x.real| - n * (Real.pi / 2))| ≤ 0.7869)
    (hzζ : |z - (|x.real| - n * (Real.pi / 2))| ≤ U * |(|x.real| - n * (Real.pi / 2))| + n * κ)
    (hw : w * |(|x.real| - n * (Real.pi / 2))| = n * κ) (hw0 : 0 ≤ w)
    (core : |res.real - Real.tan z| ≤ A * |z|) (hA : 0 ≤ A) (small : A + 2.03 * (U + w) ≤ 0.005) (hA1 : A ≤ 0.005)
    (hsm : 2 ^ (-100 : ℤ) ≤ |(|x.real| - n * (Real.pi / 2))|)
    (hbig : (2 : ℚ) ^ 102 ≤ f.big) (heta : f.eta ≤ f.u / 2) (hu1 : f.u ≤ 1 / 4)
    (hxor : ∀ y : FP f, xor y = ⟨y.sign ^^ x.sign, y.mag, y.bound⟩) :
    (tanFinish xor x (of res : Z m f) (2 * n)).v.isFinite = true ∧
    |(tanFinish xor x (of res : Z m f) (2 * n)).v.real - Real.tan x.real| ≤
      1.006 * (U + (A * 1.005 + 2.02 * (U + w))) * |Real.tan x.real| ∧
    w * |Real.tan x.real| ≤ 1.42 * (n * κ) * (1 + Real.tan x.real ^ 2) ∧
    (2 ^ (-20 : ℤ) ≤ |Real.tan x.real| → |Real.tan x.real| ≤ 2 ^ 20 → 1.1e-7 ≤ |z|) := by
  obtain ⟨ζ, hζe⟩ : ∃ ζ, ζ = |x.real| - n * (Real.pi / 2) := ⟨_, rfl⟩
  rw [← hζe] at hζ hzζ hw hsm
  have hζ0 : 0 < |ζ| := lt_of_lt_of_le (by positivity) hsm
  have hu0 : (0 : ℝ) < U := by
    have : (0 : ℝ) < f.u := by exact_mod_cast f.u_pos
    rw [hU]; linarith
  have hζ' : |ζ| ≤ 0.787 := hζ.trans (by norm_num)
  have τ1 := tan_ge hζ'
  have τ2 := tan_le hζ'
  have τ0 : Real.tan ζ ≠ 0 := abs_pos.1 (hζ0.trans_le τ1)
  have hδ : |z - ζ| ≤ (U + w) * |ζ| := by rw [add_mul, hw]; exact hzζ
  have hzz : |z| ≤ 1.005 * |ζ| := by
    have := abs_add_le ζ (z - ζ); rw [add_sub_cancel] at this
    nlinarith
  have hzl : 0.99 * |ζ| ≤ |z| := by
    have := abs_sub_abs_le_abs_sub ζ z; rw [abs_sub_comm ζ z] at this
    nlinarith
  have hε : |res.real - Real.tan ζ| ≤ (A * 1.005 + 2.02 * (U + w)) * |Real.tan ζ| := by
    have h1 := (abs_sub_le res.real (Real.tan z) (Real.tan ζ)).trans (add_le_add core (tan_lip hz hζ'))
    have h2 : A * |z| ≤ A * (1.005 * |ζ|) := mul_le_mul_of_nonneg_left hzz hA
    have h3 : |res.real - Real.tan ζ| ≤ (A * 1.005 + 2.02 * (U + w)) * |ζ| := by nlinarith
    refine h3.trans (mul_le_mul_of_nonneg_left τ1 ?_)
    have : 0 ≤ U + w := by linarith
    nlinarith
  have hε1 : A * 1.005 + 2.02 * (U + w) ≤ 0.005 + 0.005 * 0.005 := by nlinarith
  have hres : 0.9 * |Real.tan ζ| ≤ |res.real| := by
    have := abs_sub_abs_le_abs_sub (Real.tan ζ) res.real
    rw [abs_sub_comm] at this
    nlinarith [abs_nonneg (Real.tan ζ)]
  have hresu : |res.real| ≤ 2 := by
    have := abs_add_le (Real.tan ζ) (res.real - Real.tan ζ); rw [add_sub_cancel] at this
    nlinarith [abs_nonneg (Real.tan ζ)]
  have hresuQ : |res.val| ≤ 2 := by
    have : ((|res.val| : ℚ) : ℝ) ≤ ((2 : ℚ) : ℝ) := by rw [← real_abs]; push_cast; exact hresu
    exact_mod_cast this
  have h2 : (2 : ℝ) ^ (-101 : ℤ) ≤ |res.real| := by
    have : (2 : ℝ) ^ (-101 : ℤ) = 0.5 * 2 ^ (-100 : ℤ) := by norm_num
    rw [this]
    have hk : (0 : ℝ) < 2 ^ (-100 : ℤ) := by positivity
    generalize (2 : ℝ) ^ (-100 : ℤ) = k at *
    norm_num at hres ⊢
    linarith
  have h3 : (1 : ℚ) / 2 ^ 101 ≤ |res.val| := by
    have : (((1 : ℚ) / 2 ^ 101 : ℚ) : ℝ) ≤ ((|res.val| : ℚ) : ℝ) := by
      rw [← real_abs]; push_cast; refine le_trans (le_of_eq ?_) h2; norm_num
    exact_mod_cast this
  obtain ⟨v, v1, v2, v3⟩ := finish_dir hm C hx hx0 hn hr h3 hresuQ hbig heta hu1 hxor
  refine ⟨v1, ?_⟩
  have c := tan_combine (u := U) (y := (v : ℝ)) (odd := n % 2 = 1) τ0 hε
    (le_of_eq_of_le rfl (by norm_num at hε1 ⊢; linarith)) hu0.le (by
      split_ifs at v3 ⊢ with h
      · have h2 := (Rat.cast_le (K := ℝ)).2 v3
        rw [real_abs, hU]
        unfold FP.real
        push_cast at h2 ⊢
        rw [div_eq_mul_one_div (2 * f.u : ℝ)]
        exact h2
      · rw [v3]; rfl)
  have hq := quadrant_tan (t := ζ) n
  rw [show ζ + n * (Real.pi / 2) = |x.real| by rw [hζe]; ring] at hq
  rw [← hq] at c
  have hy : (tanFinish xor x (of res : Z m f) (2 * n)).v.real = (if x.val < 0 then -1 else 1) * (v : ℝ) := by
    unfold FP.real
    rw [v2]
    split_ifs <;> push_cast <;> ring
  have htx : Real.tan x.real = (if x.val < 0 then -1 else 1) * Real.tan |x.real| := by
    split_ifs with h
    · have : x.real < 0 := by unfold FP.real; exact_mod_cast h
      rw [abs_of_neg this, Real.tan_neg]; ring
    · have : 0 ≤ x.real := by unfold FP.real; exact_mod_cast not_lt.1 h
      rw [abs_of_nonneg this, one_mul]
  have hta : |Real.tan x.real| = |Real.tan (|x.real|)| := by
    rw [htx, abs_mul]; split_ifs <;> simp
  refine ⟨?_, ?_, ?_⟩
  · rw [hta, hy, htx, ← mul_sub, abs_mul]
    refine le_trans (le_of_eq ?_) c
    split_ifs <;> simp
  · rw [← sq_abs, hta, hq]
    have hmκ : (n : ℝ) * κ = w * |ζ| := hw.symm
    rw [hmκ]
    have hp := abs_pos.2 τ0
    split_ifs with h
    · rw [abs_div, abs_neg, abs_one]
      have h1 : 1 / |Real.tan ζ| ≤ 1.42 * |ζ| * (1 + (1 / |Real.tan ζ|) ^ 2) := by
        have h2 : |Real.tan ζ| * (1 / |Real.tan ζ|) ^ 2 = 1 / |Real.tan ζ| := by field_simp
        have h3 : |Real.tan ζ| * (1 / |Real.tan ζ|) ^ 2 ≤ 1.42 * |ζ| * (1 / |Real.tan ζ|) ^ 2 := mul_le_mul_of_nonneg_right τ2 (by positivity)
        have h4 : 0 ≤ 1.42 * |ζ| := by positivity
        linarith
      have := mul_le_mul_of_nonneg_left h1 hw0
      linarith
    · have h1 : |Real.tan ζ| ≤ 1.42 * |ζ| * (1 + |Real.tan ζ| ^ 2) := by
        have : 0 ≤ 1.42 * |ζ| * |Real.tan ζ| ^ 2 := by positivity
        linarith
      have := mul_le_mul_of_nonneg_left h1 hw0
      linarith
  · intro h1 h2
    rw [hta, hq] at h1 h2
    have hp := abs_pos.2 τ0
    have h3 : (2 : ℝ) ^ (-20 : ℤ) ≤ |Real.tan ζ| := by
      split_ifs at h1 h2 with h
      · rw [abs_div, abs_neg, abs_one, div_le_iff₀ hp] at h2
        have : (2 : ℝ) ^ (-20 : ℤ) * 1 ≤ 2 ^ (-20 : ℤ) * (2 ^ 20 * |Real.tan ζ|) := mul_le_mul_of_nonneg_left h2 (by positivity)
        norm_num at this ⊢; linarith
      · exact h1
    have h4 : (1.2e-7 : ℝ) * 1.42 ≤ 2 ^ (-20 : ℤ) := by norm_num
    norm_num at h4 h3 τ2 hzl ⊢
    linarith


/-! ## Everything together -/

theorem tan_split (hm : m.Dir) {x : F64} {n : ℕ} {q0 q1 : ℤ} (h0 : strict.f2i (of ONEOPIO4 * of (FP.abs x) : Z m b64).v = some q0)
    (h1 : strict.i32 (q0 + 1) = some q1) (h2 : clearLow q1 = 2 * n) :
    fast_tan m x = some (tanFinish (fun r => dpXORuint64 r (getSignMask x)) x
      (tanCore (((of (FP.abs x) - of (ofInt (2 * n)) * of DP1) - of (ofInt (2 * n)) * of DP2) - of (ofInt (2 * n)) * of DP3 : Z m b64)) (2 * n)).v := by
  unfold fast_tan
  dsimp only
  simp only [Option.bind_eq_bind, Option.pure_def]
  rw [hm.arg, h0]
  simp only [Option.bind_some]
  rw [h1]
  simp only [Option.bind_some]
  rw [h2]
  rfl

/-- The complete tangent (double precision). `w` is the part of the relative error due to the argument reduction. -/
theorem tan_accD (hm : m.Dir) {x : F64} (hx : x.isFinite = true) (h0 : 1 / 2 ^ 100 ≤ |x.val|) (h : |x.val| ≤ 2 ^ 27) :
    ∃ (y : F64) (w : ℝ), fast_tan m x = some y ∧ y.isFinite = true ∧ 0 ≤ w ∧ w ≤ (2 / (1.4 * 2 ^ 23)) ∧
      (∃ n : ℕ, (n : ℝ) * 1.57 ≤ |x.real| + 0.7869 ∧ w * |Real.tan x.real| ≤ 1.42 * (n * (2 / 2 ^ 106)) * (1 + Real.tan x.real ^ 2)) ∧
      |y.real - Real.tan x.real| ≤ (39 * 2 ^ (-53 : ℤ) + 2.04 * w) * |Real.tan x.real| ∧
      (2 ^ (-20 : ℤ) ≤ |Real.tan x.real| → |Real.tan x.real| ≤ 2 ^ 20 →
        |y.real - Real.tan x.real| ≤ (13.3 * 2 ^ (-53 : ℤ) + 2.04 * w) * |Real.tan x.real|) := by
  obtain ⟨n, ⟨q0, hq0, q1, hq1, hq2⟩, hmN, r1, r2, r3, r4, r5, r6⟩ := reduce64D hm hx h
  have hn : (n : ℚ) ≤ 1073741823 := by linarith
  have e := tan_split hm hq0 hq1 hq2
  generalize (((of (FP.abs x) - of (ofInt (2 * n)) * of DP1) - of (ofInt (2 * n)) * of DP2) - of (ofInt (2 * n)) * of DP3 : Z m b64) = z at *
  have hx0 : x.val ≠ 0 := by
    intro hc; rw [hc, abs_zero] at h0
    norm_num at h0
  have hU : (2 ^ (-52 : ℤ) : ℝ) = 2 * b64.u := by
    rw [show b64.u = p2 (-53) by decide +kernel, p2_eq]; push_cast; norm_num
  obtain ⟨ζ, hζ⟩ : ∃ ζ, ζ = |x.real| - n * (Real.pi / 2) := ⟨_, rfl⟩
  have hdist : 1 ≤ n → (1.4 * 2 ^ 23) * (n * (1 / 2 ^ 106)) ≤ |ζ| := by
    intro h1
    rcases le_or_gt |ζ| 0.7863 with hs | hs
    · have := dist64 (by norm_num) distCover64_27 (X := 2 ^ 27) (by decide +kernel) (r4 h1) h h1 (by rw [← hζ]; exact hs)
      rw [hζ]; push_cast at this; exact this
    · have hmR : (n : ℝ) ≤ 85445661 := by exact_mod_cast hmN
      have : (1.4 * 2 ^ 23) * (n * (1 / 2 ^ 106)) ≤ (1.4 * 2 ^ 23) * (85445661 * (1 / 2 ^ 106) : ℝ) :=
        mul_le_mul_of_nonneg_left (mul_le_mul_of_nonneg_right hmR (by norm_num)) (by norm_num)
      refine (this.trans ?_).trans hs.le
      norm_num
  have hsm : 2 ^ (-100 : ℤ) ≤ |ζ| := by
    rcases Nat.eq_zero_or_pos n with h1 | h1
    · rw [hζ, h1]
      have : (((1 : ℚ) / 2 ^ 100 : ℚ) : ℝ) ≤ ((|x.val| : ℚ) : ℝ) := by exact_mod_cast h0
      rw [← real_abs] at this
      push_cast at this
      simp only [Nat.cast_zero, zero_mul, sub_zero, abs_abs]
      refine le_trans (le_of_eq ?_) this
      norm_num
    · have h2 : (1 : ℝ) ≤ n := by exact_mod_cast h1
      have h3 : ((1.4 * 2 ^ 23) : ℝ) * (1 * (1 / 2 ^ 106)) ≤ (1.4 * 2 ^ 23) * (n * (1 / 2 ^ 106)) :=
        mul_le_mul_of_nonneg_left (mul_le_mul_of_nonneg_right h2 (by positivity)) (by positivity)
      refine le_trans ?_ (h3.trans (hdist h1))
      norm_num
  have hζ0 : 0 < |ζ| := lt_of_lt_of_le (by positivity) hsm
  have hw0 : (0 : ℝ) ≤ n * (2 / 2 ^ 106) / |ζ| := by positivity
  have hw : (n : ℝ) * (2 / 2 ^ 106) / |ζ| * |ζ| = n * (2 / 2 ^ 106) := div_mul_cancel₀ _ hζ0.ne'
  have hwb : (n : ℝ) * (2 / 2 ^ 106) / |ζ| ≤ (2 / (1.4 * 2 ^ 23)) := by
    rcases Nat.eq_zero_or_pos n with h1 | h1
    · rw [h1]; norm_num
    · rw [div_le_iff₀ hζ0]
      have h4 := mul_le_mul_of_nonneg_left (hdist h1) (by positivity : (0 : ℝ) ≤ (2 / (1.4 * 2 ^ 23)))
      refine le_trans (le_of_eq ?_) h4
      ring
  have core := tan_coreD hm r1 r2
  rw [show (of z.v : Z m b64) = z from rfl] at core
  have hpi : (1.57 : ℝ) ≤ Real.pi / 2 := by
    have h1 := pi_near
    have h2 : ((piQ : ℚ) : ℝ) ≥ 3.1415 := by norm_num [piQ]
    rw [abs_le] at h1
    have h3 : (1 : ℝ) / 10 ^ 38 ≤ 0.0001 := by norm_num
    norm_num at h2 h3 ⊢
    linarith [h1.1]
  have hmx : (n : ℝ) * 1.57 ≤ |x.real| + 0.7869 := by
    rw [abs_le] at r5
    have : (n : ℝ) * 1.57 ≤ n * (Real.pi / 2) := mul_le_mul_of_nonneg_left hpi (by positivity)
    norm_num at r5 ⊢
    linarith [r5.1]
  rw [← hζ] at r5 r6
  have main : ∀ A : ℝ, 0 ≤ A → A ≤ 0.001 → |(tanCore z).v.real - Real.tan z.v.real| ≤ A * |z.v.real| → _ := fun A hA0 hA1 hA =>
    assemble_dir hm tanC64 (A := A) (κ := (2 / 2 ^ 106)) (w := (n : ℝ) * (2 / 2 ^ 106) / |ζ|) (z := z.v.real) hU hx hx0 hn core.1 r2 (by rw [← hζ]; exact r5)
      (by rw [← hζ]; exact r6) (by rw [← hζ]; exact hw) hw0 hA hA0 (by
        have h2 : ((2 / (1.4 * 2 ^ 23)) : ℝ) ≤ 0.0015 := by norm_num
        have h3 : (2 ^ (-52 : ℤ) : ℝ) ≤ 1e-6 := by norm_num
        norm_num at h2 h3 hA1 hwb ⊢
        linarith) (hA1.trans (by norm_num)) (by rw [← hζ]; exact hsm)
      (by decide +kernel) (by decide +kernel) (by decide +kernel) (dpXOR_signMask · x)
  obtain ⟨t1, t2, t3, t4⟩ := main (2 ^ (-48 : ℤ)) (by positivity) (by norm_num) core.2.1
  refine ⟨_, _, e, t1, hw0, hwb, ⟨n, hmx, t3⟩, ?_, ?_⟩
  · refine t2.trans (mul_le_mul_of_nonneg_right ?_ (abs_nonneg _))
    norm_num at hw0 ⊢
    linarith
  · intro g1 g2
    obtain ⟨-, t5, -, -⟩ := main (7.1 * 2 ^ (-53 : ℤ)) (by positivity) (by norm_num) (core.2.2 (t4 g1 g2))
    refine t5.trans (mul_le_mul_of_nonneg_right ?_ (abs_nonneg _))
    norm_num at hw0 ⊢
    linarith

theorem tanf_split (hm : m.Dir) {x : F32} {n : ℕ} {q0 q1 : ℤ} (h0 : strict.f2i (of ONEOPIO4F * of (FP.abs x) : Z m b32).v = some q0)
    (h1 : strict.i32 (q0 + 1) = some q1) (h2 : clearLow q1 = 2 * n) :
    fast_tanf m x = some (tanFinish (fun r => spXORuint32 r (getSignMaskf x)) x
      (tanfCore (((of (FP.abs x) - of (ofInt (2 * n)) * of DP1F) - of (ofInt (2 * n)) * of DP2F) - of (ofInt (2 * n)) * of DP3F : Z m b32)) (2 * n)).v := by
  unfold fast_tanf
  dsimp only
  simp only [Option.bind_eq_bind, Option.pure_def]
  rw [hm.arg, h0]
  simp only [Option.bind_some]
  rw [h1]
  simp only [Option.bind_some]
  rw [h2]
  rfl

/-- The complete tangent (single precision). `w` is the part of the relative error due to the argument reduction. -/
theorem tanf_accD (hm : m.Dir) {x : F32} (hx : x.isFinite = true) (h0 : 1 / 2 ^ 100 ≤ |x.val|) (h : |x.val| ≤ 8192) :
    ∃ (y : F32) (w : ℝ), fast_tanf m x = some y ∧ y.isFinite = true ∧ 0 ≤ w ∧ w ≤ (1.6 / 0.9 / (1.4 * 2 ^ 10)) ∧
      (∃ n : ℕ, (n : ℝ) * 1.57 ≤ |x.real| + 0.7869 ∧ w * |Real.tan x.real| ≤ 1.42 * (n * (1.6 / 2 ^ 47)) * (1 + Real.tan x.real ^ 2)) ∧
      |y.real - Real.tan x.real| ≤ (11.8 * 2 ^ (-24 : ℤ) + 2.04 * w) * |Real.tan x.real| := by
  obtain ⟨n, ⟨q0, hq0, q1, hq1, hq2⟩, hmN, r1, r2, r3, r4, r5, r6⟩ := reduce32D hm hx h
  have hn : (n : ℚ) ≤ 1073741823 := by linarith
  have e := tanf_split hm hq0 hq1 hq2
  generalize (((of (FP.abs x) - of (ofInt (2 * n)) * of DP1F) - of (ofInt (2 * n)) * of DP2F) - of (ofInt (2 * n)) * of DP3F : Z m b32) = z at *
  have hx0 : x.val ≠ 0 := by
    intro hc; rw [hc, abs_zero] at h0
    norm_num at h0
  have hU : (2 ^ (-23 : ℤ) : ℝ) = 2 * b32.u := by
    rw [show b32.u = p2 (-24) by decide +kernel, p2_eq]; push_cast; norm_num
  obtain ⟨ζ, hζ⟩ : ∃ ζ, ζ = |x.real| - n * (Real.pi / 2) := ⟨_, rfl⟩
  have hdist : 1 ≤ n → (1.4 * 2 ^ 10) * (n * (0.9 / 2 ^ 47)) ≤ |ζ| := by
    intro h1
    rcases le_or_gt |ζ| 0.7863 with hs | hs
    · have := dist32 (by norm_num) distCover32_13 (X := 8192) (by decide +kernel) (r4 h1) h h1 (by rw [← hζ]; exact hs)
      rw [hζ]; push_cast at this; exact this
    · have hmR : (n : ℝ) ≤ 5216 := by exact_mod_cast hmN
      have : (1.4 * 2 ^ 10) * (n * (0.9 / 2 ^ 47)) ≤ (1.4 * 2 ^ 10) * (5216 * (0.9 / 2 ^ 47) : ℝ) :=
        mul_le_mul_of_nonneg_left (mul_le_mul_of_nonneg_right hmR (by norm_num)) (by norm_num)
      refine (this.trans ?_).trans hs.le
      norm_num
  have hsm : 2 ^ (-100 : ℤ) ≤ |ζ| := by
    rcases Nat.eq_zero_or_pos n with h1 | h1
    · rw [hζ, h1]
      have : (((1 : ℚ) / 2 ^ 100 : ℚ) : ℝ) ≤ ((|x.val| : ℚ) : ℝ) := by exact_mod_cast h0
      rw [← real_abs] at this
      push_cast at this
      simp only [Nat.cast_zero, zero_mul, sub_zero, abs_abs]
      refine le_trans (le_of_eq ?_) this
      norm_num
    · have h2 : (1 : ℝ) ≤ n := by exact_mod_cast h1
      have h3 : ((1.4 * 2 ^ 10) : ℝ) * (1 * (0.9 / 2 ^ 47)) ≤ (1.4 * 2 ^ 10) * (n * (0.9 / 2 ^ 47)) :=
        mul_le_mul_of_nonneg_left (mul_le_mul_of_nonneg_right h2 (by positivity)) (by positivity)
      refine le_trans ?_ (h3.trans (hdist h1))
      norm_num
  have hζ0 : 0 < |ζ| := lt_of_lt_of_le (by positivity) hsm
  have hw0 : (0 : ℝ) ≤ n * (1.6 / 2 ^ 47) / |ζ| := by positivity
  have hw : (n : ℝ) * (1.6 / 2 ^ 47) / |ζ| * |ζ| = n * (1.6 / 2 ^ 47) := div_mul_cancel₀ _ hζ0.ne'
  have hwb : (n : ℝ) * (1.6 / 2 ^ 47) / |ζ| ≤ (1.6 / 0.9 / (1.4 * 2 ^ 10)) := by
    rcases Nat.eq_zero_or_pos n with h1 | h1
    · rw [h1]; norm_num
    · rw [div_le_iff₀ hζ0]
      have h4 := mul_le_mul_of_nonneg_left (hdist h1) (by positivity : (0 : ℝ) ≤ (1.6 / 0.9 / (1.4 * 2 ^ 10)))
      refine le_trans (le_of_eq ?_) h4
      ring
  have core := tanf_coreD hm r1 r2
  rw [show (of z.v : Z m b32) = z from rfl] at core
  have hpi : (1.57 : ℝ) ≤ Real.pi / 2 := by
    have h1 := pi_near
    have h2 : ((piQ : ℚ) : ℝ) ≥ 3.1415 := by norm_num [piQ]
    rw [abs_le] at h1
    have h3 : (1 : ℝ) / 10 ^ 38 ≤ 0.0001 := by norm_num
    norm_num at h2 h3 ⊢
    linarith [h1.1]
  have hmx : (n : ℝ) * 1.57 ≤ |x.real| + 0.7869 := by
    rw [abs_le] at r5
    have : (n : ℝ) * 1.57 ≤ n * (Real.pi / 2) := mul_le_mul_of_nonneg_left hpi (by positivity)
    norm_num at r5 ⊢
    linarith [r5.1]
  rw [← hζ] at r5 r6
  have main : ∀ A : ℝ, 0 ≤ A → A ≤ 0.001 → |(tanfCore z).v.real - Real.tan z.v.real| ≤ A * |z.v.real| → _ := fun A hA0 hA1 hA =>
    assemble_dir hm tanC32 (A := A) (κ := (1.6 / 2 ^ 47)) (w := (n : ℝ) * (1.6 / 2 ^ 47) / |ζ|) (z := z.v.real) hU hx hx0 hn core.1 r2 (by rw [← hζ]; exact r5)
      (by rw [← hζ]; exact r6) (by rw [← hζ]; exact hw) hw0 hA hA0 (by
        have h2 : ((1.6 / 0.9 / (1.4 * 2 ^ 10)) : ℝ) ≤ 0.0015 := by norm_num
        have h3 : (2 ^ (-23 : ℤ) : ℝ) ≤ 1e-6 := by norm_num
        norm_num at h2 h3 hA1 hwb ⊢
        linarith) (hA1.trans (by norm_num)) (by rw [← hζ]; exact hsm)
      (by decide +kernel) (by decide +kernel) (by decide +kernel) (spXOR_signMask · x)
  obtain ⟨t1, t2, t3, t4⟩ := main (5.6 * 2 ^ (-24 : ℤ)) (by positivity) (by norm_num) core.2
  refine ⟨_, _, e, t1, hw0, hwb, ⟨n, hmx, t3⟩, ?_⟩
  · refine t2.trans (mul_le_mul_of_nonneg_right ?_ (abs_nonneg _))
    norm_num at hw0 ⊢
    linarith

end Vdt.Flush
