import Verif.Lemmas.BitDist
import Verif.Props.Workflow
import Verif.Lemmas.TrigLow
import Verif.Props.SincosRel

/-!
# C68: how many bits the fast functions may differ from a good mathematical library

The comparison files count the bits in which a fast function differs from the function of the
standard library.  Here the library is assumed to be good to one unit in the last place, and the
counts are bounded.
-/

namespace Vdt.Compare
open FP Txt Cmd Diag Rand
open Bench (text1 text2 Spec spec64 spec32 RefMath fname baseNames jobs64 jobs32 In poolPairs)

local notation "‹" s "›" => String.toList s

/-- A mathematical library with relative errors of at most one unit in the last place on the inputs of
the benchmark (`E` is the bound of the arguments of `exp`) and with exact zeros.  The arguments of `sin`, `tan`, `tanh`, `atan` and the first argument of `atan2`
are zero or at least `2^-64` in the pools. -/
structure Faithful {f : Fmt} (R : RefMath f) (E : ℚ) : Prop where
  exp : ∀ x, In (-E) E x → (R.exp x).CloseRel (Real.exp x.real) (2 ^ (-(f.mb : ℤ)))
  log : ∀ x, In (99 / 10 ^ 6) 5000 x → (R.log x).CloseRel (Real.log x.real) (2 ^ (-(f.mb : ℤ)))
  sin : ∀ x, In (-5000) 5000 x → 2⁻¹ ^ 64 ≤ |x.val| → (R.sin x).CloseRel (Real.sin x.real) (2 ^ (-(f.mb : ℤ)))
  cos : ∀ x, In (-5000) 5000 x → x.val = 0 ∨ 2⁻¹ ^ 64 ≤ |x.val| → (R.cos x).CloseRel (Real.cos x.real) (2 ^ (-(f.mb : ℤ)))
  tan : ∀ x, In (-5000) 5000 x → 2⁻¹ ^ 64 ≤ |x.val| → (R.tan x).CloseRel (Real.tan x.real) (2 ^ (-(f.mb : ℤ)))
  tanh : ∀ x, x.isFinite = true → 2⁻¹ ^ 64 ≤ |x.val| → (R.tanh x).CloseRel (Real.tanh x.real) (2 ^ (-(f.mb : ℤ)))
  asin : ∀ x, In (-1) 1 x → (R.asin x).CloseRel (Real.arcsin x.real) (2 ^ (-(f.mb : ℤ)))
  atan : ∀ x, x.isFinite = true → 2⁻¹ ^ 64 ≤ |x.val| → (R.atan x).CloseRel (Real.arctan x.real) (2 ^ (-(f.mb : ℤ)))
  acos : ∀ x, In (-1) 1 x → x.val ≠ 1 → (R.acos x).CloseRel (Real.arccos x.real) (2 ^ (-(f.mb : ℤ)))
  atan2 : ∀ y x, In (-1) 1 y → In (-1) 1 x → 2⁻¹ ^ 64 ≤ |y.val| ∨ y = FP.zero false ∧ x.val < 0 →
    (R.atan2 y x).CloseRel (Complex.arg ⟨x.real, y.real⟩) (2 ^ (-(f.mb : ℤ)))
  log_one : R.log (lit 1) = pzero
  acos_one : R.acos (lit 1) = pzero
  atan2_zero : ∀ x, In (-1) 1 x → x.sign = false → R.atan2 (FP.zero false) x = FP.zero false
  zero_trig : ∀ s, R.sin (FP.zero s) = FP.zero s ∧ R.tan (FP.zero s) = FP.zero s
  zero : ∀ s, R.tanh (FP.zero s) = FP.zero s ∧ R.asin (FP.zero s) = FP.zero s ∧ R.atan (FP.zero s) = FP.zero s

/-! ### Lower bounds of the exact values -/

theorem arctan_low {x : ℝ} (h : 2⁻¹ ^ 64 ≤ |x|) : (2 : ℝ)⁻¹ ^ 65 ≤ |Real.arctan x| := by
  have key : ∀ y : ℝ, 2⁻¹ ^ 64 ≤ y → (2 : ℝ)⁻¹ ^ 65 ≤ Real.arctan y := by
    intro y hy
    have y0 : (2 : ℝ)⁻¹ ^ 64 = Real.tan (Real.arctan (2⁻¹ ^ 64)) := (Real.tan_arctan _).symm
    refine le_trans ?_ (Real.arctan_strictMono.monotone hy)
    have h1 : Real.sin (Real.arctan (2⁻¹ ^ 64)) ≤ Real.arctan (2⁻¹ ^ 64) := Real.sin_le (Real.arctan_nonneg.2 (by positivity))
    refine le_trans ?_ h1
    rw [Real.sin_arctan, le_div_iff₀ (by positivity)]
    have h2 : √(1 + ((2 : ℝ)⁻¹ ^ 64) ^ 2) ≤ 2 := Real.sqrt_le_iff.2 ⟨by norm_num, by norm_num⟩
    have : (2 : ℝ)⁻¹ ^ 65 * √(1 + ((2 : ℝ)⁻¹ ^ 64) ^ 2) ≤ 2⁻¹ ^ 65 * 2 := mul_le_mul_of_nonneg_left h2 (by positivity)
    exact this.trans (by norm_num)
  rcases le_abs.1 h with h | h
  · exact (key x h).trans (le_abs_self _)
  · have := key (-x) h
    rw [Real.arctan_neg] at this
    exact this.trans (neg_le_abs _)

theorem tanh_low {x : ℝ} (h : 2⁻¹ ^ 64 ≤ |x|) : (2 : ℝ)⁻¹ ^ 65 ≤ |Real.tanh x| := by
  have key : ∀ y : ℝ, 2⁻¹ ^ 64 ≤ y → (2 : ℝ)⁻¹ ^ 65 ≤ Real.tanh y := by
    intro y hy
    refine le_trans ?_ (tanh_mono hy)
    exact le_trans (by norm_num) (tanh_half_le (x := 2⁻¹ ^ 64) (by positivity) (by norm_num))
  rcases le_abs.1 h with h | h
  · exact (key x h).trans (le_abs_self _)
  · have := key (-x) h
    rw [Real.tanh_neg] at this
    exact this.trans (neg_le_abs _)

theorem gap_real {f : Fmt} {x : FP f} (h : 2⁻¹ ^ 64 ≤ |x.val|) : (2 : ℝ)⁻¹ ^ 64 ≤ |x.real| := by
  have := (Rat.cast_le (K := ℝ)).2 h
  push_cast at this
  exact this

theorem rel_of_abs {d r E H : ℝ} (h : d ≤ E * |r| + H) (hr : (2 : ℝ)⁻¹ ^ 65 ≤ |r|) (hH : 0 ≤ H) : d ≤ (E + H * 2 ^ 65) * |r| := by
  have : H * 2 ^ 65 * 2⁻¹ ^ 65 ≤ H * 2 ^ 65 * |r| := mul_le_mul_of_nonneg_left hr (by positivity)
  have e : H * 2 ^ 65 * (2 : ℝ)⁻¹ ^ 65 = H := by rw [mul_assoc, ← mul_pow]; norm_num
  linarith

theorem zero_or {f : Fmt} {x : FP f} (h : x.val = 0) : x = FP.zero x.sign := Bench.val_zero_eq h

/-! ### There are such libraries -/

theorem near_exists {f : Fmt} [f.Ok] (hu : (f.u : ℝ) = 2 ^ (-(f.mb : ℤ)) / 2) (hu8 : f.u ≤ 1 / 8) (r : ℝ) {m : ℚ} (hm : 0 < m)
    (he : f.eta ≤ f.u * m) (hb : 2 * |r| ≤ f.big) (h0 : (m : ℝ) ≤ |r|) : ∃ y : FP f, y.CloseRel r (2 ^ (-(f.mb : ℤ))) := by
  have mp : (0 : ℝ) < m := by exact_mod_cast hm
  have rp : 0 < |r| := mp.trans_le h0
  have u0 : (0 : ℝ) < f.u := by exact_mod_cast f.u_pos
  have u8 : (f.u : ℝ) ≤ 1 / 8 := by
    have := (Rat.cast_le (K := ℝ)).2 hu8
    push_cast at this; exact this
  obtain ⟨q, q1, q2⟩ := exists_rat_btwn (show r < r + f.u / 4 * |r| by nlinarith)
  have qd : |(q : ℝ) - r| ≤ f.u / 4 * |r| := by rw [abs_of_nonneg (by linarith)]; linarith
  have qa : |(q : ℝ)| ≤ (1 + f.u / 4) * |r| := by
    have := abs_sub_abs_le_abs_sub (q : ℝ) r
    linarith
  have qb : |q| ≤ f.big := by
    have : |(q : ℝ)| ≤ f.big := by nlinarith
    exact_mod_cast this
  refine ⟨ofRat f false q, finite_ofRat _ qb, ?_⟩
  have e := rnd_err_rel f qb
  have e1 : |(ofRat f false q).real - q| ≤ max (f.u * |(q : ℝ)|) f.eta := by
    unfold FP.real
    rw [val_ofRat]
    exact_mod_cast e
  have e2 : max (f.u * |(q : ℝ)|) f.eta ≤ f.u * ((1 + f.u / 4) * |r|) := by
    refine max_le (mul_le_mul_of_nonneg_left qa u0.le) ?_
    have : (f.eta : ℝ) ≤ f.u * m := by exact_mod_cast he
    refine this.trans (mul_le_mul_of_nonneg_left ?_ u0.le)
    nlinarith
  have e3 := abs_sub_le (ofRat f false q).real q r
  rw [show (2 : ℝ) ^ (-(f.mb : ℤ)) = 2 * f.u by rw [hu]; ring]
  nlinarith [mul_pos u0 rp]

theorem log_low {x : ℝ} (h0 : 0 < x) {d : ℝ} (d0 : 0 < d) (hd : d ≤ 1 / 2) (h1 : d ≤ |x - 1|) : d / 2 ≤ |Real.log x| := by
  rcases le_abs.1 h1 with h | h
  · refine le_trans ?_ (le_abs_self _)
    refine le_trans ?_ (Real.one_sub_inv_le_log_of_pos h0)
    have : x⁻¹ ≤ (1 + d)⁻¹ := inv_anti₀ (by linarith) (by linarith)
    have h5 : (1 + d)⁻¹ ≤ 1 - d / 2 := by
      rw [inv_le_iff_one_le_mul₀ (by linarith)]; nlinarith
    linarith
  · refine le_trans ?_ (neg_le_abs _)
    have h3 := Real.log_le_sub_one_of_pos h0
    linarith

theorem log_up {x : ℝ} (h0 : 1 / 2 ^ 14 ≤ x) (h1 : x ≤ 5000) : |Real.log x| ≤ 2 ^ 14 := by
  have x0 : 0 < x := lt_of_lt_of_le (by norm_num) h0
  rw [abs_le]
  refine ⟨?_, (Real.log_le_sub_one_of_pos x0).trans (by norm_num; linarith)⟩
  have := Real.one_sub_inv_le_log_of_pos x0
  have h2 : x⁻¹ ≤ 2 ^ 14 := by
    rw [inv_le_comm₀ x0 (by norm_num)]; exact le_trans (by norm_num) h0
  linarith

theorem gap_lt (f : Fmt) (hf : f.mb ≤ 60) {a b : ℕ} (h : a < b) : magVal f a ≤ 2 ^ 61 * (magVal f b - magVal f a) := by
  obtain ⟨n, rfl⟩ := Nat.exists_eq_add_of_lt h
  have g := magVal_gap f a (n + 1)
  rw [← Nat.add_assoc] at g
  have l := magVal_lt (f := f).2 h
  have hp : (2 : ℚ) ^ (f.mb + 1) ≤ 2 ^ 61 := pow_le_pow_right₀ (by norm_num) (by omega)
  have h1 : magVal f a ≤ magVal f a * ((n + 1 : ℕ) : ℚ) := by
    refine le_mul_of_one_le_right (magVal_nonneg f a) ?_
    push_cast
    have : (0 : ℚ) ≤ n := by positivity
    linarith
  have h2 := mul_le_mul_of_nonneg_right hp (sub_pos.2 l).le
  linarith

/-- Numbers other than one keep away from it. -/
theorem one_gap {f : Fmt} (hf : f.mb ≤ 60) (h1 : (lit 1 : FP f).val = 1) {x : FP f} (h : 1 / 2 ^ 14 ≤ x.val) (hne : x.val ≠ 1) :
    2⁻¹ ^ 100 ≤ |x.val - 1| := by
  have x0 : 0 < x.val := lt_of_lt_of_le (by norm_num) h
  have e1 := abs_val x
  have e2 := abs_val (lit 1 : FP f)
  rw [abs_of_pos x0] at e1
  rw [h1, abs_one] at e2
  rcases lt_trichotomy x.mag (lit 1 : FP f).mag with hc | hc | hc
  · have g := gap_lt f hf hc
    rw [← e1, ← e2] at g
    refine le_trans ?_ (neg_le_abs _)
    have : (2 : ℚ)⁻¹ ^ 100 * 2 ^ 61 ≤ 1 / 2 ^ 14 := by norm_num
    linarith
  · exact absurd (by rw [e1, hc, ← e2]) hne
  · have g := gap_lt f hf hc
    rw [← e1, ← e2] at g
    refine le_trans ?_ (le_abs_self _)
    have : (2 : ℚ)⁻¹ ^ 100 * 2 ^ 61 ≤ 1 := by norm_num
    linarith

/-- For small arguments the arcsine is the argument. -/
theorem arcsin_tiny {x : ℝ} (h : |x| < 2⁻¹ ^ 64) : |x - Real.arcsin x| ≤ 2⁻¹ ^ 100 * |Real.arcsin x| := by
  have key : ∀ x : ℝ, 0 ≤ x → x < 2⁻¹ ^ 64 → |x - Real.arcsin x| ≤ 2⁻¹ ^ 100 * |Real.arcsin x| := by
    intro x x0 h
    rcases x0.eq_or_lt with rfl | x0
    · simp
    have x1 : x ≤ 1 := h.le.trans (by norm_num)
    have y0 : 0 < Real.arcsin x := Real.arcsin_pos.2 x0
    have y1 : Real.arcsin x ≤ 2⁻¹ ^ 63 := by
      have p3 : 2 ≤ Real.pi := Real.two_le_pi
      have z0 : (0 : ℝ) ≤ 2⁻¹ ^ 63 := by positivity
      have z1 : (2 : ℝ)⁻¹ ^ 63 ≤ 1 := by norm_num
      rw [Real.arcsin_le_iff_le_sin ⟨by linarith, x1⟩ ⟨by linarith, by linarith⟩]
      have := Real.sin_gt_sub_cube (x := 2⁻¹ ^ 63) (by positivity)
      refine h.le.trans (le_trans ?_ this.le)
      norm_num
    have hs : Real.sin (Real.arcsin x) = x := Real.sin_arcsin (by linarith) x1
    have l1 := Real.sin_gt_sub_cube y0
    have l2 := Real.sin_le y0.le
    rw [hs] at l1 l2
    generalize Real.arcsin x = y at *
    rw [abs_of_nonpos (by linarith), abs_of_pos y0]
    have : y ^ 2 ≤ (2⁻¹ ^ 63) ^ 2 := pow_le_pow_left₀ y0.le y1 2
    have h3 : y ^ 3 / 6 = y ^ 2 / 6 * y := by ring
    have h4 : y ^ 2 / 6 * y ≤ (2⁻¹ ^ 63) ^ 2 / 6 * y := mul_le_mul_of_nonneg_right (by linarith) y0.le
    have h5 : ((2 : ℝ)⁻¹ ^ 63) ^ 2 / 6 * y ≤ 2⁻¹ ^ 100 * y := mul_le_mul_of_nonneg_right (by norm_num) y0.le
    linarith
  rcases le_total 0 x with h0 | h0
  · exact key x h0 (by rwa [abs_of_nonneg h0] at h)
  · have := key (-x) (by linarith) (by rwa [abs_of_nonpos h0] at h)
    rw [Real.arcsin_neg, abs_neg] at this
    rw [← abs_neg]
    convert this using 2
    ring

theorem arcsin_low {x : ℝ} (h : 2⁻¹ ^ 64 ≤ |x|) (h1 : |x| ≤ 1) : (2 : ℝ)⁻¹ ^ 65 ≤ |Real.arcsin x| := by
  have key : ∀ y : ℝ, 2⁻¹ ^ 64 ≤ y → y ≤ 1 → (2 : ℝ)⁻¹ ^ 65 ≤ Real.arcsin y := by
    intro y hy hy1
    have y0 : (0 : ℝ) < 2⁻¹ ^ 64 := by positivity
    have hs : Real.sin (Real.arcsin y) = y := Real.sin_arcsin (by linarith) hy1
    have := Real.sin_le (Real.arcsin_nonneg.2 (y0.le.trans hy))
    rw [hs] at this
    exact le_trans (by norm_num) (hy.trans this)
  obtain ⟨a, b⟩ := abs_le.1 h1
  rcases le_abs.1 h with h | h
  · exact (key x h b).trans (le_abs_self _)
  · have := key (-x) h (by linarith)
    rw [Real.arcsin_neg] at this
    exact this.trans (neg_le_abs _)

open Classical in
/-- A number close to `r`, if there is one. -/
noncomputable def closest {f : Fmt} (r : ℝ) : FP f := if h : ∃ y : FP f, y.CloseRel r (2 ^ (-(f.mb : ℤ))) then h.choose else nan

theorem closest_ok {f : Fmt} {r : ℝ} (h : ∃ y : FP f, y.CloseRel r (2 ^ (-(f.mb : ℤ)))) :
    (closest r : FP f).CloseRel r (2 ^ (-(f.mb : ℤ))) := by
  unfold closest; rw [dif_pos h]; exact h.choose_spec

open Classical in
/-- A library that is good to one unit in the last place. -/
noncomputable def goodRef (f : Fmt) : RefMath f where
  exp x := closest (Real.exp x.real)
  log x := if x.val = 1 then pzero else closest (Real.log x.real)
  sin x := if |x.val| < 2⁻¹ ^ 64 then x else closest (Real.sin x.real)
  cos x := closest (Real.cos x.real)
  tan x := if |x.val| < 2⁻¹ ^ 64 then x else closest (Real.tan x.real)
  tanh x := if |x.val| < 2⁻¹ ^ 64 then x else closest (Real.tanh x.real)
  asin x := if |x.val| < 2⁻¹ ^ 64 then x else closest (Real.arcsin x.real)
  acos x := if x.val = 1 then pzero else closest (Real.arccos x.real)
  atan x := if |x.val| < 2⁻¹ ^ 64 then x else closest (Real.arctan x.real)
  atan2 y x := if y = FP.zero false ∧ x.sign = false then FP.zero false else closest (Complex.arg ⟨x.real, y.real⟩)

theorem goodRef_faithful {f : Fmt} [f.Ok] {E : ℚ} {K : ℕ} (hmb : f.mb ≤ 60) (hu8 : f.u ≤ 1 / 8) (h1 : (lit 1 : FP f).val = 1)
    (hE : E ≤ K * (69 / 100)) (heK : f.eta * 2 ^ K ≤ f.u) (hbK : 2 * 2 ^ K ≤ f.big)
    (he : f.eta ≤ f.u * 2⁻¹ ^ 101) (hb : 2 ^ 71 ≤ f.big)
    (htrig : ∀ x : FP f, x.isFinite = true → |x.val| ≤ 8192 → (2 : ℝ)⁻¹ ^ 64 ≤ |x.real| →
      (2 : ℝ)⁻¹ ^ 70 ≤ |Real.sin x.real| ∧ (2 : ℝ)⁻¹ ^ 70 ≤ |Real.cos x.real|) : Faithful (goodRef f) E := by
  have hu : (f.u : ℝ) = 2 ^ (-(f.mb : ℤ)) / 2 := by
    unfold Fmt.u
    rw [p2_eq, zpow_sub₀ (by norm_num)]
    push_cast
    norm_num
  have gap' : ∀ r : ℝ, 2⁻¹ ^ 101 ≤ |r| → |r| ≤ 2 ^ 70 → ∃ y : FP f, y.CloseRel r (2 ^ (-(f.mb : ℤ))) := by
    intro r a b
    refine near_exists hu hu8 r (m := 2⁻¹ ^ 101) (by positivity) he ?_ (by push_cast; exact a)
    have : (2 : ℝ) ^ 71 ≤ f.big := by exact_mod_cast hb
    exact le_trans (by linarith) this
  have gap : ∀ r : ℝ, 2⁻¹ ^ 101 ≤ |r| → |r| ≤ 2 ^ 14 → ∃ y : FP f, y.CloseRel r (2 ^ (-(f.mb : ℤ))) :=
    fun r a b => gap' r a (b.trans (by norm_num))
  have g70 : (2 : ℝ)⁻¹ ^ 101 ≤ 2⁻¹ ^ 70 := by norm_num
  have tr : ∀ x : FP f, In (-5000) 5000 x → 2⁻¹ ^ 64 ≤ |x.val| →
      (2 : ℝ)⁻¹ ^ 70 ≤ |Real.sin x.real| ∧ (2 : ℝ)⁻¹ ^ 70 ≤ |Real.cos x.real| := fun x hx hg =>
    htrig x hx.1 ((abs_le.2 hx.2).trans (by norm_num)) (gap_real hg)
  have g65 : (2 : ℝ)⁻¹ ^ 101 ≤ 2⁻¹ ^ 65 := by norm_num
  have pi4 : Real.pi ≤ 4 := Real.pi_le_four
  refine ⟨fun x hx => closest_ok ?_, fun x hx => ?_, fun x hx hg => ?_, fun x hx hg => closest_ok ?_, fun x hx hg => ?_, fun x hx hg => ?_, fun x hx => ?_, fun x hx hg => ?_,
    fun x hx h1 => ?_, fun y x hy hx h => ?_, ?_, ?_, fun x hx h => if_pos ⟨rfl, h⟩, fun s => ?_, fun s => ?_⟩
  · have x1 : -(E : ℝ) ≤ x.real := by unfold FP.real; exact_mod_cast hx.2.1
    have x2 : x.real ≤ E := by unfold FP.real; exact_mod_cast hx.2.2
    have hE' : (E : ℝ) ≤ K * (69 / 100) := by
      have := (Rat.cast_le (K := ℝ)).2 hE
      push_cast at this; exact this
    have l2 : (69 / 100 : ℝ) ≤ Real.log 2 := by have := Real.log_two_gt_d9; linarith
    have hKl : (E : ℝ) ≤ K * Real.log 2 := hE'.trans (mul_le_mul_of_nonneg_left l2 (by positivity))
    have ek : Real.exp (K * Real.log 2) = 2 ^ K := by rw [Real.exp_nat_mul, Real.exp_log (by norm_num)]
    have up : Real.exp x.real ≤ 2 ^ K := by rw [← ek]; exact Real.exp_le_exp.2 (by linarith)
    have lo : (2⁻¹ : ℝ) ^ K ≤ Real.exp x.real := by
      rw [inv_pow, ← ek, ← Real.exp_neg]; exact Real.exp_le_exp.2 (by linarith)
    refine near_exists hu hu8 _ (m := 2⁻¹ ^ K) (by positivity) ?_ ?_ ?_
    · rw [inv_pow, ← div_eq_mul_inv, le_div_iff₀ (by positivity)]; exact heK
    · rw [abs_of_pos (Real.exp_pos _)]
      have : (2 : ℝ) * 2 ^ K ≤ f.big := by exact_mod_cast hbK
      linarith
    · rw [abs_of_pos (Real.exp_pos _)]; push_cast; exact lo
  · show CloseRel (if x.val = 1 then pzero else closest (Real.log x.real)) _ _
    split
    · rename_i h
      have : x.real = 1 := by unfold FP.real; rw [h]; norm_num
      rw [this, Real.log_one]
      refine ⟨zero_finite _, ?_⟩
      simp [FP.real, pzero, FP.zero, FP.val, magVal_zero]
    · rename_i h
      have v1 : 1 / 2 ^ 14 ≤ x.val := le_trans (by norm_num) hx.2.1
      have x1 : (1 : ℝ) / 2 ^ 14 ≤ x.real := by
        have := (Rat.cast_le (K := ℝ)).2 v1
        push_cast at this; exact this
      have x2 : x.real ≤ (5000 : ℝ) := by
        have := (Rat.cast_le (K := ℝ)).2 hx.2.2
        push_cast at this; exact this
      have d : (2 : ℝ)⁻¹ ^ 100 ≤ |x.real - 1| := by
        have := (Rat.cast_le (K := ℝ)).2 (one_gap hmb h1 v1 h)
        push_cast at this; exact this
      have x0 : 0 < x.real := lt_of_lt_of_le (by norm_num) x1
      exact closest_ok (gap _ (le_trans (by norm_num) (log_low x0 (by positivity) (by norm_num) d)) (log_up x1 x2))
  · show CloseRel (if |x.val| < 2⁻¹ ^ 64 then x else closest (Real.sin x.real)) _ _
    rw [if_neg (not_lt.2 hg)]
    exact closest_ok (gap _ (g70.trans (tr x hx hg).1) ((Real.abs_sin_le_one _).trans (by norm_num)))
  · refine gap _ ?_ ((Real.abs_cos_le_one _).trans (by norm_num))
    rcases hg with h | h
    · have : x.real = 0 := by unfold FP.real; rw [h]; norm_num
      rw [this, Real.cos_zero, abs_one]; norm_num
    · exact g70.trans (tr x hx h).2
  · show CloseRel (if |x.val| < 2⁻¹ ^ 64 then x else closest (Real.tan x.real)) _ _
    rw [if_neg (not_lt.2 hg)]
    obtain ⟨t1, t2⟩ := tan_bounds (tr x hx hg).1 (tr x hx hg).2
    exact closest_ok (gap' _ (g70.trans t1) t2)
  · show CloseRel (if |x.val| < 2⁻¹ ^ 64 then x else closest (Real.tanh x.real)) _ _
    rw [if_neg (not_lt.2 hg)]
    refine closest_ok (gap _ (g65.trans (tanh_low (gap_real hg))) ?_)
    exact le_trans (abs_lt.2 ⟨Real.neg_one_lt_tanh _, Real.tanh_lt_one _⟩).le (by norm_num)
  · show CloseRel (if |x.val| < 2⁻¹ ^ 64 then x else closest (Real.arcsin x.real)) _ _
    have xa : |x.real| ≤ 1 := by
      have := (Rat.cast_le (K := ℝ)).2 (abs_le.2 hx.2)
      push_cast at this; exact this
    split
    · rename_i h
      refine ⟨hx.1, (arcsin_tiny ?_).trans (mul_le_mul_of_nonneg_right ?_ (abs_nonneg _))⟩
      · have := (Rat.cast_lt (K := ℝ)).2 h
        push_cast at this; exact this
      · rw [inv_pow, ← zpow_natCast, ← zpow_neg]
        exact zpow_le_zpow_right₀ (by norm_num) (by push_cast; omega)
    · rename_i h
      refine closest_ok (gap _ (g65.trans (arcsin_low (gap_real (not_lt.1 h)) xa)) ?_)
      have := abs_le.2 ⟨Real.neg_pi_div_two_le_arcsin x.real, Real.arcsin_le_pi_div_two x.real⟩
      exact this.trans (by norm_num; linarith)
  · show CloseRel (if |x.val| < 2⁻¹ ^ 64 then x else closest (Real.arctan x.real)) _ _
    rw [if_neg (not_lt.2 hg)]
    refine closest_ok (gap _ (g65.trans (arctan_low (gap_real hg))) ?_)
    have := abs_le.2 ⟨(Real.neg_pi_div_two_lt_arctan x.real).le, (Real.arctan_lt_pi_div_two x.real).le⟩
    exact this.trans (by norm_num; linarith)
  · show CloseRel (if x.val = 1 then pzero else closest (Real.arccos x.real)) _ _
    rw [if_neg h1]
    have x1 : -1 ≤ x.real := by unfold FP.real; exact_mod_cast hx.2.1
    have x2 : x.real ≤ 1 := by unfold FP.real; exact_mod_cast hx.2.2
    have d : (2 : ℝ)⁻¹ ^ 100 ≤ 1 - x.real := by
      rcases le_or_gt (1 / 2 ^ 14) x.val with h | h
      · have := (Rat.cast_le (K := ℝ)).2 (one_gap hmb ‹_› h h1)
        push_cast at this
        rwa [abs_sub_comm, abs_of_nonneg (by unfold FP.real at x2; linarith)] at this
      · have : x.real < (1 : ℝ) / 2 ^ 14 := by
          have := (Rat.cast_lt (K := ℝ)).2 h
          push_cast at this; exact this
        have h9 : (2 : ℝ)⁻¹ ^ 100 ≤ 1 - 1 / 2 ^ 14 := by norm_num
        linarith
    have l := arccos_low x1 x2 (d := 2⁻¹ ^ 50) (by positivity) (by rw [← pow_mul]; linarith)
    refine closest_ok (gap _ ?_ ?_)
    · exact le_trans (by norm_num) (l.trans (le_abs_self _))
    · rw [abs_of_nonneg (Real.arccos_nonneg _)]
      exact (Real.arccos_le_pi _).trans (pi4.trans (by norm_num))
  · show CloseRel (if y = FP.zero false ∧ x.sign = false then FP.zero false else closest (Complex.arg ⟨x.real, y.real⟩)) _ _
    have ya : |y.real| ≤ 1 := by
      have := (Rat.cast_le (K := ℝ)).2 (abs_le.2 hy.2)
      push_cast at this; exact this
    have xa : |x.real| ≤ 1 := by
      have := (Rat.cast_le (K := ℝ)).2 (abs_le.2 hx.2)
      push_cast at this; exact this
    have hup : |Complex.arg ⟨x.real, y.real⟩| ≤ 2 ^ 14 := (Complex.abs_arg_le_pi _).trans (pi4.trans (by norm_num))
    have z0 : (FP.zero false : FP f).val = 0 := val_eq_zero.2 rfl
    rcases h with h | ⟨rfl, h⟩
    · rw [if_neg (by
        rintro ⟨rfl, -⟩
        rw [z0, abs_zero] at h
        exact absurd h (by norm_num))]
      refine closest_ok (gap _ ?_ hup)
      refine le_trans ?_ (arg_low xa ya)
      have := gap_real h
      refine le_trans ?_ (div_le_div_of_nonneg_right this (by norm_num))
      norm_num
    · rw [if_neg (by
        rintro ⟨-, hs⟩
        unfold FP.val at h
        rw [hs] at h
        exact absurd h (not_lt.2 (by simpa using magVal_nonneg _ _)))]
      have e : Complex.arg ⟨x.real, (FP.zero false : FP f).real⟩ = Real.pi := by
        rw [Complex.arg_eq_pi_iff]
        refine ⟨?_, ?_⟩
        · show ((x.val : ℚ) : ℝ) < 0
          exact_mod_cast h
        · show (((FP.zero false : FP f).val : ℚ) : ℝ) = 0
          rw [z0]; norm_num
      rw [e] at hup ⊢
      refine closest_ok (gap _ ?_ hup)
      rw [abs_of_pos Real.pi_pos]
      exact le_trans (by norm_num) Real.two_le_pi
  · exact if_pos h1
  · exact if_pos h1
  · have z : |(FP.zero s : FP f).val| < 2⁻¹ ^ 64 := by
      have : (FP.zero s : FP f).val = 0 := val_eq_zero.2 rfl
      rw [this, abs_zero]; positivity
    exact ⟨if_pos z, if_pos z⟩
  · have z : |(FP.zero s : FP f).val| < 2⁻¹ ^ 64 := by
      have : (FP.zero s : FP f).val = 0 := val_eq_zero.2 rfl
      rw [this, abs_zero]; positivity
    exact ⟨if_pos z, if_pos z, if_pos z⟩

theorem good64 : Faithful (goodRef b64) 705 :=
  goodRef_faithful (K := 1022) (by decide) (by decide +kernel) (by decide +kernel) (by norm_num) (by decide +kernel)
    (by decide +kernel) (by decide +kernel) (by decide +kernel) fun _ => trig_low64

theorem good32 : Faithful (goodRef b32) 85 :=
  goodRef_faithful (K := 124) (by decide) (by decide +kernel) (by decide +kernel) (by norm_num) (by decide +kernel)
    (by decide +kernel) (by decide +kernel) (by decide +kernel) fun _ => trig_low32

/-! ### Distances, double precision -/

theorem C68_exp {R : RefMath b64} (hR : Faithful R 705) (x : F64) (hx : In (-705) 705 x) :
    ∃ y, Vdt.fast_exp x = some y ∧ patDist (R.exp x) y ≤ 6 := by
  obtain ⟨y, h1, -, h2⟩ := C01_exp_accurate x hx.1 (abs_le.2 ⟨by linarith [hx.2.1], by linarith [hx.2.2]⟩)
  exact ⟨y, h1, patDist_le (hR.exp x hx) h2 (Real.exp_pos _).ne' (γ := 2 ^ (-51 : ℤ)) (by norm_num) le_rfl (by norm_num) (by norm_num)⟩

theorem pos_normal {x : F64} (hx : In (99 / 10 ^ 6) 5000 x) : x.Normal ∧ 0 < x.val :=
  ⟨Bench.normal_of hx (le_trans (p2_le (by decide : _ ≤ (-14 : ℤ))) (by rw [p2_eq]; norm_num)), lt_of_lt_of_le (by norm_num) hx.2.1⟩

theorem pos_normalf {x : F32} (hx : In (99 / 10 ^ 6) 5000 x) : x.Normal ∧ 0 < x.val :=
  ⟨Bench.normal_of hx (le_trans (p2_le (by decide : _ ≤ (-14 : ℤ))) (by rw [p2_eq]; norm_num)), lt_of_lt_of_le (by norm_num) hx.2.1⟩

theorem log_ne {f : Fmt} {x : FP f} (h0 : 0 < x.val) (h1 : x.val ≠ 1) : Real.log x.real ≠ 0 := by
  unfold FP.real
  refine Real.log_ne_zero_of_pos_of_ne_one (by exact_mod_cast h0) ?_
  exact_mod_cast h1

theorem C68_log {R : RefMath b64} (hR : Faithful R 705) (x : F64) (hx : In (99 / 10 ^ 6) 5000 x) :
    patDist (R.log x) (Vdt.fast_log x) ≤ 6 := by
  obtain ⟨hn, h0⟩ := pos_normal hx
  by_cases h : x.val = 1
  · have e : x = lit 1 := eq_of_val_ne h0.ne' (by rw [h]; decide +kernel)
    rw [e, hR.log_one]
    have : Vdt.fast_log (lit 1) = pzero := by decide +kernel
    rw [this, patDist_self]; omega
  · exact patDist_le (hR.log x hx) (C05_log_accurate x hn h0 (hx.2.2.trans (by decide +kernel))) (log_ne h0 h)
      (γ := 2 ^ (-51 : ℤ)) (by norm_num) le_rfl (by norm_num) (by norm_num)

theorem C68_tanh {R : RefMath b64} (hR : Faithful R 705) (x : F64) (hx : x.isFinite = true) (hg : x.val = 0 ∨ 2⁻¹ ^ 64 ≤ |x.val|) :
    patDist (R.tanh x) (Vdt.fast_tanh x) ≤ 18 := by
  rcases hg with h | h
  · rw [zero_or h, (hR.zero _).1]
    have : ∀ s, Vdt.fast_tanh (FP.zero s) = FP.zero s := by intro s; cases s <;> decide +kernel
    rw [this, patDist_self]; omega
  · have hl := tanh_low (gap_real h)
    refine patDist_le (hR.tanh x hx h) ⟨Bench.tanh64_fin hx, rel_of_abs (C17_tanh_accurate x hx) hl (by positivity)⟩ ?_
      (γ := 2 ^ (-48 : ℤ)) (by norm_num) ?_ (by norm_num) ?_
    · exact abs_pos.1 (lt_of_lt_of_le (by positivity) hl)
    · have : (2 : ℝ) ^ (-1070 : ℤ) ≤ 2 ^ (-200 : ℤ) := zpow_le_zpow_right₀ (by norm_num) (by norm_num)
      have : (2 : ℝ) ^ (-200 : ℤ) * 2 ^ 65 ≤ 2 ^ (-60 : ℤ) := by norm_num
      have : (2 : ℝ) ^ (-49 : ℤ) + 2 ^ (-60 : ℤ) ≤ 2 ^ (-48 : ℤ) := by norm_num
      linarith
    · have h1 : (2 : ℝ) ^ (-1070 : ℤ) ≤ 2 ^ (-200 : ℤ) := zpow_le_zpow_right₀ (by norm_num) (by norm_num)
      have h2 : 2 ^ (b64.mb + 1) * ((2 : ℝ) ^ (-(b64.mb : ℤ)) + (2 ^ (-49 : ℤ) + 2 ^ (-200 : ℤ) * 2 ^ 65)) < ((18 : ℕ) + 1) * (1 - 2 ^ (-48 : ℤ)) := by
        norm_num
      refine lt_of_le_of_lt (mul_le_mul_of_nonneg_left ?_ (by positivity)) h2
      have := mul_le_mul_of_nonneg_right h1 (show (0 : ℝ) ≤ 2 ^ 65 by positivity)
      linarith

theorem arcsin_ne {f : Fmt} {x : FP f} (h : x.val ≠ 0) : Real.arcsin x.real ≠ 0 := by
  rw [Ne, Real.arcsin_eq_zero_iff]; unfold FP.real; exact_mod_cast h

theorem C68_asin {R : RefMath b64} (hR : Faithful R 705) (x : F64) (hx : In (-1) 1 x) : patDist (R.asin x) (Vdt.fast_asin x) ≤ 6 := by
  by_cases h : x.val = 0
  · rw [zero_or h, (hR.zero _).2.1, (C25_asin_zero _).1, patDist_self]; omega
  · exact patDist_le (hR.asin x hx) (C26_asin_accurate x hx.1 (abs_le.2 hx.2)).1 (arcsin_ne h)
      (γ := 2 ^ (-51 : ℤ)) (by norm_num) le_rfl (by norm_num) (by norm_num)

theorem C68_atan {R : RefMath b64} (hR : Faithful R 705) (x : F64) (hx : x.isFinite = true) (hg : x.val = 0 ∨ 2⁻¹ ^ 64 ≤ |x.val|) :
    patDist (R.atan x) (Vdt.fast_atan x) ≤ 6 := by
  rcases hg with h | h
  · rw [zero_or h, (hR.zero _).2.2]
    have : ∀ s, Vdt.fast_atan (FP.zero s) = FP.zero s := by intro s; cases s <;> decide +kernel
    rw [this, patDist_self]; omega
  · have hl := arctan_low (gap_real h)
    have hg : (2 : ℝ) ^ (-1020 : ℤ) ≤ |x.real| := by
      refine le_trans ?_ (gap_real h)
      have : (2 : ℝ) ^ (-1020 : ℤ) ≤ 2 ^ (-64 : ℤ) := zpow_le_zpow_right₀ (by norm_num) (by norm_num)
      exact this.trans (by norm_num)
    refine patDist_le (hR.atan x hx h) ⟨(C19_atan_accurate x hx).1, C19_atan_accurate_relative x hx hg⟩ ?_
      (γ := 2 ^ (-51 : ℤ)) (by norm_num) le_rfl (by norm_num) (by norm_num)
    exact abs_pos.1 (lt_of_lt_of_le (by positivity) hl)

theorem C68_sin {R : RefMath b64} (hR : Faithful R 705) (x : FP b64) (hx : In (-5000) 5000 x) (hg : x = FP.zero false ∨ 2⁻¹ ^ 64 ≤ |x.val|) :
    ∃ y, Vdt.fast_sin x = some y ∧ patDist (R.sin x) y ≤ 32770 := by
  rcases hg with h | h
  · refine ⟨FP.zero false, by rw [h]; decide +kernel, ?_⟩
    rw [h, (hR.zero_trig _).1]; exact (patDist_self _).trans_le (by omega)
  · have h8 : |x.val| ≤ 8192 := (abs_le.2 hx.2).trans (by norm_num)
    obtain ⟨y, -, e, -, h2, -⟩ := C69_relative_to_8192 x hx.1 h8
    refine ⟨y, e, patDist_le (hR.sin x hx h) h2 ?_ (γ := 2 ^ (-38 : ℤ)) (by norm_num) (by norm_num) (by norm_num) (by norm_num)⟩
    exact abs_pos.1 (lt_of_lt_of_le (by positivity) (trig_low64 hx.1 h8 (gap_real h)).1)

theorem C68_cos {R : RefMath b64} (hR : Faithful R 705) (x : FP b64) (hx : In (-5000) 5000 x) (hg : x.val = 0 ∨ 2⁻¹ ^ 64 ≤ |x.val|) :
    ∃ y, Vdt.fast_cos x = some y ∧ patDist (R.cos x) y ≤ 32770 := by
  have h8 : |x.val| ≤ 8192 := (abs_le.2 hx.2).trans (by norm_num)
  obtain ⟨-, y, -, e, -, h2⟩ := C69_relative_to_8192 x hx.1 h8
  refine ⟨y, e, patDist_le (hR.cos x hx hg) h2 ?_ (γ := 2 ^ (-38 : ℤ)) (by norm_num) (by norm_num) (by norm_num) (by norm_num)⟩
  rcases hg with h | h
  · have : x.real = 0 := by unfold FP.real; rw [h]; norm_num
    rw [this, Real.cos_zero]; exact one_ne_zero
  · exact abs_pos.1 (lt_of_lt_of_le (by positivity) (trig_low64 hx.1 h8 (gap_real h)).2)

theorem C68_tan {R : RefMath b64} (hR : Faithful R 705) (x : FP b64) (hx : In (-5000) 5000 x) (hg : x.val = 0 ∨ 2⁻¹ ^ 64 ≤ |x.val|) :
    ∃ y, Vdt.fast_tan x = some y ∧ patDist (R.tan x) y ≤ 65538 := by
  rcases hg with h | h
  · refine ⟨FP.zero x.sign, ?_, ?_⟩
    · rw [zero_or h]
      have : ∀ t, Vdt.fast_tan (FP.zero t) = some (FP.zero t) := by intro t; cases t <;> decide +kernel
      exact this _
    · rw [zero_or h, (hR.zero_trig _).2]; exact (patDist_self _).trans_le (by omega)
  · have h8 : |x.val| ≤ 8192 := (abs_le.2 hx.2).trans (by norm_num)
    have h0 : (2 : ℚ) ^ (-1024 : ℤ) < |x.val| := by
      refine lt_of_lt_of_le ?_ h
      have : (2 : ℚ) ^ (-1024 : ℤ) < 2 ^ (-64 : ℤ) := zpow_lt_zpow_right₀ (by norm_num) (by norm_num)
      exact this.trans_le (by norm_num)
    have lo := trig_low64 hx.1 h8 (gap_real h)
    obtain ⟨y, e, h2⟩ := C13_tan_relative_to_8192 x hx.1 h0 h8
    refine ⟨y, e, patDist_le (hR.tan x hx h) h2 ?_ (γ := 2 ^ (-37 : ℤ)) (by norm_num) (by norm_num) (by norm_num) (by norm_num)⟩
    exact abs_pos.1 (lt_of_lt_of_le (by positivity) (tan_bounds lo.1 lo.2).1)

theorem below_one {x : FP b64} (h : In (-1) 1 x) (h1 : x.val ≠ 1) : x.val ≤ 1 - 1 / 2 ^ 53 := by
  by_contra hc
  push Not at hc
  have hp : 0 < x.val := lt_of_le_of_lt (by norm_num) hc
  have e1 := abs_val x
  rw [abs_of_pos hp] at e1
  have hl : x.val < 1 := lt_of_le_of_ne h.2.2 h1
  have e2 : magVal b64 (1023 * 2 ^ 52) = 1 := by decide +kernel
  have e3 : magVal b64 (1023 * 2 ^ 52 - 1) = 1 - 1 / 2 ^ 53 := by decide +kernel
  rw [e1, ← e2] at hl
  rw [e1, ← e3] at hc
  have a := (magVal_lt (f := b64)).1 hl
  have b := (magVal_lt (f := b64)).1 hc
  omega

theorem C68_acos {R : RefMath b64} (hR : Faithful R 705) (x : FP b64) (hx : In (-1) 1 x) :
    patDist (R.acos x) (Vdt.fast_acos x) ≤ 536870946 := by
  by_cases h : x.val = 1
  · have e : x = lit 1 := eq_of_val_ne (by rw [h]; exact one_ne_zero) (by rw [h]; decide +kernel)
    rw [e, hR.acos_one]
    have : Vdt.fast_acos (lit 1) = pzero := by decide +kernel
    rw [this]; exact (patDist_self _).trans_le (by omega)
  · have d : x.real ≤ 1 - 1 / 2 ^ 53 := by
      have := (Rat.cast_le (K := ℝ)).2 (below_one hx h)
      push_cast at this; exact this
    have x1 : -1 ≤ x.real := by unfold FP.real; exact_mod_cast hx.2.1
    have l := arccos_low x1 (d.trans (by norm_num)) (d := 2⁻¹ ^ 26) (by positivity) (by norm_num at d ⊢; linarith)
    have l0 : 0 < Real.arccos x.real := lt_of_lt_of_le (by positivity) l
    have a := (C27_acos_accurate x hx.1 (abs_le.2 hx.2)).1
    refine patDist_le (hR.acos x hx h) ⟨a.1, a.2.trans ?_⟩ l0.ne' (γ := 2 ^ (-24 : ℤ)) (α := 2 ^ (-(b64.mb : ℤ))) (β := 2 ^ (-24 : ℤ)) (by norm_num) le_rfl (by norm_num) (by norm_num)
    rw [abs_of_pos l0]
    refine le_trans ?_ (mul_le_mul_of_nonneg_left l (by norm_num))
    norm_num

theorem C68_atan2 {R : RefMath b64} (hR : Faithful R 705) (y x : FP b64) (hy : In (-1) 1 y) (hx : In (-1) 1 x)
    (gy : y = FP.zero false ∨ 2⁻¹ ^ 64 ≤ |y.val|) (gx : x = FP.zero false ∨ 2⁻¹ ^ 64 ≤ |x.val|) :
    patDist (R.atan2 y x) (Vdt.fast_atan2 y x) ≤ 10 := by
  have z0 : (FP.zero false : FP b64).val = 0 := val_eq_zero.2 rfl
  have ya : |y.real| ≤ 1 := by
    have := (Rat.cast_le (K := ℝ)).2 (abs_le.2 hy.2)
    push_cast at this; exact this
  have xa : |x.real| ≤ 1 := by
    have := (Rat.cast_le (K := ℝ)).2 (abs_le.2 hx.2)
    push_cast at this; exact this
  have main : 2⁻¹ ^ 64 ≤ |y.val| ∨ y = FP.zero false ∧ x.val < 0 → (2 : ℝ)⁻¹ ^ 65 ≤ |Complex.arg ⟨x.real, y.real⟩| → x.val ≠ 0 ∨ y.val ≠ 0 →
      patDist (R.atan2 y x) (Vdt.fast_atan2 y x) ≤ 10 := by
    intro h hl hne
    obtain ⟨a1, -, a3, -⟩ := C22_atan2_accurate y x hy.1 hx.1 hne
    refine patDist_le (hR.atan2 y x hy hx h) ⟨a1, rel_of_abs a3 hl (by positivity)⟩ (abs_pos.1 (lt_of_lt_of_le (by positivity) hl))
      (γ := 2 ^ (-49 : ℤ)) (by norm_num) ?_ (by norm_num) ?_
    · have h1 : (2 : ℝ) ^ (-1072 : ℤ) ≤ 2 ^ (-200 : ℤ) := zpow_le_zpow_right₀ (by norm_num) (by norm_num)
      have h2 : (2 : ℝ) ^ (-50 : ℤ) + 2 ^ (-200 : ℤ) * 2 ^ 65 ≤ 2 ^ (-49 : ℤ) := by norm_num
      have := mul_le_mul_of_nonneg_right h1 (show (0 : ℝ) ≤ 2 ^ 65 by positivity)
      linarith
    · have h1 : (2 : ℝ) ^ (-1072 : ℤ) ≤ 2 ^ (-200 : ℤ) := zpow_le_zpow_right₀ (by norm_num) (by norm_num)
      have h2 : 2 ^ (b64.mb + 1) * ((2 : ℝ) ^ (-(b64.mb : ℤ)) + (2 ^ (-50 : ℤ) + 2 ^ (-200 : ℤ) * 2 ^ 65)) < ((10 : ℕ) + 1) * (1 - 2 ^ (-49 : ℤ)) := by
        norm_num
      refine lt_of_le_of_lt (mul_le_mul_of_nonneg_left ?_ (by positivity)) h2
      have := mul_le_mul_of_nonneg_right h1 (show (0 : ℝ) ≤ 2 ^ 65 by positivity)
      linarith
  rcases gy with rfl | h
  · rcases lt_or_ge x.val 0 with hn | hn
    · have e : Complex.arg ⟨x.real, (FP.zero false : FP b64).real⟩ = Real.pi := by
        rw [Complex.arg_eq_pi_iff]
        refine ⟨?_, ?_⟩
        · show ((x.val : ℚ) : ℝ) < 0
          exact_mod_cast hn
        · show (((FP.zero false : FP b64).val : ℚ) : ℝ) = 0
          rw [z0]; norm_num
      refine main (Or.inr ⟨rfl, hn⟩) ?_ (Or.inl hn.ne)
      rw [e, abs_of_pos Real.pi_pos]
      exact le_trans (by norm_num) Real.two_le_pi
    · have hs : x.sign = false := by
        rcases gx with rfl | g
        · rfl
        · by_contra hc
          rw [Bool.not_eq_false] at hc
          have e1 := abs_val x
          have : x.val = -magVal b64 x.mag := by unfold FP.val; rw [hc]; simp
          rw [abs_of_nonneg hn] at g e1
          have : (0 : ℚ) < x.val := lt_of_lt_of_le (by positivity) g
          linarith
      have hlt : FP.lt x (FP.zero false) = false := by
        rw [lt_fin hx.1 (zero_finite _), z0]
        exact decide_eq_false (not_lt.2 hn)
      rw [hR.atan2_zero x hx hs, C23_atan2_y_zero_partial _ x rfl, hlt]
      exact (patDist_self _).trans_le (by omega)
  · refine main (Or.inl h) ?_ (Or.inr ?_)
    · refine le_trans ?_ (arg_low xa ya)
      have := gap_real h
      refine le_trans ?_ (div_le_div_of_nonneg_right this (by norm_num))
      norm_num
    · intro hc
      rw [hc, abs_zero] at h
      exact absurd h (by norm_num)

/-! ### The inverse square root, whose reference is computed with `/` and `sqrt` -/

theorem isqrt_ref {f : Fmt} [f.Ok] (hE : f.emin ≤ -(f.mb : ℤ) - 2) (hu : f.u ≤ 1 / 1000) (he : f.eta ≤ f.u / 1000) (hb : 1000 ≤ f.big)
    (h1 : (lit 1 : FP f).isFinite = true ∧ (lit 1 : FP f).val = 1) {x : FP f} (hx : In (99 / 10 ^ 6) 5000 x) :
    (FP.div (lit 1) (FP.sqrt x)).CloseRel (1 / Real.sqrt x.real) (4 * f.u) := by
  have h0 : 0 < x.val := lt_of_lt_of_le (by norm_num) hx.2.1
  obtain ⟨s1, s2, s3⟩ := sqrt_err hE hx.1 h0
  have u0 : (0 : ℝ) ≤ f.u := by exact_mod_cast f.u_pos.le
  have u1 : (f.u : ℝ) ≤ 1 / 1000 := by
    have := (Rat.cast_le (K := ℝ)).2 hu
    push_cast at this; exact this
  have x1 : (99 / 10 ^ 6 : ℝ) ≤ x.real := by
    have := (Rat.cast_le (K := ℝ)).2 hx.2.1
    push_cast at this; exact this
  have x2 : x.real ≤ (5000 : ℝ) := by unfold FP.real; exact_mod_cast hx.2.2
  set S := √x.real with hS
  have S1 : 0.009 ≤ S := Real.le_sqrt_of_sq_le (by norm_num; linarith)
  have S2 : S ≤ 100 := Real.sqrt_le_iff.2 ⟨by norm_num, by linarith⟩
  have SU : f.u * S ≤ S / 1000 := by nlinarith
  obtain ⟨l1, l2⟩ := abs_le.1 s3
  have s0 : 0.999 * S ≤ (FP.sqrt x).real := by linarith
  have s4 : (FP.sqrt x).real ≤ 1.001 * S := by linarith
  have sp : 0 < (FP.sqrt x).real := by linarith
  have vp : 0 < (FP.sqrt x).val := by unfold FP.real at sp; exact_mod_cast sp
  have q1 : 1 / (FP.sqrt x).real ≤ 1000 := by rw [div_le_iff₀ sp]; linarith
  have q2 : 1 / 1000 ≤ 1 / (FP.sqrt x).real := by rw [div_le_div_iff₀ (by norm_num) sp]; linarith
  have q1' : 1 / (FP.sqrt x).val ≤ 1000 := by unfold FP.real at q1; exact_mod_cast q1
  have q2' : 1 / 1000 ≤ 1 / (FP.sqrt x).val := by
    refine (Rat.cast_le (K := ℝ)).1 ?_
    push_cast; exact q2
  have qa : |1 / (FP.sqrt x).val| = 1 / (FP.sqrt x).val := abs_of_pos (by positivity)
  obtain ⟨d1, d2⟩ := div_spec (x := lit 1) h1.1 s1 vp.ne' (by rw [h1.2, qa]; exact q1'.trans hb)
  refine ⟨d1, ?_⟩
  have e := rnd_err_rel f (q := 1 / (FP.sqrt x).val) (by rw [qa]; exact q1'.trans hb)
  rw [h1.2] at d2
  rw [← d2, qa] at e
  have e2 : max (f.u * (1 / (FP.sqrt x).val)) f.eta ≤ f.u * (1 / (FP.sqrt x).val) := by
    refine max_le le_rfl (he.trans ?_)
    have := mul_le_mul_of_nonneg_left q2' f.u_pos.le
    linarith
  have e3 : |(FP.div (lit 1) (FP.sqrt x)).real - 1 / (FP.sqrt x).real| ≤ f.u * (1 / (FP.sqrt x).real) := by
    have := e.trans e2
    unfold FP.real
    exact_mod_cast this
  have Sp : 0 < S := by linarith
  have e4 : |1 / (FP.sqrt x).real - 1 / S| ≤ f.u * (1 / (FP.sqrt x).real) := by
    have : 1 / (FP.sqrt x).real - 1 / S = (S - (FP.sqrt x).real) / ((FP.sqrt x).real * S) := by field_simp
    rw [this, abs_div, abs_of_pos (mul_pos sp Sp), abs_sub_comm, div_le_iff₀ (mul_pos sp Sp)]
    refine s3.trans (le_of_eq ?_)
    field_simp
  have e5 : 1 / (FP.sqrt x).real ≤ 2 * (1 / S) := by
    rw [div_le_iff₀ sp]
    have : (1 / S) * S = 1 := by field_simp
    have h9 : (1 / S) * (0.999 * S) ≤ (1 / S) * (FP.sqrt x).real := mul_le_mul_of_nonneg_left s0 (by positivity)
    linarith
  have e6 := abs_sub_le (FP.div (lit 1) (FP.sqrt x)).real (1 / (FP.sqrt x).real) (1 / S)
  have e7 := mul_le_mul_of_nonneg_left e5 u0
  rw [abs_of_pos (show 0 < 1 / S by positivity)]
  linarith

theorem C68_isqrt (x : F64) (hx : In (99 / 10 ^ 6) 5000 x) : patDist (Vdt.isqrt x) (Vdt.fast_isqrt x) ≤ 12 := by
  obtain ⟨hn, h0⟩ := pos_normal hx
  have h1 := isqrt_ref (f := b64) (by decide +kernel) (by decide +kernel) (by decide +kernel) (by decide +kernel) (by decide +kernel) hx
  have S0 : 0 < Real.sqrt x.real := Real.sqrt_pos.2 (by unfold FP.real; exact_mod_cast h0)
  refine patDist_le (a := Vdt.isqrt x) h1 (C29_isqrt_accurate hn h0).1 (by positivity) (γ := 2⁻¹ ^ 50) ?_ le_rfl (by norm_num) ?_
  all_goals rw [u64_val]; norm_num

/-- Inputs of the pools; the distances 1 and 2 occur. -/
example : In (99 / 10 ^ 6) 5000 (lit 4999 : F64) ∧ patDist (Vdt.isqrt (lit 4999)) (Vdt.fast_isqrt (lit 4999)) = 2 ∧
    patDist (Vdt.isqrt (lit 2)) (Vdt.fast_isqrt (lit 2)) = 1 ∧ In (-705) 705 (lit 1.5 : F64) ∧ In (-1) 1 (lit 0.3 : F64) ∧
    2⁻¹ ^ 64 ≤ |(lit (-4000.5) : F64).val| := by
  unfold In; decide +kernel

/-! ### Distances, single precision -/

theorem C68_expf {R : RefMath b32} (hR : Faithful R 85) (x : F32) (hx : In (-85) 85 x) :
    ∃ y, Vdt.fast_expf x = some y ∧ patDist (R.exp x) y ≤ 6 := by
  obtain ⟨y, h1, -, h2⟩ := C03_expf_accurate x hx.1 (le_trans (by norm_num) hx.2.1) (hx.2.2.trans (by norm_num))
  exact ⟨y, h1, patDist_le (hR.exp x hx) h2 (Real.exp_pos _).ne' (γ := 2 ^ (-22 : ℤ)) (by norm_num) le_rfl (by norm_num) (by norm_num)⟩

theorem C68_logf {R : RefMath b32} (hR : Faithful R 85) (x : F32) (hx : In (99 / 10 ^ 6) 5000 x) :
    patDist (R.log x) (Vdt.fast_logf x) ≤ 6 := by
  obtain ⟨hn, h0⟩ := pos_normalf hx
  by_cases h : x.val = 1
  · have e : x = lit 1 := eq_of_val_ne h0.ne' (by rw [h]; decide +kernel)
    rw [e, hR.log_one]
    have : Vdt.fast_logf (lit 1) = pzero := by decide +kernel
    rw [this, patDist_self]; omega
  · exact patDist_le (hR.log x hx) (C07_logf_accurate x hn h0) (log_ne h0 h)
      (γ := 2 ^ (-22 : ℤ)) (by norm_num) le_rfl (by norm_num) (by norm_num)

theorem C68_tanhf {R : RefMath b32} (hR : Faithful R 85) (x : F32) (hx : x.isFinite = true) (hg : x.val = 0 ∨ 2⁻¹ ^ 64 ≤ |x.val|) :
    patDist (R.tanh x) (Vdt.fast_tanhf x) ≤ 18 := by
  rcases hg with h | h
  · rw [zero_or h, (hR.zero _).1]
    have : ∀ s, Vdt.fast_tanhf (FP.zero s) = FP.zero s := by intro s; cases s <;> decide +kernel
    rw [this, patDist_self]; omega
  · have hl := tanh_low (gap_real h)
    refine patDist_le (hR.tanh x hx h) ⟨Bench.tanh32_fin hx, rel_of_abs (C18_tanhf_accurate x hx) hl (by positivity)⟩ ?_
      (γ := 2 ^ (-19 : ℤ)) (by norm_num) (by norm_num) (by norm_num) (by norm_num)
    exact abs_pos.1 (lt_of_lt_of_le (by positivity) hl)

theorem C68_asinf {R : RefMath b32} (hR : Faithful R 85) (x : F32) (hx : In (-1) 1 x) : patDist (R.asin x) (Vdt.fast_asinf x) ≤ 18 := by
  by_cases h : x.val = 0
  · rw [zero_or h, (hR.zero _).2.1, (C25_asin_zero _).2, patDist_self]; omega
  · exact patDist_le (hR.asin x hx) (C28_asinf_accurate x hx.1 (abs_le.2 hx.2)).1 (arcsin_ne h)
      (γ := 2 ^ (-20 : ℤ)) (by norm_num) le_rfl (by norm_num) (by norm_num)

theorem C68_atanf {R : RefMath b32} (hR : Faithful R 85) (x : F32) (hx : x.isFinite = true) (hg : x.val = 0 ∨ 2⁻¹ ^ 64 ≤ |x.val|) :
    patDist (R.atan x) (Vdt.fast_atanf x) ≤ 10 := by
  rcases hg with h | h
  · rw [zero_or h, (hR.zero _).2.2]
    have : ∀ s, Vdt.fast_atanf (FP.zero s) = FP.zero s := by intro s; cases s <;> decide +kernel
    rw [this, patDist_self]; omega
  · have hl := arctan_low (gap_real h)
    refine patDist_le (hR.atan x hx h) ⟨(C21_atanf_accurate x hx).1, rel_of_abs (C21_atanf_accurate x hx).2.2 hl (by positivity)⟩ ?_
      (γ := 2 ^ (-20 : ℤ)) (by norm_num) (by norm_num) (by norm_num) (by norm_num)
    exact abs_pos.1 (lt_of_lt_of_le (by positivity) hl)

theorem C68_sinf {R : RefMath b32} (hR : Faithful R 85) (x : FP b32) (hx : In (-5000) 5000 x) (hg : x = FP.zero false ∨ 2⁻¹ ^ 64 ≤ |x.val|) :
    ∃ y, Vdt.fast_sinf x = some y ∧ patDist (R.sin x) y ≤ 16402 := by
  rcases hg with h | h
  · refine ⟨FP.zero false, by rw [h]; decide +kernel, ?_⟩
    rw [h, (hR.zero_trig _).1]; exact (patDist_self _).trans_le (by omega)
  · have h8 : |x.val| ≤ 8192 := (abs_le.2 hx.2).trans (by norm_num)
    obtain ⟨y, -, e, -, h2, -⟩ := C69_relativef x hx.1 h8
    refine ⟨y, e, patDist_le (hR.sin x hx h) h2 ?_ (γ := 2 ^ (-10 : ℤ)) (by norm_num) (by norm_num) (by norm_num) (by norm_num)⟩
    exact abs_pos.1 (lt_of_lt_of_le (by positivity) (trig_low32 hx.1 h8 (gap_real h)).1)

theorem C68_cosf {R : RefMath b32} (hR : Faithful R 85) (x : FP b32) (hx : In (-5000) 5000 x) (hg : x.val = 0 ∨ 2⁻¹ ^ 64 ≤ |x.val|) :
    ∃ y, Vdt.fast_cosf x = some y ∧ patDist (R.cos x) y ≤ 16402 := by
  have h8 : |x.val| ≤ 8192 := (abs_le.2 hx.2).trans (by norm_num)
  obtain ⟨-, y, -, e, -, h2⟩ := C69_relativef x hx.1 h8
  refine ⟨y, e, patDist_le (hR.cos x hx hg) h2 ?_ (γ := 2 ^ (-10 : ℤ)) (by norm_num) (by norm_num) (by norm_num) (by norm_num)⟩
  rcases hg with h | h
  · have : x.real = 0 := by unfold FP.real; rw [h]; norm_num
    rw [this, Real.cos_zero]; exact one_ne_zero
  · exact abs_pos.1 (lt_of_lt_of_le (by positivity) (trig_low32 hx.1 h8 (gap_real h)).2)

theorem C68_tanf {R : RefMath b32} (hR : Faithful R 85) (x : FP b32) (hx : In (-5000) 5000 x) (hg : x.val = 0 ∨ 2⁻¹ ^ 64 ≤ |x.val|) :
    ∃ y, Vdt.fast_tanf x = some y ∧ patDist (R.tan x) y ≤ 32834 := by
  rcases hg with h | h
  · refine ⟨FP.zero x.sign, ?_, ?_⟩
    · rw [zero_or h]
      have : ∀ t, Vdt.fast_tanf (FP.zero t) = some (FP.zero t) := by intro t; cases t <;> decide +kernel
      exact this _
    · rw [zero_or h, (hR.zero_trig _).2]; exact (patDist_self _).trans_le (by omega)
  · have h8 : |x.val| ≤ 8192 := (abs_le.2 hx.2).trans (by norm_num)
    have h0 : (2 : ℚ) ^ (-128 : ℤ) < |x.val| := by
      refine lt_of_lt_of_le ?_ h
      have : (2 : ℚ) ^ (-128 : ℤ) < 2 ^ (-64 : ℤ) := zpow_lt_zpow_right₀ (by norm_num) (by norm_num)
      exact this.trans_le (by norm_num)
    have lo := trig_low32 hx.1 h8 (gap_real h)
    obtain ⟨y, e, hf, -, h2⟩ := C15_tanf_accurate x hx.1 h0 h8
    refine ⟨y, e, patDist_le (hR.tan x hx h) ⟨hf, h2⟩ ?_ (γ := 2 ^ (-9 : ℤ)) (by norm_num) (by norm_num) (by norm_num) (by norm_num)⟩
    exact abs_pos.1 (lt_of_lt_of_le (by positivity) (tan_bounds lo.1 lo.2).1)

theorem below_onef {x : FP b32} (h : In (-1) 1 x) (h1 : x.val ≠ 1) : x.val ≤ 1 - 1 / 2 ^ 24 := by
  by_contra hc
  push Not at hc
  have hp : 0 < x.val := lt_of_le_of_lt (by norm_num) hc
  have e1 := abs_val x
  rw [abs_of_pos hp] at e1
  have hl : x.val < 1 := lt_of_le_of_ne h.2.2 h1
  have e2 : magVal b32 (127 * 2 ^ 23) = 1 := by decide +kernel
  have e3 : magVal b32 (127 * 2 ^ 23 - 1) = 1 - 1 / 2 ^ 24 := by decide +kernel
  rw [e1, ← e2] at hl
  rw [e1, ← e3] at hc
  have a := (magVal_lt (f := b32)).1 hl
  have b := (magVal_lt (f := b32)).1 hc
  omega

theorem C68_acosf {R : RefMath b32} (hR : Faithful R 85) (x : FP b32) (hx : In (-1) 1 x) :
    patDist (R.acos x) (Vdt.fast_acosf x) ≤ 46476 := by
  by_cases h : x.val = 1
  · have e : x = lit 1 := eq_of_val_ne (by rw [h]; exact one_ne_zero) (by rw [h]; decide +kernel)
    rw [e, hR.acos_one]
    have : Vdt.fast_acosf (lit 1) = pzero := by decide +kernel
    rw [this]; exact (patDist_self _).trans_le (by omega)
  · have d : x.real ≤ 1 - 1 / 2 ^ 24 := by
      have := (Rat.cast_le (K := ℝ)).2 (below_onef hx h)
      push_cast at this; exact this
    have x1 : -1 ≤ x.real := by unfold FP.real; exact_mod_cast hx.2.1
    have l := arccos_low x1 (d.trans (by norm_num)) (d := 2896 / 2 ^ 23) (by positivity) (by norm_num at d ⊢; linarith)
    have l0 : 0 < Real.arccos x.real := lt_of_lt_of_le (by positivity) l
    have a := (C28_acosf_accurate x hx.1 (abs_le.2 hx.2)).1
    refine patDist_le (hR.acos x hx h) ⟨a.1, a.2.trans ?_⟩ l0.ne' (γ := 1 / 362) (α := 2 ^ (-(b32.mb : ℤ))) (β := 1 / 362) (by norm_num) le_rfl (by norm_num) (by norm_num)
    rw [abs_of_pos l0]
    refine le_trans ?_ (mul_le_mul_of_nonneg_left l (by norm_num))
    norm_num

theorem C68_atan2f {R : RefMath b32} (hR : Faithful R 85) (y x : FP b32) (hy : In (-1) 1 y) (hx : In (-1) 1 x)
    (gy : y = FP.zero false ∨ 2⁻¹ ^ 64 ≤ |y.val|) (gx : x = FP.zero false ∨ 2⁻¹ ^ 64 ≤ |x.val|) :
    patDist (R.atan2 y x) (Vdt.fast_atan2f y x) ≤ 18 := by
  have z0 : (FP.zero false : FP b32).val = 0 := val_eq_zero.2 rfl
  have ya : |y.real| ≤ 1 := by
    have := (Rat.cast_le (K := ℝ)).2 (abs_le.2 hy.2)
    push_cast at this; exact this
  have xa : |x.real| ≤ 1 := by
    have := (Rat.cast_le (K := ℝ)).2 (abs_le.2 hx.2)
    push_cast at this; exact this
  have main : 2⁻¹ ^ 64 ≤ |y.val| ∨ y = FP.zero false ∧ x.val < 0 → (2 : ℝ)⁻¹ ^ 65 ≤ |Complex.arg ⟨x.real, y.real⟩| → x.val ≠ 0 ∨ y.val ≠ 0 →
      patDist (R.atan2 y x) (Vdt.fast_atan2f y x) ≤ 18 := by
    intro h hl hne
    obtain ⟨a1, -, a3, -⟩ := C24_atan2f_accurate y x hy.1 hx.1 hne
    refine patDist_le (hR.atan2 y x hy hx h) ⟨a1, rel_of_abs a3 hl (by positivity)⟩ (abs_pos.1 (lt_of_lt_of_le (by positivity) hl))
      (γ := 2 ^ (-19 : ℤ)) (by norm_num) ?_ (by norm_num) ?_
    · norm_num
    · norm_num
  rcases gy with rfl | h
  · rcases lt_or_ge x.val 0 with hn | hn
    · have e : Complex.arg ⟨x.real, (FP.zero false : FP b32).real⟩ = Real.pi := by
        rw [Complex.arg_eq_pi_iff]
        refine ⟨?_, ?_⟩
        · show ((x.val : ℚ) : ℝ) < 0
          exact_mod_cast hn
        · show (((FP.zero false : FP b32).val : ℚ) : ℝ) = 0
          rw [z0]; norm_num
      refine main (Or.inr ⟨rfl, hn⟩) ?_ (Or.inl hn.ne)
      rw [e, abs_of_pos Real.pi_pos]
      exact le_trans (by norm_num) Real.two_le_pi
    · have hs : x.sign = false := by
        rcases gx with rfl | g
        · rfl
        · by_contra hc
          rw [Bool.not_eq_false] at hc
          have e1 := abs_val x
          have : x.val = -magVal b32 x.mag := by unfold FP.val; rw [hc]; simp
          rw [abs_of_nonneg hn] at g e1
          have : (0 : ℚ) < x.val := lt_of_lt_of_le (by positivity) g
          linarith
      have hlt : FP.lt x (FP.zero false) = false := by
        rw [lt_fin hx.1 (zero_finite _), z0]
        exact decide_eq_false (not_lt.2 hn)
      rw [hR.atan2_zero x hx hs, C23_atan2f_y_zero_partial _ x rfl, hlt]
      exact (patDist_self _).trans_le (by omega)
  · refine main (Or.inl h) ?_ (Or.inr ?_)
    · refine le_trans ?_ (arg_low xa ya)
      have := gap_real h
      refine le_trans ?_ (div_le_div_of_nonneg_right this (by norm_num))
      norm_num
    · intro hc
      rw [hc, abs_zero] at h
      exact absurd h (by norm_num)

theorem C68_isqrtf (x : F32) (hx : In (99 / 10 ^ 6) 5000 x) : patDist (Vdt.isqrtf x) (Vdt.fast_isqrtf x) ≤ 132 := by
  obtain ⟨hn, h0⟩ := pos_normalf hx
  have h1 := isqrt_ref (f := b32) (by decide +kernel) (by decide +kernel) (by decide +kernel) (by decide +kernel) (by decide +kernel) hx
  have S0 : 0 < Real.sqrt x.real := Real.sqrt_pos.2 (by unfold FP.real; exact_mod_cast h0)
  refine patDist_le (a := Vdt.isqrtf x) h1 (C30_isqrtf_accurate hn h0).1 (by positivity) (γ := 2⁻¹ ^ 17) ?_ le_rfl (by norm_num) ?_
  all_goals rw [u32_val]; norm_num

/-- Inputs of the pools; the distance 36 occurs. -/
example : In (99 / 10 ^ 6) 5000 (lit 1000 : F32) ∧ patDist (Vdt.isqrtf (lit 1000)) (Vdt.fast_isqrtf (lit 1000)) = 36 ∧
    In (-85) 85 (lit 1.5 : F32) ∧ In (-1) 1 (lit 0.3 : F32) ∧ 2⁻¹ ^ 64 ≤ |(lit (-4000.5) : F32).val| := by
  unfold In; decide +kernel

/-! ### The comparison files -/

/-- The function and the largest number of bits, double precision. -/
def bits64 : List (Text × ℕ) := [(‹"Exp"›, 3), (‹"Log"›, 3), (‹"Sin"›, 16), (‹"Cos"›, 16), (‹"Tan"›, 17), (‹"Tanh"›, 5),
  (‹"Asin"›, 3), (‹"Acos"›, 30), (‹"Atan"›, 3), (‹"Isqrt"›, 4)]

/-- The function and the largest number of bits, single precision. -/
def bits32 : List (Text × ℕ) := [(‹"Expf"›, 3), (‹"Logf"›, 3), (‹"Sinf"›, 15), (‹"Cosf"›, 15), (‹"Tanf"›, 16), (‹"Tanhf"›, 5),
  (‹"Asinf"›, 5), (‹"Acosf"›, 16), (‹"Atanf"›, 4), (‹"Isqrtf"›, 8)]

theorem BitDiff.le {f : Fmt} {z n k : ℕ} {a b : FP f} (h : BitDiff z a b n) (hk : k ≤ 45) (hp : patDist a b < 2 ^ k) : n ≤ max z k := by
  by_cases e : a = b
  · rw [h.equal e]; exact le_max_left _ _
  · have h1 := (h.near e (hp.trans_le (Nat.pow_le_pow_right (by omega) hk))).2 (h.pos e)
    have h2 : 2 ^ (n - 1) < 2 ^ k := h1.trans_lt hp
    have h3 := (Nat.pow_lt_pow_iff_right (by omega : 1 < 2)).1 h2
    exact le_max_of_le_right (by omega)

theorem pool_length {f : Fmt} (eng : Engine) (a b : FP f) (SIZE : BitVec 32) : (pool1D eng a b (SIZE.setWidth 64)).length = SIZE.toNat := by
  have hz : (SIZE.setWidth 64).toNat = SIZE.toNat := by
    rw [BitVec.toNat_setWidth]; exact Nat.mod_eq_of_lt (by have := SIZE.isLt; omega)
  unfold pool1D fillVector; simp [hz]

/-- What the two files of a pair say about the distance of the outputs. -/
def Pair {f : Fmt} (l : List (Spec f)) (size : ℕ) (p : Text × ℕ) : Prop :=
  ∃ s ∈ l, ∃ t ∈ l, s.name = p.1 ∧ t.name = ‹"Fast_"› ++ s.name ∧ s.input.length = size ∧ p.2 ≤ 45 ∧
    ∀ x y0 y, s.rel x y0 → t.rel x y → patDist y0 y < 2 ^ p.2

theorem pairs64 {R : RefMath b64} (hR : Faithful R 705) (eng : Engine) (SIZE : BitVec 32) :
    ∀ p ∈ bits64, Pair (spec64 R eng (SIZE.setWidth 64)) SIZE.toNat p := by
  have key : ∀ (i j : ℕ) (hi : i < 25) (hj : j < 25) (n : Text) (k : ℕ), ((spec64 R eng (SIZE.setWidth 64))[i]'hi).name = n →
      ((spec64 R eng (SIZE.setWidth 64))[j]'hj).name = ‹"Fast_"› ++ n → ((spec64 R eng (SIZE.setWidth 64))[i]'hi).input.length = SIZE.toNat →
      k ≤ 45 → (∀ x y0 y, ((spec64 R eng (SIZE.setWidth 64))[i]'hi).rel x y0 → ((spec64 R eng (SIZE.setWidth 64))[j]'hj).rel x y → patDist y0 y < 2 ^ k) →
      Pair (spec64 R eng (SIZE.setWidth 64)) SIZE.toNat (n, k) :=
    fun i j hi hj n k a b c d e => ⟨_, List.getElem_mem hi, _, List.getElem_mem hj, a, by rw [a]; exact b, c, d, e⟩
  simp only [bits64, List.forall_mem_cons, List.not_mem_nil, false_imp_iff, implies_true, and_true]
  refine ⟨key 1 12 (by decide) (by decide) _ _ rfl ?_ (pool_length ..) (by decide) ?_,
    key 2 13 (by decide) (by decide) _ _ rfl ?_ (pool_length ..) (by decide) ?_,
    key 3 14 (by decide) (by decide) _ _ rfl ?_ (pool_length ..) (by decide) ?_,
    key 4 15 (by decide) (by decide) _ _ rfl ?_ (pool_length ..) (by decide) ?_,
    key 5 16 (by decide) (by decide) _ _ rfl ?_ (pool_length ..) (by decide) ?_,
    key 6 17 (by decide) (by decide) _ _ rfl ?_ (pool_length ..) (by decide) ?_,
    key 7 18 (by decide) (by decide) _ _ rfl ?_ (pool_length ..) (by decide) ?_,
    key 8 19 (by decide) (by decide) _ _ rfl ?_ (pool_length ..) (by decide) ?_,
    key 9 20 (by decide) (by decide) _ _ rfl ?_ (pool_length ..) (by decide) ?_,
    key 10 21 (by decide) (by decide) _ _ rfl ?_ (pool_length ..) (by decide) ?_⟩
  · show ‹"Fast_Exp"› = _; decide
  · rintro x y0 y ⟨h1, rfl⟩ ⟨-, h2, -⟩
    obtain ⟨y', h3, h4⟩ := C68_exp hR x h1
    obtain rfl : y' = y := Option.some.inj (h3.symm.trans h2)
    omega
  · show ‹"Fast_Log"› = _; decide
  · rintro x y0 y ⟨h1, rfl⟩ ⟨-, rfl, -⟩
    have := C68_log hR x h1; omega
  · show ‹"Fast_Sin"› = _; decide
  · rintro x y0 y ⟨h1, rfl⟩ ⟨-, h2, h3, -⟩
    obtain ⟨y', h4, h5⟩ := C68_sin hR x h1 h2
    obtain rfl : y' = y := Option.some.inj (h4.symm.trans h3)
    omega
  · show ‹"Fast_Cos"› = _; decide
  · rintro x y0 y ⟨h1, rfl⟩ ⟨-, h2, h3, -⟩
    obtain ⟨y', h4, h5⟩ := C68_cos hR x h1 (h2.imp_left Bench.val_of_zero)
    obtain rfl : y' = y := Option.some.inj (h4.symm.trans h3)
    omega
  · show ‹"Fast_Tan"› = _; decide
  · rintro x y0 y ⟨h1, rfl⟩ ⟨-, h2, h3, -⟩
    obtain ⟨y', h4, h5⟩ := C68_tan hR x h1 (h2.imp_left Bench.val_of_zero)
    obtain rfl : y' = y := Option.some.inj (h4.symm.trans h3)
    omega
  · show ‹"Fast_Tanh"› = _; decide
  · rintro x y0 y ⟨h1, rfl⟩ ⟨-, h2, rfl, -⟩
    have := C68_tanh hR x h1.1 (h2.imp_left Bench.val_of_zero); omega
  · show ‹"Fast_Asin"› = _; decide
  · rintro x y0 y ⟨h1, rfl⟩ ⟨-, rfl, -⟩
    have := C68_asin hR x h1; omega
  · show ‹"Fast_Acos"› = _; decide
  · rintro x y0 y ⟨h1, rfl⟩ ⟨-, rfl, -⟩
    have := C68_acos hR x h1; omega
  · show ‹"Fast_Atan"› = _; decide
  · rintro x y0 y ⟨h1, rfl⟩ ⟨-, h2, rfl, -⟩
    have := C68_atan hR x h1.1 (h2.imp_left Bench.val_of_zero); omega
  · show ‹"Fast_Isqrt"› = _; decide
  · intro x y0 y h1 h2
    have g1 : y0 = Vdt.isqrt x := h1.2
    have g2 : y = Vdt.fast_isqrt x := h2.2.1
    rw [g1, g2]
    exact lt_of_le_of_lt (C68_isqrt x h1.1) (by norm_num)

theorem pairs32 {R : RefMath b32} (hR : Faithful R 85) (eng : Engine) (SIZE : BitVec 32) :
    ∀ p ∈ bits32, Pair (spec32 R eng (SIZE.setWidth 64)) SIZE.toNat p := by
  have key : ∀ (i j : ℕ) (hi : i < 25) (hj : j < 25) (n : Text) (k : ℕ), ((spec32 R eng (SIZE.setWidth 64))[i]'hi).name = n →
      ((spec32 R eng (SIZE.setWidth 64))[j]'hj).name = ‹"Fast_"› ++ n → ((spec32 R eng (SIZE.setWidth 64))[i]'hi).input.length = SIZE.toNat →
      k ≤ 45 → (∀ x y0 y, ((spec32 R eng (SIZE.setWidth 64))[i]'hi).rel x y0 → ((spec32 R eng (SIZE.setWidth 64))[j]'hj).rel x y → patDist y0 y < 2 ^ k) →
      Pair (spec32 R eng (SIZE.setWidth 64)) SIZE.toNat (n, k) :=
    fun i j hi hj n k a b c d e => ⟨_, List.getElem_mem hi, _, List.getElem_mem hj, a, by rw [a]; exact b, c, d, e⟩
  simp only [bits32, List.forall_mem_cons, List.not_mem_nil, false_imp_iff, implies_true, and_true]
  refine ⟨key 1 12 (by decide) (by decide) _ _ rfl ?_ (pool_length ..) (by decide) ?_,
    key 2 13 (by decide) (by decide) _ _ rfl ?_ (pool_length ..) (by decide) ?_,
    key 3 14 (by decide) (by decide) _ _ rfl ?_ (pool_length ..) (by decide) ?_,
    key 4 15 (by decide) (by decide) _ _ rfl ?_ (pool_length ..) (by decide) ?_,
    key 5 16 (by decide) (by decide) _ _ rfl ?_ (pool_length ..) (by decide) ?_,
    key 6 17 (by decide) (by decide) _ _ rfl ?_ (pool_length ..) (by decide) ?_,
    key 7 18 (by decide) (by decide) _ _ rfl ?_ (pool_length ..) (by decide) ?_,
    key 8 19 (by decide) (by decide) _ _ rfl ?_ (pool_length ..) (by decide) ?_,
    key 9 20 (by decide) (by decide) _ _ rfl ?_ (pool_length ..) (by decide) ?_,
    key 10 21 (by decide) (by decide) _ _ rfl ?_ (pool_length ..) (by decide) ?_⟩
  · show ‹"Fast_Expf"› = _; decide
  · rintro x y0 y ⟨h1, rfl⟩ ⟨-, h2, -⟩
    obtain ⟨y', h3, h4⟩ := C68_expf hR x h1
    obtain rfl : y' = y := Option.some.inj (h3.symm.trans h2)
    omega
  · show ‹"Fast_Logf"› = _; decide
  · rintro x y0 y ⟨h1, rfl⟩ ⟨-, rfl, -⟩
    have := C68_logf hR x h1; omega
  · show ‹"Fast_Sinf"› = _; decide
  · rintro x y0 y ⟨h1, rfl⟩ ⟨-, h2, h3, -⟩
    obtain ⟨y', h4, h5⟩ := C68_sinf hR x h1 h2
    obtain rfl : y' = y := Option.some.inj (h4.symm.trans h3)
    omega
  · show ‹"Fast_Cosf"› = _; decide
  · rintro x y0 y ⟨h1, rfl⟩ ⟨-, h2, h3, -⟩
    obtain ⟨y', h4, h5⟩ := C68_cosf hR x h1 (h2.imp_left Bench.val_of_zero)
    obtain rfl : y' = y := Option.some.inj (h4.symm.trans h3)
    omega
  · show ‹"Fast_Tanf"› = _; decide
  · rintro x y0 y ⟨h1, rfl⟩ ⟨-, h2, h3, -⟩
    obtain ⟨y', h4, h5⟩ := C68_tanf hR x h1 (h2.imp_left Bench.val_of_zero)
    obtain rfl : y' = y := Option.some.inj (h4.symm.trans h3)
    omega
  · show ‹"Fast_Tanhf"› = _; decide
  · rintro x y0 y ⟨h1, rfl⟩ ⟨-, h2, rfl, -⟩
    have := C68_tanhf hR x h1.1 (h2.imp_left Bench.val_of_zero); omega
  · show ‹"Fast_Asinf"› = _; decide
  · rintro x y0 y ⟨h1, rfl⟩ ⟨-, rfl, -⟩
    have := C68_asinf hR x h1; omega
  · show ‹"Fast_Acosf"› = _; decide
  · rintro x y0 y ⟨h1, rfl⟩ ⟨-, rfl, -⟩
    have := C68_acosf hR x h1; omega
  · show ‹"Fast_Atanf"› = _; decide
  · rintro x y0 y ⟨h1, rfl⟩ ⟨-, h2, rfl, -⟩
    have := C68_atanf hR x h1.1 (h2.imp_left Bench.val_of_zero); omega
  · show ‹"Fast_Isqrtf"› = _; decide
  · intro x y0 y h1 h2
    have g1 : y0 = Vdt.isqrtf x := h1.2
    have g2 : y = Vdt.fast_isqrtf x := h2.2.1
    rw [g1, g2]
    exact lt_of_le_of_lt (C68_isqrtf x h1.1) (by norm_num)

/-- The comparison file in `txt` has `size` rows, no row differs by more than `k` bits, and the maximum in
the header says so. -/
def AtMost (f : Fmt) (size k : ℕ) (txt : Text) : Prop :=
  ∃ st rows, readCmp f 5 ⟨txt, false⟩ = (some st, rows) ∧ rows.length = size ∧ st.1 ≤ k ∧ ∀ r ∈ rows, r.diff ≤ k

theorem atMost_of {f : Fmt} {z size : ℕ} {p : Text × ℕ} {l : List (Spec f)} (h : Pair l size p) {g : Text → Option Text}
    (H : ∀ s ∈ l, ∀ t ∈ l, t.name = ‹"Fast_"› ++ s.name → ∃ txt, g s.name = some txt ∧ Agrees1 z s t txt) :
    ∃ txt, g p.1 = some txt ∧ AtMost f size (max z p.2) txt := by
  obtain ⟨s, hs, t, ht, e1, e2, e3, e4, e5⟩ := h
  obtain ⟨txt, h1, st, rows, h2, h3, h4, h5⟩ := H s hs t ht e2
  have hr : ∀ r ∈ rows, r.diff ≤ max z p.2 := fun r hr => (h4 r hr).2.2.le e4 (e5 _ _ _ (h4 r hr).1 (h4 r hr).2.1)
  refine ⟨txt, e1 ▸ h1, st, rows, h2, by rw [← e3, ← h3, List.length_map], ?_, hr⟩
  obtain ⟨r, hr1, hr2⟩ := List.mem_map.1 h5.max_mem
  rw [← hr2]; exact hr r hr1

/-- The same for the arctangent of two arguments. -/
def AtMost2 (f : Fmt) (size k : ℕ) (txt : Text) : Prop :=
  ∃ st rows, readCmp2 f ⟨txt, false⟩ = (some st, rows) ∧ rows.length = size ∧ st.1 ≤ k ∧ ∀ r ∈ rows, r.diff ≤ k

theorem atMost2_of {f : Fmt} {z size k : ℕ} {std fast : FP f → FP f → FP f} {ε : ℝ} {txt : Text} (hk : k ≤ 45)
    (h : ∀ y x, In (-1) 1 y → In (-1) 1 x → y = FP.zero false ∨ 2⁻¹ ^ 64 ≤ |y.val| → x = FP.zero false ∨ 2⁻¹ ^ 64 ≤ |x.val| →
      patDist (std y x) (fast y x) < 2 ^ k)
    (H : Agrees2 z size std fast ε txt) : AtMost2 f size (max z k) txt := by
  obtain ⟨st, rows, h1, h2, h3, h4⟩ := H
  have hr : ∀ r ∈ rows, r.diff ≤ max z k := fun r hr => by
    obtain ⟨a, b, c, d, e1, e2, -, e3⟩ := h3 r hr
    exact e3.le hk (by rw [e1, e2]; exact h _ _ a b c d)
  refine ⟨st, rows, h1, h2, ?_, hr⟩
  obtain ⟨r, hr1, hr2⟩ := List.mem_map.1 h4.max_mem
  rw [← hr2]; exact hr r hr1

/-- **C68** (partial: the conversion of `-inf` is as in `CastOk`, and the nickname is as in C67).  If the
mathematical library is good to one unit in the last place, the comparison files of the accuracy check
report at most so many bits as the tables say, in every row and as maximum; for the arctangent of two arguments 4 and 5 bits. -/
theorem C68_bits_partial (R : RefMath b64) (Rf : RefMath b32) (hR : Faithful R 705) (hRf : Faithful Rf 85)
    (garbage : Nat → F64) (garbagef : Nat → F32)
    (eng : Engine) (nick : Text) (SIZE : BitVec 32) (h0 : SIZE ≠ 0) (fs : Fs)
    {z : ℕ} {cast : F64 → Option ℕ} (hc : CastOk z cast) (L : F64 → F64) (hL : Log2Ok L)
    (hnick : nick ≠ []) (hch : ∀ c ∈ nick, c ≠ ' ' ∧ c ≠ '"' ∧ c ≠ ',' ∧ c ≠ '\n') (hA : contains ‹"Atan2"› nick = false) :
    ∃ fs1 fs2, Bench.main R Rf none garbage garbagef eng nick SIZE fs = some fs1 ∧
    main cast L (shellWords false none (command nick)).tail fs1 = some (0, fs2) ∧
    ∀ v ∈ [‹""›, ‹"v"›],
      (∀ p ∈ bits64, ∃ txt, fs2 (outName nick (p.1 ++ v)) = some txt ∧ AtMost b64 SIZE.toNat (max z p.2) txt) ∧
      (∀ p ∈ bits32, ∃ txt, fs2 (outName nick (p.1 ++ v)) = some txt ∧ AtMost b32 SIZE.toNat (max z p.2) txt) ∧
      (∃ txt, fs2 (outName nick (‹"Atan2"› ++ v)) = some txt ∧ AtMost2 b64 SIZE.toNat (max z 4) txt) ∧
      (∃ txt, fs2 (outName nick (‹"Atan2"› ++ (‹"f"› ++ v))) = some txt ∧ AtMost2 b32 SIZE.toNat (max z 5) txt) := by
  obtain ⟨fs1, fs2, e1, e2, e3, e4, e5, e6, -⟩ := C67_workflow_partial R Rf garbage garbagef eng nick SIZE h0 fs hc L hL hnick hch hA
  refine ⟨fs1, fs2, e1, e2, fun v hv => ⟨fun p hp => ?_, fun p hp => ?_, ?_, ?_⟩⟩
  · exact atMost_of (g := fun n => fs2 (outName nick (n ++ v))) (pairs64 hR eng SIZE p hp) fun s hs t ht hn => e3 s hs t ht hn v hv
  · exact atMost_of (g := fun n => fs2 (outName nick (n ++ v))) (pairs32 hRf eng SIZE p hp) fun s hs t ht hn => e4 s hs t ht hn v hv
  · obtain ⟨txt, h1, h2⟩ := e5 v hv
    exact ⟨txt, h1, atMost2_of (by norm_num) (fun y x a b c d => (C68_atan2 hR y x a b c d).trans_lt (by norm_num)) h2⟩
  · have hv' : ‹"f"› ++ v ∈ [‹"f"›, ‹"fv"›] := by
      rcases List.mem_cons.1 hv with rfl | hv
      · simp
      · rw [List.mem_singleton.1 hv]; decide
    obtain ⟨txt, h1, h2⟩ := e6 _ hv'
    exact ⟨txt, h1, atMost2_of (by norm_num) (fun y x a b c d => (C68_atan2f hRf y x a b c d).trans_lt (by norm_num)) h2⟩

/-- Everything needed exists. -/
example : ∃ (R : RefMath b64) (Rf : RefMath b32) (cast : F64 → Option ℕ) (L : F64 → F64), Faithful R 705 ∧ Faithful Rf 85 ∧
    CastOk 0 cast ∧ Log2Ok L ∧ ‹"run1"› ≠ [] ∧
    (∀ c ∈ ‹"run1"›, c ≠ ' ' ∧ c ≠ '"' ∧ c ≠ ',' ∧ c ≠ '\n') ∧ contains ‹"Atan2"› ‹"run1"› = false ∧ (1000#32 : BitVec 32) ≠ 0 := by
  obtain ⟨L, hL⟩ := log2Ok_exists
  exact ⟨_, _, _, L, good64, good32, castOk_exists, hL, by decide, by decide, by simp only [String.reduceToList]; decide, by decide⟩

end Vdt.Compare
