import Verif.Lemmas.AtanfPos
import Verif.Props.Tanh
import Mathlib.Analysis.SpecialFunctions.Complex.Arg

/-! # The quadrant logic of `include/atan2.h` -/

namespace Vdt
open FP details
variable {f : Fmt}

/-- include/atan2.h:85-87 and 128-130: back from the first octant. -/
def quad (P2 P r : FP f) (swap xneg yneg : Bool) : FP f :=
  let r := if swap then P2 - r else r
  let r := if xneg then P - r else r
  if yneg then -r else r

/-- The same with real numbers. -/
noncomputable def quadR (a : ℝ) (swap xneg yneg : Bool) : ℝ :=
  let r := if swap then Real.pi / 2 - a else a
  let r := if xneg then Real.pi - r else r
  if yneg then -r else r

/-! ## The angle of a vector -/

theorem arg_of_polar {x y r θ : ℝ} (hr : 0 < r) (hx : x = r * Real.cos θ) (hy : y = r * Real.sin θ) (h1 : -Real.pi < θ) (h2 : θ ≤ Real.pi) :
    Complex.arg ⟨x, y⟩ = θ := by
  have e : (⟨x, y⟩ : ℂ) = r * (Complex.cos θ + Complex.sin θ * Complex.I) := by
    rw [hx, hy]
    apply Complex.ext <;> simp [Complex.cos_ofReal_re, Complex.sin_ofReal_re, Complex.cos_ofReal_im, Complex.sin_ofReal_im]
  rw [e]
  exact Complex.arg_mul_cos_add_sin_mul_I hr ⟨h1, h2⟩

/-- The first octant. -/
theorem octant_polar {m n : ℝ} (hm : 0 < m) : ∃ r : ℝ, 0 < r ∧ m = r * Real.cos (Real.arctan (n / m)) ∧ n = r * Real.sin (Real.arctan (n / m)) := by
  have hs : 0 < Real.sqrt (1 + (n / m) ^ 2) := Real.sqrt_pos.2 (by positivity)
  refine ⟨m * Real.sqrt (1 + (n / m) ^ 2), by positivity, ?_, ?_⟩
  · rw [Real.cos_arctan]; field_simp
  · rw [Real.sin_arctan]; field_simp

theorem arg_quad {x y : ℝ} (h : x ≠ 0 ∨ y ≠ 0) :
    Complex.arg ⟨x, y⟩ = quadR (Real.arctan (if |x| < |y| then |x| / |y| else |y| / |x|)) (decide (|x| < |y|)) (decide (x < 0)) (decide (y < 0)) := by
  have pp := Real.pi_pos
  -- the first quadrant
  obtain ⟨θ, hθ, h0, h1, r, hr, hx, hy⟩ : ∃ θ : ℝ, quadR (Real.arctan (if |x| < |y| then |x| / |y| else |y| / |x|)) (decide (|x| < |y|)) false false = θ ∧
      0 ≤ θ ∧ θ ≤ Real.pi / 2 ∧ ∃ r : ℝ, 0 < r ∧ |x| = r * Real.cos θ ∧ |y| = r * Real.sin θ := by
    by_cases hs : |x| < |y|
    · have hy : 0 < |y| := lt_of_le_of_lt (abs_nonneg x) hs
      obtain ⟨r, hr, e1, e2⟩ := octant_polar (n := |x|) hy
      have a0 : 0 ≤ Real.arctan (|x| / |y|) := Real.arctan_nonneg.2 (by positivity)
      have a1 := Real.arctan_lt_pi_div_two (|x| / |y|)
      refine ⟨_, rfl, ?_, ?_, r, hr, ?_, ?_⟩ <;> simp only [quadR, hs, decide_true, if_true, Bool.false_eq_true, if_false]
      · linarith
      · linarith
      · rw [Real.cos_pi_div_two_sub]; exact e2
      · rw [Real.sin_pi_div_two_sub]; exact e1
    · have hx : 0 < |x| := by
        rcases h with h | h
        · exact abs_pos.2 h
        · exact lt_of_lt_of_le (abs_pos.2 h) (not_lt.1 hs)
      obtain ⟨r, hr, e1, e2⟩ := octant_polar (n := |y|) hx
      have a0 : 0 ≤ Real.arctan (|y| / |x|) := Real.arctan_nonneg.2 (by positivity)
      have a1 := Real.arctan_lt_pi_div_two (|y| / |x|)
      refine ⟨_, rfl, ?_, ?_, r, hr, ?_, ?_⟩ <;> simp only [quadR, hs, decide_false, if_true, Bool.false_eq_true, if_false]
      · exact a0
      · exact a1.le
      · exact e1
      · exact e2
  have hq : quadR (Real.arctan (if |x| < |y| then |x| / |y| else |y| / |x|)) (decide (|x| < |y|)) (decide (x < 0)) (decide (y < 0)) =
      (if y < 0 then -(if x < 0 then Real.pi - θ else θ) else (if x < 0 then Real.pi - θ else θ)) := by
    rw [← hθ]
    simp only [quadR, decide_eq_true_eq, Bool.false_eq_true, if_false]
  rw [hq]
  clear hq hθ
  rcases lt_or_ge x 0 with cx | cx
  · rw [abs_of_neg cx] at hx
    rcases lt_or_ge y 0 with cy | cy
    · rw [abs_of_neg cy] at hy
      rw [if_pos cy, if_pos cx]
      have hθ : 0 < θ := by
        by_contra hc
        have : θ = 0 := le_antisymm (not_lt.1 hc) h0
        rw [this, Real.sin_zero] at hy; linarith
      refine arg_of_polar hr ?_ ?_ (by linarith) (by linarith)
      · rw [Real.cos_neg, Real.cos_pi_sub]; linarith
      · rw [Real.sin_neg, Real.sin_pi_sub]; linarith
    · rw [abs_of_nonneg cy] at hy
      rw [if_neg (not_lt.2 cy), if_pos cx]
      refine arg_of_polar hr ?_ ?_ (by linarith) (by linarith)
      · rw [Real.cos_pi_sub]; linarith
      · rw [Real.sin_pi_sub]; linarith
  · rw [abs_of_nonneg cx] at hx
    rcases lt_or_ge y 0 with cy | cy
    · rw [abs_of_neg cy] at hy
      rw [if_pos cy, if_neg (not_lt.2 cx)]
      refine arg_of_polar hr ?_ ?_ (by linarith) (by linarith)
      · rw [Real.cos_neg]; linarith
      · rw [Real.sin_neg]; linarith
    · rw [abs_of_nonneg cy] at hy
      rw [if_neg (not_lt.2 cy), if_neg (not_lt.2 cx)]
      exact arg_of_polar hr hx hy (by linarith) (by linarith)

/-! ## The quadrant logic in floating point -/

structure QuadOk (f : Fmt) [f.Ok] (P2 P : FP f) (h : ℚ) : Prop where
  f2 : P2.isFinite = true
  f1 : P.isFinite = true
  lo : 1.57 ≤ P2.val
  hi : P2.val ≤ 1.58
  dbl : P.val = 2 * P2.val
  big : 8 ≤ f.big
  r2 : rnd f P2.val = P2.val
  r1 : rnd f P.val = P.val
  h2 : hulp f 1.6 ≤ h
  h1 : hulp f 3.2 ≤ 2 * h
  rl : 0.75 ≤ rnd f 0.75

theorem quadrant_spec {f : Fmt} [f.Ok] {P2 P : FP f} {c h : ℚ} (ok : QuadOk f P2 P h) (hc : |P2.real - Real.pi / 2| ≤ (c : ℝ)) {r : FP f}
    (hf : r.isFinite = true) (hs : r.sign = false) (hr : r.val ≤ 0.79) {a e : ℝ} (ha : |r.real - a| ≤ e) (swap xneg yneg : Bool) :
    (quad P2 P r swap xneg yneg).isFinite = true ∧ (quad P2 P r swap xneg yneg).sign = yneg ∧
    |(quad P2 P r swap xneg yneg).val| ≤ P.val ∧
    (xneg = false → |(quad P2 P r swap xneg yneg).val| ≤ P2.val) ∧ (xneg = true → P2.val ≤ |(quad P2 P r swap xneg yneg).val|) ∧
    |(quad P2 P r swap xneg yneg).real - quadR a swap xneg yneg| ≤
      e + (if swap then (c : ℝ) + h else 0) + (if xneg then 2 * (c : ℝ) + 2 * h else 0) := by
  have r0 := val_nonneg_of_sign hs
  have lo := ok.lo
  have hi := ok.hi
  have big := ok.big
  have dbl := ok.dbl
  -- first step
  obtain ⟨r1, hr1, a1, b1, c1, d1, e1⟩ : ∃ r1 : FP f, (if swap then P2 - r else r) = r1 ∧ r1.isFinite = true ∧ r1.sign = false ∧ 0 ≤ r1.val ∧ r1.val ≤ P2.val ∧
      |r1.real - (if swap then Real.pi / 2 - a else a)| ≤ e + (if swap then (c : ℝ) + h else 0) := by
    cases swap
    · refine ⟨r, rfl, hf, hs, r0, by linarith, ?_⟩
      simpa using ha
    · have s := sub_spec (x := P2) (y := r) ok.f2 hf (by rw [abs_le]; constructor <;> linarith)
      have e1 := rnd_err f (q := P2.val - r.val) (M := 1.6) (by norm_num) (by rw [abs_le]; constructor <;> linarith) (by linarith)
      rw [← s.2] at e1
      have lo1 : 0.75 ≤ (sub P2 r).val := by
        rw [s.2]
        exact ok.rl.trans (rnd_mono f (by linarith))
      refine ⟨sub P2 r, rfl, s.1, sign_of_pos (by linarith), by linarith, ?_, ?_⟩
      · rw [s.2]
        have := rnd_mono f (show P2.val - r.val ≤ P2.val by linarith)
        rwa [ok.r2] at this
      · have e2 := (Rat.cast_le (K := ℝ)).2 (e1.trans ok.h2)
        push_cast at e2
        simp only [if_true]
        unfold FP.real at *
        rw [abs_le] at *
        constructor <;> linarith [hc.1, hc.2, ha.1, ha.2, e2.1, e2.2]
  obtain ⟨r2, hr2, a2, b2, c2, d2, f2, g2⟩ : ∃ r2 : FP f, (if xneg then P - r1 else r1) = r2 ∧ r2.isFinite = true ∧ r2.sign = false ∧
      0 ≤ r2.val ∧ r2.val ≤ P.val ∧ ((xneg = false → r2.val ≤ P2.val) ∧ (xneg = true → P2.val ≤ r2.val)) ∧
      |r2.real - (if xneg then Real.pi - (if swap then Real.pi / 2 - a else a) else (if swap then Real.pi / 2 - a else a))| ≤
        e + (if swap then (c : ℝ) + h else 0) + (if xneg then 2 * (c : ℝ) + 2 * h else 0) := by
    cases xneg
    · refine ⟨r1, rfl, a1, b1, c1, by linarith, ⟨fun _ => d1, by simp⟩, ?_⟩
      simpa using e1
    · have s := sub_spec (x := P) (y := r1) ok.f1 a1 (by rw [abs_le]; constructor <;> linarith)
      have k := rnd_err f (q := P.val - r1.val) (M := 3.2) (by norm_num) (by rw [abs_le]; constructor <;> linarith) (by linarith)
      rw [← s.2] at k
      have lo1 : P2.val ≤ (sub P r1).val := by
        rw [s.2]
        have := rnd_mono f (show P2.val ≤ P.val - r1.val by linarith)
        rwa [ok.r2] at this
      refine ⟨sub P r1, rfl, s.1, sign_of_pos (by linarith), by linarith, ?_, ⟨by simp, fun _ => lo1⟩, ?_⟩
      · rw [s.2]
        have := rnd_mono f (show P.val - r1.val ≤ P.val by linarith)
        rwa [ok.r1] at this
      · have e2 := (Rat.cast_le (K := ℝ)).2 (k.trans ok.h1)
        have d : (P.val : ℝ) = 2 * P2.val := by rw [dbl]; push_cast; rfl
        push_cast at e2
        simp only [if_true]
        unfold FP.real at *
        generalize (if swap = true then Real.pi / 2 - a else a) = A at *
        generalize (if swap = true then (c : ℝ) + h else 0) = E at *
        rw [abs_le] at *
        constructor <;> linarith [hc.1, hc.2, e1.1, e1.2, e2.1, e2.2]
  have hq : quad P2 P r swap xneg yneg = if yneg then neg r2 else r2 := by
    unfold quad
    simp only [hr1, hr2]; rfl
  have hqR : quadR a swap xneg yneg = if yneg then
      -(if xneg then Real.pi - (if swap then Real.pi / 2 - a else a) else (if swap then Real.pi / 2 - a else a)) else
      (if xneg then Real.pi - (if swap then Real.pi / 2 - a else a) else (if swap then Real.pi / 2 - a else a)) := rfl
  rw [hq, hqR]
  generalize (if xneg then Real.pi - (if swap then Real.pi / 2 - a else a) else (if swap then Real.pi / 2 - a else a)) = A at *
  generalize e + (if swap then (c : ℝ) + h else 0) + (if xneg then 2 * (c : ℝ) + 2 * h else 0) = E at *
  have ab : |r2.val| = r2.val := abs_of_nonneg c2
  cases yneg
  · simp only [Bool.false_eq_true, if_false]
    rw [ab]
    exact ⟨a2, b2, d2, f2.1, f2.2, g2⟩
  · simp only [if_true]
    rw [val_neg, abs_neg, ab]
    refine ⟨by simpa using a2, by simp [b2], d2, f2.1, f2.2, ?_⟩
    have en : (neg r2).real = -r2.real := by unfold FP.real; rw [val_neg]; push_cast; rfl
    rw [en, show -r2.real - -A = -(r2.real - A) by ring, abs_neg]
    exact g2

theorem quad64 : QuadOk b64 PIO2 PI (p2 (-53)) where
  f2 := by decide +kernel
  f1 := by decide +kernel
  lo := by decide +kernel
  hi := by decide +kernel
  dbl := by decide +kernel
  big := by decide +kernel
  r2 := by decide +kernel
  r1 := by decide +kernel
  h2 := by decide +kernel
  h1 := by decide +kernel
  rl := by decide +kernel

theorem quad32 : QuadOk b32 PIO2F PIF (p2 (-24)) where
  f2 := by decide +kernel
  f1 := by decide +kernel
  lo := by decide +kernel
  hi := by decide +kernel
  dbl := by decide +kernel
  big := by decide +kernel
  r2 := by decide +kernel
  r1 := by decide +kernel
  h2 := by decide +kernel
  h1 := by decide +kernel
  rl := by decide +kernel

/-! ## The first octant -/

/-- Every finite number is its own rounding. -/
theorem rnd_fin {x : FP f} (hx : x.isFinite = true) : rnd f x.val = x.val := by
  have hm : x.mag ≤ f.infMag := by simp only [isFinite, decide_eq_true_eq] at hx; exact hx.le
  have ha : |x.val| = magVal f x.mag := abs_val x
  unfold rnd
  rcases lt_or_ge x.val 0 with h | h
  · rw [abs_of_neg h] at ha
    rw [if_pos h, ha, roundMag_magVal f hm]; linarith
  · rw [abs_of_nonneg h] at ha
    rw [if_neg (not_lt.2 h), ha, roundMag_magVal f hm]

theorem ofRat_val_fin {x : FP f} {s : Bool} (hx : x.isFinite = true) (h0 : x.val ≠ 0) : ofRat f s x.val = x := by
  refine (eq_of_val_ne h0 ?_).symm
  rw [val_ofRat, rnd_fin hx]

theorem mul_lit_one {f : Fmt} [f.Ok] {a o : FP f} (ha : a.isFinite = true) (hb : |a.val| ≤ f.big) (ho : o.isFinite = true ∧ o.sign = false ∧ o.val = 1) : a * o = a := by
  have s := mul_spec (x := a) (y := o) ha ho.1 (by rw [ho.2.2, mul_one]; exact hb)
  have g := mul_fin_sign ha ho.1
  rw [ho.2.2, mul_one, rnd_val hb] at s
  rw [ho.2.1, Bool.xor_false] at g
  exact eq_of_val g s.2

/-- include/atan2.h:46-84: the angle in the first octant. -/
def oct64 (y xx yy : F64) : F64 :=
  if FP.eq y (ofInt 0) then lit 0.0 else atanPos (yy / (xx + ofBool (FP.eq xx (lit 0)))) * (lit 1 - ofBool (FP.eq xx (lit 0)))

/-- The same with fused operations as chosen by `p`. -/
def oct64C (p : Policy) (y xx yy : F64) : F64 :=
  if FP.eq y (ofInt 0) then lit 0.0 else atanPosC p (yy / (xx + ofBool (FP.eq xx (lit 0)))) * (lit 1 - ofBool (FP.eq xx (lit 0)))

theorem fast_atan2C_eq (p : Policy) (y x : F64) : fast_atan2C p y x =
    quad PIO2 PI (if FP.gt (FP.abs y) (FP.abs x) then oct64C p y (FP.abs y) (FP.abs x) else oct64C p y (FP.abs x) (FP.abs y))
      (FP.gt (FP.abs y) (FP.abs x)) (FP.lt x (ofInt 0)) (FP.lt y (ofInt 0)) := by
  have n1 : FP.ne (lit 1 : F64) (ofInt 0) = true := by decide +kernel
  have n0 : FP.ne (lit 0.0 : F64) (ofInt 0) = false := by decide +kernel
  unfold fast_atan2C
  cases h : FP.gt (FP.abs y) (FP.abs x)
  · simp only [h, Bool.false_eq_true, if_false, n0]; rfl
  · simp only [h, if_true, n1]; rfl

theorem fast_atan2_eq (y x : F64) : fast_atan2 y x =
    quad PIO2 PI (if FP.gt (FP.abs y) (FP.abs x) then oct64 y (FP.abs y) (FP.abs x) else oct64 y (FP.abs x) (FP.abs y))
      (FP.gt (FP.abs y) (FP.abs x)) (FP.lt x (ofInt 0)) (FP.lt y (ofInt 0)) := by
  have n1 : FP.ne (lit 1 : F64) (ofInt 0) = true := by decide +kernel
  have n0 : FP.ne (lit 0.0 : F64) (ofInt 0) = false := by decide +kernel
  unfold fast_atan2
  cases h : FP.gt (FP.abs y) (FP.abs x)
  · simp only [h, Bool.false_eq_true, if_false, n0]; rfl
  · simp only [h, if_true, n1]; rfl

theorem arctan_half {q : ℝ} (h0 : 0 ≤ q) (h1 : q ≤ 1) : q / 2 ≤ Real.arctan q := by
  rcases le_total q 0.66 with h | h
  · have := arctan_lower h0 (h.trans (by norm_num)); linarith
  · have := arctan_lower (x := 0.66) (by norm_num) (by norm_num)
    have := Real.arctan_strictMono.monotone h
    linarith

theorem arctan_le_quarter {q : ℝ} (h1 : q ≤ 1) : Real.arctan q ≤ Real.pi / 4 := by
  rw [← Real.arctan_one]; exact Real.arctan_strictMono.monotone h1

/-- The quotient of the smaller by the larger component. -/
structure Quot1 (f : Fmt) [f.Ok] (h : ℚ) : Prop where
  big : 1 ≤ f.big
  hb : hulp f (1 - p2 (-60)) ≤ h
  r1 : rnd f 1 = 1
  r0 : rnd f (1 - p2 (-60)) = 1
  hp : p2 (-60) ≤ h

theorem quot_spec {f : Fmt} [f.Ok] {h : ℚ} (ok : Quot1 f h) {m M : FP f} (hm : m.isFinite = true) (hM : M.isFinite = true) (sm : m.sign = false)
    (sM : M.sign = false) (hle : m.val ≤ M.val) (h0 : M.val ≠ 0) :
    (m / M).isFinite = true ∧ (m / M).sign = false ∧ (m / M).val ≤ 1 ∧ |(m / M).real - m.real / M.real| ≤ (h : ℝ) ∧
    |(m / M).real - m.real / M.real| ≤ (f.u : ℝ) * (m.real / M.real) + f.eta ∧ 0 ≤ m.real / M.real ∧ m.real / M.real ≤ 1 := by
  have m0 := val_nonneg_of_sign sm
  have M0 : 0 < M.val := lt_of_le_of_ne (val_nonneg_of_sign sM) (Ne.symm h0)
  have q0 : 0 ≤ m.val / M.val := by positivity
  have q1 : m.val / M.val ≤ 1 := by rw [div_le_one M0]; exact hle
  have qb : |m.val / M.val| ≤ f.big := by rw [abs_of_nonneg q0]; exact q1.trans ok.big
  have d := div_spec (x := m) (y := M) hm hM h0 qb
  have ds := div_fin_sign hm hM h0
  rw [div_def]
  have cq : m.real / M.real = ((m.val / M.val : ℚ) : ℝ) := by unfold FP.real; push_cast; rfl
  have cd : (div m M).real = ((rnd f (m.val / M.val) : ℚ) : ℝ) := by unfold FP.real; rw [d.2]
  rw [cq, cd]
  have er := rnd_err_add f qb
  rw [abs_of_nonneg q0] at er
  refine ⟨d.1, by rw [ds, sm, sM]; rfl, ?_, ?_, ?_, by exact_mod_cast q0, by exact_mod_cast q1⟩
  · rw [d.2]
    have := rnd_mono f q1
    rwa [ok.r1] at this
  · have k : |rnd f (m.val / M.val) - m.val / M.val| ≤ h := by
      rcases le_or_gt (m.val / M.val) (1 - p2 (-60)) with hc | hc
      · have : (0 : ℚ) < 1 - p2 (-60) := by decide +kernel
        exact (rnd_err f this (by rw [abs_of_nonneg q0]; exact hc) (le_trans (by have := p2_pos (-60); linarith) ok.big)).trans ok.hb
      · have a := rnd_mono f hc.le
        have b := rnd_mono f q1
        rw [ok.r0] at a
        rw [ok.r1] at b
        rw [le_antisymm b a, abs_of_nonneg (by linarith)]
        have := ok.hp
        linarith
    have := (Rat.cast_le (K := ℝ)).2 k
    push_cast at this ⊢
    exact this
  · have := (Rat.cast_le (K := ℝ)).2 er
    push_cast at this ⊢
    exact this

theorem quot64 : Quot1 b64 (p2 (-54)) where
  big := by decide +kernel
  hb := by decide +kernel
  r1 := by decide +kernel
  r0 := by decide +kernel
  hp := by decide +kernel

theorem quot32 : Quot1 b32 (p2 (-25)) where
  big := by decide +kernel
  hb := by decide +kernel
  r1 := by decide +kernel
  r0 := by decide +kernel
  hp := by decide +kernel

theorem eta64_le : (b64.eta : ℝ) ≤ 2 ^ (-100 : ℤ) := by
  have : b64.eta ≤ p2 (-100) := by decide +kernel
  have := (Rat.cast_le (K := ℝ)).2 this
  rw [p2_eq] at this
  push_cast at this
  exact this

theorem eta32_le : (b32.eta : ℝ) ≤ 2 ^ (-100 : ℤ) := by
  have : b32.eta ≤ p2 (-100) := by decide +kernel
  have := (Rat.cast_le (K := ℝ)).2 this
  rw [p2_eq] at this
  push_cast at this
  exact this

/-- Combination of the error of the quotient and that of the arctangent. -/
theorem oct_combine {R t q C u h η k : ℝ} (hR : |R - Real.arctan t| ≤ C * Real.arctan t + k * η) (t1 : t ≤ 1) (ht : |t - q| ≤ h)
    (htr : |t - q| ≤ u * q + η) (q0 : 0 ≤ q) (q1 : q ≤ 1) (hC : 0 ≤ C) (hu : 0 ≤ u) (hη : 0 ≤ η) (C1 : C ≤ 1) (hp : Real.pi / 4 ≤ 0.7854) :
    |R - Real.arctan q| ≤ 0.7854 * C + h + k * η ∧ |R - Real.arctan q| ≤ (C + 2 * u + 2 * C * u) * Real.arctan q + (k + 2) * η := by
  have l := arctan_lip t q
  have a1 := arctan_le_quarter t1
  have ah := arctan_half q0 q1
  have e : R - Real.arctan q = (R - Real.arctan t) + (Real.arctan t - Real.arctan q) := by ring
  have s : |R - Real.arctan q| ≤ C * Real.arctan t + k * η + |t - q| := by
    rw [e]; exact (abs_add_le _ _).trans (add_le_add hR l)
  constructor
  · have : C * Real.arctan t ≤ C * 0.7854 := mul_le_mul_of_nonneg_left (a1.trans hp) hC
    linarith
  · have b : Real.arctan t ≤ Real.arctan q + |t - q| := by
      have := (le_abs_self _).trans l; linarith
    have b2 : C * Real.arctan t ≤ C * (Real.arctan q + (u * q + η)) := mul_le_mul_of_nonneg_left (b.trans (by linarith)) hC
    have b3 : u * q ≤ u * (2 * Real.arctan q) := mul_le_mul_of_nonneg_left (by linarith) hu
    have b4 : C * (u * q) ≤ C * (u * (2 * Real.arctan q)) := mul_le_mul_of_nonneg_left b3 hC
    have b5 : C * η ≤ 1 * η := mul_le_mul_of_nonneg_right C1 hη
    nlinarith

theorem oct64C_acc (p : Policy) {y m M : F64} (hm : m.isFinite = true) (hM : M.isFinite = true) (sm : m.sign = false)
    (sM : M.sign = false) (hle : m.val ≤ M.val) (h0 : M.val ≠ 0) (hy : FP.eq y (ofInt 0) = true → m.val = 0) :
    (oct64C p y M m).isFinite = true ∧ (oct64C p y M m).sign = false ∧ (oct64C p y M m).val ≤ 0.79 ∧
    |(oct64C p y M m).real - Real.arctan (m.real / M.real)| ≤ 3.05 * 2 ^ (-53 : ℤ) ∧
    |(oct64C p y M m).real - Real.arctan (m.real / M.real)| ≤ 5.3 * 2 ^ (-53 : ℤ) * Real.arctan (m.real / M.real) + 4.36 * (b64.eta : ℝ) := by
  have eta0 : (0 : ℝ) ≤ b64.eta := by exact_mod_cast b64.eta_pos.le
  have z0 : (lit 0 : F64) = zero false := by decide +kernel
  have z0v : (lit 0 : F64).val = 0 ∧ (lit 0 : F64).isFinite = true := by decide +kernel
  obtain ⟨d1, d2, d3, d4, d5, d6, d7⟩ := quot_spec quot64 hm hM sm sM hle h0
  unfold oct64C
  by_cases hc : FP.eq y (ofInt 0) = true
  · rw [if_pos hc]
    have mz : m.real = 0 := by unfold FP.real; rw [hy hc]; norm_num
    rw [mz, zero_div, Real.arctan_zero]
    have l0 : (lit 0.0 : F64).isFinite = true ∧ (lit 0.0 : F64).sign = false ∧ (lit 0.0 : F64).val = 0 := by decide +kernel
    have lr : (lit 0.0 : F64).real = 0 := by unfold FP.real; rw [l0.2.2]; norm_num
    rw [lr, sub_zero, abs_zero, mul_zero, zero_add]
    exact ⟨l0.1, l0.2.1, by rw [l0.2.2]; norm_num, by positivity, mul_nonneg (by norm_num) eta0⟩
  · rw [if_neg hc]
    have e0 : FP.eq M (lit 0) = false := by rw [eq_fin hM z0v.2, z0v.1]; exact decide_eq_false h0
    rw [e0]
    have o0 : (ofBool false : F64) = zero false := by decide +kernel
    have o1 : (lit 1 - ofBool false : F64).isFinite = true ∧ (lit 1 - ofBool false : F64).sign = false ∧ (lit 1 - ofBool false : F64).val = 1 := by decide +kernel
    generalize (lit 1 - ofBool false : F64) = one at o1 ⊢
    have ax : M + ofBool false = M := by
      rcases eq_or_ne M.mag 0 with hz | hz
      · exact absurd (val_eq_zero.2 hz) h0
      · rw [add_def, add_fin hM (by rw [o0]; exact zero_finite false), o0, val_zero, add_zero]
        exact ofRat_val_fin hM h0
    rw [ax]
    generalize m / M = t at *
    have acc := atanPosC_acc p d1 d2
    have pb := pi_bounds
    have t1 : t.real ≤ 1 := by
      have := real_le_iff.2 d3; push_cast at this; exact this
    have ph : Real.pi / 4 ≤ 0.7854 := by norm_num at pb ⊢; linarith [pb.2]
    have ab : |(atanPosC p t).val| ≤ b64.big := by
      rw [abs_of_nonneg (val_nonneg_of_sign acc.2.1)]
      refine acc.2.2.1.trans (by decide +kernel)
    rw [mul_lit_one acc.1 ab o1]
    have hh : ((p2 (-54) : ℚ) : ℝ) = 2 ^ (-54 : ℤ) := by rw [p2_eq]; push_cast; rfl
    have hu : (b64.u : ℝ) = 2 ^ (-53 : ℤ) := by
      have : b64.u = p2 (-53) := rfl
      rw [this, p2_eq]; push_cast; rfl
    rw [hh] at d4
    rw [hu] at d5
    have k := oct_combine (C := 3.2 * 2 ^ (-53 : ℤ)) acc.2.2.2 t1 d4 d5 d6 d7 (by positivity) (by positivity) eta0 (by norm_num) ph
    have el := eta64_le
    have a1 := arctan_le_quarter d7
    refine ⟨acc.1, acc.2.1, ?_, ?_, ?_⟩
    · refine (real_le_iff (q := 0.79)).1 ?_
      have := (abs_le.1 k.1).2
      generalize (b64.eta : ℝ) = η at *
      norm_num at this el ph ⊢
      linarith
    · refine k.1.trans ?_
      generalize (b64.eta : ℝ) = η at *
      norm_num at el ⊢
      linarith
    · refine k.2.trans ?_
      have a0 : 0 ≤ Real.arctan (m.real / M.real) := Real.arctan_nonneg.2 d6
      refine add_le_add (mul_le_mul_of_nonneg_right (by norm_num) a0) (le_of_eq (by norm_num))

/-! ## Single precision -/

theorem mul_one_fin {a o : FP f} [f.Ok] (ha : a.isFinite = true) (ho : o.isFinite = true ∧ o.sign = false ∧ o.val = 1) : a * o = a := by
  rw [mul_def, mul_fin ha ho.1, ho.2.1, ho.2.2, mul_one, Bool.xor_false]
  rcases eq_or_ne a.val 0 with h | h
  · rw [h, ofRat_zero]; exact (eq_zero' (zero_of_val h)).symm
  · exact ofRat_val_fin ha h

theorem add_finite_right {a b : FP f} [f.Ok] (h : (a + b).isFinite = true) (ha : a.isFinite = true) : b.isFinite = true := by
  rcases trichotomy b with hc | hc | hc
  · rw [add_def, add_nan_right _ hc] at h
    have := (finite_iff.1 h).1
    rw [nan_isNaN] at this; cases this
  · rw [add_def] at h
    have e : add a b = b := by
      unfold add
      have hn : b.isNaN = false := by
        cases hb : b.isNaN
        · rfl
        · simp [isNaN, isInf] at hb hc; omega
      simp [finite_not_nan ha, finite_not_inf ha, hn, hc]
    rw [e] at h
    have := finite_not_inf h
    rw [hc] at this; cases this
  · exact hc

theorem add_comm_fin {a b : FP f} (ha : a.isFinite = true) (hb : b.isFinite = true) : a + b = b + a := by
  rw [add_def, add_def, add_fin ha hb, add_fin hb ha, Bool.and_comm, _root_.add_comm]

/-- include/atan2.h:105-127: the angle in the first octant. -/
def oct32 (y xx yy : F32) : F32 :=
  let t := yy / xx
  let z := if FP.gt t (lit 0.4142135623730950) then (t - lit 1) / (t + lit 1) else t
  let r := if FP.eq y (lit 0) then lit 0 else atanfCore z * (lit 1 - ofBool (FP.eq xx (lit 0)))
  if FP.gt t (lit 0.4142135623730950) then r + PIO4F else r

/-- The same with fused operations as chosen by `p`. -/
def oct32C (p : Policy) (y xx yy : F32) : F32 :=
  let t := yy / xx
  let z := if FP.gt t (lit 0.4142135623730950) then (t - lit 1) / (t + lit 1) else t
  let r := if FP.eq y (lit 0) then lit 0 else atanfCoreC p z * (lit 1 - ofBool (FP.eq xx (lit 0)))
  if FP.gt t (lit 0.4142135623730950) then r + PIO4F else r

theorem fast_atan2fC_eq (p : Policy) (y x : F32) : fast_atan2fC p y x =
    quad PIO2F PIF (if FP.gt (FP.abs y) (FP.abs x) then oct32C p y (FP.abs y) (FP.abs x) else oct32C p y (FP.abs x) (FP.abs y))
      (FP.gt (FP.abs y) (FP.abs x)) (FP.lt x (lit 0)) (FP.lt y (lit 0)) := by
  have n1 : FP.ne (lit 1 : F32) (ofInt 0) = true := by decide +kernel
  have n0 : FP.ne (lit 0.0 : F32) (ofInt 0) = false := by decide +kernel
  unfold fast_atan2fC
  cases h : FP.gt (FP.abs y) (FP.abs x)
  · simp only [h, Bool.false_eq_true, if_false, n0]; rfl
  · simp only [h, if_true, n1]; rfl

theorem fast_atan2f_eq (y x : F32) : fast_atan2f y x =
    quad PIO2F PIF (if FP.gt (FP.abs y) (FP.abs x) then oct32 y (FP.abs y) (FP.abs x) else oct32 y (FP.abs x) (FP.abs y))
      (FP.gt (FP.abs y) (FP.abs x)) (FP.lt x (lit 0)) (FP.lt y (lit 0)) := by
  have n1 : FP.ne (lit 1 : F32) (ofInt 0) = true := by decide +kernel
  have n0 : FP.ne (lit 0.0 : F32) (ofInt 0) = false := by decide +kernel
  unfold fast_atan2f
  cases h : FP.gt (FP.abs y) (FP.abs x)
  · simp only [h, Bool.false_eq_true, if_false, n0]; rfl
  · simp only [h, if_true, n1]; rfl

/-- The octant function is the arctangent of the quotient. -/
theorem oct32C_eq (p : Policy) {y m M : F32} (hM : M.isFinite = true) (h0 : M.val ≠ 0) (ht : (m / M).isFinite = true) (hs : (m / M).sign = false)
    (h1 : (m / M).val ≤ 1) (hc : FP.eq y (lit 0) = false) : oct32C p y M m = atanfPosC p (m / M) := by
  have z0v : (lit 0 : F32).val = 0 ∧ (lit 0 : F32).isFinite = true := by decide +kernel
  have e0 : FP.eq M (lit 0) = false := by rw [eq_fin hM z0v.2, z0v.1]; exact decide_eq_false h0
  have o1 : (lit 1 - ofBool false : F32).isFinite = true ∧ (lit 1 - ofBool false : F32).sign = false ∧ (lit 1 - ofBool false : F32).val = 1 := by decide +kernel
  unfold oct32C
  simp only [hc, e0]
  generalize (lit 1 - ofBool false : F32) = one at o1 ⊢
  generalize m / M = t at *
  obtain ⟨l1, l2, l3, l4, l5, l6⟩ := litf_bounds
  have c2 : FP.gt t (lit 2.414213562373095) = false := by rw [gt_fin ht l6]; exact decide_eq_false (by linarith)
  rcases le_or_gt t.val (lit 0.4142135623730950 : F32).val with h | h
  · have c1 : FP.gt t (lit 0.4142135623730950) = false := by rw [gt_fin ht l3]; exact decide_eq_false (not_lt.2 h)
    have hr : t.real ≤ 0.4145 := by
      have := real_le_iff.2 (h.trans l1); push_cast at this; exact this
    have a := atanfCoreC_acc p ht hs hr
    have b := atanfCoreC_sign p ht hs hr
    have bb : |(atanfCoreC p t).val| ≤ b32.big := b.2.trans (by decide +kernel)
    have z0 : (lit 0 : F32) = zero false := by decide +kernel
    rw [atanfPosC_small p c1 c2, add_pzero' a.1 bb b.1 z0]
    simp only [c1, Bool.false_eq_true, if_false]
    exact mul_one_fin a.1 o1
  · have c1 : FP.gt t (lit 0.4142135623730950) = true := by rw [gt_fin ht l3]; exact decide_eq_true h
    have md := (atan_mid32 p ht (l2.trans h.le) (by linarith)).1
    rw [atanfPosC_mid p c1 c2]
    unfold atanfMidC at md ⊢
    have pf : PIO4F.isFinite = true := by decide +kernel
    have cf := add_finite_right md pf
    simp only [c1, Bool.false_eq_true, if_false, if_true]
    rw [mul_one_fin cf o1]
    exact add_comm_fin cf pf

theorem oct32C_acc (p : Policy) {y m M : F32} (hm : m.isFinite = true) (hM : M.isFinite = true) (sm : m.sign = false)
    (sM : M.sign = false) (hle : m.val ≤ M.val) (h0 : M.val ≠ 0) (hy : FP.eq y (lit 0) = true → m.val = 0) :
    (oct32C p y M m).isFinite = true ∧ (oct32C p y M m).sign = false ∧ (oct32C p y M m).val ≤ 0.79 ∧
    |(oct32C p y M m).real - Real.arctan (m.real / M.real)| ≤ 5.1 * 2 ^ (-24 : ℤ) ∧
    |(oct32C p y M m).real - Real.arctan (m.real / M.real)| ≤ 7.8 * 2 ^ (-24 : ℤ) * Real.arctan (m.real / M.real) + 4.01 * (b32.eta : ℝ) := by
  have eta0 : (0 : ℝ) ≤ b32.eta := by exact_mod_cast b32.eta_pos.le
  obtain ⟨d1, d2, d3, d4, d5, d6, d7⟩ := quot_spec quot32 hm hM sm sM hle h0
  by_cases hc : FP.eq y (lit 0) = true
  · have mz : m.real = 0 := by unfold FP.real; rw [hy hc]; norm_num
    have l0 : (lit 0 : F32).isFinite = true ∧ (lit 0 : F32).sign = false ∧ (lit 0 : F32).val = 0 := by decide +kernel
    have lr : (lit 0 : F32).real = 0 := by unfold FP.real; rw [l0.2.2]; norm_num
    obtain ⟨l1, l2, l3, -⟩ := litf_bounds
    have tv : (m / M).val = 0 := by
      rw [div_def, (div_spec hm hM h0 (by rw [hy hc, zero_div, abs_zero]; exact b32.big_pos.le)).2, hy hc, zero_div, rnd_zero]
    have c1 : FP.gt (m / M) (lit 0.4142135623730950) = false := by rw [gt_fin d1 l3, tv]; exact decide_eq_false (by linarith)
    have e : oct32C p y M m = lit 0 := by
      unfold oct32C
      simp only [hc, c1, Bool.false_eq_true, if_false, if_true]
    rw [e, mz, zero_div, Real.arctan_zero, lr, sub_zero, abs_zero, mul_zero, zero_add]
    exact ⟨l0.1, l0.2.1, by rw [l0.2.2]; norm_num, by positivity, mul_nonneg (by norm_num) eta0⟩
  · rw [oct32C_eq p hM h0 d1 d2 d3 (by simpa using hc)]
    generalize m / M = t at *
    have acc := atanfPosC_acc p d1 d2
    have pb := pi_bounds
    have t1 : t.real ≤ 1 := by
      have := real_le_iff.2 d3; push_cast at this; exact this
    have ph : Real.pi / 4 ≤ 0.7854 := by norm_num at pb ⊢; linarith [pb.2]
    have hh : ((p2 (-25) : ℚ) : ℝ) = 2 ^ (-25 : ℤ) := by rw [p2_eq]; push_cast; rfl
    have hu : (b32.u : ℝ) = 2 ^ (-24 : ℤ) := by
      have : b32.u = p2 (-24) := rfl
      rw [this, p2_eq]; push_cast; rfl
    rw [hh] at d4
    rw [hu] at d5
    have k := oct_combine (C := 5.75 * 2 ^ (-24 : ℤ)) acc.2.2.2 t1 d4 d5 d6 d7 (by positivity) (by positivity) eta0 (by norm_num) ph
    have el := eta32_le
    have a1 := arctan_le_quarter d7
    refine ⟨acc.1, acc.2.1, ?_, ?_, ?_⟩
    · refine (real_le_iff (q := 0.79)).1 ?_
      have := (abs_le.1 k.1).2
      generalize (b32.eta : ℝ) = η at *
      norm_num at this el ph ⊢
      linarith
    · refine k.1.trans ?_
      generalize (b32.eta : ℝ) = η at *
      norm_num at el ⊢
      linarith
    · refine k.2.trans ?_
      have a0 : 0 ≤ Real.arctan (m.real / M.real) := Real.arctan_nonneg.2 d6
      refine add_le_add (mul_le_mul_of_nonneg_right (by norm_num) a0) (le_of_eq (by norm_num))

end Vdt
