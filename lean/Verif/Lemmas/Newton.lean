import Verif.Lemmas.LogAcc
import Verif.Lemmas.Tanh
import Verif.Model.Sqrt
import Verif.Model.Contract

/-! # The Newton iteration for the reciprocal square root (`include/sqrt.h:46-47`) -/

namespace Vdt
open FP details
variable {f : Fmt}

/-- Numerical facts about a format: `A` is the smallest normal number. -/
structure NewtOk (f : Fmt) (A : ℝ) : Prop where
  u0 : (0 : ℝ) < f.u
  u1 : (f.u : ℝ) ≤ 1 / 2 ^ 20
  eta : (f.eta : ℝ) = f.u * A
  A0 : 0 < A
  A1 : A ≤ 1 / 2 ^ 100
  big : (f.big : ℝ) * A = 2
  half : (lit 0.5 : FP f).isFinite = true ∧ (lit 0.5 : FP f).val = 1 / 2
  th : (lit 1.5 : FP f).isFinite = true ∧ (lit 1.5 : FP f).val = 3 / 2

theorem newt64 : NewtOk b64 ((p2 (-1022) : ℚ) : ℝ) where
  u0 := by exact_mod_cast b64.u_pos
  u1 := by
    have : b64.u ≤ 1 / 2 ^ 20 := by decide +kernel
    have := (Rat.cast_le (K := ℝ)).2 this
    push_cast at this; exact this
  eta := by
    have : b64.eta = b64.u * p2 (-1022) := by decide +kernel
    rw [this, Rat.cast_mul]
  A0 := by exact_mod_cast p2_pos _
  A1 := by
    have : p2 (-1022) ≤ 1 / 2 ^ 100 := by decide +kernel
    have := (Rat.cast_le (K := ℝ)).2 this
    push_cast at this; exact this
  big := by
    have : b64.big * p2 (-1022) = 2 := by decide +kernel
    rw [← Rat.cast_mul, this]; norm_num
  half := by decide +kernel
  th := by decide +kernel

theorem newt32 : NewtOk b32 ((p2 (-126) : ℚ) : ℝ) where
  u0 := by exact_mod_cast b32.u_pos
  u1 := by
    have : b32.u ≤ 1 / 2 ^ 20 := by decide +kernel
    have := (Rat.cast_le (K := ℝ)).2 this
    push_cast at this; exact this
  eta := by
    have : b32.eta = b32.u * p2 (-126) := by decide +kernel
    rw [this, Rat.cast_mul]
  A0 := by exact_mod_cast p2_pos _
  A1 := by
    have : p2 (-126) ≤ 1 / 2 ^ 100 := by decide +kernel
    have := (Rat.cast_le (K := ℝ)).2 this
    push_cast at this; exact this
  big := by
    have : b32.big * p2 (-126) = 2 := by decide +kernel
    rw [← Rat.cast_mul, this]; norm_num
  half := by decide +kernel
  th := by decide +kernel

/-- A rounded product in the normal range. -/
theorem mul_rel [f.Ok] {A : ℝ} (ok : NewtOk f A) {x y : FP f} (hx : x.isFinite = true) (hy : y.isFinite = true) (lo : A ≤ |x.real * y.real|)
    (hi : |x.real * y.real| ≤ f.big) : (mul x y).isFinite = true ∧ |(mul x y).real - x.real * y.real| ≤ f.u * |x.real * y.real| := by
  have e : x.real * y.real = ((x.val * y.val : ℚ) : ℝ) := by unfold FP.real; push_cast; rfl
  rw [e] at lo hi ⊢
  have hb : |x.val * y.val| ≤ f.big := by
    have : ((|x.val * y.val| : ℚ) : ℝ) ≤ f.big := by rw [Rat.cast_abs]; exact hi
    exact_mod_cast this
  have s := mul_spec hx hy hb
  refine ⟨s.1, ?_⟩
  have e2 : (mul x y).real = ((rnd f (x.val * y.val) : ℚ) : ℝ) := by unfold FP.real; rw [s.2]
  rw [e2]
  refine rnd_real le_rfl ?_ hb
  rw [ok.eta]
  exact mul_le_mul_of_nonneg_left lo ok.u0.le

/-- A rounded difference of size between the smallest normal number and `M`. -/
theorem sub_abs_err [f.Ok] {A M : ℝ} (ok : NewtOk f A) {x y : FP f} (hx : x.isFinite = true) (hy : y.isFinite = true) (hM : |x.real - y.real| ≤ M)
    (lo : A ≤ M) (hi : M ≤ f.big) : (sub x y).isFinite = true ∧ |(sub x y).real - (x.real - y.real)| ≤ f.u * M := by
  have e : x.real - y.real = ((x.val - y.val : ℚ) : ℝ) := by unfold FP.real; push_cast; rfl
  rw [e] at hM ⊢
  have hb : |x.val - y.val| ≤ f.big := by
    have : ((|x.val - y.val| : ℚ) : ℝ) ≤ f.big := by rw [Rat.cast_abs]; exact hM.trans hi
    exact_mod_cast this
  have s := sub_spec hx hy hb
  refine ⟨s.1, ?_⟩
  have e2 : (sub x y).real = ((rnd f (x.val - y.val) : ℚ) : ℝ) := by unfold FP.real; rw [s.2]
  rw [e2]
  refine rnd_real hM ?_ hb
  rw [ok.eta]
  exact mul_le_mul_of_nonneg_left lo ok.u0.le

/-- `z - a*y`, fused or not: `w` is the exact or the rounded product. -/
theorem nmad_err [f.Ok] {A : ℝ} (ok : NewtOk f A) (b : Bool) {a y z : FP f} (ha : a.isFinite = true) (hy : y.isFinite = true)
    (hz : z.isFinite = true) (hq : |a.real * y.real| ≤ f.big) :
    ∃ w : ℝ, (w = a.real * y.real ∨ w = (mul a y).real) ∧
      ∀ M, |z.real - w| ≤ M → A ≤ M → M ≤ f.big →
        (nmad b a y z).isFinite = true ∧ |(nmad b a y z).real - (z.real - w)| ≤ f.u * M := by
  have e : a.real * y.real = ((a.val * y.val : ℚ) : ℝ) := by unfold FP.real; push_cast; rfl
  have hb : |a.val * y.val| ≤ f.big := by
    rw [e] at hq
    have : ((|a.val * y.val| : ℚ) : ℝ) ≤ f.big := by rw [Rat.cast_abs]; exact hq
    exact_mod_cast this
  obtain ⟨w, hw, h⟩ := nmad_split b ha hy hz hb
  have m := mul_spec ha hy hb
  refine ⟨(w : ℝ), ?_, fun M hM lo hi => ?_⟩
  · rcases hw with hw | hw
    · left; rw [e, hw]
    · right; rw [hw, ← m.2]; rfl
  · have e2 : z.real - (w : ℝ) = ((z.val - w : ℚ) : ℝ) := by unfold FP.real; push_cast; rfl
    rw [e2] at hM ⊢
    have hb2 : |z.val - w| ≤ f.big := by
      have : ((|z.val - w| : ℚ) : ℝ) ≤ f.big := by rw [Rat.cast_abs]; exact hM.trans hi
      exact_mod_cast this
    have s := h hb2
    refine ⟨s.1, ?_⟩
    have e3 : (nmad b a y z).real = ((rnd f (z.val - w) : ℚ) : ℝ) := by unfold FP.real; rw [s.2]
    rw [e3]
    refine rnd_real hM ?_ hb2
    rw [ok.eta]
    exact mul_le_mul_of_nonneg_left lo ok.u0.le

/-- The exact iteration. -/
theorem newton_exact {P e : ℝ} (h : |P - 1| ≤ e) (he : e ≤ 1 / 20) : |P * (3 / 2 - P * P / 2) - 1| ≤ 3 / 2 * e ^ 2 + e ^ 3 / 2 := by
  have hs : |P - 1| ^ 2 ≤ e ^ 2 := pow_le_pow_left₀ (abs_nonneg _) h 2
  have hc : |P - 1| ^ 3 ≤ e ^ 3 := pow_le_pow_left₀ (abs_nonneg _) h 3
  have e1 : P * (3 / 2 - P * P / 2) - 1 = -(3 / 2 * (P - 1) ^ 2 + (P - 1) ^ 3 / 2) := by ring
  rw [e1, abs_neg]
  refine (abs_add_le _ _).trans ?_
  have a1 : |3 / 2 * (P - 1) ^ 2| = 3 / 2 * |P - 1| ^ 2 := by rw [abs_mul, abs_pow, abs_of_pos (by norm_num : (0 : ℝ) < 3 / 2)]
  have a2 : |(P - 1) ^ 3 / 2| = |P - 1| ^ 3 / 2 := by rw [abs_div, abs_pow, abs_of_pos (by norm_num : (0 : ℝ) < 2)]
  rw [a1, a2]
  linarith

/-- Collecting the rounding errors of one step. All quantities are scaled by the square root. -/
theorem newton_err {P b c R u : ℝ} (hP : |P - 1| ≤ 1 / 20) (u0 : 0 < u) (u1 : u ≤ 1 / 2 ^ 20)
    (hb : |b - P * P / 2| ≤ 4.01 * u * (P * P / 2)) (hc : |c - (3 / 2 - b)| ≤ u * 1.1) (hR : |R - P * c| ≤ u * (P * c)) :
    |R - P * (3 / 2 - P * P / 2)| ≤ 5 * u ∧ 0.9 ≤ c ∧ c ≤ 1.1 := by
  have p1 := abs_le.1 hP
  have pp : P * P ≤ 1.1025 := by nlinarith
  have pp0 : 0.9025 ≤ P * P := by nlinarith
  have hb' : |b - P * P / 2| ≤ 2.22 * u := hb.trans (by nlinarith)
  have b1 := abs_le.1 hb'
  have c1 := abs_le.1 hc
  have cl : |c - (3 / 2 - P * P / 2)| ≤ 3.32 * u := by rw [abs_le]; constructor <;> linarith
  have c2 := abs_le.1 cl
  have u2 : u ≤ 0.001 := u1.trans (by norm_num)
  have clo : 0.9 ≤ c := by linarith
  have chi : c ≤ 1.1 := by linarith
  refine ⟨?_, clo, chi⟩
  have e : R - P * (3 / 2 - P * P / 2) = (R - P * c) + P * (c - (3 / 2 - P * P / 2)) := by ring
  rw [e]
  refine (abs_add_le _ _).trans ?_
  rw [abs_mul, abs_of_pos (by linarith : 0 < P)]
  have h1 : u * (P * c) ≤ u * 1.155 := mul_le_mul_of_nonneg_left (by nlinarith) u0.le
  have h2 : P * |c - (3 / 2 - P * P / 2)| ≤ 1.05 * (3.32 * u) := mul_le_mul (by linarith) cl (abs_nonneg _) (by norm_num)
  linarith

/-- Ranges of the quantities of one step. -/
theorem newton_range {A G S X : ℝ} (A0 : 0 < A) (A2 : A ≤ 1 / 1000000) (B : G * A = 2) (S0 : 0 < S) (SS : S * S = X) (hX : A ≤ X)
    (hX2 : X ≤ 2 * G) : 10 * A ≤ S ∧ A * S ≤ 0.01 ∧ 2000000 ≤ G ∧ S ≤ G ∧ 20 ≤ G * S := by
  have G0 : 0 < G := by nlinarith
  have G1 : 2000000 ≤ G := by nlinarith
  have SA : 10 * A ≤ S := by
    by_contra hc
    push Not at hc
    have : S * S < (10 * A) * (10 * A) := by nlinarith
    nlinarith
  refine ⟨SA, ?_, G1, ?_, ?_⟩
  · by_contra hc
    push Not at hc
    have h1 : 0.0001 ≤ (A * S) * (A * S) := by nlinarith
    have h2 : (A * S) * (A * S) ≤ A * A * (2 * G) := by
      have : (A * S) * (A * S) = A * A * X := by rw [← SS]; ring
      rw [this]; exact mul_le_mul_of_nonneg_left hX2 (by positivity)
    have h3 : A * A * (2 * G) = 4 * A := by linear_combination 2 * A * B
    linarith
  · by_contra hc
    push Not at hc
    nlinarith
  · have := mul_le_mul_of_nonneg_left SA G0.le
    linarith

/-- Two relative errors in sequence. -/
theorem rel_two {a m h U k : ℝ} (h1 : |a - m| ≤ U * m) (h2 : |m - h| ≤ k * U * h) (U0 : 0 < U) (U1 : U ≤ 1 / 100000) (k1 : k ≤ 5) (h0 : 0 ≤ h) :
    |a - h| ≤ (k + 1.001) * U * h := by
  have m1 := (abs_le.1 h2).2
  have s : k * U ≤ 0.001 := by nlinarith
  have t : m ≤ 1.001 * h := by nlinarith
  have t2 : U * m ≤ U * (1.001 * h) := mul_le_mul_of_nonneg_left t U0.le
  have e : a - h = (a - m) + (m - h) := by ring
  rw [e]
  refine (abs_add_le _ _).trans ?_
  linarith

/-- The relative errors of the two products `x2 * y * y`. -/
theorem newton_prod [f.Ok] {A : ℝ} (ok : NewtOk f A) {X S P : ℝ} {x2 y : FP f} (S0 : 0 < S) (SS : S * S = X) (SA : 10 * A ≤ S) (SG : S ≤ f.big)
    (h2f : x2.isFinite = true) (h2 : |x2.real - X / 2| ≤ f.u * X) (hy : y.isFinite = true) (yv : y.real = P / S) (p1 : 0.95 ≤ P) (p2 : P ≤ 1.05) :
    (mul x2 y).isFinite = true ∧ |(mul x2 y).real - S * P / 2| ≤ 3.001 * f.u * (S * P / 2) := by
  have u0 := ok.u0
  have u2 : (f.u : ℝ) ≤ 1 / 100000 := ok.u1.trans (by norm_num)
  have y0 : 0 ≤ P / S := div_nonneg (by linarith) S0.le
  have k : |x2.real * y.real - S * P / 2| ≤ 2 * f.u * (S * P / 2) := by
    have e1 : x2.real * y.real - S * P / 2 = (x2.real - X / 2) * (P / S) := by rw [yv, ← SS]; field_simp
    have e2 : 2 * f.u * (S * P / 2) = (f.u * X) * (P / S) := by rw [← SS]; field_simp
    rw [e1, e2, abs_mul, abs_of_nonneg y0]
    exact mul_le_mul_of_nonneg_right h2 y0
  have SP : 0.95 * S ≤ S * P ∧ S * P ≤ 1.05 * S := by constructor <;> nlinarith
  obtain ⟨m, hm⟩ : ∃ m, x2.real * y.real = m := ⟨_, rfl⟩
  have k2 : 2 * f.u * (S * P / 2) ≤ 0.001 * (S * P / 2) := mul_le_mul_of_nonneg_right (by linarith) (by linarith)
  have k3 := abs_le.1 (k.trans k2)
  rw [hm] at k k3
  have m0 : 0 ≤ m := by linarith
  have r := mul_rel ok h2f hy (by rw [hm, abs_of_nonneg m0]; linarith) (by rw [hm, abs_of_nonneg m0]; linarith)
  rw [hm, abs_of_nonneg m0] at r
  refine ⟨r.1, (rel_two r.2 k u0 u2 (by norm_num) (by linarith)).trans ?_⟩
  exact le_of_eq (by norm_num)

theorem newton_prod2 [f.Ok] {A : ℝ} (ok : NewtOk f A) {S P : ℝ} {a y : FP f} (S0 : 0 < S) (hG : 2000000 ≤ (f.big : ℝ))
    (haf : a.isFinite = true) (ha : |a.real - S * P / 2| ≤ 3.001 * f.u * (S * P / 2)) (hy : y.isFinite = true) (yv : y.real = P / S)
    (p1 : 0.95 ≤ P) (p2 : P ≤ 1.05) :
    (|a.real * y.real| ≤ f.big ∧ |a.real * y.real - P * P / 2| ≤ 4.01 * f.u * (P * P / 2)) ∧
    (mul a y).isFinite = true ∧ |(mul a y).real - P * P / 2| ≤ 4.01 * f.u * (P * P / 2) := by
  have u0 := ok.u0
  have u2 : (f.u : ℝ) ≤ 1 / 100000 := ok.u1.trans (by norm_num)
  have A2 : A ≤ 1 / 1000000 := ok.A1.trans (by norm_num)
  have y0 : 0 ≤ P / S := div_nonneg (by linarith) S0.le
  have k : |a.real * y.real - P * P / 2| ≤ 3.001 * f.u * (P * P / 2) := by
    have e1 : a.real * y.real - P * P / 2 = (a.real - S * P / 2) * (P / S) := by rw [yv]; field_simp
    have e2 : 3.001 * f.u * (P * P / 2) = (3.001 * f.u * (S * P / 2)) * (P / S) := by field_simp
    rw [e1, e2, abs_mul, abs_of_nonneg y0]
    exact mul_le_mul_of_nonneg_right ha y0
  have pp : 0.9 ≤ P * P ∧ P * P ≤ 1.11 := by constructor <;> nlinarith
  obtain ⟨m, hm⟩ : ∃ m, a.real * y.real = m := ⟨_, rfl⟩
  have k2 : 3.001 * f.u * (P * P / 2) ≤ 0.001 * (P * P / 2) := mul_le_mul_of_nonneg_right (by linarith) (by linarith)
  have k3 := abs_le.1 (k.trans k2)
  rw [hm] at k k3
  have m0 : 0 ≤ m := by linarith
  have r := mul_rel ok haf hy (by rw [hm, abs_of_nonneg m0]; linarith) (by rw [hm, abs_of_nonneg m0]; linarith)
  rw [hm, abs_of_nonneg m0] at r
  refine ⟨⟨by rw [hm, abs_of_nonneg m0]; linarith, by
    rw [hm]; exact k.trans (mul_le_mul_of_nonneg_right (mul_le_mul_of_nonneg_right (by norm_num) u0.le) (by linarith))⟩,
    r.1, (rel_two r.2 k u0 u2 (by norm_num) (by linarith)).trans ?_⟩
  refine mul_le_mul_of_nonneg_right (mul_le_mul_of_nonneg_right (by norm_num) u0.le) (by linarith)

theorem sq_near {P : ℝ} (h1 : 0.95 ≤ P) (h2 : P ≤ 1.05) : 0.9 ≤ P * P ∧ P * P ≤ 1.11 := by
  constructor <;> nlinarith

theorem prod_near {P c : ℝ} (h1 : 0.95 ≤ P) (h2 : P ≤ 1.05) (h3 : 0.9 ≤ c) (h4 : c ≤ 1.1) : 0.8 ≤ P * c ∧ P * c ≤ 1.2 := by
  constructor <;> nlinarith

/-- One step of the loop is one step of the exact iteration up to rounding. -/
theorem newton_round [f.Ok] {A : ℝ} (ok : NewtOk f A) (fu : Bool) {X : ℝ} {x2 y : FP f} (hX : A ≤ X) (hX2 : X ≤ 2 * f.big) (h2f : x2.isFinite = true)
    (h2 : |x2.real - X / 2| ≤ f.u * X) (hy : y.isFinite = true) (he : |Real.sqrt X * y.real - 1| ≤ 1 / 20) :
    (y * nmad fu (x2 * y) y (lit 1.5)).isFinite = true ∧
    |Real.sqrt X * (y * nmad fu (x2 * y) y (lit 1.5)).real
      - Real.sqrt X * y.real * (3 / 2 - Real.sqrt X * y.real * (Real.sqrt X * y.real) / 2)| ≤ 5 * f.u := by
  have X0 : 0 < X := ok.A0.trans_le hX
  obtain ⟨S, hS⟩ : ∃ S, Real.sqrt X = S := ⟨_, rfl⟩
  have S0 : 0 < S := by rw [← hS]; exact Real.sqrt_pos.2 X0
  have SS : S * S = X := by rw [← hS]; exact Real.mul_self_sqrt X0.le
  rw [hS] at he ⊢
  have A0 := ok.A0
  have A2 : A ≤ 1 / 1000000 := ok.A1.trans (by norm_num)
  have u0 := ok.u0
  have u1 := ok.u1
  have u2 : (f.u : ℝ) ≤ 1 / 100000 := u1.trans (by norm_num)
  obtain ⟨SA, AS, G1, SG, GS⟩ := newton_range A0 A2 ok.big S0 SS hX hX2
  obtain ⟨P, hP⟩ : ∃ P, S * y.real = P := ⟨_, rfl⟩
  rw [hP] at he ⊢
  have hP20 := he
  have p1 := abs_le.1 hP20
  have yv : y.real = P / S := by rw [← hP]; field_simp
  obtain ⟨f1, e1⟩ := newton_prod ok S0 SS SA SG h2f h2 hy yv (by linarith) (by linarith)
  obtain ⟨⟨f20, f21⟩, f2, bm⟩ := newton_prod2 ok S0 G1 f1 e1 hy yv (by linarith) (by linarith)
  obtain ⟨b, hb, hd⟩ := nmad_err ok fu f1 hy ok.th.1 f20
  have bb : |b - P * P / 2| ≤ 4.01 * f.u * (P * P / 2) := by rcases hb with hb | hb <;> rw [hb] <;> assumption
  have pp : 0.9 ≤ P * P ∧ P * P ≤ 1.11 := sq_near (by linarith) (by linarith)
  have bs : |b - P * P / 2| ≤ 0.001 * (P * P / 2) := bb.trans (mul_le_mul_of_nonneg_right (by linarith) (by linarith))
  have b1 := abs_le.1 bs
  -- difference
  have t1 : (lit 1.5 : FP f).real = 3 / 2 := by unfold FP.real; rw [ok.th.2]; norm_num
  obtain ⟨f3, e3⟩ := hd 1.1
    (by rw [t1, abs_le]; constructor <;> linarith) (by linarith) (by linarith)
  rw [t1] at e3
  obtain ⟨c, hc⟩ : ∃ v, (nmad fu (mul x2 y) y (lit 1.5)).real = v := ⟨_, rfl⟩
  rw [hc] at e3
  have cb : 0.9 ≤ c ∧ c ≤ 1.1 := by
    have := abs_le.1 e3
    constructor <;> linarith
  -- last product
  have PC := prod_near (P := P) (c := c) (by linarith) (by linarith) cb.1 cb.2
  have yc : y.real * c = P * c / S := by rw [yv]; ring
  have yc0 : 0 ≤ y.real * c := by rw [yc]; exact div_nonneg (by linarith) S0.le
  have y1 : A ≤ y.real * c := by rw [yc, le_div_iff₀ S0]; linarith
  have y2 : y.real * c ≤ f.big := by rw [yc, div_le_iff₀ S0]; linarith
  obtain ⟨f4, e4⟩ := mul_rel ok (x := y) (y := nmad fu (mul x2 y) y (lit 1.5)) hy f3 (by rw [hc, abs_of_nonneg yc0]; exact y1)
    (by rw [hc, abs_of_nonneg yc0]; exact y2)
  rw [hc, abs_of_nonneg yc0] at e4
  refine ⟨f4, ?_⟩
  obtain ⟨r, hr⟩ : ∃ v, (mul y (nmad fu (mul x2 y) y (lit 1.5))).real = v := ⟨_, rfl⟩
  show |S * (mul y (nmad fu (mul x2 y) y (lit 1.5))).real - _| ≤ _
  rw [hr] at e4 ⊢
  have eR : |S * r - P * c| ≤ f.u * (P * c) := by
    have k : S * r - P * c = S * (r - y.real * c) := by rw [← hP]; ring
    rw [k, abs_mul, abs_of_pos S0]
    have k2 : f.u * (P * c) = S * (f.u * (y.real * c)) := by rw [← hP]; ring
    rw [k2]
    exact mul_le_mul_of_nonneg_left e4 S0.le
  exact (newton_err hP20 u0 u1 bb e3 eR).1

/-- One step of the loop. -/
theorem newton_step [f.Ok] {A : ℝ} (ok : NewtOk f A) (fu : Bool) {X : ℝ} {x2 y : FP f} (hX : A ≤ X) (hX2 : X ≤ 2 * f.big) (h2f : x2.isFinite = true)
    (h2 : |x2.real - X / 2| ≤ f.u * X) (hy : y.isFinite = true) {e : ℝ} (he : |Real.sqrt X * y.real - 1| ≤ e) (he2 : e ≤ 1 / 20) :
    (y * nmad fu (x2 * y) y (lit 1.5)).isFinite = true ∧
    |Real.sqrt X * (y * nmad fu (x2 * y) y (lit 1.5)).real - 1| ≤ 3 / 2 * e ^ 2 + e ^ 3 / 2 + 5 * f.u := by
  obtain ⟨a, b⟩ := newton_round ok fu hX hX2 h2f h2 hy (he.trans he2)
  refine ⟨a, ?_⟩
  have nx := newton_exact he he2
  generalize Real.sqrt X * y.real = P at *
  generalize Real.sqrt X * (y * nmad fu (x2 * y) y (lit 1.5)).real = R at *
  rw [show R - 1 = (R - P * (3 / 2 - P * P / 2)) + (P * (3 / 2 - P * P / 2) - 1) by ring]
  refine (abs_add_le _ _).trans ?_
  linarith

/-- The loop. -/
theorem newton_loop [f.Ok] {A : ℝ} (ok : NewtOk f A) (p : Policy) {X : ℝ} {x2 : FP f} (hX : A ≤ X) (hX2 : X ≤ 2 * f.big) (h2f : x2.isFinite = true)
    (h2 : |x2.real - X / 2| ≤ f.u * X) (e : ℕ → ℝ) (n : ℕ) (hes : ∀ i < n, 3 / 2 * e i ^ 2 + e i ^ 3 / 2 + 5 * f.u ≤ e (i + 1)) (heb : ∀ i < n, e i ≤ 1 / 20) :
    ∀ y : FP f, y.isFinite = true → |Real.sqrt X * y.real - 1| ≤ e 0 →
      (isqrtLoopC p x2 n y).isFinite = true ∧ |Real.sqrt X * (isqrtLoopC p x2 n y).real - 1| ≤ e n := by
  induction n generalizing e with
  | zero => intro y hy h; exact ⟨hy, h⟩
  | succ n ih =>
    intro y hy h
    have s := newton_step ok (p n) hX hX2 h2f h2 hy h (heb 0 (by omega))
    exact ih (fun i => e (i + 1)) (fun i hi => hes (i + 1) (by omega)) (fun i hi => heb (i + 1) (by omega)) _ s.1 (s.2.trans (hes 0 (by omega)))

end Vdt
