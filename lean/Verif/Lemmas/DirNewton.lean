import Verif.Lemmas.DirAtan
import Verif.Props.Isqrt

/-! # The reciprocal square root and the reciprocal in every rounding direction -/

namespace Vdt.Flush
open FP details
variable {f : Fmt} {m : Mode}

/-- The error of a result of size at most `M`, at least the smallest normal number. -/
theorem Faithful.err_size [f.Ok] {w : FP f} {q : ℚ} {M : ℝ} (h : Faithful w q) (hq : |(q : ℝ)| ≤ M) (he : (f.eta : ℝ) ≤ f.u * M) (hb : |q| ≤ f.big) :
    |w.real - q| ≤ 2 * f.u * M := by
  have u0 : (0 : ℝ) < f.u := by exact_mod_cast f.u_pos
  have e0 : (0 : ℝ) < f.eta := by exact_mod_cast f.eta_pos
  rcases eq_or_ne q 0 with rfl | q0
  · have := h.exactQ ⟨0, f.emin - f.mb, by simp, by simp, le_rfl⟩ hb
    unfold FP.real
    rw [this, sub_self, abs_zero]
    linarith
  · have a := h.err le_rfl hb
    have b := hulp_le f (abs_pos.2 q0)
    have c : |w.val - q| ≤ 2 * max (f.u * |q|) f.eta := by linarith
    have c' := (Rat.cast_le (K := ℝ)).2 c
    push_cast at c'
    refine c'.trans ?_
    have : max ((f.u : ℝ) * |(q : ℝ)|) f.eta ≤ f.u * M := max_le (mul_le_mul_of_nonneg_left hq u0.le) he
    linarith

/-- A rounded product in the normal range. -/
theorem mul_relD [f.Ok] (hm : m.Dir) {A : ℝ} (ok : NewtOk f A) {x y : Z m f} (hx : x.v.isFinite = true) (hy : y.v.isFinite = true) (lo : A ≤ |x.v.real * y.v.real|)
    (hi : |x.v.real * y.v.real| ≤ f.big) : (x * y).v.isFinite = true ∧ |(x * y).v.real - x.v.real * y.v.real| ≤ 2 * f.u * |x.v.real * y.v.real| := by
  have e : x.v.real * y.v.real = ((x.v.val * y.v.val : ℚ) : ℝ) := by unfold FP.real; push_cast; rfl
  rw [e] at lo hi ⊢
  have hb : |x.v.val * y.v.val| ≤ f.big := by
    have : ((|x.v.val * y.v.val| : ℚ) : ℝ) ≤ f.big := by rw [Rat.cast_abs]; exact hi
    exact_mod_cast this
  have s := mul_dir hm hx hy hb
  refine ⟨s.1, s.err_size le_rfl ?_ hb⟩
  rw [ok.eta]
  exact mul_le_mul_of_nonneg_left lo ok.u0.le

/-- A rounded difference of size at most `M`. -/
theorem sub_absD [f.Ok] (hm : m.Dir) {A M : ℝ} (ok : NewtOk f A) {x y : Z m f} (hx : x.v.isFinite = true) (hy : y.v.isFinite = true) (hM : |x.v.real - y.v.real| ≤ M)
    (lo : A ≤ M) (hi : M ≤ f.big) : (x - y).v.isFinite = true ∧ |(x - y).v.real - (x.v.real - y.v.real)| ≤ 2 * f.u * M := by
  have e : x.v.real - y.v.real = ((x.v.val - y.v.val : ℚ) : ℝ) := by unfold FP.real; push_cast; rfl
  rw [e] at hM ⊢
  have hb : |x.v.val - y.v.val| ≤ f.big := by
    have : ((|x.v.val - y.v.val| : ℚ) : ℝ) ≤ f.big := by rw [Rat.cast_abs]; exact hM.trans hi
    exact_mod_cast this
  have s := sub_dir hm hx hy hb
  refine ⟨s.1, s.err_size hM ?_ hb⟩
  rw [ok.eta]
  exact mul_le_mul_of_nonneg_left lo ok.u0.le

/-- The relative errors of the two products `x2 * y * y`. -/
theorem newton_prodD [f.Ok] (hm : m.Dir) {A U : ℝ} (ok : NewtOk f A) (hU : U = 2 * f.u) (U0 : 0 < U) (U2 : U ≤ 1 / 100000) {X S P : ℝ} {x2 y : Z m f} (S0 : 0 < S) (SS : S * S = X) (SA : 10 * A ≤ S) (SG : S ≤ f.big)
    (h2f : x2.v.isFinite = true) (h2 : |x2.v.real - X / 2| ≤ U * X) (hy : y.v.isFinite = true) (yv : y.v.real = P / S) (p1 : 0.95 ≤ P) (p2 : P ≤ 1.05) :
    (x2 * y).v.isFinite = true ∧ |(x2 * y).v.real - S * P / 2| ≤ 3.001 * U * (S * P / 2) := by
  have y0 : 0 ≤ P / S := div_nonneg (by linarith) S0.le
  have k : |x2.v.real * y.v.real - S * P / 2| ≤ 2 * U * (S * P / 2) := by
    have e1 : x2.v.real * y.v.real - S * P / 2 = (x2.v.real - X / 2) * (P / S) := by rw [yv, ← SS]; field_simp
    have e2 : 2 * U * (S * P / 2) = (U * X) * (P / S) := by rw [← SS]; field_simp
    rw [e1, e2, abs_mul, abs_of_nonneg y0]
    exact mul_le_mul_of_nonneg_right h2 y0
  have SP : 0.95 * S ≤ S * P ∧ S * P ≤ 1.05 * S := by constructor <;> nlinarith
  obtain ⟨w, hw⟩ : ∃ w, x2.v.real * y.v.real = w := ⟨_, rfl⟩
  have k2 : 2 * U * (S * P / 2) ≤ 0.001 * (S * P / 2) := mul_le_mul_of_nonneg_right (by linarith) (by linarith)
  have k3 := abs_le.1 (k.trans k2)
  rw [hw] at k k3
  have A0 := ok.A0
  have m0 : 0 ≤ w := by linarith
  have r := mul_relD hm ok h2f hy (by rw [hw, abs_of_nonneg m0]; linarith) (by rw [hw, abs_of_nonneg m0]; linarith)
  rw [hw, abs_of_nonneg m0, ← hU] at r
  refine ⟨r.1, (rel_two r.2 k U0 U2 (by norm_num) (by linarith)).trans ?_⟩
  exact le_of_eq (by norm_num)

theorem newton_prod2D [f.Ok] (hm : m.Dir) {A U : ℝ} (ok : NewtOk f A) (hU : U = 2 * f.u) (U0 : 0 < U) (U2 : U ≤ 1 / 100000) {S P : ℝ} {a y : Z m f} (S0 : 0 < S) (hG : 2000000 ≤ (f.big : ℝ))
    (haf : a.v.isFinite = true) (ha : |a.v.real - S * P / 2| ≤ 3.001 * U * (S * P / 2)) (hy : y.v.isFinite = true) (yv : y.v.real = P / S)
    (p1 : 0.95 ≤ P) (p2 : P ≤ 1.05) :
    (a * y).v.isFinite = true ∧ |(a * y).v.real - P * P / 2| ≤ 4.01 * U * (P * P / 2) := by
  have A2 : A ≤ 1 / 1000000 := ok.A1.trans (by norm_num)
  have y0 : 0 ≤ P / S := div_nonneg (by linarith) S0.le
  have k : |a.v.real * y.v.real - P * P / 2| ≤ 3.001 * U * (P * P / 2) := by
    have e1 : a.v.real * y.v.real - P * P / 2 = (a.v.real - S * P / 2) * (P / S) := by rw [yv]; field_simp
    have e2 : 3.001 * U * (P * P / 2) = (3.001 * U * (S * P / 2)) * (P / S) := by field_simp
    rw [e1, e2, abs_mul, abs_of_nonneg y0]
    exact mul_le_mul_of_nonneg_right ha y0
  have pp : 0.9 ≤ P * P ∧ P * P ≤ 1.11 := sq_near p1 p2
  obtain ⟨w, hw⟩ : ∃ w, a.v.real * y.v.real = w := ⟨_, rfl⟩
  have k2 : 3.001 * U * (P * P / 2) ≤ 0.001 * (P * P / 2) := mul_le_mul_of_nonneg_right (by linarith) (by linarith)
  have k3 := abs_le.1 (k.trans k2)
  rw [hw] at k k3
  have m0 : 0 ≤ w := by linarith
  have r := mul_relD hm ok haf hy (by rw [hw, abs_of_nonneg m0]; linarith) (by rw [hw, abs_of_nonneg m0]; linarith)
  rw [hw, abs_of_nonneg m0, ← hU] at r
  refine ⟨r.1, (rel_two r.2 k U0 U2 (by norm_num) (by linarith)).trans ?_⟩
  refine mul_le_mul_of_nonneg_right (mul_le_mul_of_nonneg_right (by norm_num) U0.le) (by linarith)

/-- One step of the loop is one step of the exact iteration up to rounding. -/
theorem newton_roundD [f.Ok] (hm : m.Dir) {A U : ℝ} (ok : NewtOk f A) (hU : U = 2 * f.u) (U0 : 0 < U) (U1 : U ≤ 1 / 2 ^ 20) {X : ℝ} {x2 y : Z m f} (hX : A ≤ X) (hX2 : X ≤ 2 * f.big) (h2f : x2.v.isFinite = true)
    (h2 : |x2.v.real - X / 2| ≤ U * X) (hy : y.v.isFinite = true) (he : |Real.sqrt X * y.v.real - 1| ≤ 1 / 20) :
    (y * (of (lit 1.5) - x2 * y * y)).v.isFinite = true ∧
    |Real.sqrt X * (y * (of (lit 1.5) - x2 * y * y)).v.real
      - Real.sqrt X * y.v.real * (3 / 2 - Real.sqrt X * y.v.real * (Real.sqrt X * y.v.real) / 2)| ≤ 5 * U := by
  have X0 : 0 < X := ok.A0.trans_le hX
  obtain ⟨S, hS⟩ : ∃ S, Real.sqrt X = S := ⟨_, rfl⟩
  have S0 : 0 < S := by rw [← hS]; exact Real.sqrt_pos.2 X0
  have SS : S * S = X := by rw [← hS]; exact Real.mul_self_sqrt X0.le
  rw [hS] at he ⊢
  have A0 := ok.A0
  have A2 : A ≤ 1 / 1000000 := ok.A1.trans (by norm_num)
  have U2 : U ≤ 1 / 100000 := U1.trans (by norm_num)
  obtain ⟨SA, AS, G1, SG, GS⟩ := newton_range A0 A2 ok.big S0 SS hX hX2
  obtain ⟨P, hP⟩ : ∃ P, S * y.v.real = P := ⟨_, rfl⟩
  rw [hP] at he ⊢
  have p1 := abs_le.1 he
  have yv : y.v.real = P / S := by rw [← hP]; field_simp
  obtain ⟨f1, e1⟩ := newton_prodD hm ok hU U0 U2 S0 SS SA SG h2f h2 hy yv (by linarith) (by linarith)
  obtain ⟨f2, bb⟩ := newton_prod2D hm ok hU U0 U2 S0 G1 f1 e1 hy yv (by linarith) (by linarith)
  have pp : 0.9 ≤ P * P ∧ P * P ≤ 1.11 := sq_near (by linarith) (by linarith)
  have bs : |(x2 * y * y).v.real - P * P / 2| ≤ 0.001 * (P * P / 2) := bb.trans (mul_le_mul_of_nonneg_right (by linarith) (by linarith))
  have b1 := abs_le.1 bs
  have t1 : (of (lit 1.5) : Z m f).v.real = 3 / 2 := by show (lit 1.5 : FP f).real = _; unfold FP.real; rw [ok.th.2]; norm_num
  obtain ⟨f3, e3⟩ := sub_absD hm ok (M := 1.1) (x := of (lit 1.5)) (y := x2 * y * y) ok.th.1 f2
    (by rw [t1, abs_le]; constructor <;> linarith) (by linarith) (by linarith)
  rw [t1, ← hU] at e3
  obtain ⟨c, hc⟩ : ∃ v, (of (lit 1.5) - x2 * y * y : Z m f).v.real = v := ⟨_, rfl⟩
  rw [hc] at e3
  have cb : 0.9 ≤ c ∧ c ≤ 1.1 := by
    have := abs_le.1 e3
    constructor <;> linarith
  have PC := prod_near (P := P) (c := c) (by linarith) (by linarith) cb.1 cb.2
  have yc : y.v.real * c = P * c / S := by rw [yv]; ring
  have yc0 : 0 ≤ y.v.real * c := by rw [yc]; exact div_nonneg (by linarith) S0.le
  have y1 : A ≤ y.v.real * c := by rw [yc, le_div_iff₀ S0]; linarith
  have y2 : y.v.real * c ≤ f.big := by rw [yc, div_le_iff₀ S0]; linarith
  obtain ⟨f4, e4⟩ := mul_relD hm ok (x := y) (y := of (lit 1.5) - x2 * y * y) hy f3 (by rw [hc, abs_of_nonneg yc0]; exact y1)
    (by rw [hc, abs_of_nonneg yc0]; exact y2)
  rw [hc, abs_of_nonneg yc0, ← hU] at e4
  refine ⟨f4, ?_⟩
  obtain ⟨r, hr⟩ : ∃ v, (y * (of (lit 1.5) - x2 * y * y) : Z m f).v.real = v := ⟨_, rfl⟩
  rw [hr] at e4 ⊢
  have eR : |S * r - P * c| ≤ U * (P * c) := by
    have k : S * r - P * c = S * (r - y.v.real * c) := by rw [← hP]; ring
    rw [k, abs_mul, abs_of_pos S0]
    have k2 : U * (P * c) = S * (U * (y.v.real * c)) := by rw [← hP]; ring
    rw [k2]
    exact mul_le_mul_of_nonneg_left e4 S0.le
  exact (newton_err he U0 U1 bb e3 eR).1

/-- The loop. -/
theorem newton_loopD [f.Ok] (hm : m.Dir) {A U : ℝ} (ok : NewtOk f A) (hU : U = 2 * f.u) (U0 : 0 < U) (U1 : U ≤ 1 / 2 ^ 20) {X : ℝ} {x2 : Z m f} (hX : A ≤ X) (hX2 : X ≤ 2 * f.big) (h2f : x2.v.isFinite = true)
    (h2 : |x2.v.real - X / 2| ≤ U * X) (e : ℕ → ℝ) (n : ℕ) (hes : ∀ i < n, 3 / 2 * e i ^ 2 + e i ^ 3 / 2 + 5 * U ≤ e (i + 1)) (heb : ∀ i < n, e i ≤ 1 / 20) :
    ∀ y : Z m f, y.v.isFinite = true → |Real.sqrt X * y.v.real - 1| ≤ e 0 →
      (isqrtLoop x2 n y).v.isFinite = true ∧ |Real.sqrt X * (isqrtLoop x2 n y).v.real - 1| ≤ e n := by
  induction n generalizing e with
  | zero => intro y hy h; exact ⟨hy, h⟩
  | succ n ih =>
    intro y hy h
    have h20 := heb 0 (by omega)
    obtain ⟨a, b⟩ := newton_roundD hm ok hU U0 U1 hX hX2 h2f h2 hy (h.trans h20)
    have nx := newton_exact h h20
    refine ih (fun i => e (i + 1)) (fun i hi => hes (i + 1) (by omega)) (fun i hi => heb (i + 1) (by omega)) _ a (le_trans ?_ (hes 0 (by omega)))
    generalize Real.sqrt X * y.v.real = P at *
    generalize Real.sqrt X * (y * (of (lit 1.5) - x2 * y * y)).v.real = R at *
    rw [show R - 1 = (R - P * (3 / 2 - P * P / 2)) + (P * (3 / 2 - P * P / 2) - 1) by ring]
    refine (abs_add_le _ _).trans ?_
    linarith

/-- `x * 0.5`. -/
theorem half_errD [f.Ok] (hm : m.Dir) {A : ℝ} (ok : NewtOk f A) {x : FP f} (hx : x.isFinite = true) (hs : x.sign = false) (hA : A ≤ x.real) :
    (of x * of (lit 0.5) : Z m f).v.isFinite = true ∧ |(of x * of (lit 0.5) : Z m f).v.real - x.real / 2| ≤ 2 * f.u * x.real := by
  have hb := finite_le_big hx
  have v0 := val_nonneg_of_sign hs
  rw [abs_of_nonneg v0] at hb
  have e : (of x : Z m f).v.val * (of (lit 0.5) : Z m f).v.val = x.val / 2 := by
    show x.val * (lit 0.5 : FP f).val = _
    rw [ok.half.2]; ring
  have hb2 : |x.val / 2| ≤ f.big := by rw [abs_of_nonneg (by linarith)]; linarith
  have s := mul_dir hm (a := of x) (b := of (lit 0.5)) hx ok.half.1 (by rw [e]; exact hb2)
  rw [e] at s
  have e3 : x.real / 2 = ((x.val / 2 : ℚ) : ℝ) := by unfold FP.real; push_cast; rfl
  rw [e3]
  refine ⟨s.1, s.err_size ?_ ?_ hb2⟩
  · rw [abs_of_nonneg (by exact_mod_cast (by linarith : 0 ≤ x.val / 2))]
    unfold FP.real
    have : ((x.val / 2 : ℚ) : ℝ) ≤ ((x.val : ℚ) : ℝ) := by exact_mod_cast (by linarith : x.val / 2 ≤ x.val)
    exact this
  · rw [ok.eta]; exact mul_le_mul_of_nonneg_left hA ok.u0.le

/-- All normal arguments: the loop converges. -/
theorem isqrt_normalD [f.Ok] (hm : m.Dir) {A U : ℝ} {B Km : ℕ} (ok : NewtOk f A) (hU : U = 2 * f.u) (U0 : 0 < U) (U1 : U ≤ 1 / 2 ^ 20) (st : StartOk f B Km) (hA : ((2 : ℚ) ^ f.emin : ℚ) = A) {x : FP f} (hx : x.Normal)
    (hs : x.sign = false) (e : ℕ → ℝ) (n : ℕ) (h0 : 0.0354 ≤ e 0) (hes : ∀ i < n, 3 / 2 * e i ^ 2 + e i ^ 3 / 2 + 5 * U ≤ e (i + 1))
    (heb : ∀ i < n, e i ≤ 1 / 20) :
    (isqrtLoop (of x * of (lit 0.5) : Z m f) n (of (isqrtStart st x))).v.isFinite = true ∧
    |Real.sqrt x.real * (isqrtLoop (of x * of (lit 0.5) : Z m f) n (of (isqrtStart st x))).v.real - 1| ≤ e n := by
  have hmag := mag_of_normal hx
  have v0 := val_nonneg_of_sign hs
  have lo : A ≤ x.real := by
    rw [← hA]; unfold FP.real
    have := hx.2
    rw [abs_of_nonneg v0] at this
    exact_mod_cast this
  have hi : x.real ≤ 2 * f.big := by
    have := finite_le_big hx.1
    rw [abs_of_nonneg v0] at this
    unfold FP.real
    exact_mod_cast this
  obtain ⟨hf, hp⟩ := half_errD hm ok hx.1 hs lo
  rw [← hU] at hp
  obtain ⟨s1, s2⟩ := start_prod st hmag.1 hmag.2
  refine newton_loopD hm ok hU U0 U1 lo hi hf hp e n hes heb (of (isqrtStart st x)) (decide_eq_true s1) ?_
  refine (sqrt_near (ok.A0.trans_le lo) ?_ ?_).trans h0
  · show 0 ≤ (isqrtStart st x).real
    rw [real_of_pos rfl]; exact_mod_cast magVal_nonneg _ _
  · show |x.real * ((isqrtStart st x).real * (isqrtStart st x).real) - 1| ≤ _
    rw [real_of_pos hs, real_of_pos rfl]
    push_cast at s2
    exact s2

theorem isqrt_generalD_eq {x : F64} (hs : x.sign = false) (n : ℕ) :
    fast_isqrt_general m x n = isqrtLoop (of x * of (lit 0.5)) n (of (isqrtStart start64 x)) := by
  unfold fast_isqrt_general
  dsimp only
  rw [start_bits64 hs (isqrtStart start64 x) rfl rfl]

theorem isqrtf_generalD_eq {x : F32} (hs : x.sign = false) (n : ℕ) :
    fast_isqrtf_general m x n = isqrtLoop (of x * of (lit 0.5)) n (of (isqrtStart start32 x)) := by
  unfold fast_isqrtf_general
  dsimp only
  rw [start_bits32 hs (isqrtStart start32 x) rfl rfl]

/-- Bounds after each Newton step. -/
noncomputable def err64D : ℕ → ℝ
  | 0 => 0.0354
  | 1 => 0.00191
  | 2 => 0.00000548
  | 3 => 0.0000000000451
  | _ => 11 * b64.u

noncomputable def err32D : ℕ → ℝ
  | 0 => 0.0354
  | 1 => 0.00191
  | _ => 0.0000061

theorem err64D_step : ∀ i < 4, 3 / 2 * err64D i ^ 2 + err64D i ^ 3 / 2 + 5 * (2 * b64.u) ≤ err64D (i + 1) := by
  intro i hi
  have : i = 0 ∨ i = 1 ∨ i = 2 ∨ i = 3 := by omega
  rcases this with rfl | rfl | rfl | rfl <;> simp only [err64D, u64_val] <;> norm_num

theorem err32D_step : ∀ i < 2, 3 / 2 * err32D i ^ 2 + err32D i ^ 3 / 2 + 5 * (2 * b32.u) ≤ err32D (i + 1) := by
  intro i hi
  have : i = 0 ∨ i = 1 := by omega
  rcases this with rfl | rfl <;> simp only [err32D, u32_val] <;> norm_num

theorem err64D_small : ∀ i < 4, err64D i ≤ 1 / 20 := by
  intro i hi
  have : i = 0 ∨ i = 1 ∨ i = 2 ∨ i = 3 := by omega
  rcases this with rfl | rfl | rfl | rfl <;> simp only [err64D] <;> norm_num

theorem err32D_small : ∀ i < 2, err32D i ≤ 1 / 20 := by
  intro i hi
  have : i = 0 ∨ i = 1 := by omega
  rcases this with rfl | rfl <;> simp only [err32D] <;> norm_num

theorem isqrt64D (hm : m.Dir) {x : F64} (hx : x.Normal) (hs : x.sign = false) {n : ℕ} (hn : n ≤ 4) :
    (fast_isqrt_general m x n).v.isFinite = true ∧ |Real.sqrt x.real * (fast_isqrt_general m x n).v.real - 1| ≤ err64D n := by
  rw [isqrt_generalD_eq hs]
  exact isqrt_normalD hm newt64 rfl (by rw [u64_val]; norm_num) (by rw [u64_val]; norm_num) start64 (by rw [p2_eq]; rfl) hx hs err64D n
    (by simp only [err64D]; norm_num) (fun i hi => err64D_step i (by omega)) (fun i hi => err64D_small i (by omega))

theorem isqrt32D (hm : m.Dir) {x : F32} (hx : x.Normal) (hs : x.sign = false) {n : ℕ} (hn : n ≤ 2) :
    (fast_isqrtf_general m x n).v.isFinite = true ∧ |Real.sqrt x.real * (fast_isqrtf_general m x n).v.real - 1| ≤ err32D n := by
  rw [isqrtf_generalD_eq hs]
  exact isqrt_normalD hm newt32 rfl (by rw [u32_val]; norm_num) (by rw [u32_val]; norm_num) start32 (by rw [p2_eq]; rfl) hx hs err32D n
    (by simp only [err32D]; norm_num) (fun i hi => err32D_step i (by omega)) (fun i hi => err32D_small i (by omega))

/-! ## The reciprocal -/

/-- The root times the root with the sign of the argument. -/
theorem square_accD [f.Ok] (hm : m.Dir) {A : ℝ} (ok : NewtOk f A) {X e σ : ℝ} {s t : Z m f} (hs : s.v.isFinite = true) (ht : t.v.isFinite = true)
    (hσ : |σ| = 1) (hst : t.v.real = σ * s.v.real) (hX : A ≤ X) (hX2 : A ≤ 1 / X)
    (h : |Real.sqrt X * s.v.real - 1| ≤ e) (he : e ≤ 0.01) :
    (s * t).v.isFinite = true ∧ |(s * t).v.real - σ * (1 / X)| ≤ (2.01 * e + 2.06 * f.u) * (1 / X) := by
  have X0 : 0 < X := ok.A0.trans_le hX
  have SS := Real.mul_self_sqrt X0.le
  have S0 := Real.sqrt_pos.2 X0
  generalize Real.sqrt X = S at *
  obtain ⟨p1, p2⟩ := sq_rel_err h he
  have iX : 0 < 1 / X := by positivity
  have ev : s.v.real * s.v.real = (S * s.v.real) * (S * s.v.real) * (1 / X) := by
    rw [← SS]; field_simp
  have s0 : 0 ≤ s.v.real * s.v.real := mul_self_nonneg _
  have u0 := ok.u0
  have le : s.v.real * s.v.real ≤ 1.03 * (1 / X) := by rw [ev]; exact mul_le_mul_of_nonneg_right p2 iX.le
  have iXA : 1 / X ≤ f.big / 2 := by
    rw [div_le_div_iff₀ X0 (by norm_num)]
    have := ok.big
    have : f.big * A ≤ f.big * X := mul_le_mul_of_nonneg_left hX (by exact_mod_cast (p2_pos _).le)
    linarith
  have est : s.v.real * t.v.real = σ * (s.v.real * s.v.real) := by rw [hst]; ring
  have ea : |s.v.real * t.v.real| = s.v.real * s.v.real := by rw [est, abs_mul, hσ, one_mul, abs_of_nonneg s0]
  have e1 : s.v.real * t.v.real = ((s.v.val * t.v.val : ℚ) : ℝ) := by unfold FP.real; push_cast; rfl
  have hb : |s.v.val * t.v.val| ≤ f.big := by
    have : ((|s.v.val * t.v.val| : ℚ) : ℝ) ≤ f.big := by rw [Rat.cast_abs, ← e1, ea]; linarith
    exact_mod_cast this
  have sp := mul_dir hm hs ht hb
  refine ⟨sp.1, ?_⟩
  have r := sp.err_size (M := 1.03 * (1 / X)) (by rw [← e1, ea]; exact le)
    (by rw [ok.eta]; exact mul_le_mul_of_nonneg_left (by linarith) u0.le) hb
  rw [← e1] at r
  have d : |s.v.real * t.v.real - σ * (1 / X)| ≤ 2.01 * e * (1 / X) := by
    have : s.v.real * t.v.real - σ * (1 / X) = σ * (((S * s.v.real) * (S * s.v.real) - 1) * (1 / X)) := by rw [est, ev]; ring
    rw [this, abs_mul, hσ, one_mul, abs_mul, abs_of_pos iX]
    exact mul_le_mul_of_nonneg_right p1 iX.le
  have q : (s * t).v.real - σ * (1 / X) = ((s * t).v.real - s.v.real * t.v.real) + (s.v.real * t.v.real - σ * (1 / X)) := by ring
  rw [q]
  refine (abs_add_le _ _).trans ?_
  linarith

/-- The sign of the argument put on a positive number. -/
theorem or_sign_real {r x w : FP f} (hr : r.sign = false) (hw : w.sign = (r.sign || x.sign)) (hm : w.mag = r.mag) :
    ∃ σ : ℝ, |σ| = 1 ∧ w.real = σ * r.real ∧ 1 / x.real = σ * (1 / |x.real|) := by
  cases hs : x.sign
  · have x0 : 0 ≤ x.real := by unfold FP.real; exact_mod_cast val_nonneg_of_sign hs
    refine ⟨1, abs_one, ?_, by rw [abs_of_nonneg x0, one_mul]⟩
    rw [one_mul]
    have : w = r := by ext <;> simp [hw, hm, hr, hs]
    rw [this]
  · have x0 : x.real ≤ 0 := by
      have : x.val ≤ 0 := by unfold val; rw [hs]; simp [magVal_nonneg]
      unfold FP.real; exact_mod_cast this
    refine ⟨-1, by simp, ?_, by rw [abs_of_nonpos x0, div_neg]; ring⟩
    have : w = neg r := by ext <;> simp [hw, hm, hr, hs]
    rw [this]
    unfold FP.real; rw [val_neg]; push_cast; ring

/-- Close to a positive number is positive. -/
theorem pos_of_scaled {r : FP f} {S e : ℝ} (S0 : 0 < S) (h : |S * r.real - 1| ≤ e) (he : e ≤ 0.01) : r.sign = false := by
  have := (abs_le.1 h).1
  have r0 : 0 < S * r.real := by linarith
  have r1 : 0 < r.real := (mul_pos_iff_of_pos_left S0).1 r0
  exact sign_of_pos (by unfold FP.real at r1; exact_mod_cast r1)

theorem inv64D (hm : m.Dir) {x : F64} (hx : x.Normal) (hr : (2 : ℚ) ^ b64.emin ≤ |x.val|⁻¹) {n : ℕ} (hn : n ≤ 4) (he : err64D n ≤ 0.01) :
    (fast_inv_general m x n).v.isFinite = true ∧
    |(fast_inv_general m x n).v.real - 1 / x.real| ≤ (2.01 * err64D n + 2.06 * b64.u) * |1 / x.real| := by
  have hxa : (FP.abs x).Normal := ⟨by simpa using hx.1, by rw [val_abs, abs_abs]; exact hx.2⟩
  have n1 := isqrt64D hm hxa (by simp) hn
  have ra : (FP.abs x).real = |x.real| := by unfold FP.real; rw [val_abs]; push_cast; rfl
  rw [ra] at n1
  have lo : ((p2 (-1022) : ℚ) : ℝ) ≤ |x.real| := by unfold FP.real; rw [p2_eq]; exact_mod_cast hx.2
  have lo2 : ((p2 (-1022) : ℚ) : ℝ) ≤ 1 / |x.real| := by unfold FP.real; rw [p2_eq, one_div]; exact_mod_cast hr
  have X0 : 0 < |x.real| := newt64.A0.trans_le lo
  have rs := pos_of_scaled (Real.sqrt_pos.2 X0) n1.2 he
  have e : dpORuint64 (fast_isqrt_general m (FP.abs x) n).v (getSignMask x) = ⟨_ || x.sign, _, _⟩ := dpOR_signMask _ x
  obtain ⟨σ, h1, h2, h3⟩ := or_sign_real (w := dpORuint64 (fast_isqrt_general m (FP.abs x) n).v (getSignMask x)) rs (by rw [e]) (by rw [e])
  have k := square_accD hm newt64 (s := fast_isqrt_general m (FP.abs x) n) (t := of (dpORuint64 (fast_isqrt_general m (FP.abs x) n).v (getSignMask x))) (X := |x.real|)
    n1.1 (show (dpORuint64 (fast_isqrt_general m (FP.abs x) n).v (getSignMask x)).isFinite = true by rw [e]; exact n1.1) h1 h2 lo lo2 n1.2 he
  refine ⟨k.1, ?_⟩
  rw [abs_div, abs_one]
  rw [← h3] at k
  exact k.2

theorem inv32D (hm : m.Dir) {x : F32} (hx : x.Normal) (hr : (2 : ℚ) ^ b32.emin ≤ |x.val|⁻¹) {n : ℕ} (hn : n ≤ 2) (he : err32D n ≤ 0.01) :
    (fast_invf_general m x n).v.isFinite = true ∧
    |(fast_invf_general m x n).v.real - 1 / x.real| ≤ (2.01 * err32D n + 2.06 * b32.u) * |1 / x.real| := by
  have hxa : (FP.abs x).Normal := ⟨by simpa using hx.1, by rw [val_abs, abs_abs]; exact hx.2⟩
  have n1 := isqrt32D hm hxa (by simp) hn
  have ra : (FP.abs x).real = |x.real| := by unfold FP.real; rw [val_abs]; push_cast; rfl
  rw [ra] at n1
  have lo : ((p2 (-126) : ℚ) : ℝ) ≤ |x.real| := by unfold FP.real; rw [p2_eq]; exact_mod_cast hx.2
  have lo2 : ((p2 (-126) : ℚ) : ℝ) ≤ 1 / |x.real| := by unfold FP.real; rw [p2_eq, one_div]; exact_mod_cast hr
  have X0 : 0 < |x.real| := newt32.A0.trans_le lo
  have rs := pos_of_scaled (Real.sqrt_pos.2 X0) n1.2 he
  have e : spORuint32 (fast_isqrtf_general m (FP.abs x) n).v (getSignMaskf x) = ⟨_ || x.sign, _, _⟩ := spOR_signMask _ x
  obtain ⟨σ, h1, h2, h3⟩ := or_sign_real (w := spORuint32 (fast_isqrtf_general m (FP.abs x) n).v (getSignMaskf x)) rs (by rw [e]) (by rw [e])
  have k := square_accD hm newt32 (s := fast_isqrtf_general m (FP.abs x) n) (t := of (spORuint32 (fast_isqrtf_general m (FP.abs x) n).v (getSignMaskf x))) (X := |x.real|)
    n1.1 (show (spORuint32 (fast_isqrtf_general m (FP.abs x) n).v (getSignMaskf x)).isFinite = true by rw [e]; exact n1.1) h1 h2 lo lo2 n1.2 he
  refine ⟨k.1, ?_⟩
  rw [abs_div, abs_one]
  rw [← h3] at k
  exact k.2

/-! ## The eight functions -/

theorem isqrt_dir (hm : m.Dir) {x : F64} (hx : x.Normal) (hpos : 0 < x.val) :
    (fast_isqrt_general m x 4).v.CloseRel (1 / Real.sqrt x.real) (11 * 2 ^ (-53 : ℤ)) ∧
    (fast_isqrt_general m x 3).v.CloseRel (1 / Real.sqrt x.real) (2 ^ (-34 : ℤ)) := by
  have hs := sign_of_pos hpos
  have S0 : 0 < Real.sqrt x.real := Real.sqrt_pos.2 (by unfold FP.real; exact_mod_cast hpos)
  have h4 := isqrt64D hm hx hs (n := 4) le_rfl
  have h3 := isqrt64D hm hx hs (n := 3) (by norm_num)
  refine ⟨⟨h4.1, rel_of_scaled S0 (h4.2.trans ?_)⟩, ⟨h3.1, rel_of_scaled S0 (h3.2.trans ?_)⟩⟩
  · simp only [err64D, u64_val]; norm_num
  · simp only [err64D]; norm_num

theorem isqrtf_dir (hm : m.Dir) {x : F32} (hx : x.Normal) (hpos : 0 < x.val) :
    (fast_isqrtf_general m x 2).v.CloseRel (1 / Real.sqrt x.real) (2 ^ (-17 : ℤ)) ∧
    (fast_isqrtf_general m x 1).v.CloseRel (1 / Real.sqrt x.real) (2 ^ (-9 : ℤ)) := by
  have hs := sign_of_pos hpos
  have S0 : 0 < Real.sqrt x.real := Real.sqrt_pos.2 (by unfold FP.real; exact_mod_cast hpos)
  have h2 := isqrt32D hm hx hs (n := 2) le_rfl
  have h1 := isqrt32D hm hx hs (n := 1) (by norm_num)
  refine ⟨⟨h2.1, rel_of_scaled S0 (h2.2.trans ?_)⟩, ⟨h1.1, rel_of_scaled S0 (h1.2.trans ?_)⟩⟩
  · simp only [err32D]; norm_num
  · simp only [err32D]; norm_num

theorem inv_dir (hm : m.Dir) {x : F64} (hx : x.Normal) (hr : (2 : ℚ) ^ b64.emin ≤ |x.val|⁻¹) :
    (fast_inv_general m x 4).v.CloseRel (1 / x.real) (25 * 2 ^ (-53 : ℤ)) ∧ (fast_inv_general m x 3).v.CloseRel (1 / x.real) (2 ^ (-33 : ℤ)) := by
  obtain ⟨a1, a3⟩ := inv64D hm hx hr (n := 4) le_rfl (by simp only [err64D, u64_val]; norm_num)
  obtain ⟨b1, b3⟩ := inv64D hm hx hr (n := 3) (by norm_num) (by simp only [err64D]; norm_num)
  refine ⟨⟨a1, a3.trans (mul_le_mul_of_nonneg_right ?_ (abs_nonneg _))⟩, ⟨b1, b3.trans (mul_le_mul_of_nonneg_right ?_ (abs_nonneg _))⟩⟩
  · simp only [err64D, u64_val]; norm_num
  · simp only [err64D, u64_val]; norm_num

theorem invf_dir (hm : m.Dir) {x : F32} (hx : x.Normal) (hr : (2 : ℚ) ^ b32.emin ≤ |x.val|⁻¹) :
    (fast_invf_general m x 2).v.CloseRel (1 / x.real) (2 ^ (-16 : ℤ)) ∧ (fast_invf_general m x 1).v.CloseRel (1 / x.real) (2 ^ (-8 : ℤ)) := by
  obtain ⟨a1, a3⟩ := inv32D hm hx hr (n := 2) le_rfl (by simp only [err32D]; norm_num)
  obtain ⟨b1, b3⟩ := inv32D hm hx hr (n := 1) (by norm_num) (by simp only [err32D]; norm_num)
  refine ⟨⟨a1, a3.trans (mul_le_mul_of_nonneg_right ?_ (abs_nonneg _))⟩, ⟨b1, b3.trans (mul_le_mul_of_nonneg_right ?_ (abs_nonneg _))⟩⟩
  · simp only [err32D, u32_val]; norm_num
  · simp only [err32D, u32_val]; norm_num

end Vdt.Flush
