import Mathlib.Analysis.SpecialFunctions.Log.Basic
import Mathlib.Analysis.SpecialFunctions.Trigonometric.Arctan
import Mathlib.Tactic.Linarith
import Mathlib.Tactic.Positivity

/-! # Errors in the functional equations, on the reals -/

namespace Vdt

/-- A product of two factors with relative errors. -/
theorem prod_rel {a b A B ε δ : ℝ} (h1 : |a - A| ≤ ε * |A|) (h2 : |b - B| ≤ δ * |B|) :
    |a * b - A * B| ≤ (ε + δ + ε * δ) * |A * B| := by
  have e : a * b - A * B = (a - A) * B + A * (b - B) + (a - A) * (b - B) := by ring
  have k1 : |(a - A) * B| ≤ ε * |A * B| := by
    rw [abs_mul, abs_mul A, ← mul_assoc]; exact mul_le_mul_of_nonneg_right h1 (abs_nonneg _)
  have k2 : |A * (b - B)| ≤ δ * |A * B| := by
    rw [abs_mul, abs_mul A, mul_left_comm]; exact mul_le_mul_of_nonneg_left h2 (abs_nonneg _)
  have k3 : |(a - A) * (b - B)| ≤ ε * δ * |A * B| := by
    rw [abs_mul, abs_mul A, mul_mul_mul_comm]
    exact mul_le_mul h1 h2 (abs_nonneg _) ((abs_nonneg _).trans h1)
  rw [e]
  have t1 := abs_add_le ((a - A) * B + A * (b - B)) ((a - A) * (b - B))
  have t2 := abs_add_le ((a - A) * B) (A * (b - B))
  linarith

/-- A product of two factors bounded by one with absolute errors. -/
theorem prod_abs {a b A B ε : ℝ} (h1 : |a - A| ≤ ε) (h2 : |b - B| ≤ ε) (hA : |A| ≤ 1) (hB : |B| ≤ 1) :
    |a * b - A * B| ≤ 2 * ε + ε * ε := by
  have e0 : 0 ≤ ε := (abs_nonneg _).trans h1
  have e : a * b - A * B = (a - A) * B + A * (b - B) + (a - A) * (b - B) := by ring
  have k1 : |(a - A) * B| ≤ ε * 1 := by rw [abs_mul]; exact mul_le_mul h1 hB (abs_nonneg _) e0
  have k2 : |A * (b - B)| ≤ 1 * ε := by rw [abs_mul]; exact mul_le_mul hA h2 (abs_nonneg _) zero_le_one
  have k3 : |(a - A) * (b - B)| ≤ ε * ε := by rw [abs_mul]; exact mul_le_mul h1 h2 (abs_nonneg _) e0
  rw [e]
  have t1 := abs_add_le ((a - A) * B + A * (b - B)) ((a - A) * (b - B))
  have t2 := abs_add_le ((a - A) * B) (A * (b - B))
  linarith

/-- From an error relative to the true value to one relative to the computed value. -/
theorem rel_of_rel {c C d ε δ : ℝ} (h : |c - C| ≤ ε * |C|) (hd : d ≤ δ * |C|) (hε : ε < 1) (hδ : 0 ≤ δ) : d ≤ δ / (1 - ε) * |c| := by
  have t := abs_sub_abs_le_abs_sub C c
  rw [abs_sub_comm] at t
  have k : |C| * (1 - ε) ≤ |c| := by linarith
  have p : 0 < 1 - ε := by linarith
  refine hd.trans ?_
  rw [div_mul_eq_mul_div, le_div_iff₀ p, mul_assoc]
  exact mul_le_mul_of_nonneg_left k hδ

theorem id_exp {a b c x y ε : ℝ} (h1 : |a - Real.exp x| ≤ ε * |Real.exp x|) (h2 : |b - Real.exp y| ≤ ε * |Real.exp y|)
    (h3 : |c - Real.exp (x + y)| ≤ ε * |Real.exp (x + y)|) (hε : ε < 1) (h0 : 0 ≤ ε) :
    |a * b - c| ≤ (3 * ε + ε * ε) / (1 - ε) * |c| := by
  have k := prod_rel h1 h2
  rw [← Real.exp_add] at k
  refine rel_of_rel h3 ?_ hε (by positivity)
  have t := abs_sub_le (a * b) (Real.exp (x + y)) c
  rw [abs_sub_comm (Real.exp (x + y))] at t
  linarith

theorem id_log {a b c x y ε : ℝ} (hx : 0 < x) (hy : 0 < y) (h1 : |a - Real.log x| ≤ ε * |Real.log x|) (h2 : |b - Real.log y| ≤ ε * |Real.log y|)
    (h3 : |c - Real.log (x * y)| ≤ ε * |Real.log (x * y)|) :
    |a + b - c| ≤ ε * (|Real.log x| + |Real.log y| + |Real.log (x * y)|) := by
  have e : a + b - c = (a - Real.log x) + (b - Real.log y) - (c - Real.log (x * y)) := by
    rw [Real.log_mul hx.ne' hy.ne']; ring
  rw [e]
  have t1 := abs_sub ((a - Real.log x) + (b - Real.log y)) (c - Real.log (x * y))
  have t2 := abs_add_le (a - Real.log x) (b - Real.log y)
  linarith

theorem id_sincos {s c s' c' S C x y ε : ℝ} (h1 : |s - Real.sin x| ≤ ε) (h2 : |c - Real.cos x| ≤ ε) (h3 : |s' - Real.sin y| ≤ ε)
    (h4 : |c' - Real.cos y| ≤ ε) (h5 : |S - Real.sin (x + y)| ≤ ε) (h6 : |C - Real.cos (x + y)| ≤ ε) :
    |s * c' + c * s' - S| ≤ 5 * ε + 2 * (ε * ε) ∧ |c * c' - s * s' - C| ≤ 5 * ε + 2 * (ε * ε) := by
  have sx := Real.abs_sin_le_one x
  have cx := Real.abs_cos_le_one x
  have sy := Real.abs_sin_le_one y
  have cy := Real.abs_cos_le_one y
  constructor
  · have k1 := prod_abs h1 h4 sx cy
    have k2 := prod_abs h2 h3 cx sy
    have e : s * c' + c * s' - S = (s * c' - Real.sin x * Real.cos y) + (c * s' - Real.cos x * Real.sin y) - (S - Real.sin (x + y)) := by
      rw [Real.sin_add]; ring
    rw [e]
    have t1 := abs_sub ((s * c' - Real.sin x * Real.cos y) + (c * s' - Real.cos x * Real.sin y)) (S - Real.sin (x + y))
    have t2 := abs_add_le (s * c' - Real.sin x * Real.cos y) (c * s' - Real.cos x * Real.sin y)
    linarith
  · have k1 := prod_abs h2 h4 cx cy
    have k2 := prod_abs h1 h3 sx sy
    have e : c * c' - s * s' - C = (c * c' - Real.cos x * Real.cos y) - (s * s' - Real.sin x * Real.sin y) - (C - Real.cos (x + y)) := by
      rw [Real.cos_add]; ring
    rw [e]
    have t1 := abs_sub ((c * c' - Real.cos x * Real.cos y) - (s * s' - Real.sin x * Real.sin y)) (C - Real.cos (x + y))
    have t2 := abs_sub (c * c' - Real.cos x * Real.cos y) (s * s' - Real.sin x * Real.sin y)
    linarith

theorem id_tan {t s c x ε δ : ℝ} (hc : Real.cos x ≠ 0) (h1 : |t - Real.tan x| ≤ ε * |Real.tan x|) (h2 : |s - Real.sin x| ≤ δ * |Real.sin x|)
    (h3 : |c - Real.cos x| ≤ δ * |Real.cos x|) (hδ : δ < 1) (d0 : 0 ≤ δ) (e0 : 0 ≤ ε) :
    |t * c - s| ≤ (ε + 2 * δ + ε * δ) / (1 - δ) * |s| := by
  have k := prod_rel h1 h3
  rw [Real.tan_mul_cos hc] at k
  refine rel_of_rel h2 ?_ hδ (by positivity)
  have t := abs_sub_le (t * c) (Real.sin x) s
  rw [abs_sub_comm (Real.sin x)] at t
  linarith

theorem id_tanh {t a x ε δ η : ℝ} (h1 : |t - Real.tanh x| ≤ ε * |Real.tanh x| + η) (h2 : |a - Real.exp (x + x)| ≤ δ * |Real.exp (x + x)|)
    (hδ : δ < 1) (d0 : 0 ≤ δ) (e0 : 0 ≤ ε) (η0 : 0 ≤ η) :
    |t * (a + 1) - (a - 1)| ≤ (ε + η + 2 * δ) / (1 - δ) * (a + 1) := by
  have E := Real.exp_pos x
  have E' := Real.exp_pos (-x)
  have EE := Real.exp_pos (x + x)
  have m : Real.exp x * Real.exp (-x) = 1 := by rw [← Real.exp_add]; simp
  have hT : Real.tanh x * (Real.exp (x + x) + 1) = Real.exp (x + x) - 1 := by
    rw [Real.tanh_eq, Real.exp_add]
    have : Real.exp x + Real.exp (-x) ≠ 0 := by positivity
    field_simp
    linear_combination (-2 * Real.exp x) * m
  have T1 : |Real.tanh x| ≤ 1 := (Real.abs_tanh_lt_one x).le
  rw [abs_of_pos EE] at h2
  have t0 : 0 ≤ |Real.tanh x| := abs_nonneg _
  have g1 : |t - Real.tanh x| ≤ ε + η := h1.trans (by nlinarith)
  have k := abs_le.1 h2
  have p : 0 < 1 - δ := by linarith
  have a1 : (Real.exp (x + x) + 1) * (1 - δ) ≤ a + 1 := by nlinarith
  have ap : 0 < a + 1 := lt_of_lt_of_le (by positivity) a1
  have e : t * (a + 1) - (a - 1) = (t - Real.tanh x) * (a + 1) + (Real.tanh x - 1) * (a - Real.exp (x + x)) := by
    linear_combination hT
  have k1 : |(t - Real.tanh x) * (a + 1)| ≤ (ε + η) * (a + 1) := by
    rw [abs_mul, abs_of_pos ap]; exact mul_le_mul_of_nonneg_right g1 ap.le
  have k2 : |(Real.tanh x - 1) * (a - Real.exp (x + x))| ≤ 2 * (δ * Real.exp (x + x)) := by
    rw [abs_mul]
    refine mul_le_mul ?_ h2 (abs_nonneg _) (by norm_num)
    have := abs_sub (Real.tanh x) 1
    rw [abs_one] at this
    linarith
  rw [e]
  refine (abs_add_le _ _).trans ((add_le_add k1 k2).trans ?_)
  rw [div_mul_eq_mul_div, le_div_iff₀ p]
  nlinarith [mul_nonneg d0 ap.le, mul_nonneg (add_nonneg e0 η0) ap.le, mul_nonneg d0 EE.le, mul_le_mul_of_nonneg_left a1 d0,
    mul_nonneg (mul_nonneg (add_nonneg e0 η0) ap.le) d0]

theorem id_isqrt {y x ε : ℝ} (hx : 0 < x) (h : |y - 1 / Real.sqrt x| ≤ ε * |1 / Real.sqrt x|) : |y * y * x - 1| ≤ 2 * ε + ε * ε := by
  have k := prod_rel h h
  have s := Real.sqrt_pos.2 hx
  have m := Real.mul_self_sqrt hx.le
  have e : 1 / Real.sqrt x * (1 / Real.sqrt x) = 1 / x := by rw [div_mul_div_comm, m, one_mul]
  rw [e, abs_of_pos (by positivity : (0:ℝ) < 1 / x)] at k
  have e2 : y * y * x - 1 = (y * y - 1 / x) * x := by field_simp
  rw [e2, abs_mul, abs_of_pos hx]
  refine (mul_le_mul_of_nonneg_right k hx.le).trans (le_of_eq ?_)
  field_simp
  ring

theorem id_inv {y x ε : ℝ} (hx : x ≠ 0) (h : |y - 1 / x| ≤ ε * |1 / x|) : |y * x - 1| ≤ ε := by
  have e : y * x - 1 = (y - 1 / x) * x := by field_simp
  rw [e, abs_mul]
  refine (mul_le_mul_of_nonneg_right h (abs_nonneg _)).trans (le_of_eq ?_)
  rw [mul_assoc, ← abs_mul, one_div_mul_cancel hx, abs_one, mul_one]

end Vdt
