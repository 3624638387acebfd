import Verif.Real.Tools
import Verif.Real.Poly
import Mathlib.Analysis.SpecialFunctions.Trigonometric.ArctanDeriv

/-! # The arctangent through a convergent of its continued fraction -/

namespace Vdt

/-- All coefficients vanish. -/
def pzeros (l : List ℚ) : Bool := l.all (fun c => decide (c = 0))

theorem pev_zeros {l : List ℚ} (h : pzeros l = true) (x : ℝ) : pev l x = 0 := by
  induction l with
  | nil => rfl
  | cons a l ih =>
    simp only [pzeros, List.all_cons, Bool.and_eq_true, decide_eq_true_eq] at h
    rw [pev_cons, h.1, ih h.2]; simp

/-- `c x^n` -/
def pmono (n : ℕ) (c : ℚ) : List ℚ := List.replicate n 0 ++ [c]

theorem pev_mono (n : ℕ) (c : ℚ) (x : ℝ) : pev (pmono n c) x = c * x ^ n := by
  induction n with
  | zero => simp [pmono]
  | succ n ih =>
    have : pmono (n + 1) c = 0 :: pmono n c := rfl
    rw [this, pev_cons, ih]; push_cast; ring

/-- Numerator and denominator of the nineteenth convergent of `arctan x / x`, in `x²`. -/
def atanGp : List ℚ := [21427381364263875, 91886788553059500, 163675410390191700, 156671838074852100, 87054123957610810, 28283323008669300, 5134145876036100, 463911017673180, 16016872057515, 90194313216]
def atanGq : List ℚ := [21427381364263875, 99029249007814125, 192399683786610300, 204060270682768500, 128360492848838250, 48688462804731750, 10819658401051500, 1298359008126180, 70562989572075, 1120047453525]

def atanA : List ℚ := 0 :: psq atanGp
def atanB : List ℚ := psq atanGq

theorem atan_id (y : ℝ) : (pev (pder atanA) y * pev atanB y - pev atanA y * pev (pder atanB) y) * (1 + y ^ 2) - pev atanB y ^ 2 =
    101021910840017053286400 * y ^ 38 := by
  have h : pzeros (psub (psub (pmul (psub (pmul (pder atanA) atanB) (pmul atanA (pder atanB))) [1, 0, 1]) (pmul atanB atanB))
      (pmono 38 101021910840017053286400)) = true := by decide +kernel
  have := pev_zeros h y
  simp only [pev_sub, pev_mul, pev_mono, pev_cons, pev_nil] at this
  push_cast at this
  linear_combination this

theorem atanB_ge (y : ℝ) : (21427381364263875 : ℝ) ≤ pev atanB y := by
  have e : atanB = 21427381364263875 :: 0 :: psq atanGq.tail := rfl
  have h2 : 0 ≤ pev (psq atanGq.tail) y := by
    rw [pev_sq]
    simp only [atanGq, List.tail, pev_cons, pev_nil]
    have := mul_self_nonneg y
    push_cast
    positivity
  rw [e, pev_cons, pev_cons]
  push_cast
  nlinarith [mul_self_nonneg y]

/-- The convergent is within `2^-60` relative error of the arctangent. -/
theorem atan_conv {x : ℝ} (h : |x| ≤ 0.6601) : |x * (pev atanGp (x * x) / pev atanGq (x * x)) - Real.arctan x| ≤ 2 ^ (-60 : ℤ) * |x| := by
  have hB : ∀ y : ℝ, 0 < pev atanB y := fun y => lt_of_lt_of_le (by norm_num) (atanB_ge y)
  have k := mvt_pow (f := fun y => pev atanA y / pev atanB y - Real.arctan y)
    (f' := fun y => (pev (pder atanA) y * pev atanB y - pev atanA y * pev (pder atanB) y) / pev atanB y ^ 2 - 1 / (1 + y ^ 2))
    (C := 101021910840017053286400 / 21427381364263875 ^ 2) (x := x) 38
    (fun y _ => ((hasDerivAt_pev atanA y).div (hasDerivAt_pev atanB y) (hB y).ne').sub (Real.hasDerivAt_arctan y))
    (fun y _ => by
      have h1 := (hB y).ne'
      have h2 : 0 < 1 + y ^ 2 := by positivity
      have e : (pev (pder atanA) y * pev atanB y - pev atanA y * pev (pder atanB) y) / pev atanB y ^ 2 - 1 / (1 + y ^ 2) =
          101021910840017053286400 * y ^ 38 / (pev atanB y ^ 2 * (1 + y ^ 2)) := by
        rw [← atan_id y]; field_simp
      have p38 : (0 : ℝ) ≤ y ^ 38 := by positivity
      have a38 : |y| ^ 38 = y ^ 38 := by
        rw [← abs_pow, abs_of_nonneg p38]
      rw [e, abs_of_nonneg (by positivity), a38]
      have g := atanB_ge y
      have g2 : (21427381364263875 : ℝ) ^ 2 ≤ pev atanB y ^ 2 * (1 + y ^ 2) := by
        have g3 : (21427381364263875 : ℝ) ^ 2 ≤ pev atanB y ^ 2 := pow_le_pow_left₀ (by norm_num) g 2
        nlinarith [mul_nonneg (sq_nonneg (pev atanB y)) (sq_nonneg y)]
      rw [div_mul_eq_mul_div]
      exact div_le_div_of_nonneg_left (by positivity) (by norm_num) g2)
  have e0 : pev atanA 0 = 0 := by simp [atanA]
  have e1 : pev atanA x / pev atanB x = x * (pev atanGp (x * x) / pev atanGq (x * x)) := by
    simp only [atanA, atanB, pev_cons, pev_sq]; push_cast; ring
  simp only [e0, zero_div, Real.arctan_zero, sub_zero, e1] at k
  refine k.trans ?_
  have p38 : |x| ^ 38 ≤ 0.6601 ^ 38 := pow_le_pow_left₀ (abs_nonneg x) h 38
  rw [pow_succ |x| 38]
  have hx := abs_nonneg x
  have : 101021910840017053286400 / 21427381364263875 ^ 2 * (|x| ^ 38 * |x|) / ((38 : ℕ) + 1 : ℝ) ≤ 101021910840017053286400 / 21427381364263875 ^ 2 * (0.6601 ^ 38 * |x|) / ((38 : ℕ) + 1 : ℝ) := by
    gcongr
  refine this.trans ?_
  have h3 : (101021910840017053286400 / 21427381364263875 ^ 2 * 0.6601 ^ 38 / 39 : ℝ) ≤ 2 ^ (-60 : ℤ) := by norm_num
  have h4 := mul_le_mul_of_nonneg_right h3 hx
  refine le_trans (le_of_eq ?_) h4
  push_cast
  ring

end Vdt
