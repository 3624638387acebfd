import Verif.Lemmas.SincosAcc
import Verif.Lemmas.SincosfAcc
import Verif.Model.Tan
import Verif.Model.Contract
import Verif.Float.Contract

/-! # Accuracy of the tangent

The rational function against the tangent on the reduced interval, the effect of the argument reduction, and the
branch-free selection of the quadrant. -/

namespace Vdt
open FP details

/-! ## The tangent near zero -/

theorem cos_lower {x : ℝ} (h : |x| ≤ 0.787) : 0.705 ≤ Real.cos x := by
  have t := cos_taylor (h.trans (by norm_num))
  have hw := sq_range h
  have p := plower_sound (p := cosTl) (c := 0.7051) (l := grid 0 0.62 12) (a := 0) (b := 0.62)
    (by decide +kernel) (by decide +kernel) hw.1 hw.2
  push_cast at p
  rw [abs_le] at t
  have h2 : (2 : ℝ) ^ (-58 : ℤ) ≤ 0.0001 := by norm_num
  generalize (2 : ℝ) ^ (-58 : ℤ) = k at *
  norm_num at p h2 ⊢
  linarith [t.1]

theorem tan_lip {a b : ℝ} (ha : |a| ≤ 0.787) (hb : |b| ≤ 0.787) : |Real.tan a - Real.tan b| ≤ 2.02 * |a - b| := by
  have ca := cos_lower ha
  have cb := cos_lower hb
  have e : Real.tan a - Real.tan b = Real.sin (a - b) / (Real.cos a * Real.cos b) := by
    rw [Real.tan_eq_sin_div_cos, Real.tan_eq_sin_div_cos, Real.sin_sub]
    have h1 : Real.cos a ≠ 0 := by linarith
    have h2 : Real.cos b ≠ 0 := by linarith
    field_simp
  rw [e, abs_div, abs_of_pos (by nlinarith : 0 < Real.cos a * Real.cos b), div_le_iff₀ (by nlinarith)]
  have h1 : |Real.sin (a - b)| ≤ |a - b| := Real.abs_sin_le_abs
  have h2 : (0.705 : ℝ) * 0.705 ≤ Real.cos a * Real.cos b := mul_le_mul ca cb (by norm_num) (by linarith)
  have h3 := abs_nonneg (a - b)
  have h4 : |a - b| * (0.705 * 0.705) ≤ |a - b| * (Real.cos a * Real.cos b) := mul_le_mul_of_nonneg_left h2 h3
  nlinarith

theorem tan_ge {a : ℝ} (ha : |a| ≤ 0.787) : |a| ≤ |Real.tan a| := by
  have hp : (0.787 : ℝ) < Real.pi / 2 := by
    have h1 := pi_near
    have h2 : ((piQ : ℚ) : ℝ) ≥ 3.14 := by norm_num [piQ]
    rw [abs_le] at h1
    have h3 : (1 : ℝ) / 10 ^ 38 ≤ 0.01 := by norm_num
    norm_num at h2 h3 ⊢
    linarith [h1.1]
  rcases le_total 0 a with h | h
  · rw [abs_of_nonneg h] at ha ⊢
    exact (Real.le_tan h (ha.trans_lt hp)).trans (le_abs_self _)
  · rw [abs_of_nonpos h] at ha ⊢
    have := Real.le_tan (x := -a) (by linarith) (ha.trans_lt hp)
    rw [Real.tan_neg] at this
    exact this.trans (neg_le_abs _)

theorem tan_le {a : ℝ} (ha : |a| ≤ 0.787) : |Real.tan a| ≤ 1.42 * |a| := by
  have ca := cos_lower ha
  rw [Real.tan_eq_sin_div_cos, abs_div, abs_of_pos (by linarith : 0 < Real.cos a), div_le_iff₀ (by linarith)]
  have h1 : |Real.sin a| ≤ |a| := Real.abs_sin_le_abs
  have h3 := abs_nonneg a
  have : |a| * 0.705 ≤ |a| * Real.cos a := mul_le_mul_of_nonneg_left ca h3
  nlinarith

/-- A rational function `x·n/d` is close to the tangent if `n·cos - d·(sin x)/x` is small. -/
theorem tan_ratio {x C : ℝ} {n d : ℝ} (h : |x| ≤ 0.787) (hd : 0 < d)
    (hp : |n * pev cosTl (x * x) - d * pev sinTl (x * x)| ≤ C * d) (hn : |n| ≤ 2 * d) :
    |x * (n / d) - Real.tan x| ≤ 1.42 * (C + 2 ^ (-56 : ℤ)) * |x| := by
  have ca := cos_lower h
  have t1 := sin_taylor (h.trans (by norm_num))
  have t2 := cos_taylor (h.trans (by norm_num))
  have hx := abs_nonneg x
  have hd0 : d ≠ 0 := hd.ne'
  have hc0 : Real.cos x ≠ 0 := by linarith
  have e : x * (n / d) - Real.tan x = (x * ((n * pev cosTl (x * x) - d * pev sinTl (x * x)) / d) +
      (x * (n / d) * (Real.cos x - pev cosTl (x * x)) - (Real.sin x - x * pev sinTl (x * x)))) / Real.cos x := by
    rw [Real.tan_eq_sin_div_cos]; field_simp; ring
  rw [e, abs_div, abs_of_pos (by linarith : 0 < Real.cos x), div_le_iff₀ (by linarith)]
  have a1 : |x * ((n * pev cosTl (x * x) - d * pev sinTl (x * x)) / d)| ≤ |x| * C := by
    rw [abs_mul, abs_div, abs_of_pos hd]
    exact mul_le_mul_of_nonneg_left (by rw [div_le_iff₀ hd]; exact hp) hx
  have a2 : |n / d| ≤ 2 := by rw [abs_div, abs_of_pos hd, div_le_iff₀ hd]; exact hn
  have a3 : |x * (n / d) * (Real.cos x - pev cosTl (x * x))| ≤ |x| * 2 * 2 ^ (-58 : ℤ) := by
    rw [abs_mul, abs_mul]
    exact mul_le_mul (mul_le_mul_of_nonneg_left a2 hx) t2 (abs_nonneg _) (by positivity)
  have hC : 0 ≤ C := by
    by_contra hneg
    push Not at hneg
    have := abs_nonneg (n * pev cosTl (x * x) - d * pev sinTl (x * x))
    nlinarith
  have b := (abs_add_le (x * ((n * pev cosTl (x * x) - d * pev sinTl (x * x)) / d))
      (x * (n / d) * (Real.cos x - pev cosTl (x * x)) - (Real.sin x - x * pev sinTl (x * x)))).trans
    (add_le_add a1 ((abs_sub _ _).trans (add_le_add a3 t1)))
  refine b.trans ?_
  have k : |x| * C + (|x| * 2 * 2 ^ (-58 : ℤ) + 2 ^ (-62 : ℤ) * |x|) ≤ (C + 2 ^ (-56 : ℤ)) * |x| := by
    have : (2 : ℝ) * 2 ^ (-58 : ℤ) + 2 ^ (-62 : ℤ) ≤ 2 ^ (-56 : ℤ) := by norm_num
    nlinarith
  refine k.trans ?_
  have k0 : 0 ≤ (C + 2 ^ (-56 : ℤ)) * |x| := by positivity
  have k1 : 1 ≤ 1.42 * Real.cos x := by norm_num at ca ⊢; linarith
  calc (C + 2 ^ (-56 : ℤ)) * |x| ≤ (C + 2 ^ (-56 : ℤ)) * |x| * (1.42 * Real.cos x) := le_mul_of_one_le_right k0 k1
    _ = _ := by ring

/-! ## Double precision on the reduced interval -/

/-- include/tan.h:96-108, as an expression. -/
def tanE : E b64 :=
  let zz := (E.var 0).mul (.var 0)
  let px := ((((E.const PX1tan).mul zz).add (.const PX2tan)).mul zz).add (.const PX3tan)
  let qx := ((((((zz.add (.const QX1tan)).mul zz).add (.const QX2tan)).mul zz).add (.const QX3tan)).mul zz).add (.const QX4tan)
  (E.var 1).add ((((E.var 1).mul zz).mul px).div qx)

theorem tanCore_eq (z : F64) : tanCore z = if FP.gt (z * z) (lit 1.0e-14) then tanE.evalF (fun _ => z) else z := rfl

/-- The value of the reduced tangent in the interval where the polynomial is used. -/
def tanPolyC (p : Policy) (z : F64) : F64 :=
  let zz := z * z
  let px := mad (p 3) PX1tan zz PX2tan
  let px := mad (p 4) px zz PX3tan
  let qx := mad (p 5) z z QX1tan
  let qx := mad (p 6) qx zz QX2tan
  let qx := mad (p 7) qx zz QX3tan
  let qx := mad (p 8) qx zz QX4tan
  z + z * zz * px / qx

theorem tanCoreC_eq (p : Policy) (z : F64) :
    tanCoreC p z = if FP.gt (z * z) (lit 1.0e-14) then tanPolyC p z else z := rfl

theorem tanE_con (p : Policy) (z : F64) : tanE.Con (fun _ => z) (tanPolyC p z) := by
  unfold tanPolyC tanE
  con

theorem tanCore_plain (z : F64) : tanCoreC (fun _ => false) z = tanCore z := by
  plain [tanCoreC, tanCore]

def tanQl : List ℚ := [-QX4tan.val, -QX3tan.val, -QX2tan.val, -QX1tan.val, -1]
def tanNl : List ℚ := padd tanQl [0, -PX3tan.val, -PX2tan.val, -PX1tan.val]

theorem tanQ_pos {w : ℝ} (h0 : ((0 : ℚ) : ℝ) ≤ w) (h1 : w ≤ ((0.62 : ℚ) : ℝ)) : 1000 ≤ pev tanQl w := by
  have := plower_sound (p := tanQl) (c := 1000) (l := grid 0 0.62 12) (a := 0) (b := 0.62)
    (by decide +kernel) (by decide +kernel) h0 h1
  push_cast at this; exact this

theorem tanE_real {x : ℝ} (h : |x| ≤ 0.787) : tanE.evalR (fun _ => x) = x * (pev tanNl (x * x) / pev tanQl (x * x)) := by
  have hw := sq_range h
  have hq := tanQ_pos hw.1 hw.2
  have e1 : tanE.evalR (fun _ => x) = x + x * (x * x) * ((PX1tan.val * (x * x) + PX2tan.val) * (x * x) + PX3tan.val) / -pev tanQl (x * x) := by
    simp only [tanE, E.evalR, tanQl, pev_cons, pev_nil, FP.real]
    push_cast
    congr 2
    ring
  rw [e1, tanNl, pev_add]
  have : pev tanQl (x * x) ≠ 0 := by linarith
  simp only [pev_cons, pev_nil]
  push_cast
  generalize pev tanQl (x * x) = Q at *
  field_simp
  ring

theorem tan_approx {x : ℝ} (h : |x| ≤ 0.787) : |x * (pev tanNl (x * x) / pev tanQl (x * x)) - Real.tan x| ≤ 0.6 * 2 ^ (-53 : ℤ) * |x| := by
  have hw := sq_range h
  have hq := tanQ_pos hw.1 hw.2
  have p := pratio_sound (n := psub (pmul tanNl cosTl) (pmul tanQl sinTl)) (d := tanQl) (C := 0.29 * 2 ^ (-53 : ℤ)) (l := [0, 0.62]) (a := 0) (b := 0.62)
    (by decide +kernel) (by decide +kernel) hw.1 hw.2
  have p2 := pratio_sound (n := tanNl) (d := tanQl) (C := 2) (l := [0, 0.62]) (a := 0) (b := 0.62)
    (by decide +kernel) (by decide +kernel) hw.1 hw.2
  rw [pev_sub, pev_mul, pev_mul] at p
  refine (tan_ratio h (by linarith) p (by push_cast at p2; exact p2)).trans ?_
  apply mul_le_mul_of_nonneg_right _ (abs_nonneg x)
  push_cast; norm_num

theorem tanE_ok : covers (okLin b64 tanE (3.2 * 2 ^ (-53 : ℤ)) 2.5) [-787 / 1000, 1 / 16, 787 / 1000] = true := by decide +kernel

/-- For tiny arguments the tangent is the argument. -/
theorem tan_tiny {x : ℝ} (hs : x * x ≤ ((1.001e-14 : ℚ) : ℝ)) : |x - Real.tan x| ≤ 2 ^ (-48 : ℤ) * |x| := by
  have h1 : |x| ≤ 1.001e-7 := by
    rw [← abs_mul_abs_self] at hs
    push_cast at hs
    by_contra hc
    push Not at hc
    nlinarith [abs_nonneg x]
  have t1 := (taylor 2).2 x
  have t2 := (taylor 2).1 x
  have hx := abs_nonneg x
  have ca : 0.9999999 ≤ Real.cos x := by
    have := Real.one_sub_sq_div_two_le_cos (x := x)
    have h2 : x ^ 2 ≤ 1.001e-7 ^ 2 := by rw [← sq_abs]; exact pow_le_pow_left₀ hx h1 2
    have : (1.001e-7 : ℝ) ^ 2 ≤ 0.0000001 := by norm_num
    linarith
  rw [Real.tan_eq_sin_div_cos]
  have e : x - Real.sin x / Real.cos x = (x * (Real.cos x - cosR x 2) - (Real.sin x - sinR x 2) - x ^ 3 / 3) / Real.cos x := by
    have hc0 : Real.cos x ≠ 0 := by linarith
    simp only [cosR, sinR, Nat.factorial]
    field_simp
    push_cast
    ring
  rw [e, abs_div, abs_of_pos (by linarith : 0 < Real.cos x), div_le_iff₀ (by linarith)]
  have s2 : |x| ^ 2 ≤ 1.001e-14 := by rw [pow_two, abs_mul_abs_self]; push_cast at hs; exact hs
  have s4 : |x| ^ 4 ≤ 1e-27 := by
    have : |x| ^ 4 = |x| ^ 2 * |x| ^ 2 := by ring
    rw [this]; nlinarith [sq_nonneg (|x|)]
  have a1 : |x * (Real.cos x - cosR x 2)| ≤ |x| * 1e-27 := by
    rw [abs_mul]
    refine mul_le_mul_of_nonneg_left (t2.trans ?_) hx
    norm_num [Nat.factorial]
    linarith [pow_nonneg hx 4]
  have a2 : |Real.sin x - sinR x 2| ≤ |x| * 1e-27 := by
    refine t1.trans ?_
    norm_num [Nat.factorial]
    have : |x| ^ 5 = |x| * |x| ^ 4 := by ring
    rw [this]
    nlinarith [pow_nonneg hx 4]
  have a3 : |x ^ 3 / 3| ≤ |x| * (1.001e-14 / 3) := by
    rw [abs_div, abs_pow, abs_of_pos (by norm_num : (0 : ℝ) < 3)]
    have : |x| ^ 3 = |x| * |x| ^ 2 := by ring
    rw [this, mul_div_assoc]
    exact mul_le_mul_of_nonneg_left (by linarith) hx
  have b := (abs_sub (x * (Real.cos x - cosR x 2) - (Real.sin x - sinR x 2)) (x ^ 3 / 3)).trans
    (add_le_add ((abs_sub _ _).trans (add_le_add a1 a2)) a3)
  refine b.trans ?_
  have k : (2 : ℝ) ^ (-48 : ℤ) * |x| * 0.9999999 ≤ 2 ^ (-48 : ℤ) * |x| * Real.cos x := mul_le_mul_of_nonneg_left ca (by positivity)
  refine le_trans ?_ k
  have : (1e-27 : ℝ) + 1e-27 + 1.001e-14 / 3 ≤ 2 ^ (-48 : ℤ) * 0.9999999 := by norm_num
  nlinarith

/-- The square of a number in the reduced interval and its comparison with `1e-14`. -/
theorem square_test {f : Fmt} [f.Ok] {z c : FP f} {U : ℚ} (hz : z.isFinite = true) (h : |z.val| ≤ 0.787) (hc : c.isFinite = true)
    (hU : 0 < U) (hb : (1 : ℚ) ≤ f.big) (hc0 : 0 ≤ c.val) (h1 : c.val + U ≤ 1.001e-14) (h2 : 0.99e-14 ≤ c.val - U)
    (hu : f.u * 1.01e-14 ≤ U) (he : f.eta ≤ U) (hu1 : f.u ≤ 0.001) :
    (FP.gt (z * z) c = true → 0.98e-7 ≤ |z.val|) ∧ (FP.gt (z * z) c = false → z.val * z.val ≤ 1.001e-14) := by
  have hsq : |z.val * z.val| ≤ 1 := by
    rw [abs_mul]; nlinarith [abs_nonneg z.val]
  have s := mul_spec hz hz (hsq.trans hb)
  have e := rnd_err_rel f (hsq.trans hb)
  rw [mul_def, gt_fin s.1 hc, s.2, decide_eq_true_eq, decide_eq_false_iff_not, not_lt]
  have hn : 0 ≤ z.val * z.val := mul_self_nonneg _
  rw [abs_of_nonneg hn] at e
  constructor
  · intro hg
    by_contra hcon
    push Not at hcon
    have h3 : z.val * z.val ≤ 0.98e-7 * 0.98e-7 := by
      rw [← abs_mul_abs_self]; nlinarith [abs_nonneg z.val]
    have h4 : max (f.u * (z.val * z.val)) f.eta ≤ U := by
      refine max_le (le_trans ?_ hu) he
      exact mul_le_mul_of_nonneg_left (h3.trans (by norm_num)) f.u_pos.le
    rw [abs_le] at e
    norm_num at h3 h2
    linarith [e.2]
  · intro hg
    rcases le_or_gt (z.val * z.val) 1.01e-14 with h3 | h3
    · have h4 : max (f.u * (z.val * z.val)) f.eta ≤ U := by
        refine max_le (le_trans ?_ hu) he
        exact mul_le_mul_of_nonneg_left h3 f.u_pos.le
      rw [abs_le] at e
      linarith [e.1]
    · exfalso
      have h4 : max (f.u * (z.val * z.val)) f.eta ≤ 0.001 * (z.val * z.val) + U := by
        refine max_le ?_ ?_
        · have := mul_le_mul_of_nonneg_right hu1 hn
          linarith
        · have : 0 ≤ 0.001 * (z.val * z.val) := by positivity
          linarith
      rw [abs_le] at e
      generalize max (f.u * (z.val * z.val)) f.eta = k at *
      norm_num at h1 h3 h4
      linarith [e.1]

theorem real_abs {f : Fmt} (x : FP f) : |x.real| = ((|x.val| : ℚ) : ℝ) := by unfold FP.real; push_cast; rfl

/-- Double precision on the reduced interval. -/
theorem tan_core (p : Policy) {z : F64} (hz : z.isFinite = true) (h : |z.real| ≤ 0.787) :
    (tanCoreC p z).isFinite = true ∧ |(tanCoreC p z).real - Real.tan z.real| ≤ 2 ^ (-48 : ℤ) * |z.real| ∧
    (1.1e-7 ≤ |z.real| → |(tanCoreC p z).real - Real.tan z.real| ≤ 3.9 * 2 ^ (-53 : ℤ) * |z.real|) := by
  have hq : |z.val| ≤ 0.787 := by
    have : ((|z.val| : ℚ) : ℝ) ≤ ((0.787 : ℚ) : ℝ) := by rw [← real_abs]; push_cast; exact h
    exact_mod_cast this
  have t := square_test (c := lit 1.0e-14) (U := 1e-18) hz hq (by decide +kernel) (by norm_num) (by decide +kernel) (by decide +kernel)
    (by decide +kernel) (by decide +kernel) (by decide +kernel) (by decide +kernel) (by decide +kernel)
  rw [tanCoreC_eq]
  have heta : ((b64.eta : ℚ) : ℝ) ≤ 1 / 2 ^ 100 := by
    have : b64.eta ≤ 1 / 2 ^ 100 := by decide +kernel
    have : ((b64.eta : ℚ) : ℝ) ≤ ((1 / 2 ^ 100 : ℚ) : ℝ) := by exact_mod_cast this
    push_cast at this; exact this
  cases hg : FP.gt (z * z) (lit 1.0e-14 : F64)
  · rw [if_neg (by simp)]
    have t2 := t.2 hg
    have t3 : z.real * z.real ≤ ((1.001e-14 : ℚ) : ℝ) := by unfold FP.real; exact_mod_cast t2
    refine ⟨hz, tan_tiny t3, fun hh => ?_⟩
    exfalso
    rw [← abs_mul_abs_self] at t3
    push_cast at t3
    nlinarith
  · rw [if_pos rfl]
    have t1 : 0.98e-7 ≤ |z.real| := by
      have : ((0.98e-7 : ℚ) : ℝ) ≤ ((|z.val| : ℚ) : ℝ) := by exact_mod_cast t.1 hg
      rw [real_abs]; push_cast at this ⊢; exact this
    have a := tan_approx h
    have hh := h
    rw [abs_le] at hh
    obtain ⟨s, t, hst, h1, h2⟩ := covers_spans tanE_ok (a := -0.787) (b := 0.787) (by decide +kernel)
      (x := z.real) (by push_cast; linarith) (by push_cast; linarith)
    have r := okLin_con hst hz h1 h2 (tanE_con p z)
    rw [tanE_real h] at r
    have b : |(tanPolyC p z).real - Real.tan z.real| ≤ 3.9 * 2 ^ (-53 : ℤ) * |z.real| := by
      have e := (abs_sub_le _ _ (Real.tan z.real)).trans (add_le_add r.2 a)
      refine e.trans ?_
      push_cast
      have : (2.5 : ℝ) * ((b64.eta : ℚ) : ℝ) ≤ 0.1 * 2 ^ (-53 : ℤ) * |z.real| := by
        have h3 : (2.5 : ℝ) * ((b64.eta : ℚ) : ℝ) ≤ 2.5 * (1 / 2 ^ 100) := mul_le_mul_of_nonneg_left heta (by norm_num)
        have h4 : (0.1 : ℝ) * 2 ^ (-53 : ℤ) * 0.98e-7 ≤ 0.1 * 2 ^ (-53 : ℤ) * |z.real| := mul_le_mul_of_nonneg_left t1 (by positivity)
        have h5 : (2.5 : ℝ) * (1 / 2 ^ 100) ≤ 0.1 * 2 ^ (-53 : ℤ) * 0.98e-7 := by norm_num
        linarith
      refine (add_le_add_left (add_le_add_right this _) _).trans (le_of_eq ?_)
      ring
    refine ⟨r.1, b.trans ?_, fun _ => b⟩
    exact mul_le_mul_of_nonneg_right (by norm_num) (abs_nonneg _)

/-! ## Single precision on the reduced interval -/

/-- include/tan.h:141-147, as an expression. -/
def tanfE : E b32 :=
  let zz := (E.var 0).mul (.var 0)
  let p := (((((((((((E.const (lit 9.38540185543E-3)).mul zz).add (.const (lit 3.11992232697E-3))).mul zz).add
    (.const (lit 2.44301354525E-2))).mul zz).add (.const (lit 5.34112807005E-2))).mul zz).add
    (.const (lit 1.33387994085E-1))).mul zz).add (.const (lit 3.33331568548E-1))).mul zz
  (p.mul (.var 1)).add (.var 1)

theorem tanfCore_eq (z : F32) : tanfCore z = if FP.gt (z * z) (lit 1.0e-14) then tanfE.evalF (fun _ => z) else z := rfl

/-- The value of the reduced tangent in the interval where the polynomial is used. -/
def tanfPolyC (p : Policy) (z : F32) : F32 :=
  let zz := z * z
  let r := mad (p 3) (lit 9.38540185543E-3) zz (lit 3.11992232697E-3)
  let r := mad (p 4) r zz (lit 2.44301354525E-2)
  let r := mad (p 5) r zz (lit 5.34112807005E-2)
  let r := mad (p 6) r zz (lit 1.33387994085E-1)
  let r := mad (p 7) r zz (lit 3.33331568548E-1)
  mad (p 8) (r * zz) z z

theorem tanfCoreC_eq (p : Policy) (z : F32) :
    tanfCoreC p z = if FP.gt (z * z) (lit 1.0e-14) then tanfPolyC p z else z := rfl

theorem tanfE_con (p : Policy) (z : F32) : tanfE.Con (fun _ => z) (tanfPolyC p z) := by
  unfold tanfPolyC tanfE
  con

theorem tanfCore_plain (z : F32) : tanfCoreC (fun _ => false) z = tanfCore z := by
  plain [tanfCoreC, tanfCore]

def tanfPl : List ℚ := [1, (lit 3.33331568548E-1 : F32).val, (lit 1.33387994085E-1 : F32).val, (lit 5.34112807005E-2 : F32).val,
  (lit 2.44301354525E-2 : F32).val, (lit 3.11992232697E-3 : F32).val, (lit 9.38540185543E-3 : F32).val]

theorem tanfE_real (x : ℝ) : tanfE.evalR (fun _ => x) = x * (pev tanfPl (x * x) / 1) := by
  simp only [tanfE, E.evalR, tanfPl, pev_cons, pev_nil, FP.real]
  push_cast
  ring

theorem tanf_approx {x : ℝ} (h : |x| ≤ 0.787) : |x * (pev tanfPl (x * x) / 1) - Real.tan x| ≤ 0.72 * 2 ^ (-24 : ℤ) * |x| := by
  have hw := sq_range h
  have p := pratio_sound (n := psub (pmul tanfPl cosTl) sinTl) (d := [1]) (C := 0.5 * 2 ^ (-24 : ℤ)) (l := [0, 3 / 128, 5 / 64, 19 / 128, 57 / 256, 75 / 256, 99 / 256, 31 / 64, 137 / 256, 19 / 32, 0.62]) (a := 0) (b := 0.62)
    (by decide +kernel) (by decide +kernel) hw.1 hw.2
  have p2 := pratio_sound (n := tanfPl) (d := [1]) (C := 2) (l := [0, 0.62]) (a := 0) (b := 0.62)
    (by decide +kernel) (by decide +kernel) hw.1 hw.2
  rw [pev_sub, pev_mul] at p
  refine (tan_ratio (d := 1) (C := 0.5 * 2 ^ (-24 : ℤ)) h (by norm_num) ?_ ?_).trans ?_
  · simp only [pev_cons, pev_nil] at p
    push_cast at p ⊢
    simpa using p
  · simp only [pev_cons, pev_nil] at p2
    push_cast at p2
    simpa using p2
  apply mul_le_mul_of_nonneg_right _ (abs_nonneg x)
  norm_num

theorem tanfE_ok : covers (okLin b32 tanfE (2.4 * 2 ^ (-24 : ℤ)) 2.1) [-787 / 1000, 787 / 1000] = true := by decide +kernel

/-- Single precision on the reduced interval. -/
theorem tanf_core (p : Policy) {z : F32} (hz : z.isFinite = true) (h : |z.real| ≤ 0.787) :
    (tanfCoreC p z).isFinite = true ∧ |(tanfCoreC p z).real - Real.tan z.real| ≤ 3.25 * 2 ^ (-24 : ℤ) * |z.real| := by
  have hq : |z.val| ≤ 0.787 := by
    have : ((|z.val| : ℚ) : ℝ) ≤ ((0.787 : ℚ) : ℝ) := by rw [← real_abs]; push_cast; exact h
    exact_mod_cast this
  have t := square_test (c := lit 1.0e-14) (U := 1e-18) hz hq (by decide +kernel) (by norm_num) (by decide +kernel) (by decide +kernel)
    (by decide +kernel) (by decide +kernel) (by decide +kernel) (by decide +kernel) (by decide +kernel)
  rw [tanfCoreC_eq]
  have heta : ((b32.eta : ℚ) : ℝ) ≤ 1 / 2 ^ 100 := by
    have : b32.eta ≤ 1 / 2 ^ 100 := by decide +kernel
    have : ((b32.eta : ℚ) : ℝ) ≤ ((1 / 2 ^ 100 : ℚ) : ℝ) := by exact_mod_cast this
    push_cast at this; exact this
  cases hg : FP.gt (z * z) (lit 1.0e-14 : F32)
  · rw [if_neg (by simp)]
    have t2 := t.2 hg
    have t3 : z.real * z.real ≤ ((1.001e-14 : ℚ) : ℝ) := by unfold FP.real; exact_mod_cast t2
    refine ⟨hz, (tan_tiny t3).trans ?_⟩
    exact mul_le_mul_of_nonneg_right (by norm_num) (abs_nonneg _)
  · rw [if_pos rfl]
    have t1 : 0.98e-7 ≤ |z.real| := by
      have : ((0.98e-7 : ℚ) : ℝ) ≤ ((|z.val| : ℚ) : ℝ) := by exact_mod_cast t.1 hg
      rw [real_abs]; push_cast at this ⊢; exact this
    have a := tanf_approx h
    have hh := h
    rw [abs_le] at hh
    obtain ⟨s, t, hst, h1, h2⟩ := covers_spans tanfE_ok (a := -0.787) (b := 0.787) (by decide +kernel)
      (x := z.real) (by push_cast; linarith) (by push_cast; linarith)
    have r := okLin_con hst hz h1 h2 (tanfE_con p z)
    rw [tanfE_real] at r
    refine ⟨r.1, ?_⟩
    have e := (abs_sub_le _ _ (Real.tan z.real)).trans (add_le_add r.2 a)
    refine e.trans ?_
    push_cast
    have : (2.1 : ℝ) * ((b32.eta : ℚ) : ℝ) ≤ 0.1 * 2 ^ (-24 : ℤ) * |z.real| := by
      have h3 : (2.1 : ℝ) * ((b32.eta : ℚ) : ℝ) ≤ 2.1 * (1 / 2 ^ 100) := mul_le_mul_of_nonneg_left heta (by norm_num)
      have h4 : (0.1 : ℝ) * 2 ^ (-24 : ℤ) * 0.98e-7 ≤ 0.1 * 2 ^ (-24 : ℤ) * |z.real| := mul_le_mul_of_nonneg_left t1 (by positivity)
      have h5 : (2.1 : ℝ) * (1 / 2 ^ 100) ≤ 0.1 * 2 ^ (-24 : ℤ) * 0.98e-7 := by norm_num
      linarith
    have h6 : (0 : ℝ) ≤ 2 ^ (-24 : ℤ) * |z.real| := by positivity
    nlinarith

end Vdt
