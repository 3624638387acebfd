import Verif.Lemmas.LogNormal
import Verif.Lemmas.Special

/-! # Accuracy of the single precision logarithm -/

namespace Vdt
open FP details

/-- include/log.h:147-165 and 184-185, the polynomial times `x³`. -/
def logfTE : E b32 :=
  let x : E b32 := .var 0
  let v : E b32 := .var 1
  let y := hornE x [PX3logf, PX4logf, PX5logf, PX6logf, PX7logf, PX8logf, PX9logf]
    ((x.mul (.const PX1logf)).add (.const PX2logf))
  y.mul ((v.mul v).mul v)

/-- The polynomial, in floating point. -/
def logfTC (p : Policy) (x : F32) : F32 := get_log_polyC p x * (x * x * x)

theorem logfTE_con (p : Policy) (x : F32) : logfTE.Con (fun _ => x) (logfTC p x) := by
  simp only [logfTC, logfTE, hornE, get_log_polyC]
  con

theorem mul_comm' {f : Fmt} (x y : FP f) : x * y = y * x := by
  show mul x y = mul y x
  unfold mul
  rw [Bool.or_comm x.isNaN, Bool.or_comm x.isInf, Bool.or_comm x.isZero, Bool.xor_comm x.sign, mul_comm x.val]

/-- The first sum: the polynomial and the small part of the exponent. -/
def logfR1 (p : Policy) (x fe : F32) : F32 :=
  mad2 (p 8) (p 9) (get_log_polyC p x) (x * x * x) (-lit 2.12194440e-4) fe

theorem logfCoreC_eq (p : Policy) (x fe : F32) : logfCoreC p x fe =
    madR (p 11) (lit 0.693359375) fe (x + madR (p 10) (-lit 0.5) (x * x) (logfR1 p x fe)) := rfl

/-- The sum without the exponent. -/
def logfE0 : E b32 := (E.var 1).add (logfTE.add ((E.const (-lit 0.5)).mul ((E.var 1).mul (.var 1))))

theorem logfE0_con (p : Policy) (x : F32) :
    logfE0.Con (fun _ => x) (x + madR (p 10) (-lit 0.5) (x * x) (logfTC p x)) :=
  E.Con.add (E.Con.var _) (E.Con.madR E.Con.const (E.Con.mul (E.Con.var _) (E.Con.var _)) (logfTE_con p x))

def logfPl : List ℚ := [PX9logf.val, PX8logf.val, PX7logf.val, PX6logf.val, PX5logf.val, PX4logf.val, PX3logf.val,
  PX2logf.val, PX1logf.val]

def logfQl : List ℚ := [1]

theorem logfQ_one (x : ℝ) : pev logfQl x = 1 := by simp [logfQl]

theorem logfTE_real (x : ℝ) : logfTE.evalR (fun _ => x) = x ^ 3 * pev logfPl x / pev logfQl x := by
  rw [logfQ_one, div_one]
  simp only [logfTE, hornE, E.evalR, logfPl, pev_cons, pev_nil, FP.real]
  ring

theorem logf_check : pratioT 20 60 (11 / 64) (logNum logfPl logfQl 8) (logDen logfQl 8) (0.4 * p2 (-24))
    [-11 / 64, -29 / 256, 0, 55 / 512, 41 / 256, 11 / 64] = true := by
  decide +kernel

theorem logf_len : logfPl.length ≤ 8 + 1 ∧ logfQl.length ≤ 8 + 1 := by decide +kernel

theorem logf_C : (((0.4 * p2 (-24) : ℚ) : ℝ) + 1 / 2 ^ 70) ≤ 0.401 * (1 / 2 ^ 24) := by
  rw [show p2 (-24) = 1 / 2 ^ 24 by decide +kernel]
  push_cast; norm_num

/-- Approximation error. -/
theorem logf_approx {x : ℝ} (h1 : -0.293 ≤ x) (h2 : x ≤ 0.4143) :
    |x - x ^ 2 / 2 + x ^ 3 * pev logfPl x / pev logfQl x - Real.log (1 + x)| ≤ 0.401 * (1 / 2 ^ 24) * |x| := by
  have hq : 0 < pev logfQl x := by rw [logfQ_one]; norm_num
  exact (log1p_approx logf_len.1 logf_len.2 (fun s hs => pratioT_sound logf_check (a := -11 / 64) (b := 11 / 64)
    (by decide +kernel) (by decide +kernel) (by rw [abs_le] at hs; push_cast; linarith)
    (by rw [abs_le] at hs; push_cast; linarith)) h1 h2 hq).trans
    (mul_le_mul_of_nonneg_right logf_C (abs_nonneg _))

/-- Magnitude of the rational part. -/
theorem logfT_range {x : ℝ} (h1 : -0.293 ≤ x) (h2 : x ≤ 0.4143) :
    |x ^ 3 * pev logfPl x / pev logfQl x| ≤ 0.0189 ∧
    |x ^ 3 * pev logfPl x / pev logfQl x - x ^ 2 / 2| ≤ 0.0683 ∧
    |x + (x ^ 3 * pev logfPl x / pev logfQl x - x ^ 2 / 2)| ≤ 0.3470 := by
  have hq : 0 < pev logfQl x := by rw [logfQ_one]; norm_num
  have a1 : ((-0.293 : ℚ) : ℝ) ≤ x := by push_cast; linarith
  have a2 : x ≤ ((0.4143 : ℚ) : ℝ) := by push_cast; linarith
  have r1 := pratio_sound (n := pmul [0, 0, 0, 1] logfPl) (d := logfQl) (C := 0.0189) (l := [-0.293, 47 / 128, 0.4143])
    (a := -0.293) (b := 0.4143) (by decide +kernel) (by decide +kernel) a1 a2
  have r2 := pratio_sound (n := psub (pmul [0, 0, 0, 1] logfPl) (pmul [0, 0, 1/2] logfQl)) (d := logfQl) (C := 0.0683)
    (l := [-0.293, 87 / 256, 0.4143])
    (a := -0.293) (b := 0.4143) (by decide +kernel) (by decide +kernel) a1 a2
  simp only [pev_sub, pev_add, pev_mul, pev_cons, pev_nil] at r1 r2
  push_cast at r1 r2
  refine ⟨?_, ?_, ?_⟩
  · rw [abs_div, abs_of_pos hq, div_le_iff₀ hq]
    exact le_trans (le_of_eq (congrArg _ (by ring))) r1
  · have : x ^ 3 * pev logfPl x / pev logfQl x - x ^ 2 / 2 = (x ^ 3 * pev logfPl x - x ^ 2 / 2 * pev logfQl x) / pev logfQl x := by
      field_simp
    rw [this, abs_div, abs_of_pos hq, div_le_iff₀ hq]
    exact le_trans (le_of_eq (congrArg _ (by ring))) r2
  · have h3 := logf_approx h1 h2
    have h4 := log1p_range h1 h2
    have h5 : |x| ≤ 1 := by rw [abs_le]; constructor <;> linarith
    have h6 := abs_add_le (x - x ^ 2 / 2 + x ^ 3 * pev logfPl x / pev logfQl x - Real.log (1 + x)) (Real.log (1 + x))
    have e : x - x ^ 2 / 2 + x ^ 3 * pev logfPl x / pev logfQl x - Real.log (1 + x) + Real.log (1 + x) =
      x + (x ^ 3 * pev logfPl x / pev logfQl x - x ^ 2 / 2) := by ring
    rw [e] at h6
    norm_num at h3 h4 h6 ⊢
    nlinarith

theorem logfT_acc (p : Policy) {z : F32} (hz : z.isFinite = true) (h1 : -0.293 ≤ z.real) (h2 : z.real ≤ 0.4143) :
    (logfTC p z).isFinite = true ∧ |(logfTC p z).real - z.real ^ 3 * pev logfPl z.real / pev logfQl z.real| ≤ 0.17 * (1 / 2 ^ 24) := by
  have hc : covers (okAbs b32 logfTE (0.17 * p2 (-24))) [-293 / 1000, 4143 / 10000] = true := by decide +kernel
  obtain ⟨s, t, hst, h3, h4⟩ := covers_spans hc (a := -0.293) (b := 0.4143) (by decide +kernel)
    (x := z.real) (by push_cast; linarith) (by push_cast; linarith)
  have r := okAbs_con hst hz h3 h4 (logfTE_con p z)
  rw [logfTE_real] at r
  refine ⟨r.1, r.2.trans (le_of_eq ?_)⟩
  rw [show p2 (-24) = 1 / 2 ^ 24 by decide +kernel]; push_cast; rfl

theorem logfE0_acc (p : Policy) {z : F32} (hz : z.isFinite = true) (h1 : -0.293 ≤ z.real) (h2 : z.real ≤ 0.4143) :
    |(z + madR (p 10) (-lit 0.5) (z * z) (logfTC p z)).real -
      (z.real + (z.real ^ 3 * pev logfPl z.real / pev logfQl z.real - z.real ^ 2 / 2))| ≤
      2.5 * (1 / 2 ^ 24) * |z.real| + 100 * b32.eta := by
  have hc : covers (okLin b32 logfE0 (2.5 * p2 (-24)) 100) [-293 / 1000, 4143 / 10000] = true := by decide +kernel
  obtain ⟨s, t, hst, h3, h4⟩ := covers_spans hc (a := -0.293) (b := 0.4143) (by decide +kernel)
    (x := z.real) (by push_cast; linarith) (by push_cast; linarith)
  have r := (okLin_con hst hz h3 h4 (logfE0_con p z)).2
  have e : logfE0.evalR (fun _ => z.real) =
      z.real + (z.real ^ 3 * pev logfPl z.real / pev logfQl z.real - z.real ^ 2 / 2) := by
    have h5 : (-lit 0.5 : F32).real = -(1 / 2) := by
      unfold FP.real; rw [show (-lit 0.5 : F32).val = -(1 / 2) by decide +kernel]; norm_num
    have h6 : logfE0.evalR (fun _ => z.real) = z.real + (logfTE.evalR (fun _ => z.real) + (-lit 0.5 : F32).real * (z.real * z.real)) := rfl
    rw [h6, logfTE_real, h5]
    exact congrArg _ (congrArg _ (by ring))
  rw [e] at r
  refine r.trans (le_of_eq ?_)
  rw [show p2 (-24) = 1 / 2 ^ 24 by decide +kernel]; push_cast; rfl

theorem logf_consts : (lit 2.12194440e-4 : F32).isFinite = true ∧ (lit 0.693359375 : F32).isFinite = true ∧
    (lit 0.5 : F32).isFinite = true ∧ (lit 0.5 : F32).val = 1 / 2 ∧
    0 ≤ (lit 2.12194440e-4 : F32).val ∧ (lit 2.12194440e-4 : F32).val ≤ 0.000213 ∧
    (lit 0.693359375 : F32).val = 355 / 512 ∧ 2000 ≤ b32.big ∧ b32.u = 1 / 2 ^ 24 ∧ b32.eta ≤ b32.u / 10 ^ 8 ∧
    10000 * b32.eta ≤ b32.u * p2 (-(b32.mb + 1)) ∧ b32.u ≤ 1 / 2 ^ 24 ∧
    |(355 / 512 - (lit 2.12194440e-4 : F32).val) - ln2Q| ≤ 0.0005 * (1 / 2 ^ 24) := by decide +kernel

theorem logf_split : |((355 / 512 - (lit 2.12194440e-4 : F32).val : ℚ) : ℝ) - Real.log 2| ≤ 0.001 * (1 / 2 ^ 24) := by
  have h1 : ((|(355 / 512 - (lit 2.12194440e-4 : F32).val) - ln2Q| : ℚ) : ℝ) ≤ ((0.0005 * (1 / 2 ^ 24) : ℚ) : ℝ) := by
    exact_mod_cast logf_consts.2.2.2.2.2.2.2.2.2.2.2.2
  generalize (lit 2.12194440e-4 : F32).val = c at *
  have h2 := ln2_near
  rw [Rat.cast_abs, Rat.cast_sub] at h1
  generalize (ln2Q : ℝ) = q at *
  push_cast at h1 ⊢
  rw [abs_le] at *
  norm_num at h1 h2 ⊢
  constructor <;> linarith

/-- The polynomial alone. -/
def logfYE : E b32 :=
  let x : E b32 := .var 0
  hornE x [PX3logf, PX4logf, PX5logf, PX6logf, PX7logf, PX8logf, PX9logf]
    ((x.mul (.const PX1logf)).add (.const PX2logf))

theorem logfYE_con (p : Policy) (x : F32) : logfYE.Con (fun _ => x) (get_log_polyC p x) := by
  simp only [logfYE, hornE, get_log_polyC]
  con

theorem logfYE_real (x : ℝ) : logfYE.evalR (fun _ => x) = pev logfPl x := by
  simp only [logfYE, hornE, E.evalR, logfPl, pev_cons, pev_nil, FP.real]
  ring

theorem logfY_range (p : Policy) {z : F32} (hz : z.isFinite = true) (h1 : -0.293 ≤ z.real) (h2 : z.real ≤ 0.4143) :
    (get_log_polyC p z).isFinite = true ∧ |(get_log_polyC p z).val| ≤ 1 := by
  have a1 : ((-0.293 : ℚ) : ℝ) ≤ z.real := by push_cast; linarith
  have a2 : z.real ≤ ((0.4143 : ℚ) : ℝ) := by push_cast; linarith
  have hc : covers (okAbs b32 logfYE 0.1) [-293 / 1000, 4143 / 10000] = true := by decide +kernel
  obtain ⟨s, t, hst, h3, h4⟩ := covers_spans hc (a := -0.293) (b := 0.4143) (by decide +kernel) (x := z.real) a1 a2
  have r := okAbs_con hst hz h3 h4 (logfYE_con p z)
  have r1 := pratio_sound (n := logfPl) (d := logfQl) (C := 0.9) (l := [-0.293, 0.4143])
    (a := -0.293) (b := 0.4143) (by decide +kernel) (by decide +kernel) a1 a2
  rw [logfYE_real] at r
  rw [logfQ_one] at r1
  refine ⟨r.1, ?_⟩
  have h5 := r.2
  unfold FP.real at h5 r1
  have : |((get_log_polyC p z).val : ℝ)| ≤ 1 := by
    push_cast at h5 r1
    rw [abs_le] at h5 r1 ⊢
    norm_num at h5 r1 ⊢
    constructor <;> linarith
  exact_mod_cast this

/-- The exact product of the polynomial and the cube. -/
theorem logf_prod (p : Policy) {z : F32} (hz : z.isFinite = true) (h1 : -0.293 ≤ z.val) (h2 : z.val ≤ 0.4143) :
    (z * z).isFinite = true ∧ (z * z).val = rnd b32 (z.val * z.val) ∧ |(z * z).val| ≤ 1 ∧
    (z * z * z).isFinite = true ∧ |(get_log_polyC p z).val * (z * z * z).val| ≤ 1 := by
  have hbig : 2000 ≤ b32.big := logf_consts.2.2.2.2.2.2.2.1
  have hu : b32.u ≤ 1 / 2 ^ 24 := logf_consts.2.2.2.2.2.2.2.2.2.2.2.1
  have he : b32.eta ≤ b32.u / 10 ^ 8 := logf_consts.2.2.2.2.2.2.2.2.2.1
  have hup := b32.u_pos
  have r1 : -0.293 ≤ z.real := by
    have : ((-0.293 : ℚ) : ℝ) ≤ (z.val : ℝ) := by exact_mod_cast h1
    push_cast at this; unfold FP.real; linarith
  have r2 : z.real ≤ 0.4143 := by
    have : (z.val : ℝ) ≤ ((0.4143 : ℚ) : ℝ) := by exact_mod_cast h2
    push_cast at this; unfold FP.real; linarith
  have Y := (logfY_range p hz r1 r2).2
  have hza : |z.val| ≤ 0.42 := by rw [abs_le]; constructor <;> linarith
  have hzz : |z.val * z.val| ≤ 0.2 := by rw [abs_le]; constructor <;> nlinarith
  have sx := mulS hz hz (hzz.trans (by linarith))
  have hx2 : |(z * z).val| ≤ 1 := by
    have := rnd_err_sum (f := b32) hzz (by linarith)
    rw [sx.2]
    rw [abs_le] at this hzz ⊢
    constructor <;> linarith
  have hx3 : |(z * z).val * z.val| ≤ 0.42 := by
    rw [abs_mul]; nlinarith [abs_nonneg z.val, abs_nonneg (z * z).val]
  have s3 := mulS sx.1 hz (hx3.trans (by linarith))
  have h4 : |(z * z * z).val| ≤ 1 := by
    have := rnd_err_sum (f := b32) hx3 (by linarith)
    rw [s3.2]
    rw [abs_le] at this hx3 ⊢
    constructor <;> linarith
  refine ⟨sx.1, sx.2, hx2, s3.1, ?_⟩
  rw [abs_mul]
  exact mul_le_one₀ Y (abs_nonneg _) h4

theorem rnd_negq (q : ℚ) : rnd b32 (-q) = -rnd b32 q := rnd_neg b32 q

/-- include/log.h:182-192: the result for the blended argument. -/
theorem logfCoreC_acc (p : Policy) {z fe : F32} {K : ℤ} (hz : z.isFinite = true) (hfe : fe.isFinite = true) (hK : fe.val = K)
    (hK2 : |K| ≤ 1100) (h1 : -0.293 ≤ z.val) (h2 : z.val ≤ 0.4143) (h0 : z.val = 0 ∨ p2 (-(b32.mb + 1)) ≤ |z.val|)
    (hne : ¬(z.val = 0 ∧ K = 0)) :
    (logfCoreC p z fe).isFinite = true ∧
    |(logfCoreC p z fe).real - (Real.log (1 + z.real) + K * Real.log 2)| ≤
      4 * b32.u * |Real.log (1 + z.real) + K * Real.log 2| := by
  obtain ⟨cf2, cf1, cfh, ch, c20, c2m, c1v, hbig, hu, he, he2, hu2, -⟩ := logf_consts
  have r1 : -0.293 ≤ z.real := by
    have : ((-0.293 : ℚ) : ℝ) ≤ (z.val : ℝ) := by exact_mod_cast h1
    push_cast at this; unfold FP.real; linarith
  have r2 : z.real ≤ 0.4143 := by
    have : (z.val : ℝ) ≤ ((0.4143 : ℚ) : ℝ) := by exact_mod_cast h2
    push_cast at this; unfold FP.real; linarith
  have hur : ((b32.u : ℚ) : ℝ) = 1 / 2 ^ 24 := by rw [hu]; push_cast; rfl
  have hT := logfT_acc p hz r1 r2
  have hA := logf_approx r1 r2
  have hL := logfE0_acc p hz r1 r2
  have hS := logf_split
  have hTr := logfT_range r1 r2
  rw [← hur] at hT hA hL hS
  rw [← c1v] at hS
  obtain ⟨x2f, x2v, x2b, x3f, hq⟩ := logf_prod p hz h1 h2
  obtain ⟨yf, -⟩ := logfY_range p hz r1 r2
  have hTv : (logfTC p z).val = rnd b32 ((get_log_polyC p z).val * (z * z * z).val) :=
    (mulS yf x3f (hq.trans (by linarith))).2
  obtain ⟨q, hqd⟩ : ∃ q, q = (get_log_polyC p z).val * (z * z * z).val := ⟨_, rfl⟩
  rw [← hqd] at hq hTv
  have hup := b32.u_pos
  have hx1 : rnd b32 (K * (lit 0.693359375 : F32).val) = K * (lit 0.693359375 : F32).val := by
    rw [c1v]; exact log_c1_exact _ hK2 (by decide) (by decide) hbig
  have htb : |(logfTC p z).val| ≤ 0.019 := by
    have h3 := hT.2
    have h4 := hTr.1
    rw [hur] at h3
    unfold FP.real at h3 h4
    have : |((logfTC p z).val : ℝ)| ≤ ((0.019 : ℚ) : ℝ) := by
      push_cast
      rw [abs_le] at h3 h4 ⊢
      norm_num at h3 h4 ⊢
      constructor <;> linarith
    exact_mod_cast this
  have hq1 : |q| ≤ 0.02 := by
    have := rnd_err_sum (f := b32) hq (by linarith)
    rw [hTv] at htb
    rw [abs_le] at this htb ⊢
    constructor <;> linarith
  have hqe : |(logfTC p z).val - q| ≤ 0.021 * b32.u := by
    have := rnd_err_sum (f := b32) hq1 (by linarith)
    rw [hTv]; linarith
  have hTT : |(logfTC p z).real - z.real ^ 3 * pev logfPl z.real / pev logfQl z.real| ≤ 0.2 * b32.u :=
    hT.2.trans (by have : (0 : ℝ) < b32.u := by exact_mod_cast hup
                   linarith)
  have hqT : |(q : ℝ) - z.real ^ 3 * pev logfPl z.real / pev logfQl z.real| ≤ 0.2 * b32.u := by
    have h3 : ((|(logfTC p z).val - q| : ℚ) : ℝ) ≤ ((0.021 * b32.u : ℚ) : ℝ) := by exact_mod_cast hqe
    push_cast at h3
    have h4 := hT.2
    unfold FP.real at h4
    have h5 := abs_add_le ((q : ℝ) - (logfTC p z).val) ((logfTC p z).val - z.real ^ 3 * pev logfPl z.real / pev logfQl z.real)
    rw [sub_add_sub_cancel, abs_sub_comm (q : ℝ) ((logfTC p z).val : ℝ)] at h5
    unfold FP.real at h5
    have : (0 : ℝ) < b32.u := by exact_mod_cast hup
    unfold FP.real
    linarith
  have tr : rnd b32 (logfTC p z).val = (logfTC p z).val := rnd_exact b32 (val_rep _) (by linarith)
  have hhb : |(-lit 0.5 : F32).val * (z * z).val| ≤ b32.big := by
    rw [neg_def, val_neg, ch, abs_mul, show |(-(1 / 2) : ℚ)| = 1 / 2 by norm_num]; linarith
  have nf2 : (-lit 2.12194440e-4 : F32).isFinite = true := by rw [neg_def]; simpa using cf2
  have nfh : (-lit 0.5 : F32).isFinite = true := by rw [neg_def]; simpa using cfh
  have H2 : ∀ s : F32, s.isFinite = true → |s.val - pw b32 (p 10) (1 / 2 * rnd b32 (z.val * z.val))| ≤ b32.big →
      (madR (p 10) (-lit 0.5) (z * z) s).isFinite = true ∧
      (madR (p 10) (-lit 0.5) (z * z) s).val = rnd b32 (s.val - pw b32 (p 10) (1 / 2 * rnd b32 (z.val * z.val))) := by
    intro s hs hb
    have e : -pw b32 (p 10) (1 / 2 * rnd b32 (z.val * z.val)) = pw b32 (p 10) ((-lit 0.5 : F32).val * (z * z).val) := by
      rw [neg_def, val_neg, ch, x2v, neg_mul]
      unfold pw
      split
      · rfl
      · rw [rnd_negq]
    rw [sub_eq_add_neg, e] at hb ⊢
    exact madR_pw (p 10) nfh x2f hs hhb hb
  have H4 : ∀ s : F32, s.isFinite = true → |K * (lit 0.693359375 : F32).val| ≤ b32.big →
      |s.val + K * (lit 0.693359375 : F32).val| ≤ b32.big →
      (madR (p 11) (lit 0.693359375) fe s).isFinite = true ∧
      (madR (p 11) (lit 0.693359375) fe s).val = rnd b32 (s.val + K * (lit 0.693359375 : F32).val) := by
    intro s hs hb hb2
    have e : pw b32 (p 11) ((lit 0.693359375 : F32).val * fe.val) = K * (lit 0.693359375 : F32).val := by
      rw [hK, mul_comm]
      rcases pw_or b32 (p 11) (K * (lit 0.693359375 : F32).val) with h | h
      · exact h
      · rw [h, hx1]
    have := madR_pw (p 11) cf1 hfe hs (by rw [hK, mul_comm]; exact hb) (by rw [e]; exact hb2)
    rw [e] at this
    exact this
  have nv : (-lit 2.12194440e-4 : F32).val * fe.val = -(K * (lit 2.12194440e-4 : F32).val) := by
    rw [neg_def, val_neg, hK]; ring
  rw [logfCoreC_eq]
  have main : ∀ (t1 a : ℚ), (logfTC p z).val = rnd b32 t1 →
      |(t1 : ℝ) - z.real ^ 3 * pev logfPl z.real / pev logfQl z.real| ≤ 0.2 * b32.u →
      (a = K * (lit 2.12194440e-4 : F32).val ∨ a = rnd b32 (K * (lit 2.12194440e-4 : F32).val)) →
      (|K * (lit 2.12194440e-4 : F32).val| ≤ b32.big → |t1 - a| ≤ b32.big →
        (logfR1 p z fe).isFinite = true ∧ (logfR1 p z fe).val = rnd b32 (t1 - a)) → _ := fun t1 a e1 e2 e3 e4 =>
    log_fp (g := fun s => madR (p 10) (-lit 0.5) (z * z) s) (g4 := fun s => madR (p 11) (lit 0.693359375) fe s)
      (t := logfTC p z) (t1 := t1) (c1 := lit 0.693359375) (c2 := lit 2.12194440e-4) (a := a)
      (h := pw b32 (p 10) (1 / 2 * rnd b32 (z.val * z.val)))
      hz hK2 h1 h2 h0 hne c20 c2m (by rw [c1v]; norm_num) (by rw [c1v]; norm_num) hS
      hbig he he2 hu2 hT.1 e1 e2 hTr hA e3 (pw_or _ _ _) e4 H2 H4 hL
  by_cases p8 : p 8 = true
  · refine main q (rnd b32 (K * (lit 2.12194440e-4 : F32).val)) hTv hqT (Or.inr rfl) fun m1 m2 => ?_
    have s1 := mulS nf2 hfe (by rw [nv, abs_neg]; exact m1)
    rw [nv, rnd_negq] at s1
    have e : logfR1 p z fe = fma (get_log_polyC p z) (z * z * z) (-lit 2.12194440e-4 * fe) := by
      unfold logfR1 mad2; rw [if_pos p8]
    rw [e]
    have := fma_spec yf x3f s1.1 (by rw [s1.2, ← hqd, ← sub_eq_add_neg]; exact m2)
    rwa [s1.2, ← hqd, ← sub_eq_add_neg] at this
  · by_cases p9 : p 9 = true
    · refine main (logfTC p z).val (K * (lit 2.12194440e-4 : F32).val) tr.symm hTT (Or.inl rfl) fun m1 m2 => ?_
      have e : logfR1 p z fe = fma (-lit 2.12194440e-4) fe (logfTC p z) := by
        unfold logfR1 mad2; rw [if_neg p8, if_pos p9]; rfl
      rw [e]
      have e2 : (-lit 2.12194440e-4 : F32).val * fe.val + (logfTC p z).val =
          (logfTC p z).val - K * (lit 2.12194440e-4 : F32).val := by rw [nv]; ring
      have := fma_spec nf2 hfe hT.1 (by rw [e2]; exact m2)
      rwa [e2] at this
    · refine main (logfTC p z).val (rnd b32 (K * (lit 2.12194440e-4 : F32).val)) tr.symm hTT (Or.inr rfl) fun m1 m2 => ?_
      have s1 := mulS nf2 hfe (by rw [nv, abs_neg]; exact m1)
      rw [nv, rnd_negq] at s1
      have e : logfR1 p z fe = logfTC p z + -lit 2.12194440e-4 * fe := by
        unfold logfR1 mad2; rw [if_neg p8, if_neg p9]; rfl
      rw [e]
      have := addS hT.1 s1.1 (by rw [s1.2, ← sub_eq_add_neg]; exact m2)
      rwa [s1.2, ← sub_eq_add_neg] at this

/-- Without the limits. -/
theorem fast_logf_eq {x : F32} (h1 : FP.gt x LOGF_UPPER_LIMIT = false) (h2 : FP.lt x LOGF_LOWER_LIMIT = false) :
    fast_logf x = logfCore (logfBlend (getMantExponentf x).1 (getMantExponentf x).2).1
      (logfBlend (getMantExponentf x).1 (getMantExponentf x).2).2 := by
  unfold fast_logf
  simp only [h1, h2, Bool.false_eq_true, if_false]

theorem fast_logfC_eq (p : Policy) {x : F32} (h1 : FP.gt x LOGF_UPPER_LIMIT = false) (h2 : FP.lt x LOGF_LOWER_LIMIT = false) :
    fast_logfC p x = logfCoreC p (logfBlend (getMantExponentf x).1 (getMantExponentf x).2).1
      (logfBlend (getMantExponentf x).1 (getMantExponentf x).2).2 := by
  unfold fast_logfC
  simp only [h1, h2, Bool.false_eq_true, if_false]

theorem logfBlend_eq (m fe : F32) : logfBlend m fe =
    ((if FP.gt m SQRTHF then (m, fe + lit 1) else (m + m, fe)).1 - lit 1,
      (if FP.gt m SQRTHF then (m, fe + lit 1) else (m + m, fe)).2) := by
  unfold logfBlend
  rw [show (lit 1.0 : F32) = lit 1 by decide +kernel]

/-- The result for a mantissa and an exponent. -/
theorem logfC_of_split (p : Policy) {m fe : F32} {k : ℤ} (m1 : m.isFinite = true) (m2 : fe.isFinite = true) (m3 : 1 / 2 ≤ m.val)
    (m4 : m.val < 1) (m6 : fe.val = k) (hk : |k| ≤ 1090) (hne : m.val * 2 ^ (k + 1) ≠ 1) :
    (logfCoreC p (logfBlend m fe).1 (logfBlend m fe).2).isFinite = true ∧
    |(logfCoreC p (logfBlend m fe).1 (logfBlend m fe).2).real - Real.log (m.real * 2 ^ (k + 1))| ≤
      1 / 2 ^ 22 * |Real.log (m.real * 2 ^ (k + 1))| := by
  have cs : SQRTHF.isFinite = true ∧ 0.7070 ≤ SQRTHF.val ∧ SQRTHF.val ≤ 0.70715 ∧ (lit 1 : F32).isFinite = true ∧
    (lit 1 : F32).val = 1 ∧ 2000 ≤ b32.big ∧ b32.u = 1 / 2 ^ 24 := by decide +kernel
  obtain ⟨c1, c2, c3, c4, c5, c6, c11⟩ := cs
  have B := blend_spec (c := SQRTHF) (one := lit 1) m1 m2 m3 m4 m6 hk (by decide) (by decide) c6 c1 c2 c3 c4 c5
  obtain ⟨B1, B2, K, B3, B4, B5, B6, B7, B8⟩ := B
  rw [logfBlend_eq]
  obtain ⟨r, hr⟩ : ∃ r, r = if FP.gt m SQRTHF then (m, fe + lit 1) else (m + m, fe) := ⟨_, rfl⟩
  rw [← hr] at B1 B2 B3 B5 B6 B7 B8 ⊢
  show (logfCoreC p (r.1 - lit 1) r.2).isFinite = true ∧ |(logfCoreC p (r.1 - lit 1) r.2).real - _| ≤ _
  clear hr
  generalize r.1 - lit 1 = z at *
  rw [B7] at hne
  have hlog : Real.log (m.real * 2 ^ (k + 1)) = Real.log (1 + z.real) + K * Real.log 2 := by
    have h5 : m.real * 2 ^ (k + 1) = (1 + z.real) * 2 ^ K := by
      have h7 := congrArg (fun q : ℚ => (q : ℝ)) B7
      push_cast at h7
      exact h7
    have h6 : 0 < 1 + z.real := by
      have : (0 : ℚ) < 1 + z.val := by linarith
      unfold FP.real; exact_mod_cast this
    rw [h5, Real.log_mul h6.ne' (by positivity), Real.log_zpow]
  have F := logfCoreC_acc p B1 B2 B3 B4 B5 B6 B8 (by
    rintro ⟨e1, e2⟩
    apply hne
    rw [e1, e2]; norm_num)
  refine ⟨F.1, ?_⟩
  rw [hlog]
  refine F.2.trans (le_of_eq ?_)
  rw [c11]; push_cast
  exact congrArg (· * _) (by norm_num)

/-- fast_logf on positive normal numbers other than one. -/
theorem logfC_acc (p : Policy) {x : F32} (hn : x.Normal) (hs : x.sign = false) (hne : x.val ≠ 1) :
    (fast_logfC p x).isFinite = true ∧ |(fast_logfC p x).real - Real.log x.real| ≤ 1 / 2 ^ 22 * |Real.log x.real| := by
  obtain ⟨m1, m2, m3, m4, m5, k, m6, m7⟩ := C33_getMantExponentf_partial x hn hs
  have hb := (normal_iff32 x).1 hn
  have hxf : x.isFinite = true := hn.1
  obtain ⟨m, hm⟩ : ∃ m, m = (getMantExponentf x).1 := ⟨_, rfl⟩
  obtain ⟨fe, hfe⟩ : ∃ fe, fe = (getMantExponentf x).2 := ⟨_, rfl⟩
  rw [← hm] at m1 m3 m4 m5 m7
  rw [← hfe] at m2 m6
  have hmp : 0 ≤ m.val := by
    by_contra h; push Not at h
    have := (val_neg_iff.1 h).1
    rw [this, hs] at m5; cases m5
  rw [abs_of_nonneg hmp] at m3 m4
  have hxp : 0 < x.val := by rw [m7]; positivity
  have hu : x.val ≤ LOGF_UPPER_LIMIT.val := by
    have h3 : x.val = magVal b32 x.mag := by unfold FP.val; simp [hs]
    rw [h3, show LOGF_UPPER_LIMIT.val = magVal b32 (255 * 2 ^ 23 - 1) by decide +kernel, magVal_le]
    omega
  have cs : LOGF_UPPER_LIMIT.isFinite = true ∧ LOGF_UPPER_LIMIT.val < 2 ^ (128 : ℤ) ∧
    LOGF_LOWER_LIMIT.isFinite = true ∧ LOGF_LOWER_LIMIT.val = 0 := by decide +kernel
  obtain ⟨c7, c8, c9, c10⟩ := cs
  have hk : |k| ≤ 1090 := by
    have hlo : (2 : ℚ) ^ (-126 : ℤ) ≤ x.val := by
      have := hn.2
      rw [abs_of_pos hxp] at this
      exact this
    have := exponent_bound m3 m4 m7 hlo (lt_of_le_of_lt hu c8)
    rw [abs_le]; omega
  have g1 : FP.gt x LOGF_UPPER_LIMIT = false := by rw [gt_fin hxf c7]; simpa using hu
  have g2 : FP.lt x LOGF_LOWER_LIMIT = false := by rw [lt_fin hxf c9, c10]; simpa using hxp.le
  rw [fast_logfC_eq p g1 g2, ← hm, ← hfe]
  have e : x.real = m.real * 2 ^ (k + 1) := by unfold FP.real; rw [m7]; push_cast; rfl
  rw [e]
  exact logfC_of_split p m1 m2 m3 m4 m6 hk (by rw [← m7]; exact hne)

end Vdt
