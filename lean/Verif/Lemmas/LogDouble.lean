import Verif.Lemmas.LogFp
import Verif.Float.Contract
import Verif.Model.Contract
import Verif.Real.PolyFast

/-! # Accuracy of the double precision logarithm -/

namespace Vdt
open FP details

/-- Horner scheme as an expression. -/
def hornE {f : Fmt} (x : E f) : List (FP f) → E f → E f
  | [], a => a
  | c :: l, a => hornE x l ((a.mul x).add (.const c))

/-- include/log.h:102-111, the rational function times `x³`. -/
def logTE : E b64 :=
  let x : E b64 := .var 0
  let v : E b64 := .var 1
  let px := hornE x [lit 4.97494994976747001425E-1, lit 4.70579119878881725854E0, lit 1.44989225341610930846E1,
    lit 1.79368678507819816313E1, lit 7.70838733755885391666E0] (.const (lit 1.01875663804580931796E-4))
  let x2 := v.mul v
  let px := (px.mul v).mul x2
  let qx := hornE x [lit 4.52279145837532221105E1, lit 8.29875266912776603211E1, lit 7.11544750618563894466E1,
    lit 2.31251620126765340583E1] (x.add (.const (lit 1.12873587189167450590E1)))
  px.div qx

/-- The rational function, in floating point. -/
def logTC (p : Policy) (x : F64) : F64 := get_log_pxC p x * x * (x * x) / get_log_qxC p x

theorem logTE_con (p : Policy) (x : F64) : logTE.Con (fun _ => x) (logTC p x) := by
  simp only [logTC, logTE, hornE, get_log_pxC, get_log_qxC]
  con

theorem logCoreC_eq (p : Policy) (x fe : F64) : logCoreC p x fe =
    madR (p 11) fe (lit 0.693359375) (x + nmad (p 10) (lit 0.5) (x * x)
      (nmad (p 9) fe (lit 2.121944400546905827679e-4) (logTC p x))) := rfl

/-- The sum without the exponent. -/
def logE0 : E b64 := (E.var 1).add (logTE.sub ((E.const (lit 0.5)).mul ((E.var 1).mul (.var 1))))

theorem logE0_con (p : Policy) (x : F64) :
    logE0.Con (fun _ => x) (x + nmad (p 10) (lit 0.5) (x * x) (logTC p x)) :=
  E.Con.add (E.Con.var _) (E.Con.nmad E.Con.const (E.Con.mul (E.Con.var _) (E.Con.var _)) (logTE_con p x))

def logPl : List ℚ := [(lit 7.70838733755885391666E0 : F64).val, (lit 1.79368678507819816313E1 : F64).val,
  (lit 1.44989225341610930846E1 : F64).val, (lit 4.70579119878881725854E0 : F64).val,
  (lit 4.97494994976747001425E-1 : F64).val, (lit 1.01875663804580931796E-4 : F64).val]
def logQl : List ℚ := [(lit 2.31251620126765340583E1 : F64).val, (lit 7.11544750618563894466E1 : F64).val,
  (lit 8.29875266912776603211E1 : F64).val, (lit 4.52279145837532221105E1 : F64).val,
  (lit 1.12873587189167450590E1 : F64).val, 1]

theorem logQ_pos {x : ℝ} (h1 : -0.293 ≤ x) (h2 : x ≤ 0.4143) : 1 ≤ pev logQl x := by
  exact_mod_cast plower_sound (p := logQl) (l := grid (-0.293) 0.4143 8) (c := 1) (a := -0.293) (b := 0.4143)
    (by decide +kernel) (by decide +kernel) (by push_cast; linarith) (by push_cast; linarith)

theorem logTE_real (x : ℝ) : logTE.evalR (fun _ => x) = x ^ 3 * pev logPl x / pev logQl x := by
  simp only [logTE, hornE, E.evalR, logPl, logQl, pev_cons, pev_nil, FP.real]
  push_cast
  exact congrArg₂ _ (by ring) (by ring)

theorem log_check : pratioT 20 90 (11 / 64) (logNum logPl logQl 5) (logDen logQl 5) (0.4 * p2 (-53))
    [-11 / 64, -169 / 1024, -155 / 1024, -65 / 512, -95 / 1024, -51 / 1024, 19 / 1024, 71 / 1024, 55 / 512, 71 / 512, 41 / 256, 11 / 64] = true := by
  decide +kernel

theorem log_len : logPl.length ≤ 5 + 1 ∧ logQl.length ≤ 5 + 1 := by decide +kernel

theorem log_C : (((0.4 * p2 (-53) : ℚ) : ℝ) + 1 / 2 ^ 70) ≤ 0.401 * (1 / 2 ^ 53) := by
  rw [show p2 (-53) = 1 / 2 ^ 53 by decide +kernel]
  push_cast; norm_num

/-- Approximation error. -/
theorem log_approx {x : ℝ} (h1 : -0.293 ≤ x) (h2 : x ≤ 0.4143) :
    |x - x ^ 2 / 2 + x ^ 3 * pev logPl x / pev logQl x - Real.log (1 + x)| ≤ 0.401 * (1 / 2 ^ 53) * |x| := by
  have hq : 0 < pev logQl x := by have := logQ_pos h1 h2; linarith
  exact (log1p_approx log_len.1 log_len.2 (fun s hs => pratioT_sound log_check (a := -11 / 64) (b := 11 / 64)
    (by decide +kernel) (by decide +kernel) (by rw [abs_le] at hs; push_cast; linarith)
    (by rw [abs_le] at hs; push_cast; linarith)) h1 h2 hq).trans
    (mul_le_mul_of_nonneg_right log_C (abs_nonneg _))

/-- Magnitude of the rational part. -/
theorem logT_range {x : ℝ} (h1 : -0.293 ≤ x) (h2 : x ≤ 0.4143) :
    |x ^ 3 * pev logPl x / pev logQl x| ≤ 0.0189 ∧
    |x ^ 3 * pev logPl x / pev logQl x - x ^ 2 / 2| ≤ 0.0683 ∧
    |x + (x ^ 3 * pev logPl x / pev logQl x - x ^ 2 / 2)| ≤ 0.3470 := by
  have hq : 0 < pev logQl x := by have := logQ_pos h1 h2; linarith
  have a1 : ((-0.293 : ℚ) : ℝ) ≤ x := by push_cast; linarith
  have a2 : x ≤ ((0.4143 : ℚ) : ℝ) := by push_cast; linarith
  have r1 := pratio_sound (n := pmul [0, 0, 0, 1] logPl) (d := logQl) (C := 0.0189) (l := [-0.293, 27 / 256, 95 / 256, 0.4143])
    (a := -0.293) (b := 0.4143) (by decide +kernel) (by decide +kernel) a1 a2
  have r2 := pratio_sound (n := psub (pmul [0, 0, 0, 1] logPl) (pmul [0, 0, 1/2] logQl)) (d := logQl) (C := 0.0683)
    (l := [-0.293, -9 / 128, 61 / 256, 0.4143])
    (a := -0.293) (b := 0.4143) (by decide +kernel) (by decide +kernel) a1 a2
  simp only [pev_sub, pev_add, pev_mul, pev_cons, pev_nil] at r1 r2
  push_cast at r1 r2
  refine ⟨?_, ?_, ?_⟩
  · rw [abs_div, abs_of_pos hq, div_le_iff₀ hq]
    exact le_trans (le_of_eq (congrArg _ (by ring))) r1
  · have : x ^ 3 * pev logPl x / pev logQl x - x ^ 2 / 2 = (x ^ 3 * pev logPl x - x ^ 2 / 2 * pev logQl x) / pev logQl x := by
      field_simp
    rw [this, abs_div, abs_of_pos hq, div_le_iff₀ hq]
    exact le_trans (le_of_eq (congrArg _ (by ring))) r2
  · have h3 := log_approx h1 h2
    have h4 := log1p_range h1 h2
    have h5 : |x| ≤ 1 := by rw [abs_le]; constructor <;> linarith
    have h6 := abs_add_le (x - x ^ 2 / 2 + x ^ 3 * pev logPl x / pev logQl x - Real.log (1 + x)) (Real.log (1 + x))
    have e : x - x ^ 2 / 2 + x ^ 3 * pev logPl x / pev logQl x - Real.log (1 + x) + Real.log (1 + x) =
      x + (x ^ 3 * pev logPl x / pev logQl x - x ^ 2 / 2) := by ring
    rw [e] at h6
    norm_num at h3 h4 h6 ⊢
    nlinarith

theorem logT_acc (p : Policy) {z : F64} (hz : z.isFinite = true) (h1 : -0.293 ≤ z.real) (h2 : z.real ≤ 0.4143) :
    (logTC p z).isFinite = true ∧ |(logTC p z).real - z.real ^ 3 * pev logPl z.real / pev logQl z.real| ≤ 0.2 * (1 / 2 ^ 53) := by
  have hc : covers (okAbs b64 logTE (0.2 * p2 (-53))) [-293 / 1000, -1 / 4, -7 / 64, 1 / 4, 3 / 8, 4143 / 10000] = true := by decide +kernel
  obtain ⟨s, t, hst, h3, h4⟩ := covers_spans hc (a := -0.293) (b := 0.4143) (by decide +kernel)
    (x := z.real) (by push_cast; linarith) (by push_cast; linarith)
  have r := okAbs_con hst hz h3 h4 (logTE_con p z)
  rw [logTE_real] at r
  refine ⟨r.1, r.2.trans (le_of_eq ?_)⟩
  rw [show p2 (-53) = 1 / 2 ^ 53 by decide +kernel]; push_cast; rfl

theorem logE0_acc (p : Policy) {z : F64} (hz : z.isFinite = true) (h1 : -0.293 ≤ z.real) (h2 : z.real ≤ 0.4143) :
    |(z + nmad (p 10) (lit 0.5) (z * z) (logTC p z)).real -
      (z.real + (z.real ^ 3 * pev logPl z.real / pev logQl z.real - z.real ^ 2 / 2))| ≤
      2.5 * (1 / 2 ^ 53) * |z.real| + 100 * b64.eta := by
  have hc : covers (okLin b64 logE0 (2.5 * p2 (-53)) 100) [-293 / 1000, -7 / 32, 3 / 64, 21 / 64, 4143 / 10000] = true := by decide +kernel
  obtain ⟨s, t, hst, h3, h4⟩ := covers_spans hc (a := -0.293) (b := 0.4143) (by decide +kernel)
    (x := z.real) (by push_cast; linarith) (by push_cast; linarith)
  have r := (okLin_con hst hz h3 h4 (logE0_con p z)).2
  have e : logE0.evalR (fun _ => z.real) =
      z.real + (z.real ^ 3 * pev logPl z.real / pev logQl z.real - z.real ^ 2 / 2) := by
    have h5 : (lit 0.5 : F64).real = 1 / 2 := by
      unfold FP.real; rw [show (lit 0.5 : F64).val = 1 / 2 by decide +kernel]; norm_num
    have h6 : logE0.evalR (fun _ => z.real) = z.real + (logTE.evalR (fun _ => z.real) - (lit 0.5 : F64).real * (z.real * z.real)) := rfl
    rw [h6, logTE_real, h5]
    exact congrArg _ (congrArg _ (by ring))
  rw [e] at r
  refine r.trans (le_of_eq ?_)
  rw [show p2 (-53) = 1 / 2 ^ 53 by decide +kernel]; push_cast; rfl

theorem log_consts : (lit 2.121944400546905827679e-4 : F64).isFinite = true ∧ (lit 0.693359375 : F64).isFinite = true ∧
    (lit 0.5 : F64).isFinite = true ∧ (lit 0.5 : F64).val = 1 / 2 ∧
    0 ≤ (lit 2.121944400546905827679e-4 : F64).val ∧ (lit 2.121944400546905827679e-4 : F64).val ≤ 0.000213 ∧
    (lit 0.693359375 : F64).val = 355 / 512 ∧ 2000 ≤ b64.big ∧ b64.u = 1 / 2 ^ 53 ∧ b64.eta ≤ b64.u / 10 ^ 8 ∧
    10000 * b64.eta ≤ b64.u * p2 (-(b64.mb + 1)) ∧ b64.u ≤ 1 / 2 ^ 24 ∧
    |(355 / 512 - (lit 2.121944400546905827679e-4 : F64).val) - ln2Q| ≤ 0.0005 * (1 / 2 ^ 53) := by decide +kernel

theorem log_split : |((355 / 512 - (lit 2.121944400546905827679e-4 : F64).val : ℚ) : ℝ) - Real.log 2| ≤ 0.001 * (1 / 2 ^ 53) := by
  have h1 : ((|(355 / 512 - (lit 2.121944400546905827679e-4 : F64).val) - ln2Q| : ℚ) : ℝ) ≤ ((0.0005 * (1 / 2 ^ 53) : ℚ) : ℝ) := by
    exact_mod_cast log_consts.2.2.2.2.2.2.2.2.2.2.2.2
  generalize (lit 2.121944400546905827679e-4 : F64).val = c at *
  have h2 := ln2_near
  rw [Rat.cast_abs, Rat.cast_sub] at h1
  generalize (ln2Q : ℝ) = q at *
  push_cast at h1 ⊢
  rw [abs_le] at *
  norm_num at h1 h2 ⊢
  constructor <;> linarith

/-- include/log.h:102-117: the result for the blended argument. -/
theorem logCoreC_acc (p : Policy) {z fe : F64} {K : ℤ} (hz : z.isFinite = true) (hfe : fe.isFinite = true) (hK : fe.val = K)
    (hK2 : |K| ≤ 1100) (h1 : -0.293 ≤ z.val) (h2 : z.val ≤ 0.4143) (h0 : z.val = 0 ∨ p2 (-(b64.mb + 1)) ≤ |z.val|)
    (hne : ¬(z.val = 0 ∧ K = 0)) :
    (logCoreC p z fe).isFinite = true ∧
    |(logCoreC p z fe).real - (Real.log (1 + z.real) + K * Real.log 2)| ≤
      4 * b64.u * |Real.log (1 + z.real) + K * Real.log 2| := by
  obtain ⟨cf2, cf1, cfh, ch, c20, c2m, c1v, hbig, hu, he, he2, hu2, -⟩ := log_consts
  have r1 : -0.293 ≤ z.real := by
    have : ((-0.293 : ℚ) : ℝ) ≤ (z.val : ℝ) := by exact_mod_cast h1
    push_cast at this; unfold FP.real; linarith
  have r2 : z.real ≤ 0.4143 := by
    have : (z.val : ℝ) ≤ ((0.4143 : ℚ) : ℝ) := by exact_mod_cast h2
    push_cast at this; unfold FP.real; linarith
  have hur : ((b64.u : ℚ) : ℝ) = 1 / 2 ^ 53 := by rw [hu]; push_cast; rfl
  have hT := logT_acc p hz r1 r2
  have hA := log_approx r1 r2
  have hL := logE0_acc p hz r1 r2
  have hS := log_split
  rw [← hur] at hT hA hL hS
  rw [← c1v] at hS
  have hzz : |z.val * z.val| ≤ 1 := by rw [abs_le]; constructor <;> nlinarith
  have sx := mulS hz hz (hzz.trans (by linarith))
  have htb : |(logTC p z).val| ≤ 1 := by
    have h3 := hT.2
    have h4 := (logT_range r1 r2).1
    rw [hur] at h3
    unfold FP.real at h3 h4
    have : |((logTC p z).val : ℝ)| ≤ 1 := by
      rw [abs_le] at h3 h4 ⊢
      norm_num at h3 h4 ⊢
      constructor <;> linarith
    exact_mod_cast this
  have hx1 : rnd b64 (K * (lit 0.693359375 : F64).val) = K * (lit 0.693359375 : F64).val := by
    rw [c1v]; exact log_c1_exact _ hK2 (by decide) (by decide) hbig
  have hhb : |(lit 0.5 : F64).val * (z * z).val| ≤ b64.big := by
    have := rnd_err_sum (f := b64) hzz (by linarith)
    rw [ch, sx.2]
    rw [abs_le] at this hzz ⊢
    constructor <;> linarith
  rw [logCoreC_eq]
  refine log_fp (g := fun s => nmad (p 10) (lit 0.5) (z * z) s) (g4 := fun s => madR (p 11) fe (lit 0.693359375) s)
    (t := logTC p z) (t1 := (logTC p z).val) (c1 := lit 0.693359375) (c2 := lit 2.121944400546905827679e-4)
    (a := pw b64 (p 9) (K * (lit 2.121944400546905827679e-4 : F64).val))
    (h := pw b64 (p 10) (1 / 2 * rnd b64 (z.val * z.val)))
    hz hK2 h1 h2 h0 hne c20 c2m (by rw [c1v]; norm_num) (by rw [c1v]; norm_num) hS
    hbig he he2 hu2 hT.1 (rnd_exact b64 (val_rep _) (by linarith)).symm hT.2 (logT_range r1 r2) hA
    (pw_or _ _ _) (pw_or _ _ _) ?_ ?_ ?_ hL
  · rw [← hK]
    exact fun m1 m2 => nmad_pw (p 9) hfe cf2 hT.1 m1 m2
  · intro s hs hb
    rw [← sx.2, ← ch] at hb ⊢
    exact nmad_pw (p 10) cfh sx.1 hs hhb hb
  · intro s hs hb hb2
    have e : pw b64 (p 11) (fe.val * (lit 0.693359375 : F64).val) = K * (lit 0.693359375 : F64).val := by
      rw [hK]
      rcases pw_or b64 (p 11) (K * (lit 0.693359375 : F64).val) with h | h
      · exact h
      · rw [h, hx1]
    have := madR_pw (p 11) hfe cf1 hs (by rw [hK]; exact hb) (by rw [e]; exact hb2)
    rw [e] at this
    exact this

end Vdt
