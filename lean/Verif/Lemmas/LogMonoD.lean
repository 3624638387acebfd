import Verif.Lemmas.LogMono

/-! # `fast_log` preserves the order: the sums of one exponent -/

namespace Vdt
open FP details

/-- No fused operations. -/
abbrev plainP : Policy := fun _ => false

/-- The exact function of the reduced argument. -/
noncomputable def logR (x : ℝ) : ℝ :=
  pev (padd (pmul [0, 1, -1/2] logQl) (pmul [0, 0, 0, 1] logPl)) x / pev logQl x

theorem logR_eq {x : ℝ} (h1 : -0.293 ≤ x) (h2 : x ≤ 0.4143) :
    logR x = x + (x ^ 3 * pev logPl x / pev logQl x - x ^ 2 / 2) := by
  have hq : pev logQl x ≠ 0 := by have := logQ_pos h1 h2; linarith
  unfold logR
  simp only [pev_add, pev_mul, pev_cons, pev_nil]
  push_cast
  field_simp
  ring

theorem logR_growth (a b c : ℚ) (l : List ℚ) (ha : -0.293 ≤ a) (hb : b ≤ 0.4143)
    (h : pslope (padd (pmul [0, 1, -1/2] logQl) (pmul [0, 0, 0, 1] logPl)) logQl c l = true)
    (hs : spans l a b = true) (x y : ℝ) (h1 : (a : ℝ) ≤ x) (h2 : x ≤ y) (h3 : y ≤ (b : ℝ)) :
    (c : ℝ) * (y - x) ≤ logR y - logR x := by
  refine pslope_sound h hs (fun t t1 t2 => ?_) h1 h2 h3
  have a' : ((-0.293 : ℚ) : ℝ) ≤ (a : ℝ) := by exact_mod_cast ha
  have b' : (b : ℝ) ≤ ((0.4143 : ℚ) : ℝ) := by exact_mod_cast hb
  push_cast at a' b'
  have := logQ_pos (x := t) (by linarith) (by linarith)
  linarith

theorem logR_A (x y : ℝ) (h1 : -0.293 ≤ x) (h2 : x ≤ y) (h3 : y ≤ -0.19) : 1.23 * (y - x) ≤ logR y - logR x := by
  have := logR_growth (-0.293) (-0.19) 1.23 [-0.293, -0.19] (by norm_num) (by norm_num) (by decide +kernel) (by decide +kernel) x y
    (by push_cast; exact h1) h2 (by push_cast; exact h3)
  push_cast at this; exact this

theorem logR_B (x y : ℝ) (h1 : -0.2 ≤ x) (h2 : x ≤ y) (h3 : y ≤ 0) : 0.999 * (y - x) ≤ logR y - logR x := by
  have := logR_growth (-0.2) 0 0.999 [-0.2, 0] (by norm_num) (by norm_num) (by decide +kernel) (by decide +kernel) x y
    (by push_cast; exact h1) h2 (by push_cast; exact h3)
  push_cast at this; exact this

theorem logR_C (x y : ℝ) (h1 : 0 ≤ x) (h2 : x ≤ y) (h3 : y ≤ 0.4143) : 0.707 * (y - x) ≤ logR y - logR x := by
  have := logR_growth 0 0.4143 0.707 [0, 0.4143] (by norm_num) (by norm_num) (by decide +kernel) (by decide +kernel) x y
    (by push_cast; exact h1) h2 (by push_cast; exact h3)
  push_cast at this; exact this

/-- Error of the rational function on a part of the range. -/
theorem logT_part (p : Policy) (a b e : ℚ) (l : List ℚ) (hc : covers (okAbs b64 logTE (e * p2 (-53))) l = true)
    (hs : spans l a b = true) {z : F64} (hz : z.isFinite = true) (h1 : (a : ℝ) ≤ z.real) (h2 : z.real ≤ b) :
    |(logTC p z).real - z.real ^ 3 * pev logPl z.real / pev logQl z.real| ≤ e * ((b64.u : ℚ) : ℝ) := by
  obtain ⟨s, t, hst, h3, h4⟩ := covers_spans hc hs (x := z.real) h1 h2
  have r := okAbs_con hst hz h3 h4 (logTE_con p z)
  rw [logTE_real] at r
  refine r.2.trans (le_of_eq ?_)
  rw [show b64.u = p2 (-53) by decide +kernel]; push_cast; rfl

/-- Constants of the error bounds. -/
theorem log_hulps : hulp b64 0.24 = b64.u / 8 ∧ hulp b64 0.49 = b64.u / 4 ∧ hulp b64 0.1717 = b64.u / 8 ∧
    hulp b64 0.086 = b64.u / 16 ∧ hulp b64 0.0859 = b64.u / 16 ∧ hulp b64 0.043 = b64.u / 32 ∧
    hulp b64 0.2184 = b64.u / 8 := by decide +kernel

/-- include/log.h:102-117 as nested roundings. -/
def logV (z : F64) (K : ℤ) : ℚ :=
  sumQ b64 (355 / 512) (lit 2.121944400546905827679e-4 : F64).val z.val (logTC plainP z).val
    (rnd b64 (1 / 2 * rnd b64 (z.val * z.val))) K

/-- The argument of the last two roundings. -/
def logW (z : F64) (K : ℤ) : ℚ :=
  z.val + rnd b64 (rnd b64 ((logTC plainP z).val - rnd b64 (K * (lit 2.121944400546905827679e-4 : F64).val)) -
    rnd b64 (1 / 2 * rnd b64 (z.val * z.val)))

theorem logV_eq (z : F64) (K : ℤ) : logV z K = rnd b64 (rnd b64 (logW z K) + K * (355 / 512)) := rfl

theorem logCore_seg {z fe : F64} {K : ℤ} (hz : z.isFinite = true) (hfe : fe.isFinite = true) (hK : fe.val = K)
    (hK2 : |K| ≤ 1025) (h1 : -0.293 ≤ z.val) (h2 : z.val ≤ 0.4143) {eT eh : ℝ}
    (heT : |(logTC plainP z).real - z.real ^ 3 * pev logPl z.real / pev logQl z.real| ≤ eT * ((b64.u : ℚ) : ℝ))
    (heh : |((rnd b64 (1 / 2 * rnd b64 (z.val * z.val)) : ℚ) : ℝ) - z.real ^ 2 / 2| ≤ eh * ((b64.u : ℚ) : ℝ))
    (hhb : |rnd b64 (1 / 2 * rnd b64 (z.val * z.val))| ≤ 0.09) :
    (logCore z fe).isFinite = true ∧ (logCore z fe).val = logV z K ∧
    |(logW z K : ℝ) - (logR z.real - (rnd b64 (K * (lit 2.121944400546905827679e-4 : F64).val) : ℚ))| ≤
      (eT + eh + 3 / 8) * ((b64.u : ℚ) : ℝ) := by
  obtain ⟨cf2, cf1, cfh, ch, c20, c2m, c1v, hbig, hu, he, he2, hu2, -⟩ := log_consts
  obtain ⟨u1, u2, -, -, -, -, u7⟩ := log_hulps
  have r1 : -0.293 ≤ z.real := by
    have : ((-0.293 : ℚ) : ℝ) ≤ (z.val : ℝ) := by exact_mod_cast h1
    push_cast at this; unfold FP.real; linarith
  have r2 : z.real ≤ 0.4143 := by
    have : (z.val : ℝ) ≤ ((0.4143 : ℚ) : ℝ) := by exact_mod_cast h2
    push_cast at this; unfold FP.real; linarith
  have hT := logT_acc plainP hz r1 r2
  have htb : |(logTC plainP z).val| ≤ 0.0192 := by
    have h3 := hT.2
    have h4 := (logT_range r1 r2).1
    unfold FP.real at h3 h4
    have : |((logTC plainP z).val : ℝ)| ≤ ((0.0192 : ℚ) : ℝ) := by
      push_cast
      rw [abs_le] at h3 h4 ⊢
      norm_num at h3 h4 ⊢
      constructor <;> linarith
    exact_mod_cast this
  have hzz : |z.val * z.val| ≤ 1 := by rw [abs_le]; constructor <;> nlinarith
  have sx := mulS hz hz (hzz.trans (by linarith))
  have hhb2 : |(lit 0.5 : F64).val * (z * z).val| ≤ b64.big := by
    have := rnd_err_sum (f := b64) hzz (by linarith)
    rw [ch, sx.2]
    have hup := b64.u_pos
    rw [abs_le] at this hzz ⊢
    constructor <;> linarith
  have hKq : |(K : ℚ)| ≤ 1025 := by rw [← Int.cast_abs]; exact_mod_cast hK2
  have ha1 : |(K : ℚ) * (lit 2.121944400546905827679e-4 : F64).val| ≤ 0.2184 := by
    rw [abs_mul, abs_of_nonneg c20]
    nlinarith [abs_nonneg (K : ℚ)]
  have ha2 : |rnd b64 (K * (lit 2.121944400546905827679e-4 : F64).val)| ≤ 0.2185 := by
    have := rnd_err b64 (by norm_num) ha1 (by linarith)
    rw [u7] at this
    have hup := b64.u_pos
    rw [abs_le] at this ha1 ⊢
    constructor <;> linarith
  have hx1 : rnd b64 (K * (lit 0.693359375 : F64).val) = K * (lit 0.693359375 : F64).val := by
    rw [c1v]; exact log_c1_exact _ (hK2.trans (by norm_num)) (by decide) (by decide) hbig
  have hKb : |(K : ℚ) * (lit 0.693359375 : F64).val| ≤ b64.big := by
    rw [c1v, abs_mul, show |(355 / 512 : ℚ)| = 355 / 512 by norm_num]; linarith
  have M := log_seg (f := b64) (z := z) (r1 := nmad false fe (lit 2.121944400546905827679e-4) (logTC plainP z))
    (g := fun s => nmad false (lit 0.5) (z * z) s) (g4 := fun s => madR false fe (lit 0.693359375) s)
    (t1 := (logTC plainP z).val) (a := rnd b64 (K * (lit 2.121944400546905827679e-4 : F64).val))
    (h := rnd b64 (1 / 2 * rnd b64 (z.val * z.val))) (c1 := lit 0.693359375) (K := K)
    (T := z.real ^ 3 * pev logPl z.real / pev logQl z.real) (eT := eT) (eh := eh)
    hz (hK2.trans (by norm_num)) h1 h2 (by rw [c1v]; norm_num) hbig u1 u2 hu2 heT htb ha2 heh hhb
    (fun hb => by
      have := nmad_pw false hfe cf2 hT.1 (by rw [hK]; linarith) (by rw [hK]; exact hb)
      rw [hK] at this; exact this)
    (fun s hs hb => by
      rw [← sx.2, ← ch] at hb ⊢
      exact nmad_pw false cfh sx.1 hs hhb2 hb)
    (fun s hs hb => by
      have e : pw b64 false (fe.val * (lit 0.693359375 : F64).val) = K * (lit 0.693359375 : F64).val := by
        rw [hK]; exact hx1
      have := madR_pw false hfe cf1 hs (by rw [hK]; exact hKb) (by rw [e]; exact hb)
      rw [e] at this
      exact this)
  have e0 : logCore z fe = madR false fe (lit 0.693359375) (z + nmad false (lit 0.5) (z * z)
      (nmad false fe (lit 2.121944400546905827679e-4) (logTC plainP z))) := by
    rw [← logCore_plain, logCoreC_eq]
  rw [e0]
  obtain ⟨m1, m2, m3⟩ := M
  refine ⟨m1, ?_, ?_⟩
  · rw [m2, c1v]; rfl
  · rw [logR_eq r1 r2]
    unfold logW
    clear m2 e0 m1
    generalize rnd b64 (rnd b64 ((logTC plainP z).val - rnd b64 (K * (lit 2.121944400546905827679e-4 : F64).val)) -
      rnd b64 (1 / 2 * rnd b64 (z.val * z.val))) = S at *
    generalize rnd b64 (K * (lit 2.121944400546905827679e-4 : F64).val) = A at *
    generalize z.real ^ 3 * pev logPl z.real / pev logQl z.real = T at *
    refine le_trans (le_of_eq (congrArg _ ?_)) m3
    rw [Rat.cast_add]
    unfold FP.real
    ring

/-- The value of the result and the errors on the three parts of the range. -/
theorem logCore_parts {z fe : F64} {K : ℤ} (hz : z.isFinite = true) (hfe : fe.isFinite = true) (hK : fe.val = K)
    (hK2 : |K| ≤ 1025) (h1 : -0.293 ≤ z.val) (h2 : z.val ≤ 0.4143) :
    (logCore z fe).isFinite = true ∧ (logCore z fe).val = logV z K ∧
    (z.real ≤ -0.19 → |(logW z K : ℝ) - (logR z.real - (rnd b64 (K * (lit 2.121944400546905827679e-4 : F64).val) : ℚ))| ≤
      0.5875 * ((b64.u : ℚ) : ℝ)) ∧
    (-0.2 ≤ z.real → z.real ≤ 0 → |(logW z K : ℝ) - (logR z.real - (rnd b64 (K * (lit 2.121944400546905827679e-4 : F64).val) : ℚ))| ≤
      0.4675 * ((b64.u : ℚ) : ℝ)) ∧
    |(logW z K : ℝ) - (logR z.real - (rnd b64 (K * (lit 2.121944400546905827679e-4 : F64).val) : ℚ))| ≤ 0.7 * ((b64.u : ℚ) : ℝ) := by
  obtain ⟨-, -, u3, u4, u5, u6, -⟩ := log_hulps
  obtain ⟨-, -, -, -, -, -, -, hbig, -, -, -, hu2, -⟩ := log_consts
  have hup := b64.u_pos
  have r1 : -0.293 ≤ z.real := by
    have : ((-0.293 : ℚ) : ℝ) ≤ (z.val : ℝ) := by exact_mod_cast h1
    push_cast at this; unfold FP.real; linarith
  have r2 : z.real ≤ 0.4143 := by
    have : (z.val : ℝ) ≤ ((0.4143 : ℚ) : ℝ) := by exact_mod_cast h2
    push_cast at this; unfold FP.real; linarith
  obtain ⟨hb, hh⟩ := log_half_sq (f := b64) (z := z.val) (M := 0.1717) (M2 := 0.086) false (by norm_num) (by norm_num)
    (by nlinarith) hbig (by norm_num) u3 u4 (by linarith) (by linarith)
  have hh' : |((rnd b64 (1 / 2 * rnd b64 (z.val * z.val)) : ℚ) : ℝ) - z.real ^ 2 / 2| ≤ 0.125 * ((b64.u : ℚ) : ℝ) := by
    refine hh.trans (le_of_eq ?_)
    push_cast; ring
  have hs : z.real ≤ 0 → |((rnd b64 (1 / 2 * rnd b64 (z.val * z.val)) : ℚ) : ℝ) - z.real ^ 2 / 2| ≤ 0.0625 * ((b64.u : ℚ) : ℝ) := by
    intro h0
    have h0' : z.val ≤ 0 := by unfold FP.real at h0; exact_mod_cast h0
    obtain ⟨-, hh⟩ := log_half_sq (f := b64) (z := z.val) (M := 0.0859) (M2 := 0.043) false (by norm_num) (by norm_num)
      (by nlinarith) hbig (by norm_num) u5 u6 (by linarith) (by linarith)
    refine hh.trans (le_of_eq ?_)
    push_cast; ring
  have C := logCore_seg (eT := 0.2) (eh := 0.125) hz hfe hK hK2 h1 h2 (by
    have := logT_part plainP (-0.293) 0.4143 0.2 [-0.293, -1 / 4, -7 / 64, 1 / 4, 3 / 8, 0.4143] (by decide +kernel) (by decide +kernel) hz (by push_cast; linarith) (by push_cast; linarith)
    push_cast at this; exact this) hh' hb
  refine ⟨C.1, C.2.1, fun hA => ?_, fun hB1 hB2 => ?_, C.2.2.trans (le_of_eq (by norm_num))⟩
  · have A := logCore_seg (eT := 0.15) (eh := 0.0625) hz hfe hK hK2 h1 h2 (by
      have := logT_part plainP (-0.293) (-0.19) 0.15 [-0.293, -17 / 64, -0.19] (by decide +kernel) (by decide +kernel) hz (by push_cast; linarith) (by push_cast; linarith)
      push_cast at this; exact this) (hs (by linarith)) hb
    exact A.2.2.trans (le_of_eq (by norm_num))
  · have B := logCore_seg (eT := 0.03) (eh := 0.0625) hz hfe hK hK2 h1 h2 (by
      have := logT_part plainP (-0.2) 0 0.03 [-0.2, -41 / 256, 0] (by decide +kernel) (by decide +kernel) hz (by push_cast; linarith) (by push_cast; linarith)
      push_cast at this; exact this) (hs hB2) hb
    exact B.2.2.trans (le_of_eq (by norm_num))

/-- Two reduced arguments of the same exponent. -/
theorem logV_order {z z' : F64} {K : ℤ} (hz : z.isFinite = true) (hz' : z'.isFinite = true)
    (hK2 : |K| ≤ 1025) (h1 : -0.293 ≤ z.val) (hlt : z.val < z'.val) (h2 : z'.val ≤ 0.4143)
    (d1 : z'.val ≤ 0 → b64.u ≤ z'.val - z.val) (d2 : 0 ≤ z.val → 2 * b64.u ≤ z'.val - z.val)
    (d3 : z.val < 0 → z.val ≤ -b64.u) (d4 : 0 < z'.val → 2 * b64.u ≤ z'.val) : logV z K ≤ logV z' K := by
  obtain ⟨hf1, hf2⟩ := ofInt_spec64 (n := K) (hK2.trans (by norm_num))
  obtain ⟨-, -, a1, a2, a3⟩ := logCore_parts hz hf1 hf2 hK2 h1 (hlt.le.trans h2)
  obtain ⟨-, -, b1, b2, b3⟩ := logCore_parts hz' hf1 hf2 hK2 (h1.trans hlt.le) h2
  rw [logV_eq, logV_eq]
  apply rnd_mono
  refine add_le_add_left (rnd_mono b64 ?_) _
  have hu : (0 : ℝ) < (b64.u : ℚ) := by exact_mod_cast b64.u_pos
  have hu2 : ((b64.u : ℚ) : ℝ) ≤ 1 / 2 ^ 24 := by
    have : ((b64.u : ℚ) : ℝ) ≤ ((1 / 2 ^ 24 : ℚ) : ℝ) := by exact_mod_cast log_consts.2.2.2.2.2.2.2.2.2.2.2.1
    push_cast at this; exact this
  have key := seg_order (R := logR) (u := ((b64.u : ℚ) : ℝ)) (z := z.real) (z' := z'.real) (w := (logW z K : ℝ)) (w' := (logW z' K : ℝ))
    (nA := 0.5875) (nB := 0.4675) (nC := 0.7) hu hu2 (by norm_num) (by norm_num) (by norm_num)
    (by
      have : ((-0.293 : ℚ) : ℝ) ≤ (z.val : ℝ) := by exact_mod_cast h1
      push_cast at this; unfold FP.real; linarith)
    (by unfold FP.real; exact_mod_cast hlt)
    (by
      have : (z'.val : ℝ) ≤ ((0.4143 : ℚ) : ℝ) := by exact_mod_cast h2
      push_cast at this; unfold FP.real; linarith)
    (fun h => by unfold FP.real at h ⊢; exact_mod_cast d1 (by exact_mod_cast h))
    (fun h => by unfold FP.real at h ⊢; exact_mod_cast d2 (by exact_mod_cast h))
    (fun h => by unfold FP.real at h ⊢; exact_mod_cast d3 (by exact_mod_cast h))
    (fun h => by unfold FP.real at h ⊢; exact_mod_cast d4 (by exact_mod_cast h))
    logR_A logR_B logR_C a1 a2 a3 b1 b2 b3
  exact_mod_cast key

end Vdt
