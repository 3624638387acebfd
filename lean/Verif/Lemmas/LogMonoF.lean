import Verif.Lemmas.LogMonoD
import Verif.Lemmas.LogFloat

/-! # `fast_logf` preserves the order: the sums of one exponent -/

namespace Vdt
open FP details

/-- The exact function of the reduced argument. -/
noncomputable def logfR (x : ℝ) : ℝ :=
  pev (padd (pmul [0, 1, -1/2] logfQl) (pmul [0, 0, 0, 1] logfPl)) x / pev logfQl x

theorem logfR_eq {x : ℝ} (h1 : -0.293 ≤ x) (h2 : x ≤ 0.4143) :
    logfR x = x + (x ^ 3 * pev logfPl x / pev logfQl x - x ^ 2 / 2) := by
  have hq : pev logfQl x ≠ 0 := by rw [logfQ_one]; norm_num
  unfold logfR
  simp only [pev_add, pev_mul, pev_cons, pev_nil]
  push_cast
  field_simp
  ring

theorem logfR_growth (a b c : ℚ) (l : List ℚ) (ha : -0.293 ≤ a) (hb : b ≤ 0.4143)
    (h : pslope (padd (pmul [0, 1, -1/2] logfQl) (pmul [0, 0, 0, 1] logfPl)) logfQl c l = true)
    (hs : spans l a b = true) (x y : ℝ) (h1 : (a : ℝ) ≤ x) (h2 : x ≤ y) (h3 : y ≤ (b : ℝ)) :
    (c : ℝ) * (y - x) ≤ logfR y - logfR x := by
  refine pslope_sound h hs (fun t t1 t2 => ?_) h1 h2 h3
  have a' : ((-0.293 : ℚ) : ℝ) ≤ (a : ℝ) := by exact_mod_cast ha
  have b' : (b : ℝ) ≤ ((0.4143 : ℚ) : ℝ) := by exact_mod_cast hb
  push_cast at a' b'
  rw [logfQ_one]; norm_num

theorem logfR_A (x y : ℝ) (h1 : -0.293 ≤ x) (h2 : x ≤ y) (h3 : y ≤ -0.19) : 1.23 * (y - x) ≤ logfR y - logfR x := by
  have := logfR_growth (-0.293) (-0.19) 1.23 [-0.293, -25 / 128, -0.19] (by norm_num) (by norm_num) (by decide +kernel) (by decide +kernel) x y
    (by push_cast; exact h1) h2 (by push_cast; exact h3)
  push_cast at this; exact this

theorem logfR_B (x y : ℝ) (h1 : -0.2 ≤ x) (h2 : x ≤ y) (h3 : y ≤ 0) : 0.999 * (y - x) ≤ logfR y - logfR x := by
  have := logfR_growth (-0.2) 0 0.999 [-0.2, -3 / 128, 0] (by norm_num) (by norm_num) (by decide +kernel) (by decide +kernel) x y
    (by push_cast; exact h1) h2 (by push_cast; exact h3)
  push_cast at this; exact this

theorem logfR_C (x y : ℝ) (h1 : 0 ≤ x) (h2 : x ≤ y) (h3 : y ≤ 0.4143) : 0.707 * (y - x) ≤ logfR y - logfR x := by
  have := logfR_growth 0 0.4143 0.707 [0, 87 / 256, 105 / 256, 0.4143] (by norm_num) (by norm_num) (by decide +kernel) (by decide +kernel) x y
    (by push_cast; exact h1) h2 (by push_cast; exact h3)
  push_cast at this; exact this

/-- Error of the rational function on a part of the range. -/
theorem logfT_part (p : Policy) (a b e : ℚ) (l : List ℚ) (hc : covers (okAbs b32 logfTE (e * p2 (-24))) l = true)
    (hs : spans l a b = true) {z : F32} (hz : z.isFinite = true) (h1 : (a : ℝ) ≤ z.real) (h2 : z.real ≤ b) :
    |(logfTC p z).real - z.real ^ 3 * pev logfPl z.real / pev logfQl z.real| ≤ e * ((b32.u : ℚ) : ℝ) := by
  obtain ⟨s, t, hst, h3, h4⟩ := covers_spans hc hs (x := z.real) h1 h2
  have r := okAbs_con hst hz h3 h4 (logfTE_con p z)
  rw [logfTE_real] at r
  refine r.2.trans (le_of_eq ?_)
  rw [show b32.u = p2 (-24) by decide +kernel]; push_cast; rfl

/-- Constants of the error bounds. -/
theorem logf_hulps : hulp b32 0.24 = b32.u / 8 ∧ hulp b32 0.49 = b32.u / 4 ∧ hulp b32 0.1717 = b32.u / 8 ∧
    hulp b32 0.086 = b32.u / 16 ∧ hulp b32 0.0859 = b32.u / 16 ∧ hulp b32 0.043 = b32.u / 32 ∧
    hulp b32 0.2184 = b32.u / 8 := by decide +kernel

/-- include/log.h:182-192 as nested roundings. -/
def logfV (z : F32) (K : ℤ) : ℚ :=
  sumQ b32 (355 / 512) (lit 2.12194440e-4 : F32).val z.val (logfTC plainP z).val
    (rnd b32 (1 / 2 * rnd b32 (z.val * z.val))) K

/-- The argument of the last two roundings. -/
def logfW (z : F32) (K : ℤ) : ℚ :=
  z.val + rnd b32 (rnd b32 ((logfTC plainP z).val - rnd b32 (K * (lit 2.12194440e-4 : F32).val)) -
    rnd b32 (1 / 2 * rnd b32 (z.val * z.val)))

theorem logfV_eq (z : F32) (K : ℤ) : logfV z K = rnd b32 (rnd b32 (logfW z K) + K * (355 / 512)) := rfl

theorem logfCore_seg {z fe : F32} {K : ℤ} (hz : z.isFinite = true) (hfe : fe.isFinite = true) (hK : fe.val = K)
    (hK2 : |K| ≤ 1025) (h1 : -0.293 ≤ z.val) (h2 : z.val ≤ 0.4143) {eT eh : ℝ}
    (heT : |(logfTC plainP z).real - z.real ^ 3 * pev logfPl z.real / pev logfQl z.real| ≤ eT * ((b32.u : ℚ) : ℝ))
    (heh : |((rnd b32 (1 / 2 * rnd b32 (z.val * z.val)) : ℚ) : ℝ) - z.real ^ 2 / 2| ≤ eh * ((b32.u : ℚ) : ℝ))
    (hhb : |rnd b32 (1 / 2 * rnd b32 (z.val * z.val))| ≤ 0.09) :
    (logfCore z fe).isFinite = true ∧ (logfCore z fe).val = logfV z K ∧
    |(logfW z K : ℝ) - (logfR z.real - (rnd b32 (K * (lit 2.12194440e-4 : F32).val) : ℚ))| ≤
      (eT + eh + 3 / 8) * ((b32.u : ℚ) : ℝ) := by
  obtain ⟨cf2, cf1, cfh, ch, c20, c2m, c1v, hbig, hu, he, he2, hu2, -⟩ := logf_consts
  obtain ⟨u1, u2, -, -, -, -, u7⟩ := logf_hulps
  have r1 : -0.293 ≤ z.real := by
    have : ((-0.293 : ℚ) : ℝ) ≤ (z.val : ℝ) := by exact_mod_cast h1
    push_cast at this; unfold FP.real; linarith
  have r2 : z.real ≤ 0.4143 := by
    have : (z.val : ℝ) ≤ ((0.4143 : ℚ) : ℝ) := by exact_mod_cast h2
    push_cast at this; unfold FP.real; linarith
  have hT := logfT_acc plainP hz r1 r2
  have htb : |(logfTC plainP z).val| ≤ 0.0192 := by
    have h3 := hT.2
    have h4 := (logfT_range r1 r2).1
    unfold FP.real at h3 h4
    have : |((logfTC plainP z).val : ℝ)| ≤ ((0.0192 : ℚ) : ℝ) := by
      push_cast
      rw [abs_le] at h3 h4 ⊢
      norm_num at h3 h4 ⊢
      constructor <;> linarith
    exact_mod_cast this
  obtain ⟨x2f, x2v, x2b, x3f, hq⟩ := logf_prod plainP hz h1 h2
  obtain ⟨yf, -⟩ := logfY_range plainP hz r1 r2
  have nf2 : (-lit 2.12194440e-4 : F32).isFinite = true := by rw [neg_def]; simpa using cf2
  have nfh : (-lit 0.5 : F32).isFinite = true := by rw [neg_def]; simpa using cfh
  have nv : (-lit 2.12194440e-4 : F32).val * fe.val = -(K * (lit 2.12194440e-4 : F32).val) := by
    rw [neg_def, val_neg, hK]; ring
  have hhb2 : |(-lit 0.5 : F32).val * (z * z).val| ≤ b32.big := by
    rw [neg_def, val_neg, ch, abs_mul, show |(-(1 / 2) : ℚ)| = 1 / 2 by norm_num]; linarith
  have hKq : |(K : ℚ)| ≤ 1025 := by rw [← Int.cast_abs]; exact_mod_cast hK2
  have ha1 : |(K : ℚ) * (lit 2.12194440e-4 : F32).val| ≤ 0.2184 := by
    rw [abs_mul, abs_of_nonneg c20]
    nlinarith [abs_nonneg (K : ℚ)]
  have ha2 : |rnd b32 (K * (lit 2.12194440e-4 : F32).val)| ≤ 0.2185 := by
    have := rnd_err b32 (by norm_num) ha1 (by linarith)
    rw [u7] at this
    have hup := b32.u_pos
    rw [abs_le] at this ha1 ⊢
    constructor <;> linarith
  have hx1 : rnd b32 (K * (lit 0.693359375 : F32).val) = K * (lit 0.693359375 : F32).val := by
    rw [c1v]; exact log_c1_exact _ (hK2.trans (by norm_num)) (by decide) (by decide) hbig
  have hKb : |(K : ℚ) * (lit 0.693359375 : F32).val| ≤ b32.big := by
    rw [c1v, abs_mul, show |(355 / 512 : ℚ)| = 355 / 512 by norm_num]; linarith
  have M := log_seg (f := b32) (z := z) (r1 := logfTC plainP z + -lit 2.12194440e-4 * fe)
    (g := fun s => s + -lit 0.5 * (z * z)) (g4 := fun s => s + lit 0.693359375 * fe)
    (t1 := (logfTC plainP z).val) (a := rnd b32 (K * (lit 2.12194440e-4 : F32).val))
    (h := rnd b32 (1 / 2 * rnd b32 (z.val * z.val))) (c1 := lit 0.693359375) (K := K)
    (T := z.real ^ 3 * pev logfPl z.real / pev logfQl z.real) (eT := eT) (eh := eh)
    hz (hK2.trans (by norm_num)) h1 h2 (by rw [c1v]; norm_num) hbig u1 u2 hu2 heT htb ha2 heh hhb
    (fun hb => by
      have s1 := mulS nf2 hfe (by rw [nv, abs_neg]; linarith)
      rw [nv, rnd_negq] at s1
      have := addS hT.1 s1.1 (by rw [s1.2, ← sub_eq_add_neg]; exact hb)
      rwa [s1.2, ← sub_eq_add_neg] at this)
    (fun s hs hb => by
      have s1 := mulS nfh x2f hhb2
      have e : (-lit 0.5 : F32).val * (z * z).val = -(1 / 2 * rnd b32 (z.val * z.val)) := by
        rw [neg_def, val_neg, ch, x2v]; ring
      rw [e, rnd_negq] at s1
      have := addS hs s1.1 (by rw [s1.2, ← sub_eq_add_neg]; exact hb)
      rwa [s1.2, ← sub_eq_add_neg] at this)
    (fun s hs hb => by
      have s1 := mulS cf1 hfe (by rw [hK, mul_comm]; exact hKb)
      rw [hK, mul_comm, hx1] at s1
      have := addS hs s1.1 (by rw [s1.2]; exact hb)
      rwa [s1.2] at this)
  have e0 : logfCore z fe = (z + (logfTC plainP z + -lit 2.12194440e-4 * fe + -lit 0.5 * (z * z))) + lit 0.693359375 * fe := by
    have : get_log_polyC plainP z = get_log_poly z := by plain [get_log_polyC, get_log_poly]
    unfold logfTC
    rw [this]
    rfl
  rw [e0]
  obtain ⟨m1, m2, m3⟩ := M
  refine ⟨m1, ?_, ?_⟩
  · rw [m2, c1v]; rfl
  · rw [logfR_eq r1 r2]
    unfold logfW
    clear m2 e0 m1
    generalize rnd b32 (rnd b32 ((logfTC plainP z).val - rnd b32 (K * (lit 2.12194440e-4 : F32).val)) -
      rnd b32 (1 / 2 * rnd b32 (z.val * z.val))) = S at *
    generalize rnd b32 (K * (lit 2.12194440e-4 : F32).val) = A at *
    generalize z.real ^ 3 * pev logfPl z.real / pev logfQl z.real = T at *
    refine le_trans (le_of_eq (congrArg _ ?_)) m3
    rw [Rat.cast_add]
    unfold FP.real
    ring

/-- The value of the result and the errors on the three parts of the range. -/
theorem logfCore_parts {z fe : F32} {K : ℤ} (hz : z.isFinite = true) (hfe : fe.isFinite = true) (hK : fe.val = K)
    (hK2 : |K| ≤ 1025) (h1 : -0.293 ≤ z.val) (h2 : z.val ≤ 0.4143) :
    (logfCore z fe).isFinite = true ∧ (logfCore z fe).val = logfV z K ∧
    (z.real ≤ -0.19 → |(logfW z K : ℝ) - (logfR z.real - (rnd b32 (K * (lit 2.12194440e-4 : F32).val) : ℚ))| ≤
      0.5875 * ((b32.u : ℚ) : ℝ)) ∧
    (-0.2 ≤ z.real → z.real ≤ 0 → |(logfW z K : ℝ) - (logfR z.real - (rnd b32 (K * (lit 2.12194440e-4 : F32).val) : ℚ))| ≤
      0.4675 * ((b32.u : ℚ) : ℝ)) ∧
    |(logfW z K : ℝ) - (logfR z.real - (rnd b32 (K * (lit 2.12194440e-4 : F32).val) : ℚ))| ≤ 0.7 * ((b32.u : ℚ) : ℝ) := by
  obtain ⟨-, -, u3, u4, u5, u6, -⟩ := logf_hulps
  obtain ⟨-, -, -, -, -, -, -, hbig, -, -, -, hu2, -⟩ := logf_consts
  have hup := b32.u_pos
  have r1 : -0.293 ≤ z.real := by
    have : ((-0.293 : ℚ) : ℝ) ≤ (z.val : ℝ) := by exact_mod_cast h1
    push_cast at this; unfold FP.real; linarith
  have r2 : z.real ≤ 0.4143 := by
    have : (z.val : ℝ) ≤ ((0.4143 : ℚ) : ℝ) := by exact_mod_cast h2
    push_cast at this; unfold FP.real; linarith
  obtain ⟨hb, hh⟩ := log_half_sq (f := b32) (z := z.val) (M := 0.1717) (M2 := 0.086) false (by norm_num) (by norm_num)
    (by nlinarith) hbig (by norm_num) u3 u4 (by linarith) (by linarith)
  have hh' : |((rnd b32 (1 / 2 * rnd b32 (z.val * z.val)) : ℚ) : ℝ) - z.real ^ 2 / 2| ≤ 0.125 * ((b32.u : ℚ) : ℝ) := by
    refine hh.trans (le_of_eq ?_)
    push_cast; ring
  have hs : z.real ≤ 0 → |((rnd b32 (1 / 2 * rnd b32 (z.val * z.val)) : ℚ) : ℝ) - z.real ^ 2 / 2| ≤ 0.0625 * ((b32.u : ℚ) : ℝ) := by
    intro h0
    have h0' : z.val ≤ 0 := by unfold FP.real at h0; exact_mod_cast h0
    obtain ⟨-, hh⟩ := log_half_sq (f := b32) (z := z.val) (M := 0.0859) (M2 := 0.043) false (by norm_num) (by norm_num)
      (by nlinarith) hbig (by norm_num) u5 u6 (by linarith) (by linarith)
    refine hh.trans (le_of_eq ?_)
    push_cast; ring
  have C := logfCore_seg (eT := 0.2) (eh := 0.125) hz hfe hK hK2 h1 h2 (by
    have := logfT_part plainP (-0.293) 0.4143 0.2 [-0.293, 0.4143] (by decide +kernel) (by decide +kernel) hz (by push_cast; linarith) (by push_cast; linarith)
    push_cast at this; exact this) hh' hb
  refine ⟨C.1, C.2.1, fun hA => ?_, fun hB1 hB2 => ?_, C.2.2.trans (le_of_eq (by norm_num))⟩
  · have A := logfCore_seg (eT := 0.15) (eh := 0.0625) hz hfe hK hK2 h1 h2 (by
      have := logfT_part plainP (-0.293) (-0.19) 0.15 [-0.293, -0.19] (by decide +kernel) (by decide +kernel) hz (by push_cast; linarith) (by push_cast; linarith)
      push_cast at this; exact this) (hs (by linarith)) hb
    exact A.2.2.trans (le_of_eq (by norm_num))
  · have B := logfCore_seg (eT := 0.03) (eh := 0.0625) hz hfe hK hK2 h1 h2 (by
      have := logfT_part plainP (-0.2) 0 0.03 [-0.2, 0] (by decide +kernel) (by decide +kernel) hz (by push_cast; linarith) (by push_cast; linarith)
      push_cast at this; exact this) (hs hB2) hb
    exact B.2.2.trans (le_of_eq (by norm_num))

/-- Two reduced arguments of the same exponent. -/
theorem logfV_order {z z' : F32} {K : ℤ} (hz : z.isFinite = true) (hz' : z'.isFinite = true)
    (hK2 : |K| ≤ 1025) (h1 : -0.293 ≤ z.val) (hlt : z.val < z'.val) (h2 : z'.val ≤ 0.4143)
    (d1 : z'.val ≤ 0 → b32.u ≤ z'.val - z.val) (d2 : 0 ≤ z.val → 2 * b32.u ≤ z'.val - z.val)
    (d3 : z.val < 0 → z.val ≤ -b32.u) (d4 : 0 < z'.val → 2 * b32.u ≤ z'.val) : logfV z K ≤ logfV z' K := by
  obtain ⟨hf1, hf2⟩ := ofInt_spec32 (n := K) (hK2.trans (by norm_num))
  obtain ⟨-, -, a1, a2, a3⟩ := logfCore_parts hz hf1 hf2 hK2 h1 (hlt.le.trans h2)
  obtain ⟨-, -, b1, b2, b3⟩ := logfCore_parts hz' hf1 hf2 hK2 (h1.trans hlt.le) h2
  rw [logfV_eq, logfV_eq]
  apply rnd_mono
  refine add_le_add_left (rnd_mono b32 ?_) _
  have hu : (0 : ℝ) < (b32.u : ℚ) := by exact_mod_cast b32.u_pos
  have hu2 : ((b32.u : ℚ) : ℝ) ≤ 1 / 2 ^ 24 := by
    have : ((b32.u : ℚ) : ℝ) ≤ ((1 / 2 ^ 24 : ℚ) : ℝ) := by exact_mod_cast logf_consts.2.2.2.2.2.2.2.2.2.2.2.1
    push_cast at this; exact this
  have key := seg_order (R := logfR) (u := ((b32.u : ℚ) : ℝ)) (z := z.real) (z' := z'.real) (w := (logfW z K : ℝ)) (w' := (logfW z' K : ℝ))
    (nA := 0.5875) (nB := 0.4675) (nC := 0.7) hu hu2 (by norm_num) (by norm_num) (by norm_num)
    (by
      have : ((-0.293 : ℚ) : ℝ) ≤ (z.val : ℝ) := by exact_mod_cast h1
      push_cast at this; unfold FP.real; linarith)
    (by unfold FP.real; exact_mod_cast hlt)
    (by
      have : (z'.val : ℝ) ≤ ((0.4143 : ℚ) : ℝ) := by exact_mod_cast h2
      push_cast at this; unfold FP.real; linarith)
    (fun h => by unfold FP.real at h ⊢; exact_mod_cast d1 (by exact_mod_cast h))
    (fun h => by unfold FP.real at h ⊢; exact_mod_cast d2 (by exact_mod_cast h))
    (fun h => by unfold FP.real at h ⊢; exact_mod_cast d3 (by exact_mod_cast h))
    (fun h => by unfold FP.real at h ⊢; exact_mod_cast d4 (by exact_mod_cast h))
    logfR_A logfR_B logfR_C a1 a2 a3 b1 b2 b3
  exact_mod_cast key

end Vdt
