import Verif.Lemmas.FlushExp
import Verif.Lemmas.LogFloat
import Verif.Lemmas.LogNormal

/-! # The logarithm when small numbers are flushed to zero -/

namespace Vdt.Flush
open FP details
variable {f : Fmt} {m : Mode}

theorem keep_ge {x : FP f} {j : ℤ} (h : p2 j ≤ |x.val|) (hj : f.emin < j) : Keep x := Or.inr ((p2_lt hj).trans_le h)

theorem keep_ge' {x : FP f} {j : ℤ} (h : x.val = 0 ∨ p2 j ≤ |x.val|) (hj : f.emin < j) : Keep x := by
  rcases h with h | h
  · exact Or.inl h
  · exact keep_ge h hj

/-- The values of three variables, the first two being the same. -/
def three {α : Type} (a b : α) : ℕ → α := fun i => if i = 2 then b else a

theorem env3 {a b : Az} {v w x y : FP f} (h : a.Sound v w) (k : b.Sound x y) :
    ∀ i r, (fun i => some (three a b i)) i = some r → r.Sound (three v x i) (three w y i) := by
  intro i r hr
  simp only [Option.some.injEq] at hr
  subst hr
  unfold three
  split
  · exact k
  · exact h

/-- A number in an interval. -/
theorem sound_in [f.Ok] {x : FP f} {lo hi : ℚ} {j : ℤ} (hx : x.isFinite = true) (h1 : lo ≤ x.val) (h2 : x.val ≤ hi) (hj : p2 j ≤ |x.val|) :
    (⟨lo, hi, j - f.mb, none⟩ : Az).Sound x x := ⟨hx, hx, h1, h2, h1, h2, mult_of_ge hj, rfl⟩

theorem sound_zero {x : FP f} (hx : x.isFinite = true) (h : x.val = 0) : (grid_ 0 0).Sound x x :=
  sound_int (n := 0) hx (h.trans Int.cast_zero.symm) (by rw [h, abs_zero])

/-- The split argument: include/log.h:96-100 and 178-180 -/
theorem blend_same [f.Ok] (hm : m.Ok) (he : f.emin < -(f.mb + 1)) {x fe c one : FP f} {k K : ℤ} (hx : 1 / 2 ≤ x.val) (hf : x.isFinite = true)
    (hx2 : x.val < 1) (hb : 2 ≤ f.big) (hk : fe.val = k) (hc : p2 f.emin ≤ |c.val|) (ho : one.val = 1)
    (hK : (if FP.gt x c then (x, fe + one) else (x + x, fe)).2.val = K)
    (hz : ((if FP.gt x c then (x, fe + one) else (x + x, fe)).1 - one).val = 0 ∨
      p2 (-(f.mb + 1)) ≤ |((if FP.gt x c then (x, fe + one) else (x + x, fe)).1 - one).val|) :
    (if m.gt x c then of fe + of one else of fe : Z m f) = of (if FP.gt x c then (x, fe + one) else (x + x, fe)).2 ∧
    ((if m.gt x c then of x else of x + of x : Z m f) - of one) = of ((if FP.gt x c then (x, fe + one) else (x + x, fe)).1 - one) := by
  have e0 : f.emin < 0 := by omega
  have kx : Keep x := keep_ge (j := -1) (by rw [abs_of_pos (by linarith), show p2 (-1) = 1 / 2 by decide +kernel]; exact hx) (by omega)
  have g : m.gt x c = FP.gt x c := by unfold Mode.gt; rw [kx.arg hm, arg_normal hm hc]
  have ko : Keep one := keep_int (n := 1) (by rw [ho]; simp) e0
  have kf : Keep fe := keep_int hk e0
  rw [g]
  generalize FP.gt x c = t at *
  cases t
  · simp only [Bool.false_eq_true, if_false] at hK hz ⊢
    refine ⟨trivial, ?_⟩
    have s := addS hf hf (by rw [abs_of_pos (by linarith)]; linarith)
    have k2 : Keep (x + x) := by
      refine keep_ge (j := -1) ?_ (by omega)
      rw [s.2]
      have : rnd f 1 ≤ rnd f (x.val + x.val) := rnd_mono f (by linarith)
      have e1 : rnd f 1 = 1 := by
        refine rnd_exact f ⟨1, 0, by rw [show p2 0 = 1 by decide +kernel]; norm_num, ?_, by omega⟩ (by rw [abs_one]; linarith)
        rw [abs_one]
        exact one_le_pow₀ (by norm_num)
      rw [abs_of_pos (by linarith), show p2 (-1) = 1 / 2 by decide +kernel]
      linarith
    rw [add_of hm kx kx k2, sub_of hm k2 ko (keep_ge' hz he)]
  · simp only [if_true] at hK hz ⊢
    exact ⟨add_of hm kf ko (keep_int hK e0), sub_of hm kx ko (keep_ge' hz he)⟩

/-! ## Double precision -/

/-- include/log.h:102-117 -/
def logZE : E b64 := ((E.var 1).add ((logTE.sub ((E.var 2).mul (.const (lit 2.121944400546905827679e-4)))).sub
  ((E.const (lit 0.5)).mul ((E.var 1).mul (.var 1))))).add ((E.var 2).mul (.const (lit 0.693359375)))

def logZ (x fe : Z m b64) : Z m b64 :=
  let px := get_log_px x
  let x2 := x * x
  let px := px * x
  let px := px * x2
  let qx := get_log_qx x
  let res := px / qx
  let res := res - fe * of (lit 2.121944400546905827679e-4)
  let res := res - of (lit 0.5) * x2
  let res := x + res
  res + fe * of (lit 0.693359375)

theorem logZ_Z (x fe : F64) : (logZ (of x) (of fe) : Z m b64) = evalZ m (three x fe) logZE := (rfl)
theorem logZ_F (x fe : F64) : logCore x fe = logZE.evalF (three x fe) := (rfl)

theorem log_an : [(⟨p2 (-53), 0.4143, -53 - b64.mb, none⟩ : Az), ⟨-0.293, -p2 (-53), -53 - b64.mb, none⟩, grid_ 0 0].all (fun a =>
    (anZ b64 (fun i => some (three a (grid_ 0 1100) i)) logZE).any (fun r => r.t.isNone)) = true := by decide +kernel

theorem log_core (hm : m.Ok) {z fe : F64} {K : ℤ} (hz : z.isFinite = true) (hfe : fe.isFinite = true) (hK : fe.val = K)
    (hK2 : |K| ≤ 1100) (h1 : -0.293 ≤ z.val) (h2 : z.val ≤ 0.4143) (h0 : z.val = 0 ∨ p2 (-(b64.mb + 1)) ≤ |z.val|) :
    (logZ (of z) (of fe) : Z m b64).v = logCore z fe := by
  rw [logZ_Z, logZ_F]
  have sf : (grid_ 0 1100).Sound fe fe := sound_int hfe hK (by rw [hK]; exact_mod_cast hK2)
  have an := log_an
  rw [List.all_cons, List.all_cons, List.all_cons, Bool.and_eq_true, Bool.and_eq_true, Bool.and_eq_true] at an
  obtain ⟨a1, a2, a3, -⟩ := an
  rcases h0 with h0 | h0
  · exact anZ_same hm (env3 (sound_zero hz h0) sf) a3
  · have h0' : p2 (-53) ≤ |z.val| := h0
    rcases le_total 0 z.val with c | c
    · exact anZ_same hm (env3 (sound_in hz (by rwa [abs_of_nonneg c] at h0') h2 h0') sf) a1
    · exact anZ_same hm (env3 (sound_in hz h1 (by rw [abs_of_nonpos c] at h0'; linarith) h0') sf) a2

theorem big64 : 2 * b64.big < 2 ^ (1025 : ℤ) := by decide +kernel

theorem log_same (hm : m.Ok) {x : F64} (hn : x.Normal) : fast_log m x = Vdt.fast_log x := by
  have ax : m.arg x = x := arg_normal hm (by rw [p2_eq]; exact hn.2)
  have cs : LOG_UPPER_LIMIT.isFinite = true ∧ p2 b64.emin ≤ |LOG_UPPER_LIMIT.val| ∧ LOG_LOWER_LIMIT.isFinite = true ∧ LOG_LOWER_LIMIT.val = 0 ∧
    SQRTH.isFinite = true ∧ 0.7070 ≤ SQRTH.val ∧ SQRTH.val ≤ 0.70715 ∧ (lit 1 : F64).isFinite = true ∧
    (lit 1 : F64).val = 1 ∧ 2000 ≤ b64.big := by decide +kernel
  obtain ⟨c1, c2, c3, c4, c5, c6, c7, c8, c9, c10⟩ := cs
  have g1 : m.gt x LOG_UPPER_LIMIT = FP.gt x LOG_UPPER_LIMIT := by unfold Mode.gt; rw [ax, arg_normal hm c2]
  have g2 : m.lt x LOG_LOWER_LIMIT = FP.lt x LOG_LOWER_LIMIT := by unfold Mode.lt; rw [ax, Keep.arg hm (Or.inl c4)]
  unfold fast_log Vdt.fast_log
  dsimp only
  rw [g1, g2]
  by_cases hs : x.sign = true
  · have l : FP.lt x LOG_LOWER_LIMIT = true := by
      rw [lt_fin hn.1 c3, c4, decide_eq_true_eq]
      rw [val_neg_iff]
      refine ⟨hs, ?_⟩
      by_contra h0
      have : x.val = 0 := val_eq_zero.2 (by omega)
      have h2 := hn.2
      rw [this, abs_zero, ← p2_eq] at h2
      exact absurd h2 (not_le.2 (p2_pos _))
    rw [l]
    rfl
  · have hs : x.sign = false := by simpa using hs
    obtain ⟨m1, m2, m3, m4, m5, k, m6, m7⟩ := C33_getMantExponent_partial x hn hs
    have hmp : 0 ≤ (getMantExponent x).1.val := by
      by_contra h; push Not at h
      have := (val_neg_iff.1 h).1
      rw [this, hs] at m5; cases m5
    rw [abs_of_nonneg hmp] at m3 m4
    have hk : |k| ≤ 1090 := by
      have hxp : 0 < x.val := by rw [m7]; positivity
      have hlo : (2 : ℚ) ^ (-1022 : ℤ) ≤ x.val := by
        have := hn.2
        rw [abs_of_pos hxp] at this
        exact this
      have hhi : x.val < 2 ^ (1025 : ℤ) := by
        have := finite_le_big hn.1
        rw [abs_of_pos hxp] at this
        exact lt_of_le_of_lt this big64
      have := exponent_bound m3 m4 m7 hlo hhi
      rw [abs_le]; omega
    have B := blend_spec (c := SQRTH) (one := lit 1) m1 m2 m3 m4 m6 hk (by decide) (by decide) c10 c5 c6 c7 c8 c9
    obtain ⟨B1, B2, K, B3, B4, B5, B6, -, B8⟩ := B
    have e1 : (lit 1.0 : F64) = lit 1 := by decide +kernel
    obtain ⟨b1, b2⟩ := blend_same hm (by decide) m3 m1 m4 (by linarith) m6 (by
      rw [abs_of_pos (by linarith)]; exact le_trans (by decide +kernel) c6) c9 B3 B8
    have L := log_core hm B1 B2 B3 B4 B5 B6 B8
    rw [← b1, ← b2] at L
    have q : logCore (logBlend (getMantExponent x).1 (getMantExponent x).2).1 (logBlend (getMantExponent x).1 (getMantExponent x).2).2 =
        logCore ((if FP.gt (getMantExponent x).1 SQRTH then ((getMantExponent x).1, (getMantExponent x).2 + lit 1)
          else ((getMantExponent x).1 + (getMantExponent x).1, (getMantExponent x).2)).1 - lit 1)
          (if FP.gt (getMantExponent x).1 SQRTH then ((getMantExponent x).1, (getMantExponent x).2 + lit 1)
          else ((getMantExponent x).1 + (getMantExponent x).1, (getMantExponent x).2)).2 := by rw [logBlend_eq]
    rw [e1, q, ← L]
    cases FP.lt x LOG_LOWER_LIMIT <;> cases FP.gt x LOG_UPPER_LIMIT <;> rfl

/-! ## Single precision -/

/-- include/log.h:182-192 -/
def logfZE : E b32 :=
  let x2 := (E.var 0).mul (.var 0)
  (((E.var 0).add (((logfYE.mul (x2.mul (.var 0))).add ((E.const (-lit 2.12194440e-4)).mul (.var 2))).add ((E.const (-lit 0.5)).mul x2))).add
    ((E.const (lit 0.693359375)).mul (.var 2)))

def logfZ (x fe : Z m b32) : Z m b32 :=
  let x2 := x * x
  let res := get_log_poly x
  let res := res * (x2 * x)
  let res := res + of (-lit 2.12194440e-4) * fe
  let res := res + of (-lit 0.5) * x2
  let res := x + res
  res + of (lit 0.693359375) * fe

theorem logfZ_Z (x fe : F32) : (logfZ (of x) (of fe) : Z m b32) = evalZ m (three x fe) logfZE := (rfl)
theorem logfZ_F (x fe : F32) : logfCore x fe = logfZE.evalF (three x fe) := (rfl)

theorem logf_an : [(⟨p2 (-24), 0.4143, -24 - b32.mb, none⟩ : Az), ⟨-0.293, -p2 (-24), -24 - b32.mb, none⟩, grid_ 0 0].all (fun a =>
    (anZ b32 (fun i => some (three a (grid_ 0 1100) i)) logfZE).any (fun r => r.t.isNone)) = true := by decide +kernel

theorem logf_core (hm : m.Ok) {z fe : F32} {K : ℤ} (hz : z.isFinite = true) (hfe : fe.isFinite = true) (hK : fe.val = K)
    (hK2 : |K| ≤ 1100) (h1 : -0.293 ≤ z.val) (h2 : z.val ≤ 0.4143) (h0 : z.val = 0 ∨ p2 (-(b32.mb + 1)) ≤ |z.val|) :
    (logfZ (of z) (of fe) : Z m b32).v = logfCore z fe := by
  rw [logfZ_Z, logfZ_F]
  have sf : (grid_ 0 1100).Sound fe fe := sound_int hfe hK (by rw [hK]; exact_mod_cast hK2)
  have an := logf_an
  rw [List.all_cons, List.all_cons, List.all_cons, Bool.and_eq_true, Bool.and_eq_true, Bool.and_eq_true] at an
  obtain ⟨a1, a2, a3, -⟩ := an
  rcases h0 with h0 | h0
  · exact anZ_same hm (env3 (sound_zero hz h0) sf) a3
  · have h0' : p2 (-24) ≤ |z.val| := h0
    rcases le_total 0 z.val with c | c
    · exact anZ_same hm (env3 (sound_in hz (by rwa [abs_of_nonneg c] at h0') h2 h0') sf) a1
    · exact anZ_same hm (env3 (sound_in hz h1 (by rw [abs_of_nonpos c] at h0'; linarith) h0') sf) a2

theorem big32 : 2 * b32.big < 2 ^ (129 : ℤ) := by decide +kernel

theorem logf_same (hm : m.Ok) {x : F32} (hn : x.Normal) : fast_logf m x = Vdt.fast_logf x := by
  have ax : m.arg x = x := arg_normal hm (by rw [p2_eq]; exact hn.2)
  have cs : LOGF_UPPER_LIMIT.isFinite = true ∧ p2 b32.emin ≤ |LOGF_UPPER_LIMIT.val| ∧ LOGF_LOWER_LIMIT.isFinite = true ∧ LOGF_LOWER_LIMIT.val = 0 ∧
    SQRTHF.isFinite = true ∧ 0.7070 ≤ SQRTHF.val ∧ SQRTHF.val ≤ 0.70715 ∧ (lit 1 : F32).isFinite = true ∧
    (lit 1 : F32).val = 1 ∧ 2000 ≤ b32.big := by decide +kernel
  obtain ⟨c1, c2, c3, c4, c5, c6, c7, c8, c9, c10⟩ := cs
  have g1 : m.gt x LOGF_UPPER_LIMIT = FP.gt x LOGF_UPPER_LIMIT := by unfold Mode.gt; rw [ax, arg_normal hm c2]
  have g2 : m.lt x LOGF_LOWER_LIMIT = FP.lt x LOGF_LOWER_LIMIT := by unfold Mode.lt; rw [ax, Keep.arg hm (Or.inl c4)]
  unfold fast_logf Vdt.fast_logf
  dsimp only
  rw [g1, g2]
  by_cases hs : x.sign = true
  · have l : FP.lt x LOGF_LOWER_LIMIT = true := by
      rw [lt_fin hn.1 c3, c4, decide_eq_true_eq]
      rw [val_neg_iff]
      refine ⟨hs, ?_⟩
      by_contra h0
      have : x.val = 0 := val_eq_zero.2 (by omega)
      have h2 := hn.2
      rw [this, abs_zero, ← p2_eq] at h2
      exact absurd h2 (not_le.2 (p2_pos _))
    rw [l]
    rfl
  · have hs : x.sign = false := by simpa using hs
    obtain ⟨m1, m2, m3, m4, m5, k, m6, m7⟩ := C33_getMantExponentf_partial x hn hs
    have hmp : 0 ≤ (getMantExponentf x).1.val := by
      by_contra h; push Not at h
      have := (val_neg_iff.1 h).1
      rw [this, hs] at m5; cases m5
    rw [abs_of_nonneg hmp] at m3 m4
    have hk : |k| ≤ 1090 := by
      have hxp : 0 < x.val := by rw [m7]; positivity
      have hlo : (2 : ℚ) ^ (-126 : ℤ) ≤ x.val := by
        have := hn.2
        rw [abs_of_pos hxp] at this
        exact this
      have hhi : x.val < 2 ^ (129 : ℤ) := by
        have := finite_le_big hn.1
        rw [abs_of_pos hxp] at this
        exact lt_of_le_of_lt this big32
      have := exponent_bound m3 m4 m7 hlo hhi
      rw [abs_le]; omega
    have B := blend_spec (c := SQRTHF) (one := lit 1) m1 m2 m3 m4 m6 hk (by decide) (by decide) c10 c5 c6 c7 c8 c9
    obtain ⟨B1, B2, K, B3, B4, B5, B6, -, B8⟩ := B
    have e1 : (lit 1.0 : F32) = lit 1 := by decide +kernel
    obtain ⟨b1, b2⟩ := blend_same hm (by decide) m3 m1 m4 (by linarith) m6 (by
      rw [abs_of_pos (by linarith)]; exact le_trans (by decide +kernel) c6) c9 B3 B8
    have L := logf_core hm B1 B2 B3 B4 B5 B6 B8
    rw [← b1, ← b2] at L
    have q : logfCore (logfBlend (getMantExponentf x).1 (getMantExponentf x).2).1 (logfBlend (getMantExponentf x).1 (getMantExponentf x).2).2 =
        logfCore ((if FP.gt (getMantExponentf x).1 SQRTHF then ((getMantExponentf x).1, (getMantExponentf x).2 + lit 1)
          else ((getMantExponentf x).1 + (getMantExponentf x).1, (getMantExponentf x).2)).1 - lit 1)
          (if FP.gt (getMantExponentf x).1 SQRTHF then ((getMantExponentf x).1, (getMantExponentf x).2 + lit 1)
          else ((getMantExponentf x).1 + (getMantExponentf x).1, (getMantExponentf x).2)).2 := by rw [logfBlend_eq]
    rw [e1, q, ← L]
    cases FP.lt x LOGF_LOWER_LIMIT <;> cases FP.gt x LOGF_UPPER_LIMIT <;> rfl

end Vdt.Flush
