import Verif.Lemmas.FpeParts
import Verif.Props.Tan
import Verif.Props.Tanh

/-!
# Exceptions: tangent and hyperbolic tangent
-/

namespace Vdt.Fpe
open FP details
variable {f : Fmt}

theorem sm_of_real {m : Ev f} (he : m.exc = {}) (hf : m.res.isFinite = true) {r : ℝ} (h : |m.res.real| ≤ r) (hr : r ≤ 1) : Sm m 0 := by
  refine Sm.mk' he hf ?_
  rw [pow_zero]
  have := h.trans hr
  rw [real_abs] at this
  exact_mod_cast this

theorem exc_tanCore {z : Ev b64} (hz : Sm z 0) (h : (tanCore z).res.isFinite = true) : (tanCore z).exc = {} := by
  have k0 := hz.ok (by decide +kernel)
  have g : Good z := Good.of_exc k0.1
  have k1 : Sm (z * z) 0 := inferInstance
  unfold tanCore at h ⊢
  dsimp only at h ⊢
  rw [res_also] at h
  rw [exc_also, join_eq, join_eq]
  refine ⟨Good.over k0.1 fun t => ?_, k1.exc (by decide +kernel), cmp_fin (k1.fin (by decide +kernel)) (by decide +kernel)⟩
  rw [t] at h
  have d := Good.div (z * (z * z) * ((of PX1tan * (z * z) + of PX2tan) * (z * z) + of PX3tan))
    ((((z * z + of QX1tan) * (z * z) + of QX2tan) * (z * z) + of QX3tan) * (z * z) + of QX4tan) (Sm.exc inferInstance (by decide +kernel))
  exact Good.ok h

theorem exc_tanfCore {z : Ev b32} (hz : Sm z 0) : (tanfCore z).exc = {} := by
  have k1 : Sm (z * z) 0 := inferInstance
  unfold tanfCore
  dsimp only
  rw [exc_also, join_eq, join_eq]
  exact ⟨Good.over (hz.exc (by decide +kernel)) fun _ => Sm.exc inferInstance (by decide +kernel), k1.exc (by decide +kernel),
    cmp_fin (k1.fin (by decide +kernel)) (by decide +kernel)⟩

theorem exc_tanFinish [f.Ok] {xor : FP f → FP f} {x : FP f} {r : Ev f} {q : ℤ} (hr : r.exc = {}) (hx : ∀ y, (xor y).isFinite = y.isFinite)
    (h : (tanFinish xor x r q).res.isFinite = true) : (tanFinish xor x r q).exc = {} := by
  have g : Good r := Good.of_exc hr
  unfold tanFinish at h ⊢
  dsimp only at h ⊢
  obtain ⟨h1, h2⟩ := mul_args h
  rw [res_map, hx] at h1
  obtain ⟨h3, h4⟩ := add_args h1
  have h5 := Good.ok (mul_args h4).2
  have d := Good.div (of (-lit 1)) _ h5
  rw [exc_mul, exc_map, join_eq, join_eq]
  exact ⟨⟨Good.ok h1, Good.ok h2⟩, raised_fin h _⟩

theorem reduce_res (x y a b c : FP f) :
    (of x - of y * of a - of y * of b - of y * of c).res = reduceC (fun _ => false) x y a b c := by
  unfold reduceC
  simp only [nmad_false, res_sub, res_mul, res_of]

theorem exc_tan {x : F64} (hx : x.isFinite = true) (h0 : 2 ^ (-1024 : ℤ) < |x.val|) (h : |x.val| ≤ 2 ^ 27) :
    (fast_tan x).map Ev.exc = some {} := by
  obtain ⟨y, g1, g2, -⟩ := C13_tan_accurate x hx h0 h
  have r := res_tan x
  rw [g1] at r
  rcases e : fast_tan x with _ | r'
  · rw [e] at r; cases r
  rw [e] at r
  replace r := Option.some.inj r
  have hf : r'.res.isFinite = true := by rw [r]; exact g2
  obtain ⟨m, ⟨q1, a1, a2⟩, -, a3, a4, -⟩ := reduce64C (fun _ => false) hx h
  unfold fast_tan at e
  simp only [Option.bind_eq_bind, Option.pure_def] at e
  obtain ⟨q, f1, e⟩ := Option.bind_eq_some_iff.1 e
  obtain ⟨q', f2, e⟩ := Option.bind_eq_some_iff.1 e
  replace e := Option.some.inj e
  have eq : q' = q1 := by
    unfold quadStep at a1
    rw [Option.bind_eq_bind] at a1
    rw [res_mul, res_of, res_of] at f1
    rw [f1, Option.bind_some] at a1
    exact Option.some.inj (f2.symm.trans a1)
  rw [eq, a2] at e
  rw [← e, res_also] at hf
  show some r'.exc = some {}
  rw [← e, exc_also]
  clear e
  refine congrArg some (join_eq.2 ⟨?_, ?_⟩)
  · rw [← show DP1tan = DP1 from rfl, ← show DP2tan = DP2 from rfl, ← show DP3tan = DP3 from rfl, ← reduce_res] at a3 a4
    have s : Sm (of (FP.abs x) - of (ofInt (2 * m)) * of DP1tan - of (ofInt (2 * m)) * of DP2tan - of (ofInt (2 * m)) * of DP3tan) 0 :=
      sm_of_real (Good.ok a3) a3 a4 (by norm_num)
    have c := tan_core (fun _ => false) a3 a4
    rw [tanCore_plain, ← res_tanCore] at c
    exact exc_tanFinish (exc_tanCore s c.1) (fun y => by rw [dpXOR_signMask]; rfl) hf
  · have : Sm (of (FP.abs x)) 27 := Sm.of_val (by rw [abs_finite]; exact hx) (by rw [val_abs, abs_abs]; exact h)
    exact Sm.exc inferInstance (by decide +kernel)

theorem exc_tanf {x : F32} (hx : x.isFinite = true) (h0 : 2 ^ (-128 : ℤ) < |x.val|) (h : |x.val| ≤ 8192) :
    (fast_tanf x).map Ev.exc = some {} := by
  obtain ⟨y, g1, g2, -⟩ := C15_tanf_accurate x hx h0 h
  have r := res_tanf x
  rw [g1] at r
  rcases e : fast_tanf x with _ | r'
  · rw [e] at r; cases r
  rw [e] at r
  replace r := Option.some.inj r
  have hf : r'.res.isFinite = true := by rw [r]; exact g2
  obtain ⟨m, ⟨q1, a1, a2⟩, -, a3, a4, -⟩ := reduce32C (fun _ => false) hx h
  unfold fast_tanf at e
  simp only [Option.bind_eq_bind, Option.pure_def] at e
  obtain ⟨q, f1, e⟩ := Option.bind_eq_some_iff.1 e
  obtain ⟨q', f2, e⟩ := Option.bind_eq_some_iff.1 e
  replace e := Option.some.inj e
  have eq : q' = q1 := by
    unfold quadStep at a1
    rw [Option.bind_eq_bind] at a1
    rw [res_mul, res_of, res_of] at f1
    rw [f1, Option.bind_some] at a1
    exact Option.some.inj (f2.symm.trans a1)
  rw [eq, a2] at e
  rw [← e, res_also] at hf
  show some r'.exc = some {}
  rw [← e, exc_also]
  clear e
  refine congrArg some (join_eq.2 ⟨?_, ?_⟩)
  · rw [← show DP1Ftan = DP1F from rfl, ← show DP2Ftan = DP2F from rfl, ← show DP3Ftan = DP3F from rfl, ← reduce_res] at a3 a4
    have s : Sm (of (FP.abs x) - of (ofInt (2 * m)) * of DP1Ftan - of (ofInt (2 * m)) * of DP2Ftan - of (ofInt (2 * m)) * of DP3Ftan) 0 :=
      sm_of_real (Good.ok a3) a3 a4 (by norm_num)
    exact exc_tanFinish (exc_tanfCore s) (fun y => by rw [spXOR_signMask]; rfl) hf
  · have : Sm (of (FP.abs x)) 13 := Sm.of_val (by rw [abs_finite]; exact hx) (by rw [val_abs, abs_abs]; exact h.trans (by norm_num))
    exact Sm.exc inferInstance (by decide +kernel)

/-! ## Hyperbolic tangent -/

theorem exc_double [f.Ok] (ok : DblOk f) (two : kOf (ofInt 1 : FP f) < top f) {t : Ev f} (h : Sm t 0) : Sm (tanhDouble t) 0 := ⟨fun h0 => by
  obtain ⟨a1, a2, a3⟩ := h.ok h0
  rw [pow_zero] at a3
  have r := dbl_range ok false a2 a3
  have e : tanhDoubleC false t.res = (tanhDouble t).res := by
    rw [res_tanhDouble]; unfold tanhDoubleC details.tanhDouble; rw [mad_false]
  rw [e] at r
  refine ⟨?_, r.1, by rw [pow_zero]; exact r.2.1⟩
  have g : Good t := Good.of_exc a1
  have d := Good.div (of (ofInt 2) * t) (t * t + of (ofInt 1)) (Sm.exc inferInstance (by omega))
  exact d.ok r.1⟩

theorem pade_bound64 {x : F64} (hx : x.isFinite = true) (h : |x.val| ≤ 20) :
    (tanhPadeC (fun _ => false) x).isFinite = true ∧ |(tanhPadeC (fun _ => false) x).val| ≤ 1 := by
  rcases hs : x.sign
  · have r := tanh_mid64 (fun _ => false) hx hs h
    exact ⟨r.1, r.2.1⟩
  · have r := tanh_mid64 (fun _ => false) (x := -x) hx (by show (!x.sign) = false; rw [hs]; rfl) (by rw [neg_def, val_neg, abs_neg]; exact h)
    rw [(pade64 _ hx h).2, neg_def, val_neg, abs_neg] at r
    exact ⟨r.1, r.2.1⟩

theorem pade_bound32 {x : F32} (hx : x.isFinite = true) (h : |x.val| ≤ (lit 9.1 : F32).val) :
    (tanhPadefC (fun _ => false) x).isFinite = true ∧ |(tanhPadefC (fun _ => false) x).val| ≤ 1 := by
  rcases hs : x.sign
  · have r := tanh_mid32 (fun _ => false) hx hs h
    exact ⟨r.1, r.2.1⟩
  · have r := tanh_mid32 (fun _ => false) (x := -x) hx (by show (!x.sign) = false; rw [hs]; rfl) (by rw [neg_def, val_neg, abs_neg]; exact h)
    rw [(pade32 _ hx h).2, neg_def, val_neg, abs_neg] at r
    exact ⟨r.1, r.2.1⟩

theorem exc_tanh {x : F64} (hx : x.isNaN = false) : (fast_tanh x).exc = {} := by
  unfold fast_tanh
  split
  · rfl
  · next hg =>
    have hfin : x.isFinite = true := by
      rw [finite_iff]; refine ⟨hx, ?_⟩
      by_contra hi
      rw [Bool.not_eq_false] at hi
      apply hg
      unfold FP.gt FP.lt
      have : (FP.abs x).isInf = true := hi
      have c : (lit 20 : F64).isNaN = false ∧ (lit 20 : F64).isInf = false := by decide +kernel
      have n : (FP.abs x).isNaN = false := hx
      rw [c.1, c.2, n, this]; rfl
    have hb : |x.val| ≤ 20 := by
      rw [Bool.not_eq_true, gt_fin (by rw [abs_finite]; exact hfin) (by decide +kernel), decide_eq_false_iff_not, not_lt, val_abs] at hg
      exact hg.trans (by decide +kernel)
    have P := pade_bound64 hfin hb
    have s0 : Sm (of x) 5 := Sm.of_val hfin (hb.trans (by norm_num))
    dsimp only
    rw [exc_also, join_eq]
    refine ⟨?_, cmp_fin hfin (by decide +kernel)⟩
    have e : tanhPadeC (fun _ => false) x = (of x * of (lit 0.125) *
        (of (ofInt 135135) + of x * of (lit 0.125) * (of x * of (lit 0.125)) * (of (ofInt 17325) + of x * of (lit 0.125) * (of x * of (lit 0.125)) *
          (of (ofInt 378) + of x * of (lit 0.125) * (of x * of (lit 0.125)) * of (ofInt 1)))) /
        (of (ofInt 135135) + of x * of (lit 0.125) * (of x * of (lit 0.125)) * (of (ofInt 62370) + of x * of (lit 0.125) * (of x * of (lit 0.125)) *
          (of (ofInt 3150) + of x * of (lit 0.125) * (of x * of (lit 0.125)) * of (ofInt 28))))).res := by
      unfold tanhPadeC
      simp only [madR_false, res_div, res_add, res_mul, res_of]
    have d := Good.div (of x * of (lit 0.125) *
        (of (ofInt 135135) + of x * of (lit 0.125) * (of x * of (lit 0.125)) * (of (ofInt 17325) + of x * of (lit 0.125) * (of x * of (lit 0.125)) *
          (of (ofInt 378) + of x * of (lit 0.125) * (of x * of (lit 0.125)) * of (ofInt 1)))))
        (of (ofInt 135135) + of x * of (lit 0.125) * (of x * of (lit 0.125)) * (of (ofInt 62370) + of x * of (lit 0.125) * (of x * of (lit 0.125)) *
          (of (ofInt 3150) + of x * of (lit 0.125) * (of x * of (lit 0.125)) * of (ofInt 28)))) (Sm.exc inferInstance (by decide +kernel))
    rw [e] at P
    generalize of x * of (lit 0.125) * (of (ofInt 135135) + _) / _ = t at *
    have st : Sm t 0 := Sm.mk' (d.ok P.1) P.1 (by rw [pow_zero]; exact P.2)
    have D : ∀ {t : Ev b64}, Sm t 0 → Sm (tanhDouble t) 0 := fun h => exc_double dblOk64 (by decide +kernel) h
    exact Sm.exc (D (D (D st))) (by decide +kernel)

theorem exc_tanhf {x : F32} (hx : x.isNaN = false) : (fast_tanhf x).exc = {} := by
  unfold fast_tanhf
  split
  · rfl
  · next hg =>
    have hfin : x.isFinite = true := by
      rw [finite_iff]; refine ⟨hx, ?_⟩
      by_contra hi
      rw [Bool.not_eq_false] at hi
      apply hg
      unfold FP.gt FP.lt
      have : (FP.abs x).isInf = true := hi
      have c : (lit 9.1 : F32).isNaN = false ∧ (lit 9.1 : F32).isInf = false := by decide +kernel
      have n : (FP.abs x).isNaN = false := hx
      rw [c.1, c.2, n, this]; rfl
    have hb : |x.val| ≤ (lit 9.1 : F32).val := by
      rw [Bool.not_eq_true, gt_fin (by rw [abs_finite]; exact hfin) (by decide +kernel), decide_eq_false_iff_not, not_lt, val_abs] at hg
      exact hg
    have P := pade_bound32 hfin hb
    have s0 : Sm (of x) 4 := Sm.of_val hfin (hb.trans (by decide +kernel))
    dsimp only
    rw [exc_also, join_eq]
    refine ⟨?_, cmp_fin hfin (by decide +kernel)⟩
    have e : tanhPadefC (fun _ => false) x = (of x * of (lit 0.125) * (of x * of (lit 0.125) * (of x * of (lit 0.125)) + of (ofInt 15)) /
        (of (ofInt 6) * (of x * of (lit 0.125) * (of x * of (lit 0.125))) + of (ofInt 15))).res := by
      unfold tanhPadefC
      simp only [mad_false, res_div, res_add, res_mul, res_of]
    have d := Good.div (of x * of (lit 0.125) * (of x * of (lit 0.125) * (of x * of (lit 0.125)) + of (ofInt 15)))
        (of (ofInt 6) * (of x * of (lit 0.125) * (of x * of (lit 0.125))) + of (ofInt 15)) (Sm.exc inferInstance (by decide +kernel))
    rw [e] at P
    generalize of x * of (lit 0.125) * (of x * of (lit 0.125) * (of x * of (lit 0.125)) + of (ofInt 15)) / _ = t at *
    have st : Sm t 0 := Sm.mk' (d.ok P.1) P.1 (by rw [pow_zero]; exact P.2)
    have D : ∀ {t : Ev b32}, Sm t 0 → Sm (tanhDouble t) 0 := fun h => exc_double dblOk32 (by decide +kernel) h
    exact Sm.exc (D (D (D st))) (by decide +kernel)

end Vdt.Fpe
