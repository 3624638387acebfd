import Verif.Lemmas.FpeAsin
import Verif.Props.Atan2
import Verif.Props.Rounding

/-!
# Exceptions: arc tangent
-/

namespace Vdt.Fpe
open FP details
variable {f : Fmt}

theorem Sm.over' {a b : Ev f} {t : Bool} {k : ℕ} (ha : Sm a k) (hb : t = true → Sm b k) : Sm (a.over t b) k := ⟨fun h => by
  obtain ⟨a1, a2, a3⟩ := ha.ok h
  cases t
  · exact ⟨a1, a2, a3⟩
  · obtain ⟨b1, b2, b3⟩ := (hb rfl).ok h
    refine ⟨?_, b2, b3⟩
    show a.exc.join b.exc = _
    rw [join_eq]; exact ⟨a1, b1⟩⟩

theorem over_sel {a b : Ev f} {t : Bool} {k : ℕ} (ha : t = false → Sm a k) (he : t = true → a.exc = {}) (hb : t = true → Sm b k) :
    Sm (a.over t b) k := by
  cases t
  · exact ha rfl
  · exact ⟨fun h => by
      obtain ⟨b1, b2, b3⟩ := (hb rfl).ok h
      refine ⟨?_, b2, b3⟩
      show a.exc.join b.exc = _
      rw [join_eq]; exact ⟨he rfl, b1⟩⟩

/-- One more and one less than a number that is not negative. -/
theorem pm_one [f.Ok] {o l : FP f} (ho : o.isFinite = true) (hs : 0 ≤ o.val) (hl : l.isFinite = true) (h1 : l.val = 1) (hm : o.val + 1 < f.ovf) :
    (o + l).isFinite = true ∧ (o - l).isFinite = true ∧ 1 ≤ (o + l).val ∧ |(o - l).val| ≤ (o + l).val := by
  have a := add_round ho hl (by rw [h1, abs_of_nonneg (by linarith)]; exact hm)
  have b := sub_round ho hl (by rw [h1]; refine lt_of_le_of_lt ?_ hm; rw [abs_le]; constructor <;> linarith)
  have ea : (o + l).val = rnd f (o.val + 1) := by rw [add_def, add_fin ho hl, val_ofRat, h1]
  have eb : (o - l).val = rnd f (o.val - 1) := by rw [sub_def, sub_fin ho hl, val_ofRat, h1]
  have m1 := rnd_mono f (show (1 : ℚ) ≤ o.val + 1 by linarith)
  have m2 := rnd_mono f (show o.val - 1 ≤ o.val + 1 by linarith)
  have m3 := rnd_mono f (show -(o.val + 1) ≤ o.val - 1 by linarith)
  rw [rnd_neg] at m3
  have r1 : rnd f 1 = 1 := by rw [← h1]; exact rnd_fin hl
  rw [r1] at m1
  rw [ea, eb]
  exact ⟨a.1, b.1, m1, abs_le.2 ⟨by linarith, m2⟩⟩

theorem val_le_max [f.Ok] {o : FP f} (ho : o.isFinite = true) : o.val ≤ magVal f (f.infMag - 1) := by
  refine (le_abs_self _).trans ?_
  rw [abs_val, magVal_le]
  have := of_decide_eq_true ho
  omega

theorem lt_ovf64 {o : F64} (ho : o.isFinite = true) : o.val + 1 < b64.ovf := by
  have h := val_le_max ho
  have c : magVal b64 (b64.infMag - 1) + 1 < b64.ovf := by decide +kernel
  exact lt_of_le_of_lt (add_le_add h le_rfl) c
theorem lt_ovf32 {o : F32} (ho : o.isFinite = true) : o.val + 1 < b32.ovf := by
  have h := val_le_max ho
  have c : magVal b32 (b32.infMag - 1) + 1 < b32.ovf := by decide +kernel
  exact lt_of_le_of_lt (add_le_add h le_rfl) c

/-- include/atan.h:97, 144 -/
theorem red_sm [f.Ok] {o : Ev f} {l : FP f} (he : o.exc = {}) (ho : o.res.isFinite = true) (hs : o.res.sign = false) (hl : l.isFinite = true) (h1 : l.val = 1)
    (hm : o.res.val + 1 < f.ovf) : Sm ((o - of l) / (o + of l)) 0 := by
  obtain ⟨q1, q2, q3, q4⟩ := pm_one ho (val_nonneg_of_sign hs) hl h1 hm
  have n : (0 : ℚ) ≤ (o.res + l).val := le_trans (by norm_num) q3
  refine Sm.div ?_ ?_ q2 q1 (ne_of_gt (lt_of_lt_of_le (by norm_num) q3)) ?_
  · rw [exc_sub, join_eq, join_eq]; exact ⟨⟨he, rfl⟩, raised_fin q2 _⟩
  · rw [exc_add, join_eq, join_eq]; exact ⟨⟨he, rfl⟩, raised_fin q1 _⟩
  · show |(o.res - l).val / (o.res + l).val| ≤ _
    rw [abs_div, abs_of_nonneg n, pow_zero]
    exact div_le_one_of_le₀ q4 n

instance (x : Ev b64) [Good x] : Good (get_atan_px x) := by unfold get_atan_px; infer_instance
instance (x : Ev b32) [Good x] : Good (atanfPoly x) := by unfold atanfPoly; infer_instance

theorem lit1_d : (lit 1.0 : F64).isFinite = true ∧ (lit 1.0 : F64).val = 1 := by decide +kernel

/-- include/atan.h:93-122 -/
theorem exc_atanPos {o : Ev b64} (he : o.exc = {}) (ho : o.res.isFinite = true) (hs : o.res.sign = false) : (atanPos o).exc = {} := by
  have hr : (atanPos o).res.isFinite = true := by rw [res_atanPos]; exact (atanPos_acc ho hs).1
  have v0 := val_nonneg_of_sign hs
  have fT : (T3PO8 : F64).isFinite = true := by decide +kernel
  unfold atanPos at hr ⊢
  dsimp only at hr ⊢
  rw [res_also] at hr
  rw [exc_also, join_eq]
  refine ⟨?_, cmp_fin ho fT⟩
  obtain ⟨x, hx⟩ : ∃ x, x = (((o - of (lit 1.0)) / (o + of (lit 1.0))).over (FP.gt o.res T3PO8) (of (-lit 1.0) / o)).over (FP.le o.res (lit 0.66)) o := ⟨_, rfl⟩
  have sx : Sm x 0 := by
    rw [hx]
    refine Sm.over' (Sm.over' (red_sm he ho hs lit1_d.1 lit1_d.2 (lt_ovf64 ho)) fun t => ?_) fun t => ?_
    · rw [gt_fin ho fT, decide_eq_true_eq] at t
      have t1 : 1 < o.res.val := lt_of_le_of_lt (by decide +kernel) t
      refine Sm.div rfl he (by decide +kernel) ho (by linarith) ?_
      rw [res_of, abs_div, abs_of_nonneg v0, pow_zero, show |(-lit 1.0 : F64).val| = 1 by decide +kernel]
      exact (div_le_one (by linarith)).2 t1.le
    · rw [le_fin ho (by decide +kernel), decide_eq_true_eq] at t
      exact Sm.mk' he ho (by rw [abs_of_nonneg v0, pow_zero]; exact t.trans (by decide +kernel))
  rw [← hx] at hr ⊢
  have gx : Good x := Good.of_exc (sx.exc (by decide +kernel))
  have gd := Good.div (get_atan_px (x * x)) (get_atan_qx (x * x)) (by unfold get_atan_qx; exact Sm.exc inferInstance (by decide +kernel))
  exact Good.ok hr

theorem exc_atan {x : F64} (hx : x.isFinite = true) : (fast_atan x).exc = {} := by
  unfold fast_atan
  dsimp only
  rw [exc_map]
  exact exc_atanPos rfl (by rw [res_of, abs_finite]; exact hx) rfl

theorem lit1_f : (lit 1 : F32).isFinite = true ∧ (lit 1 : F32).val = 1 := by decide +kernel

theorem sm_poly {z : Ev b32} {y : F32} (sz : Sm z 0) (sy : Sm (of y) 1) : (of y + atanfPoly z).exc = {} := by
  unfold atanfPoly
  dsimp only
  exact Sm.exc inferInstance (by decide +kernel)

theorem sm_ite {t : Prop} [Decidable t] {a b : FP f} {k : ℕ} (ha : Sm (of a) k) (hb : Sm (of b) k) : Sm (of (if t then a else b)) k := by
  split <;> assumption

theorem exc_atanf {x : F32} (hx : x.isFinite = true) : (fast_atanf x).exc = {} := by
  have ho : (FP.abs x).isFinite = true := by rw [abs_finite]; exact hx
  have hs : (FP.abs x).sign = false := rfl
  have v0 := val_nonneg_of_sign hs
  unfold fast_atanf
  dsimp only
  rw [exc_map, exc_also, join_eq]
  refine ⟨?_, cmp_fin ho (by decide +kernel)⟩
  generalize FP.abs x = o at *
  have sx : Sm (((of o).over (FP.gt o (lit 0.4142135623730950)) ((of o - of (lit 1)) / (of o + of (lit 1)))).over (FP.gt o (lit 2.414213562373095))
      ((of (lit 1) / of o).map fun r => -r)) 0 := by
    have l2 : (lit 2.414213562373095 : F32).isFinite = true := by decide +kernel
    have l1 : (lit 0.4142135623730950 : F32).isFinite = true := by decide +kernel
    have rs : Sm ((of o - of (lit 1)) / (of o + of (lit 1))) 0 := red_sm rfl ho hs lit1_f.1 lit1_f.2 (lt_ovf32 ho)
    refine over_sel (fun t => over_sel (fun t => ?_) (fun _ => rfl) fun _ => rs) (fun t => Good.over rfl fun _ => rs.exc (by decide +kernel)) fun t => ?_
    · rw [gt_fin ho l1, decide_eq_false_iff_not, not_lt] at t
      exact Sm.of_val ho (by rw [abs_of_nonneg v0, pow_zero]; exact t.trans (by decide +kernel))
    · rw [gt_fin ho l2, decide_eq_true_eq] at t
      have t1 : 1 < o.val := lt_of_le_of_lt (by decide +kernel) t
      have k : Sm (of (lit 1) / of o) 0 := by
        refine Sm.div rfl rfl lit1_f.1 ho (by rw [res_of]; linarith) ?_
        rw [res_of, res_of, lit1_f.2, abs_div, abs_of_nonneg v0, abs_one, pow_zero]
        exact (div_le_one (by linarith)).2 t1.le
      exact ⟨fun h => ⟨(k.ok h).1, (k.ok h).2.1, by
        have := (k.ok h).2.2
        rw [res_map, neg_def, val_neg, abs_neg]; exact this⟩⟩
  obtain ⟨z, hz⟩ : ∃ z, z = ((of o).over (FP.gt o (lit 0.4142135623730950)) ((of o - of (lit 1)) / (of o + of (lit 1)))).over (FP.gt o (lit 2.414213562373095))
      ((of (lit 1) / of o).map fun r => -r) := ⟨_, rfl⟩
  rw [← hz] at sx
  simp only [res_of]
  rw [← hz]
  refine sm_poly sx ?_
  exact sm_ite (Sm.of_val (by decide +kernel) (by decide +kernel))
    (sm_ite (Sm.of_val (by decide +kernel) (by decide +kernel)) (Sm.of_val (by decide +kernel) (by decide +kernel)))

/-- include/atan2.h:47-49 -/
theorem exc_quot {m M : F64} (hm : m.isFinite = true) (hM : M.isFinite = true) (sm : m.sign = false) (sM : M.sign = false) (h : m.val ≤ M.val) :
    Sm (of m / (of M + of (ofBool (FP.eq M (lit 0))))) 0 ∧ (m / (M + ofBool (FP.eq M (lit 0)))).sign = false := by
  have m0 := val_nonneg_of_sign sm
  have M0 := val_nonneg_of_sign sM
  have z : (lit 0 : F64).isFinite = true ∧ (lit 0 : F64).val = 0 := by decide +kernel
  obtain ⟨D, hD⟩ : ∃ D, D = M + ofBool (FP.eq M (lit 0)) := ⟨_, rfl⟩
  have key : D.isFinite = true ∧ D.sign = false ∧ 0 < D.val ∧ m.val ≤ D.val := by
    rcases eq_or_lt_of_le M0 with e | e
    · have t : FP.eq M (lit 0) = true := by rw [eq_fin hM z.1, z.2, ← e]; rfl
      rw [t] at hD
      have : M = FP.zero false := by ext; exacts [sM, val_eq_zero.1 e.symm]
      rw [hD, this]
      have c : (FP.zero false + ofBool true : F64).isFinite = true ∧ (FP.zero false + ofBool true : F64).sign = false ∧
        (FP.zero false + ofBool true : F64).val = 1 := by decide +kernel
      refine ⟨c.1, c.2.1, by rw [c.2.2]; norm_num, by rw [c.2.2]; linarith⟩
    · have t : FP.eq M (lit 0) = false := by rw [eq_fin hM z.1, z.2]; exact decide_eq_false e.ne'
      rw [t] at hD
      have o0 : (ofBool false : F64) = zero false := by decide +kernel
      have : D = M := by
        rw [hD, add_def, add_fin hM (by rw [o0]; exact zero_finite false), o0, val_zero, add_zero]
        exact ofRat_val_fin hM e.ne'
      rw [this]
      exact ⟨hM, sM, e, h⟩
  obtain ⟨d1, d2, d3, d4⟩ := key
  have ed : (of M + of (ofBool (FP.eq M (lit 0)))).res = D := by rw [hD, res_add, res_of, res_of]
  refine ⟨Sm.div rfl ?_ hm (by rw [ed]; exact d1) (by rw [ed]; exact d3.ne') ?_, ?_⟩
  · rw [exc_add, join_eq, join_eq]
    exact ⟨⟨rfl, rfl⟩, raised_fin (by rw [res_of, res_of, ← hD]; exact d1) _⟩
  · rw [ed, res_of, abs_of_nonneg (div_nonneg m0 d3.le), pow_zero]
    exact (div_le_one d3).2 d4
  · rw [← hD, div_def, div_fin_sign hm d1 d3.ne', sm, d2]; rfl

/-- include/atan2.h:81-90 -/
theorem exc_atan2_tail {x : F64} {r : Ev b64} (hr : Sm r 1) (b c : Bool) (s : Bool) :
    ((((r * (of (lit 1) - of (ofBool b))).over c (of (lit 0.0))).over s (of PIO2 - (r * (of (lit 1) - of (ofBool b))).over c (of (lit 0.0)))).over (FP.lt x (ofInt 0))
      (of PI - ((r * (of (lit 1) - of (ofBool b))).over c (of (lit 0.0))).over s (of PIO2 - (r * (of (lit 1) - of (ofBool b))).over c (of (lit 0.0))))).exc = {} := by
  cases b <;> exact Sm.exc inferInstance (by decide +kernel)

theorem exc_atan2_part {m M : F64} (hm : m.isFinite = true) (hM : M.isFinite = true) (sm : m.sign = false) (sM : M.sign = false) (h : m.val ≤ M.val) :
    Sm (atanPos (of m / (of M + of (ofBool (FP.eq M (lit 0)))))) 1 := by
  obtain ⟨q1, q2⟩ := exc_quot hm hM sm sM h
  have fq := q1.fin (by decide +kernel)
  have e := exc_atanPos (q1.exc (by decide +kernel)) fq q2
  have a := atanPos_acc fq q2
  refine Sm.mk' e (by rw [res_atanPos]; exact a.1) ?_
  rw [res_atanPos, abs_of_nonneg (val_nonneg_of_sign a.2.1)]
  exact a.2.2.1.trans (by decide +kernel)

theorem exc_atan2 {y x : F64} (hy : y.isFinite = true) (hx : x.isFinite = true) : (fast_atan2 y x).exc = {} := by
  have fx : (FP.abs x).isFinite = true := by rw [abs_finite]; exact hx
  have fy : (FP.abs y).isFinite = true := by rw [abs_finite]; exact hy
  have sx : (FP.abs x).sign = false := rfl
  have sy : (FP.abs y).sign = false := rfl
  unfold fast_atan2
  dsimp only
  rw [exc_also, exc_map, join_eq]
  refine ⟨?_, cmp_fin fy fx⟩
  generalize FP.abs x = X at *
  generalize FP.abs y = Y at *
  rcases t : FP.gt Y X
  · rw [gt_fin fy fx, decide_eq_false_iff_not, not_lt] at t
    simp only [if_neg Bool.false_ne_true]
    exact exc_atan2_tail (exc_atan2_part fy fx sy sx t) _ _ _
  · rw [gt_fin fy fx, decide_eq_true_eq] at t
    simp only [if_pos]
    exact exc_atan2_tail (exc_atan2_part fx fy sx sy t.le) _ _ _

/-- include/atan2.h:109-116 -/
theorem exc_quotf {m M : F32} (hm : m.isFinite = true) (hM : M.isFinite = true) (sm : m.sign = false) (sM : M.sign = false) (h : m.val ≤ M.val) (h0 : M.val ≠ 0) :
    Sm (of m / of M) 0 ∧ (m / M).sign = false := by
  have m0 := val_nonneg_of_sign sm
  have M0 := lt_of_le_of_ne (val_nonneg_of_sign sM) h0.symm
  refine ⟨Sm.div rfl rfl hm hM h0 ?_, ?_⟩
  · rw [res_of, res_of, abs_of_nonneg (div_nonneg m0 M0.le), pow_zero]
    exact (div_le_one M0).2 h
  · rw [div_def, div_fin_sign hm hM h0, sm, sM]; rfl

theorem exc_atan2f_part {m M : F32} {b : Bool} (hm : m.isFinite = true) (hM : M.isFinite = true) (sm : m.sign = false) (sM : M.sign = false) (h : m.val ≤ M.val) (h0 : M.val ≠ 0) :
    Sm (atanfPoly ((of m / of M).over b ((of m / of M - of (lit 1)) / (of m / of M + of (lit 1))))) 6 := by
  obtain ⟨q1, q2⟩ := exc_quotf hm hM sm sM h h0
  have fq := q1.fin (by decide +kernel)
  have z := Sm.over' (t := b) q1 fun _ => red_sm (q1.exc (by decide +kernel)) fq q2 lit1_f.1 lit1_f.2 (lt_ovf32 fq)
  unfold atanfPoly
  dsimp only
  exact Sm.le inferInstance (by decide +kernel)

/-- include/atan2.h:118-130 -/
theorem exc_atan2f_tail {r : Ev b32} (hr : Sm r 6) (b c g s n : Bool) :
    ((((((r * (of (lit 1) - of (ofBool b))).over c (of (lit 0))).over g ((r * (of (lit 1) - of (ofBool b))).over c (of (lit 0)) + of PIO4F))).over s
      (of PIO2F - (((r * (of (lit 1) - of (ofBool b))).over c (of (lit 0))).over g ((r * (of (lit 1) - of (ofBool b))).over c (of (lit 0)) + of PIO4F)))).over n
      (of PIF - (((((r * (of (lit 1) - of (ofBool b))).over c (of (lit 0))).over g ((r * (of (lit 1) - of (ofBool b))).over c (of (lit 0)) + of PIO4F))).over s
      (of PIO2F - (((r * (of (lit 1) - of (ofBool b))).over c (of (lit 0))).over g ((r * (of (lit 1) - of (ofBool b))).over c (of (lit 0)) + of PIO4F)))))).exc = {} := by
  have sb : Sm (f := b32) (of (lit 1) - of (ofBool b)) 3 := by cases b <;> exact Sm.le inferInstance (by decide +kernel)
  obtain ⟨w, hw⟩ : ∃ w, w = (r * (of (lit 1) - of (ofBool b))).over c (of (lit 0)) := ⟨_, rfl⟩
  have sw : Sm w 20 := by rw [hw]; exact Sm.le inferInstance (by decide +kernel)
  rw [← hw]
  exact Sm.exc inferInstance (by decide +kernel)

theorem exc_atan2f {y x : F32} (hy : y.isFinite = true) (hx : x.isFinite = true) (h : x.val ≠ 0 ∨ y.val ≠ 0) : (fast_atan2f y x).exc = {} := by
  have fx : (FP.abs x).isFinite = true := by rw [abs_finite]; exact hx
  have fy : (FP.abs y).isFinite = true := by rw [abs_finite]; exact hy
  have sx : (FP.abs x).sign = false := rfl
  have sy : (FP.abs y).sign = false := rfl
  have hn : (FP.abs x).val ≠ 0 ∨ (FP.abs y).val ≠ 0 := by rw [val_abs, val_abs, ne_eq, ne_eq, abs_eq_zero, abs_eq_zero]; exact h
  have x0 := val_nonneg_of_sign sx
  have y0 := val_nonneg_of_sign sy
  unfold fast_atan2f
  dsimp only
  rw [exc_also, exc_map, join_eq, join_eq]
  generalize FP.abs x = X at *
  generalize FP.abs y = Y at *
  rcases t : FP.gt Y X
  · rw [gt_fin fy fx, decide_eq_false_iff_not, not_lt] at t
    have n0 : X.val ≠ 0 := by
      rintro e
      rcases hn with hn | hn
      · exact hn e
      · exact hn (by linarith)
    simp only [if_neg Bool.false_ne_true]
    exact ⟨exc_atan2f_tail (exc_atan2f_part fy fx sy sx t n0) _ _ _ _ _, cmp_fin fy fx,
      cmp_fin ((exc_quotf fy fx sy sx t n0).1.fin (by decide +kernel)) (by decide +kernel)⟩
  · rw [gt_fin fy fx, decide_eq_true_eq] at t
    simp only [if_pos]
    have n0 : Y.val ≠ 0 := by linarith
    exact ⟨exc_atan2f_tail (exc_atan2f_part fx fy sx sy t.le n0) _ _ _ _ _, cmp_fin fy fx,
      cmp_fin ((exc_quotf fx fy sx sy t.le n0).1.fin (by decide +kernel)) (by decide +kernel)⟩

end Vdt.Fpe
