import Verif.Lemmas.FpeAtan

/-!
# Exceptions: a NaN does not appear unnoticed
-/

namespace Vdt.Fpe
open FP details
variable {f : Fmt}

/-- If the value is NaN, the invalid exception has been raised. -/
class Told (m : Ev f) : Prop where
  ok : m.res.isNaN = true → m.exc.invalid = true

theorem join_invalid (a b : Exc) : (a.join b).invalid = (a.invalid || b.invalid) := rfl

theorem told_bin {r : FP f} {a b : Ev f} [ha : Told a] [hb : Told b] (h : r.isNaN = true) :
    ((a.exc.join b.exc).join (raised r [a.res, b.res])).invalid = true := by
  have h1 := ha.ok
  have h2 := hb.ok
  simp only [join_invalid, raised, h, List.all_cons, List.all_nil, Bool.and_true, Bool.true_and]
  generalize a.res.isNaN = p at *
  generalize b.res.isNaN = q at *
  generalize a.exc.invalid = p' at *
  generalize b.exc.invalid = q' at *
  revert p q p' q'; decide

instance (a b : Ev f) [Told a] [Told b] : Told (a + b) := ⟨fun h => told_bin h⟩
instance (a b : Ev f) [Told a] [Told b] : Told (a - b) := ⟨fun h => told_bin h⟩
instance (a b : Ev f) [Told a] [Told b] : Told (a * b) := ⟨fun h => told_bin h⟩
instance (a b : Ev f) [ha : Told a] [hb : Told b] : Told (a / b) := ⟨fun h => by
  have h1 := ha.ok
  have h2 := hb.ok
  change (a.res / b.res).isNaN = true at h
  rw [exc_div]
  simp only [join_invalid, raisedDiv, h, Bool.true_and]
  generalize a.res.isNaN = p at *
  generalize b.res.isNaN = q at *
  generalize a.exc.invalid = p' at *
  generalize b.exc.invalid = q' at *
  clear h
  revert p q p' q'; decide⟩
instance (a : Ev f) [ha : Told a] : Told a.sqrt := ⟨fun h => by
  have h1 := ha.ok
  change (FP.sqrt a.res).isNaN = true at h
  rw [exc_sqrt]
  simp only [join_invalid, raised, h, List.all_cons, List.all_nil, Bool.and_true, Bool.true_and]
  generalize a.res.isNaN = p at *
  generalize a.exc.invalid = p' at *
  clear h
  revert p p'; decide⟩
instance (a b : Ev f) (t : Bool) [ha : Told a] [hb : Told b] : Told (a.over t b) := by
  cases t
  · exact ha
  · exact ⟨fun h => by
      show (a.exc.join b.exc).invalid = true
      rw [join_invalid, hb.ok h, Bool.or_true]⟩
instance (a b : Ev f) (t : Bool) [ha : Told a] [hb : Told b] : Told (if t then a else b) := by cases t <;> simpa
theorem Told.also {a : Ev f} (e : Exc) (h : Told a) : Told (a.also e) := ⟨fun k => by
  rw [exc_also, join_invalid, h.ok k, Bool.true_or]⟩
theorem Told.of {x : FP f} (h : x.isNaN = false) : Told (of x) := ⟨fun k => by rw [res_of, h] at k; cases k⟩
instance (q : ℚ) : Told (of (lit q : FP f)) := Told.of (ofRat_not_nan false q)
instance (q : ℚ) : Told (of (-lit q : FP f)) := Told.of (by rw [neg_def, neg_isNaN]; exact ofRat_not_nan false q)
instance : Told (of PIO2) := Told.of (by decide +kernel)
instance : Told (of PIO4) := Told.of (by decide +kernel)
instance : Told (of PI) := Told.of (by decide +kernel)
instance : Told (of MOREBITS) := Told.of (by decide +kernel)
instance : Told (of PIO2F) := Told.of (by decide +kernel)
instance : Told (of PIO4F) := Told.of (by decide +kernel)
instance : Told (of PIF) := Told.of (by decide +kernel)
instance (b : Bool) : Told (of (ofBool b : FP f)) := Told.of (by unfold ofBool; exact ofRat_not_nan _ _)
instance (n : ℤ) : Told (of (ofInt n : FP f)) := Told.of (by unfold ofInt; exact ofRat_not_nan _ _)

instance (x : Ev b64) [Told x] : Told (getRX x) := by unfold getRX RX1asin RX2asin RX3asin RX4asin RX5asin; infer_instance
instance (x : Ev b64) [Told x] : Told (getSX x) := by unfold getSX SX1asin SX2asin SX3asin SX4asin; infer_instance
instance (x : Ev b64) [Told x] : Told (getPX x) := by unfold getPX PX1asin PX2asin PX3asin PX4asin PX5asin PX6asin; infer_instance
instance (x : Ev b64) [Told x] : Told (getQX x) := by unfold getQX QX1asin QX2asin QX3asin QX4asin QX5asin; infer_instance
instance (x : Ev b64) [Told x] : Told (get_atan_px x) := by unfold get_atan_px; infer_instance
instance (x : Ev b64) [Told x] : Told (get_atan_qx x) := by unfold get_atan_qx; infer_instance
instance (x : Ev b32) [Told x] : Told (atanfPoly x) := by unfold atanfPoly; infer_instance
instance (x : Ev b64) [Told x] : Told (asinLarge x) := by unfold asinLarge; infer_instance
instance (x : Ev b64) [Told x] : Told (asinSmall x) := by unfold asinSmall; infer_instance

theorem Told.map {a : Ev f} {g : FP f → FP f} (h : Told a) (hg : ∀ r, (g r).isNaN = r.isNaN) : Told (a.map g) := ⟨fun k => by
  rw [res_map, hg] at k; exact h.ok k⟩

theorem told_asin {x : F64} (hx : x.isNaN = false) : Told (fast_asin x) := by
  have ha : Told (of (FP.abs x)) := Told.of hx
  unfold fast_asin
  dsimp only
  exact Told.map (Told.also _ inferInstance) fun r => by rw [dpOR_signMask]; rfl

theorem told_acos {x : F64} (hx : x.isNaN = false) : Told (fast_acos x) := by
  have := told_asin hx
  unfold fast_acos; infer_instance

theorem told_asinf {x : F32} (hx : x.isNaN = false) : Told (fast_asinf x) := by
  have ha : Told (of (FP.abs x)) := Told.of hx
  unfold fast_asinf
  dsimp only
  refine Told.map (Told.also _ ?_) fun r => by rw [spOR_signMask]; rfl
  generalize FP.abs x = a at *
  generalize FP.gt a (lit 0.5) = b at *
  obtain ⟨z, hz⟩ : ∃ z, z = if b = true then of (lit 0.5) * (of (lit 1) - of a) else of a * of a := ⟨_, rfl⟩
  have gz : Told z := by rw [hz]; infer_instance
  rw [← hz]
  obtain ⟨r, hr⟩ : ∃ r, r = if b = true then z.sqrt else of a := ⟨_, rfl⟩
  have gr : Told r := by rw [hr]; infer_instance
  rw [← hr]
  obtain ⟨w, hw⟩ : ∃ w, w = ((((of (lit 4.2163199048E-2) * z + of (lit 2.4181311049E-2)) * z + of (lit 4.5470025998E-2)) * z +
    of (lit 7.4953002686E-2)) * z + of (lit 1.6666752422E-1)) * z * r + r := ⟨_, rfl⟩
  have gw : Told w := by rw [hw]; infer_instance
  rw [← hw]
  split
  · exact Told.also _ ha
  · infer_instance

theorem told_acosf {x : F32} (hx : x.isNaN = false) : Told (fast_acosf x) := by
  have := told_asinf hx
  unfold fast_acosf; infer_instance

theorem told_atanPos {o : Ev b64} (ho : Told o) : Told (atanPos o) := by
  unfold atanPos
  dsimp only
  refine Told.also _ ?_
  have c : ∀ a b : Bool, Told (of (if a then lit 0 else if b then PIO2 else PIO4)) ∧ Told (of (if a then lit 0 else if b then MOREBITS else MOREBITSO2)) := by
    intro a b
    cases a <;> cases b <;> exact ⟨Told.of (by decide +kernel), Told.of (by decide +kernel)⟩
  have c1 := (c (FP.le o.res (lit 0.66)) (FP.gt o.res T3PO8)).1
  have c2 := (c (FP.le o.res (lit 0.66)) (FP.gt o.res T3PO8)).2
  obtain ⟨x, hx⟩ : ∃ x, x = (((o - of (lit 1.0)) / (o + of (lit 1.0))).over (FP.gt o.res T3PO8) (of (-lit 1.0) / o)).over (FP.le o.res (lit 0.66)) o := ⟨_, rfl⟩
  have tx : Told x := by rw [hx]; infer_instance
  rw [← hx]
  infer_instance

theorem told_atan {x : F64} (hx : x.isNaN = false) : Told (fast_atan x) := by
  unfold fast_atan
  dsimp only
  exact Told.map (told_atanPos (Told.of hx)) fun r => by rw [dpOR_signMask]; rfl

theorem told_atan2 {y x : F64} (hy : y.isNaN = false) (hx : x.isNaN = false) : Told (fast_atan2 y x) := by
  have ty : Told (of (FP.abs y)) := Told.of hy
  have tx : Told (of (FP.abs x)) := Told.of hx
  unfold fast_atan2
  dsimp only
  refine Told.also _ (Told.map ?_ fun r => by split <;> rfl)
  generalize FP.abs x = X at *
  generalize FP.abs y = Y at *
  generalize FP.gt Y X = b
  have t1 : Told (of (if b = true then (X, Y) else (Y, X)).1) := by cases b <;> assumption
  have t2 : Told (of (if b = true then (X, Y) else (Y, X)).2) := by cases b <;> assumption
  generalize (if b = true then (X, Y) else (Y, X)).1 = m at *
  generalize (if b = true then (X, Y) else (Y, X)).2 = M at *
  have t3 := told_atanPos (o := of m / (of M + of (ofBool (FP.eq M (lit 0))))) inferInstance
  generalize atanPos _ = r at *
  obtain ⟨w, hw⟩ : ∃ w, w = (r * (of (lit 1) - of (ofBool (FP.eq M (lit 0))))).over (FP.eq y (ofInt 0)) (of (lit 0.0)) := ⟨_, rfl⟩
  have tw : Told w := by rw [hw]; infer_instance
  rw [← hw]
  infer_instance

theorem told_ite {t : Prop} [Decidable t] {a b : FP f} (ha : Told (of a)) (hb : Told (of b)) : Told (of (if t then a else b)) := by
  split <;> assumption

theorem told_atanf {x : F32} (hx : x.isNaN = false) : Told (fast_atanf x) := by
  have ha : Told (of (FP.abs x)) := Told.of hx
  unfold fast_atanf
  dsimp only
  refine Told.map (Told.also _ ?_) fun r => by rw [spOR_signMask]; rfl
  generalize FP.abs x = o at *
  have tn : Told ((of (lit 1) / of o).map fun r => -r) := Told.map inferInstance fun r => rfl
  obtain ⟨z, hz⟩ : ∃ z, z = ((of o).over (FP.gt (of o).res (lit 0.4142135623730950)) ((of o - of (lit 1)) / (of o + of (lit 1)))).over
    (FP.gt (of o).res (lit 2.414213562373095)) ((of (lit 1) / of o).map fun r => -r) := ⟨_, rfl⟩
  have tz : Told z := by rw [hz]; infer_instance
  rw [← hz]
  have := told_ite (t := FP.gt (of o).res (lit 2.414213562373095) = true) (a := PIO2F) (b := if FP.gt (of o).res (lit 0.4142135623730950) = true then PIO4F else lit 0)
    inferInstance (told_ite inferInstance inferInstance)
  infer_instance

theorem told_atan2f {y x : F32} (hy : y.isNaN = false) (hx : x.isNaN = false) : Told (fast_atan2f y x) := by
  have ty : Told (of (FP.abs y)) := Told.of hy
  have tx : Told (of (FP.abs x)) := Told.of hx
  unfold fast_atan2f
  dsimp only
  refine Told.also _ (Told.map ?_ fun r => by split <;> rfl)
  generalize FP.abs x = X at *
  generalize FP.abs y = Y at *
  generalize FP.gt Y X = b
  have t1 : Told (of (if b = true then (X, Y) else (Y, X)).1) := by cases b <;> assumption
  have t2 : Told (of (if b = true then (X, Y) else (Y, X)).2) := by cases b <;> assumption
  generalize (if b = true then (X, Y) else (Y, X)).1 = m at *
  generalize (if b = true then (X, Y) else (Y, X)).2 = M at *
  have t3 : Told (of m / of M) := inferInstance
  generalize of m / of M = t at *
  generalize FP.gt t.res (lit 0.4142135623730950) = g
  have t4 : Told (t.over g ((t - of (lit 1)) / (t + of (lit 1)))) := inferInstance
  generalize t.over g ((t - of (lit 1)) / (t + of (lit 1))) = z at *
  obtain ⟨w, hw⟩ : ∃ w, w = (atanfPoly z * (of (lit 1) - of (ofBool (FP.eq M (lit 0))))).over (FP.eq y (lit 0)) (of (lit 0)) := ⟨_, rfl⟩
  have tw : Told w := by rw [hw]; infer_instance
  rw [← hw]
  infer_instance

theorem told_tanCore {z : Ev b64} (hz : Told z) : Told (tanCore z) := by
  unfold tanCore PX1tan PX2tan PX3tan QX1tan QX2tan QX3tan QX4tan
  exact Told.also _ inferInstance
theorem told_tanfCore {z : Ev b32} (hz : Told z) : Told (tanfCore z) := by
  unfold tanfCore
  exact Told.also _ inferInstance
theorem told_tanFinish {g : FP f → FP f} {x : FP f} {r : Ev f} {q : ℤ} (hr : Told r) (hg : ∀ r, (g r).isNaN = r.isNaN) : Told (tanFinish g x r q) := by
  unfold tanFinish
  dsimp only
  have := Told.map (a := of (ofInt (andI q 2 / 2)) * (of (-lit 1) / (r + of (ofBool (FP.eq x (lit 0))))) + of (ofInt ((BitVec.ofInt 32 (andI q 2 / 2)) ^^^ 1#32).toInt) * (r + of (ofBool (FP.eq x (lit 0)))))
    inferInstance hg
  infer_instance

theorem told_tan {x : F64} {r : Ev b64} (hx : x.isNaN = false) (h : fast_tan x = some r) : Told r := by
  have ha : Told (of (FP.abs x)) := Told.of hx
  unfold fast_tan at h
  obtain ⟨q, -, h⟩ := Option.bind_eq_some_iff.1 h
  obtain ⟨q1, -, h⟩ := Option.bind_eq_some_iff.1 h
  rw [← Option.some.inj h]
  refine Told.also _ (told_tanFinish (told_tanCore ?_) fun r => by rw [dpXOR_signMask]; rfl)
  have c1 : Told (of DP1tan) := Told.of (by decide +kernel)
  have c2 : Told (of DP2tan) := Told.of (by decide +kernel)
  have c3 : Told (of DP3tan) := Told.of (by decide +kernel)
  infer_instance

theorem told_tanf {x : F32} {r : Ev b32} (hx : x.isNaN = false) (h : fast_tanf x = some r) : Told r := by
  have ha : Told (of (FP.abs x)) := Told.of hx
  unfold fast_tanf at h
  obtain ⟨q, -, h⟩ := Option.bind_eq_some_iff.1 h
  obtain ⟨q1, -, h⟩ := Option.bind_eq_some_iff.1 h
  rw [← Option.some.inj h]
  refine Told.also _ (told_tanFinish (told_tanfCore ?_) fun r => by rw [spXOR_signMask]; rfl)
  have c1 : Told (of DP1Ftan) := Told.of (by decide +kernel)
  have c2 : Told (of DP2Ftan) := Told.of (by decide +kernel)
  have c3 : Told (of DP3Ftan) := Told.of (by decide +kernel)
  infer_instance

/-- include/inv.h:38-43 -/
theorem inv_exc {x : F64} {n : ℕ} (h : (Vdt.fast_isqrt_general (FP.abs x) (n + 1)).isFinite = true) :
    (fast_inv_general x (n + 1)).res.isNaN = false ∧ ((fast_inv_general x (n + 1)).res.isInf = true → (fast_inv_general x (n + 1)).exc.overflow = true) := by
  have e : fast_inv_general x (n + 1) = fast_isqrt_general (FP.abs x) (n + 1) * (fast_isqrt_general (FP.abs x) (n + 1)).map fun r => dpORuint64 r (getSignMask x) := rfl
  rw [e]
  have k : (fast_isqrt_general (FP.abs x) (n + 1)).res = Vdt.fast_isqrt_general (FP.abs x) (n + 1) := res_isqrt _ _
  rw [← k] at h
  generalize fast_isqrt_general (FP.abs x) (n + 1) = r at h ⊢
  have h2 : (dpORuint64 r.res (getSignMask x)).isFinite = true := by rw [dpOR_signMask]; exact h
  refine ⟨?_, fun hi => ?_⟩
  · rw [res_mul, res_map, mul_def, mul_fin h h2]; exact ofRat_not_nan _ _
  · rw [exc_mul]
    show (_ || ((r.res * dpORuint64 r.res (getSignMask x)).isInf && _)) = true
    rw [res_mul, res_map] at hi
    rw [hi, res_map, List.all_cons, List.all_cons, h, h2, List.all_nil]
    simp

theorem invf_exc {x : F32} {n : ℕ} (h : (Vdt.fast_isqrtf_general (FP.abs x) (n + 1)).isFinite = true) :
    (fast_invf_general x (n + 1)).res.isNaN = false ∧ ((fast_invf_general x (n + 1)).res.isInf = true → (fast_invf_general x (n + 1)).exc.overflow = true) := by
  have e : fast_invf_general x (n + 1) = fast_isqrtf_general (FP.abs x) (n + 1) * (fast_isqrtf_general (FP.abs x) (n + 1)).map fun r => spORuint32 r (getSignMaskf x) := rfl
  rw [e]
  have k : (fast_isqrtf_general (FP.abs x) (n + 1)).res = Vdt.fast_isqrtf_general (FP.abs x) (n + 1) := res_isqrtf _ _
  rw [← k] at h
  generalize fast_isqrtf_general (FP.abs x) (n + 1) = r at h ⊢
  have h2 : (spORuint32 r.res (getSignMaskf x)).isFinite = true := by rw [spOR_signMask]; exact h
  refine ⟨?_, fun hi => ?_⟩
  · rw [res_mul, res_map, mul_def, mul_fin h h2]; exact ofRat_not_nan _ _
  · rw [exc_mul]
    show (_ || ((r.res * spORuint32 r.res (getSignMaskf x)).isInf && _)) = true
    rw [res_mul, res_map] at hi
    rw [hi, res_map, List.all_cons, List.all_cons, h, h2, List.all_nil]
    simp

end Vdt.Fpe
