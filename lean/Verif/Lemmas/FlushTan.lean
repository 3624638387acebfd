import Verif.Lemmas.FlushTanh
import Verif.Lemmas.TanFinish

/-! # The tangent when small numbers are flushed to zero -/

namespace Vdt.Flush
open FP details
variable {f : Fmt} {m : Mode}

/-- The expression is not affected on an interval and its mirror image, and its absolute value is within bounds. -/
def okW (e : E f) (lo hi s t : ℚ) : Bool := (sides f s t).all fun a => (anZ f (fun _ => some a) e).any fun r =>
  r.t.isNone && (decide (lo ≤ r.lo) && decide (r.hi ≤ hi) || decide (-hi ≤ r.lo) && decide (r.hi ≤ -lo))

theorem okW_same [f.Ok] (hm : m.Ok) {e : E f} {lo hi s t : ℚ} (h0 : 0 ≤ lo) (h : okW e lo hi s t = true) {x : FP f} (hx : x.isFinite = true)
    (h1 : s ≤ |x.val|) (h2 : |x.val| ≤ t) : (evalZ m (fun _ => x) e).v = e.evalF (fun _ => x) ∧ (e.evalF (fun _ => x)).isFinite = true ∧
      lo ≤ |(e.evalF (fun _ => x)).val| ∧ |(e.evalF (fun _ => x)).val| ≤ hi := by
  obtain ⟨a, ha, sa⟩ := sides_sound hx h1 h2
  have p := List.all_eq_true.1 h a ha
  cases hr : anZ f (fun _ => some a) e with
  | none => rw [hr] at p; cases p
  | some r =>
    rw [hr] at p
    simp only [Option.any_some, Bool.and_eq_true, Bool.or_eq_true, decide_eq_true_eq, Option.isNone_iff_eq_none] at p
    have sd := anZ_sound hm (env1 sa) e r hr
    have rel := sd.rel
    rw [p.1] at rel
    refine ⟨rel, sd.fv, ?_⟩
    have l1 := sd.lov
    have l2 := sd.hiv
    generalize (e.evalF (fun _ => x)).val = v at *
    rcases p.2 with c | c
    · rw [abs_of_nonneg (by linarith)]
      exact ⟨c.1.trans l1, l2.trans c.2⟩
    · rw [abs_of_nonpos (by linarith)]
      exact ⟨by linarith, by linarith⟩

/-! ## The selection of the quadrant -/

/-- include/tan.h:118-122; `c` is 1 for the argument zero and 0 otherwise -/
def selE (c : FP f) (q : Bool) : E f :=
  ((E.const (ofInt (if q then 1 else 0))).mul ((E.const (-lit 1)).div ((E.var 0).add (.const c)))).add
    ((E.const (ofInt (if q then 0 else 1))).mul ((E.var 0).add (.const c)))
/-- include/tan.h:124 -/
def finE (c : FP f) : E f := (E.var 0).mul ((E.const (lit 1)).sub (.const c))

theorem fin_Z (xor : FP f → FP f) (x r : FP f) {n : ℕ} (hn : (n : ℚ) ≤ 1073741823) : (tanFinish xor x (of r : Z m f) (2 * n)) =
    evalZ m (fun _ => xor (evalZ m (fun _ => r) (selE (ofBool (m.eq x (lit 0))) (decide (n % 2 = 1)))).v) (finE (ofBool (m.eq x (lit 0)))) := by
  have hn' : n ≤ 1073741823 := by exact_mod_cast hn
  have a := andI_two (j := 2 * n) (by omega) (by omega)
  unfold tanFinish
  simp only [a]
  have e1 : 2 * ((2 * (n : ℤ)) / 2 % 2) / 2 = ((n % 2 : ℕ) : ℤ) := by omega
  rw [e1]
  rcases Nat.mod_two_eq_zero_or_one n with h | h
  · rw [h]; rfl
  · rw [h]; rfl

theorem fin_F (xor : FP f → FP f) (x r : FP f) {n : ℕ} (hn : (n : ℚ) ≤ 1073741823) : (details.tanFinish xor x r (2 * n)) =
    (finE (ofBool (FP.eq x (lit 0)))).evalF (fun _ => xor ((selE (ofBool (FP.eq x (lit 0))) (decide (n % 2 = 1))).evalF (fun _ => r))) := by
  have hn' : n ≤ 1073741823 := by exact_mod_cast hn
  have a := andI_two (j := 2 * n) (by omega) (by omega)
  unfold details.tanFinish
  simp only [a]
  have e1 : 2 * ((2 * (n : ℤ)) / 2 % 2) / 2 = ((n % 2 : ℕ) : ℤ) := by omega
  rw [e1]
  rcases Nat.mod_two_eq_zero_or_one n with h | h
  · rw [h]; rfl
  · rw [h]; rfl

/-- What is checked of a format. -/
structure FinOk (f : Fmt) : Prop where
  t0 : 0 ≤ tiny f
  z_f : (lit 0 : FP f).isFinite = true
  z_v : (lit 0 : FP f).val = 0
  sel : ∀ q, okW (selE (ofInt 0 : FP f) q) (tiny f) (3 / 2 * p2 (-f.emin)) (tiny f) (11 / 10) = true
  fin : okZ (finE (ofInt 0 : FP f)) (tiny f) (3 / 2 * p2 (-f.emin)) = true
  sel0 : okW (selE (ofInt 1 : FP f) false) (9 / 10) (11 / 10) 0 0 = true
  fin0 : okZ (finE (ofInt 1 : FP f)) (9 / 10) (11 / 10) = true

theorem finOk64 : FinOk b64 := by constructor <;> decide +kernel
theorem finOk32 : FinOk b32 := by constructor <;> decide +kernel

theorem okZ_same [f.Ok] (hm : m.Ok) {e : E f} {s t : ℚ} (h : okZ e s t = true) {x : FP f} (hx : x.isFinite = true)
    (h1 : s ≤ |x.val|) (h2 : |x.val| ≤ t) : (evalZ m (fun _ => x) e).v = e.evalF (fun _ => x) := by
  obtain ⟨a, ha, sa⟩ := sides_sound hx h1 h2
  exact anZ_same hm (env1 sa) (List.all_eq_true.1 h a ha)

theorem fin_same [f.Ok] (hm : m.Ok) (ok : FinOk f) {xor : FP f → FP f} (hf : ∀ y, (xor y).isFinite = y.isFinite) (hv : ∀ y, |(xor y).val| = |y.val|)
    {x r : FP f} (hx : x.isFinite = true) (k : Keep x) (hr : r.isFinite = true) {n : ℕ} (hn : (n : ℚ) ≤ 1073741823)
    (h : x.val = 0 ∧ r.val = 0 ∧ n = 0 ∨ x.val ≠ 0 ∧ tiny f ≤ |r.val| ∧ |r.val| ≤ 11 / 10) :
    (tanFinish xor x (of r : Z m f) (2 * n)).v = details.tanFinish xor x r (2 * n) := by
  rw [fin_Z xor x r hn, fin_F xor x r hn]
  have e : m.eq x (lit 0) = FP.eq x (lit 0) := by unfold Mode.eq; rw [k.arg hm, Keep.arg hm (Or.inl ok.z_v)]
  rw [e, eq_fin hx ok.z_f, ok.z_v]
  rcases h with ⟨h1, h2, h3⟩ | ⟨h1, h2, h3⟩
  · subst h3
    rw [decide_eq_true h1]
    show (evalZ m (fun _ => xor (evalZ m (fun _ => r) (selE (ofInt 1) false)).v) (finE (ofInt 1))).v =
      (finE (ofInt 1)).evalF (fun _ => xor ((selE (ofInt 1) false).evalF (fun _ => r)))
    obtain ⟨a1, a2, a3, a4⟩ := okW_same hm (by norm_num) ok.sel0 hr (by rw [h2, abs_zero]) (by rw [h2, abs_zero])
    rw [a1]
    exact okZ_same hm ok.fin0 (by rw [hf]; exact a2) (by rw [hv]; exact a3) (by rw [hv]; exact a4)
  · rw [decide_eq_false h1]
    generalize decide (n % 2 = 1) = q
    show (evalZ m (fun _ => xor (evalZ m (fun _ => r) (selE (ofInt 0) q)).v) (finE (ofInt 0))).v =
      (finE (ofInt 0)).evalF (fun _ => xor ((selE (ofInt 0) q).evalF (fun _ => r)))
    obtain ⟨a1, a2, a3, a4⟩ := okW_same hm ok.t0 (ok.sel q) hr h2 h3
    rw [a1]
    exact okZ_same hm ok.fin (by rw [hf]; exact a2) (by rw [hv]; exact a3) (by rw [hv]; exact a4)

/-- The square of the reduced argument. -/
def zzE : E f := (E.var 0).mul (.var 0)

theorem zz_small [f.Ok] (hm : m.Ok) {c z : FP f} (hz : z.isFinite = true) (h : |z.val| ≤ p2 (-26)) (hc : c.isFinite = true) (hv : p2 (-50) ≤ c.val)
    (hn : p2 f.emin ≤ |c.val|) (ok : (anZ f (fun _ => some (upTo f (p2 (-26)))) (zzE : E f)).any (fun r => decide (r.hi ≤ p2 (-51))) = true) :
    m.gt (of z * of z : Z m f).v c = false ∧ FP.gt (z * z) c = false := by
  cases hr : anZ f (fun _ => some (upTo f (p2 (-26)))) (zzE : E f) with
  | none => rw [hr] at ok; cases ok
  | some r =>
    rw [hr] at ok
    simp only [Option.any_some, decide_eq_true_eq] at ok
    have sd := anZ_sound hm (env1 (sound_upTo hz h)) _ r hr
    have l := p2_lt (show (-51 : ℤ) < -50 by norm_num)
    have l0 := p2_pos (-50)
    constructor
    · unfold Mode.gt
      rw [arg_normal hm hn]
      have s1 := sd.fw
      have s2 := sd.hiw
      show FP.gt (m.arg (evalZ m (fun _ => z) zzE).v) c = false
      generalize (evalZ m (fun _ => z) (zzE : E f)).v = w at *
      rcases hm.arg w with a | ⟨-, a⟩
      · rw [a, gt_fin s1 hc, decide_eq_false_iff_not, not_lt]; linarith
      · rw [a, gt_fin (zero_finite _) hc, decide_eq_false_iff_not, not_lt, val_zero]; linarith
    · have s1 := sd.fv
      have s2 := sd.hiv
      show FP.gt ((zzE : E f).evalF fun _ => z) c = false
      rw [gt_fin s1 hc, decide_eq_false_iff_not, not_lt]; linarith

/-! ## Double precision -/

def tanCuts : List ℚ := [p2 (-26), 1 / 16, 1 / 4, 1 / 2, 6 / 10, 7 / 10, 787 / 1000]

theorem tan_an : covers (okW tanE (p2 (-27)) (11 / 10)) tanCuts = true ∧ spans tanCuts (p2 (-26)) (787 / 1000) = true ∧
    okW (zzE : E b64) (p2 (-53)) 1 (p2 (-26)) (787 / 1000) = true ∧
    (anZ b64 (fun _ => some (upTo b64 (p2 (-26)))) (zzE : E b64)).any (fun r => decide (r.hi ≤ p2 (-51))) = true := by decide +kernel

theorem tanCore_Z (z : F64) : (tanCore (of z) : Z m b64) = if m.gt (of z * of z : Z m b64).v (lit 1.0e-14) then evalZ m (fun _ => z) tanE else of z := (rfl)

theorem tanCore_same (hm : m.Ok) {z : F64} (hz : z.isFinite = true) (h : |z.val| ≤ 787 / 1000) :
    (tanCore (of z) : Z m b64) = of (details.tanCore z) ∧ (details.tanCore z).isFinite = true ∧ (z.val = 0 → (details.tanCore z).val = 0) ∧
      (tiny b64 ≤ |z.val| → tiny b64 ≤ |(details.tanCore z).val|) ∧ |(details.tanCore z).val| ≤ 11 / 10 := by
  have cs : (lit 1.0e-14 : F64).isFinite = true ∧ p2 (-50) ≤ (lit 1.0e-14 : F64).val ∧ p2 (b64).emin ≤ |(lit 1.0e-14 : F64).val| ∧ tiny b64 ≤ p2 (-27) ∧
    p2 (b64).emin < p2 (-53) ∧ 0 < p2 (-26) ∧ 0 ≤ p2 (-27) ∧ 0 ≤ p2 (-53) := by decide +kernel
  obtain ⟨c1, c2, c3, c4, c5, c6, c7, c8⟩ := cs
  rw [tanCore_Z, tanCore_eq]
  rcases le_total |z.val| (p2 (-26)) with c | c
  · obtain ⟨g1, g2⟩ := zz_small hm hz c c1 c2 c3 tan_an.2.2.2
    rw [g1, g2]
    simp only [Bool.false_eq_true, if_false]
    exact ⟨trivial, hz, id, id, h.trans (by norm_num)⟩
  · obtain ⟨a1, a2, a3, a4⟩ := okW_same hm c8 tan_an.2.2.1 hz c h
    have kz : Keep (z * z) := Or.inr (lt_of_lt_of_le c5 a3)
    have g : m.gt (of z * of z : Z m b64).v (lit 1.0e-14) = FP.gt (z * z) (lit 1.0e-14) := by
      have a1' : (of z * of z : Z m b64).v = z * z := a1
      unfold Mode.gt
      rw [a1', kz.arg hm, arg_normal hm c3]
    rw [g]
    have nz : z.val ≠ 0 := fun h0 => by rw [h0, abs_zero] at c; linarith
    generalize FP.gt (z * z) (lit 1.0e-14) = b
    cases b
    · simp only [Bool.false_eq_true, if_false]
      exact ⟨trivial, hz, id, id, h.trans (by norm_num)⟩
    · simp only [if_true]
      obtain ⟨s, t, hp, h1, h2⟩ := cover_find tan_an.1 tan_an.2.1 c h
      obtain ⟨b1, b2, b3, b4⟩ := okW_same hm c7 hp hz h1 h2
      exact ⟨eq_of b1, b2, fun h0 => absurd h0 nz, fun _ => c4.trans b3, b4⟩

theorem tan_same (hm : m.Ok) {x : F64} (hx : x.isFinite = true) (k : Keep x) (h : |x.val| ≤ 2 ^ 27) : fast_tan m x = Vdt.fast_tan x := by
  have ab : |(FP.abs x).val| ≤ 2 ^ 27 := by rw [val_abs, abs_abs]; exact h
  obtain ⟨n, ⟨q1, e1, e2⟩, n1, r1, r2, r3, r4, r5, r6⟩ := reduce64 hx h
  obtain ⟨t1, t2⟩ := core_keep hm quad_an.1 quad_an.2.1 quad_an.2.2 (z := FP.abs x) hx k.abs ab
  rw [← quadZ, ← quadF] at t1
  rw [← quadF] at t2
  have i := ofInt_spec64 (n := 2 * (n : ℤ)) (by
    have : (n : ℤ) ≤ 85445661 := by exact_mod_cast n1
    rw [abs_of_nonneg (by positivity)]; norm_num; omega)
  obtain ⟨s1, s2⟩ := red_same hm (a := FP.abs x) (n := 2 * (n : ℤ)) hx i.1 i.2 (by
    have : (n : ℤ) ≤ 85445661 := by exact_mod_cast n1
    rw [abs_of_nonneg (by positivity)]; omega) k.abs ab (by
    rcases Nat.eq_zero_or_pos n with c | c
    · left; omega
    · right; rw [val_abs, abs_abs, show p2 (-1) = 1 / 2 by decide +kernel]; exact r4 c)
  obtain ⟨c1, c2, c3, c4, c5⟩ := tanCore_same hm r1 (val_le_real (by push_cast; linarith))
  have D : x.val = 0 ∧ (reduceWith (FP.abs x) (ofInt (2 * n))).val = 0 ∧ n = 0 ∨ x.val ≠ 0 ∧
      tiny b64 ≤ |(reduceWith (FP.abs x) (ofInt (2 * n))).val| := by
    rcases Nat.eq_zero_or_pos n with c | c
    · by_cases x0 : x.val = 0
      · exact Or.inl ⟨x0, by rw [r3 c, x0, abs_zero], c⟩
      · exact Or.inr ⟨x0, by rw [r3 c, abs_abs]; exact k.tiny x0⟩
    · right
      have hx2 := r4 c
      refine ⟨fun x0 => by rw [x0, abs_zero] at hx2; norm_num at hx2, ?_⟩
      have d := dist64 (by decide +kernel) distCover64b (X := 2 ^ 27) (by decide +kernel) hx2 h c r5
      have n1' : (1 : ℝ) ≤ n := by exact_mod_cast c
      push_cast at d
      generalize (|x.real| - n * (Real.pi / 2)) = ζ at *
      have low : (1 / 2 ^ 110 : ℝ) ≤ |(reduceWith (FP.abs x) (ofInt (2 * n))).real| := by
        generalize (reduceWith (FP.abs x) (ofInt (2 * n))).real = z at *
        have t := abs_sub_abs_le_abs_sub ζ z
        rw [abs_sub_comm] at t
        norm_num at d r6 ⊢
        linarith
      have : ((tiny b64 : ℚ) : ℝ) ≤ 1 / 2 ^ 110 := by
        have : tiny b64 ≤ 1 / 2 ^ 110 := by decide +kernel
        have := (Rat.cast_le (K := ℝ)).2 this
        push_cast at this
        exact this
      rw [real_abs] at low
      exact_mod_cast this.trans low
  unfold Vdt.fast_tan
  rw [fast_tanM_eq, e1]
  unfold fast_tan
  dsimp only
  rw [t1, t2.arg hm]
  have st := e1
  unfold quadStep at st
  simp only [Option.bind_eq_bind, Option.pure_def] at st ⊢
  obtain ⟨q, st1, st2⟩ := Option.bind_eq_some_iff.1 st
  rw [st1]
  simp only [Option.bind_some]
  rw [st2]
  simp only [Option.bind_some]
  rw [e2, show DP1tan = DP1 from rfl, show DP2tan = DP2 from rfl, show DP3tan = DP3 from rfl, s1, c1]
  congr 1
  refine fin_same hm finOk64 (fun y => by rw [dpXOR_signMask]; rfl) (fun y => by rw [dpXOR_signMask, abs_val, abs_val]) hx k c2 (n1.trans (by norm_num)) ?_
  rcases D with ⟨d1, d2, d3⟩ | ⟨d1, d2⟩
  · exact Or.inl ⟨d1, c3 d2, d3⟩
  · exact Or.inr ⟨d1, c4 d2, c5⟩

/-! ## Single precision -/

def tanfCuts : List ℚ := [p2 (-26), 1 / 16, 1 / 4, 1 / 2, 6 / 10, 7 / 10, 787 / 1000]

theorem tanf_an : covers (okW tanfE (p2 (-27)) (11 / 10)) tanfCuts = true ∧ spans tanfCuts (p2 (-26)) (787 / 1000) = true ∧
    okW (zzE : E b32) (p2 (-53)) 1 (p2 (-26)) (787 / 1000) = true ∧
    (anZ b32 (fun _ => some (upTo b32 (p2 (-26)))) (zzE : E b32)).any (fun r => decide (r.hi ≤ p2 (-51))) = true := by decide +kernel

theorem tanfCore_Z (z : F32) : (tanfCore (of z) : Z m b32) = if m.gt (of z * of z : Z m b32).v (lit 1.0e-14) then evalZ m (fun _ => z) tanfE else of z := (rfl)

theorem tanfCore_same (hm : m.Ok) {z : F32} (hz : z.isFinite = true) (h : |z.val| ≤ 787 / 1000) :
    (tanfCore (of z) : Z m b32) = of (details.tanfCore z) ∧ (details.tanfCore z).isFinite = true ∧ (z.val = 0 → (details.tanfCore z).val = 0) ∧
      (tiny b32 ≤ |z.val| → tiny b32 ≤ |(details.tanfCore z).val|) ∧ |(details.tanfCore z).val| ≤ 11 / 10 := by
  have cs : (lit 1.0e-14 : F32).isFinite = true ∧ p2 (-50) ≤ (lit 1.0e-14 : F32).val ∧ p2 (b32).emin ≤ |(lit 1.0e-14 : F32).val| ∧ tiny b32 ≤ p2 (-27) ∧
    p2 (b32).emin < p2 (-53) ∧ 0 < p2 (-26) ∧ 0 ≤ p2 (-27) ∧ 0 ≤ p2 (-53) := by decide +kernel
  obtain ⟨c1, c2, c3, c4, c5, c6, c7, c8⟩ := cs
  rw [tanfCore_Z, tanfCore_eq]
  rcases le_total |z.val| (p2 (-26)) with c | c
  · obtain ⟨g1, g2⟩ := zz_small hm hz c c1 c2 c3 tanf_an.2.2.2
    rw [g1, g2]
    simp only [Bool.false_eq_true, if_false]
    exact ⟨trivial, hz, id, id, h.trans (by norm_num)⟩
  · obtain ⟨a1, a2, a3, a4⟩ := okW_same hm c8 tanf_an.2.2.1 hz c h
    have kz : Keep (z * z) := Or.inr (lt_of_lt_of_le c5 a3)
    have g : m.gt (of z * of z : Z m b32).v (lit 1.0e-14) = FP.gt (z * z) (lit 1.0e-14) := by
      have a1' : (of z * of z : Z m b32).v = z * z := a1
      unfold Mode.gt
      rw [a1', kz.arg hm, arg_normal hm c3]
    rw [g]
    have nz : z.val ≠ 0 := fun h0 => by rw [h0, abs_zero] at c; linarith
    generalize FP.gt (z * z) (lit 1.0e-14) = b
    cases b
    · simp only [Bool.false_eq_true, if_false]
      exact ⟨trivial, hz, id, id, h.trans (by norm_num)⟩
    · simp only [if_true]
      obtain ⟨s, t, hp, h1, h2⟩ := cover_find tanf_an.1 tanf_an.2.1 c h
      obtain ⟨b1, b2, b3, b4⟩ := okW_same hm c7 hp hz h1 h2
      exact ⟨eq_of b1, b2, fun h0 => absurd h0 nz, fun _ => c4.trans b3, b4⟩

theorem tanf_same (hm : m.Ok) {x : F32} (hx : x.isFinite = true) (k : Keep x) (h : |x.val| ≤ 8192) : fast_tanf m x = Vdt.fast_tanf x := by
  have ab : |(FP.abs x).val| ≤ 8192 := by rw [val_abs, abs_abs]; exact h
  obtain ⟨n, ⟨q1, e1, e2⟩, n1, r1, r2, r3, r4, r5, r6⟩ := reduce32 hx h
  obtain ⟨t1, t2⟩ := core_keep hm quadf_an.1 quadf_an.2.1 quadf_an.2.2 (z := FP.abs x) hx k.abs ab
  rw [← quadfZ, ← quadfF] at t1
  rw [← quadfF] at t2
  have i := ofInt_spec32 (n := 2 * (n : ℤ)) (by
    have : (n : ℤ) ≤ 5216 := by exact_mod_cast n1
    rw [abs_of_nonneg (by positivity)]; norm_num; omega)
  obtain ⟨s1, s2⟩ := redf_same hm (a := FP.abs x) (n := 2 * (n : ℤ)) hx i.1 i.2 (by
    have : (n : ℤ) ≤ 5216 := by exact_mod_cast n1
    rw [abs_of_nonneg (by positivity)]; omega) k.abs ab (by
    rcases Nat.eq_zero_or_pos n with c | c
    · left; omega
    · right; rw [val_abs, abs_abs, show p2 (-1) = 1 / 2 by decide +kernel]; exact r4 c)
  obtain ⟨c1, c2, c3, c4, c5⟩ := tanfCore_same hm r1 (val_le_real (by push_cast; linarith))
  have D : x.val = 0 ∧ (reduceWithf (FP.abs x) (ofInt (2 * n))).val = 0 ∧ n = 0 ∨ x.val ≠ 0 ∧
      tiny b32 ≤ |(reduceWithf (FP.abs x) (ofInt (2 * n))).val| := by
    rcases Nat.eq_zero_or_pos n with c | c
    · by_cases x0 : x.val = 0
      · exact Or.inl ⟨x0, by rw [r3 c, x0, abs_zero], c⟩
      · exact Or.inr ⟨x0, by rw [r3 c, abs_abs]; exact k.tiny x0⟩
    · right
      have hx2 := r4 c
      refine ⟨fun x0 => by rw [x0, abs_zero] at hx2; norm_num at hx2, ?_⟩
      have d := dist32 (by decide +kernel) distCover32 (X := 8192) (by decide +kernel) hx2 h c r5
      have n1' : (1 : ℝ) ≤ n := by exact_mod_cast c
      push_cast at d
      generalize (|x.real| - n * (Real.pi / 2)) = ζ at *
      have low : (1 / 2 ^ 110 : ℝ) ≤ |(reduceWithf (FP.abs x) (ofInt (2 * n))).real| := by
        generalize (reduceWithf (FP.abs x) (ofInt (2 * n))).real = z at *
        have t := abs_sub_abs_le_abs_sub ζ z
        rw [abs_sub_comm] at t
        norm_num at d r6 ⊢
        linarith
      have : ((tiny b32 : ℚ) : ℝ) ≤ 1 / 2 ^ 110 := by
        have : tiny b32 ≤ 1 / 2 ^ 110 := by decide +kernel
        have := (Rat.cast_le (K := ℝ)).2 this
        push_cast at this
        exact this
      rw [real_abs] at low
      exact_mod_cast this.trans low
  unfold Vdt.fast_tanf
  rw [fast_tanfM_eq, e1]
  unfold fast_tanf
  dsimp only
  rw [t1, t2.arg hm]
  have st := e1
  unfold quadStep at st
  simp only [Option.bind_eq_bind, Option.pure_def] at st ⊢
  obtain ⟨q, st1, st2⟩ := Option.bind_eq_some_iff.1 st
  rw [st1]
  simp only [Option.bind_some]
  rw [st2]
  simp only [Option.bind_some]
  rw [e2, show DP1Ftan = DP1F from rfl, show DP2Ftan = DP2F from rfl, show DP3Ftan = DP3F from rfl, s1, c1]
  congr 1
  refine fin_same hm finOk32 (fun y => by rw [spXOR_signMask]; rfl) (fun y => by rw [spXOR_signMask, abs_val, abs_val]) hx k c2 (n1.trans (by norm_num)) ?_
  rcases D with ⟨d1, d2, d3⟩ | ⟨d1, d2⟩
  · exact Or.inl ⟨d1, c3 d2, d3⟩
  · exact Or.inr ⟨d1, c4 d2, c5⟩

end Vdt.Flush
