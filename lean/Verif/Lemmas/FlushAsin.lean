import Verif.Lemmas.FlushAtan
import Verif.Lemmas.AsinfAcc
import Verif.Props.Asin

/-! # Arc sine and arc cosine when small numbers are flushed to zero -/

namespace Vdt.Flush
open FP details
variable {f : Fmt} {m : Mode}

theorem sqrt_of (hm : m.Ok) {a : FP f} (ha : Keep a) (hr : Keep (FP.sqrt a)) : (of a : Z m f).sqrt = of (FP.sqrt a) := by
  show Z.mk (m.res .sqrt (m.arg a) (m.arg a) (FP.sqrt (m.arg a))) = Z.mk (FP.sqrt a)
  rw [ha.arg hm, res_same hm hr]

/-- An expression that is not affected, nor is its use, and its range. -/
def within (f : Fmt) (lo hi : ℚ) (r : Az) : Bool := r.clear f && decide (lo ≤ r.lo ∧ r.hi ≤ hi)

theorem anZ_in [f.Ok] (hm : m.Ok) {env : ℕ → Option Az} {s t : ℕ → FP f} (he : ∀ i r, env i = some r → r.Sound (s i) (t i)) {e : E f} {lo hi : ℚ}
    (h : (anZ f env e).any (within f lo hi) = true) :
    evalZ m t e = of (e.evalF s) ∧ Keep (e.evalF s) ∧ (e.evalF s).isFinite = true ∧ lo ≤ (e.evalF s).val ∧ (e.evalF s).val ≤ hi := by
  cases hr : anZ f env e with
  | none => rw [hr] at h; cases h
  | some r =>
    rw [hr] at h
    have h' : within f lo hi r = true := h
    unfold within at h'
    rw [Bool.and_eq_true, decide_eq_true_eq] at h'
    have S := anZ_sound hm he e r hr
    have k := keep_of_clear S h'.1
    exact ⟨eq_of k.1, k.2, S.fv, h'.2.1.trans S.lov, S.hiv.trans h'.2.2⟩

/-- The root of a number that is not too small. -/
theorem sqrt_in [f.Ok] (hE : f.emin ≤ -(f.mb : ℤ) - 2) (hu : f.u ≤ 1 / 100) {x : FP f} {k : ℕ} (hx : x.isFinite = true) (h1 : p2 (-(2 * k)) ≤ x.val) (h2 : x.val ≤ 1) :
    (FP.sqrt x).isFinite = true ∧ p2 (-(k + 1)) ≤ (FP.sqrt x).val ∧ (FP.sqrt x).val ≤ 101 / 100 := by
  obtain ⟨r1, r2, r3⟩ := sqrt_nonneg_err hE hx (val_pos_iff.1 ((p2_pos _).trans_le h1)).1
  have u : (f.u : ℝ) ≤ 1 / 100 := by have := (Rat.cast_le (K := ℝ)).2 hu; push_cast at this; exact this
  have e1 : (2 : ℝ) ^ (-(2 * k : ℤ)) ≤ x.real := by rw [← p2_real]; unfold FP.real; exact_mod_cast h1
  have e2 : x.real ≤ 1 := by unfold FP.real; exact_mod_cast h2
  have p0 : (0 : ℝ) < 2 ^ (-(k : ℤ)) := by positivity
  have s1 : (2 : ℝ) ^ (-(k : ℤ)) ≤ √x.real := by
    rw [Real.le_sqrt p0.le (le_trans (by positivity) e1), sq, ← zpow_add₀ (by norm_num)]
    rwa [show -(k : ℤ) + -(k : ℤ) = -(2 * k) by ring]
  have s2 : √x.real ≤ 1 := Real.sqrt_le_one.2 e2
  have t := abs_le.1 r3
  have v : (f.u : ℝ) * √x.real ≤ 1 / 100 * √x.real := mul_le_mul_of_nonneg_right u (Real.sqrt_nonneg _)
  refine ⟨r1, ?_, ?_⟩
  · rw [← Rat.cast_le (K := ℝ), p2_real]
    have : (2 : ℝ) ^ (-((k : ℤ) + 1)) = 1 / 2 * 2 ^ (-(k : ℤ)) := by
      rw [show -((k : ℤ) + 1) = -(k : ℤ) + -1 by ring, zpow_add₀ (by norm_num)]; norm_num; ring
    rw [this]
    show _ ≤ (FP.sqrt x).real
    linarith
  · rw [← Rat.cast_le (K := ℝ)]
    show (FP.sqrt x).real ≤ _
    push_cast
    linarith

theorem sqrt_zero [f.Ok] (hE : f.emin ≤ -(f.mb : ℤ) - 2) {x : FP f} (hx : x.isFinite = true) (hs : x.sign = false) (h : x.val = 0) :
    (FP.sqrt x).isFinite = true ∧ (FP.sqrt x).val = 0 := by
  obtain ⟨r1, r2, r3⟩ := sqrt_nonneg_err hE hx hs
  have r0 : x.real = 0 := by unfold FP.real; rw [h]; simp
  rw [r0, Real.sqrt_zero, mul_zero, sub_zero] at r3
  refine ⟨r1, ?_⟩
  have := abs_nonpos_iff.1 r3
  unfold FP.real at this
  exact_mod_cast this

/-! ## Double precision -/

/-- include/asin.h:127 -/
def asinDE : E b64 := (E.const (lit 1.0)).sub (.var 0)
def asinDDE : E b64 := asinDE.add asinDE

theorem asin_small_an : (anZ b64 (fun _ => some (part b64 (1 / 100000001) (1 / 100))) (asinSmallE (.var 0) (.var 0))).any (fun r => r.t.isNone) = true ∧
    (anZ b64 (fun _ => some (part b64 (1 / 100) (1 / 4))) (asinSmallE (.var 0) (.var 0))).any (fun r => r.t.isNone) = true ∧
    (anZ b64 (fun _ => some (part b64 (1 / 4) (4 / 10))) (asinSmallE (.var 0) (.var 0))).any (fun r => r.t.isNone) = true ∧
    (anZ b64 (fun _ => some (part b64 (4 / 10) (5 / 10))) (asinSmallE (.var 0) (.var 0))).any (fun r => r.t.isNone) = true ∧
    (anZ b64 (fun _ => some (part b64 (5 / 10) (626 / 1000))) (asinSmallE (.var 0) (.var 0))).any (fun r => r.t.isNone) = true := by decide +kernel
theorem asin_d_an : (anZ b64 (fun _ => some (part b64 (625 / 1000) (1 - p2 (-53)))) asinDE).any (within b64 (p2 (-53)) (376 / 1000)) = true ∧
    (anZ b64 (fun _ => some (part b64 (625 / 1000) (1 - p2 (-53)))) asinDDE).any (within b64 (p2 (-52)) 1) = true ∧
    (anZ b64 (fun _ => some (part b64 1 1)) asinDE).any (within b64 0 0) = true ∧
    (anZ b64 (fun _ => some (part b64 1 1)) asinDDE).any (within b64 0 0) = true := by decide +kernel
theorem asin_large_an : (anZ b64 (fun i => some (two (part b64 (p2 (-53)) (376 / 1000)) (part b64 (p2 (-27)) (101 / 100)) i)) asinLargeE).any
      (fun r => r.t.isNone) = true ∧
    (anZ b64 (fun i => some (two (part b64 0 0) (part b64 0 0) i)) asinLargeE).any (fun r => r.t.isNone) = true := by decide +kernel

theorem asinSmall_same (hm : m.Ok) {a : F64} (ha : a.isFinite = true) (h1 : 1 / 100000001 ≤ a.val) (h2 : a.val ≤ 626 / 1000) :
    (asinSmall (of a) : Z m b64).v = details.asinSmall a := by
  have t : (evalZ m (fun _ => a) (asinSmallE (.var 0) (.var 0))).v = (asinSmallE (.var 0) (.var 0)).evalF (fun _ => a) := by
    obtain ⟨a1, a2, a3, a4, a5⟩ := asin_small_an
    rcases le_total a.val (1 / 100) with c | c
    · exact anZ_same hm (env1 (sound_part ha h1 c)) a1
    rcases le_total a.val (1 / 4) with d | d
    · exact anZ_same hm (env1 (sound_part ha c d)) a2
    rcases le_total a.val (4 / 10) with c | c
    · exact anZ_same hm (env1 (sound_part ha d c)) a3
    rcases le_total a.val (5 / 10) with d | d
    · exact anZ_same hm (env1 (sound_part ha c d)) a4
    · exact anZ_same hm (env1 (sound_part ha d h2)) a5
  exact t

/-- include/asin.h:128-137 after the subtraction -/
def asinRest (d s : Z m b64) : Z m b64 :=
  let px := getRX d
  let qx := getSX d
  let p := d * px / qx
  let z := of PIO4 - s
  let zz := s * p - of MOREBITS
  let z := z - zz
  z + of PIO4

theorem asinLarge_eq (a : Z m b64) : asinLarge a = asinRest (of (lit 1.0) - a) (((of (lit 1.0) - a) + (of (lit 1.0) - a)).sqrt) := (rfl)
theorem asinRest_Z (d s : F64) : (asinRest (of d) (of s) : Z m b64) = evalZ m (two d s) asinLargeE := (rfl)
theorem asinRest_F (a : F64) : details.asinLarge a = asinLargeE.evalF (two (lit 1.0 - a) (FP.sqrt ((lit 1.0 - a) + (lit 1.0 - a)))) := (rfl)

theorem asinLarge_same (hm : m.Ok) {a : F64} (ha : a.isFinite = true) (h1 : 625 / 1000 ≤ a.val) (h2 : a.val ≤ 1) :
    (asinLarge (of a) : Z m b64).v = details.asinLarge a := by
  have dZ : (of (lit 1.0) - of a : Z m b64) = evalZ m (fun _ => a) asinDE := (rfl)
  have ddZ : ((of (lit 1.0) - of a) + (of (lit 1.0) - of a) : Z m b64) = evalZ m (fun _ => a) asinDDE := (rfl)
  have dF : lit 1.0 - a = asinDE.evalF (fun _ => a) := (rfl)
  have ddF : (lit 1.0 - a) + (lit 1.0 - a) = asinDDE.evalF (fun _ => a) := (rfl)
  rw [asinLarge_eq, asinRest_F]
  obtain ⟨d1, d2, d3, d4⟩ := asin_d_an
  have n := near_one (x := a) (j := -1) (by rw [show p2 (-1) = 1 / 2 by decide +kernel]; linarith) (by decide)
  rw [show (-1 : ℤ) - (b64.mb : ℤ) = -53 by decide] at n
  rcases n with n | n | n
  · have s := sound_part ha h1 n
    obtain ⟨e1, -, e2, e3, e4⟩ := anZ_in hm (env1 s) d1
    obtain ⟨g1, g2, g3, g4, g5⟩ := anZ_in hm (env1 s) d2
    rw [← dZ, ← dF] at e1
    rw [← ddZ, ← ddF] at g1
    rw [← dF] at e2 e3 e4
    rw [← ddF] at g2 g3 g4 g5
    obtain ⟨q1, q2, q3⟩ := sqrt_in (k := 26) (by decide) (by decide +kernel) g3 g4 g5
    rw [g1, e1, sqrt_of hm g2 (Or.inr (lt_of_lt_of_le (lt_of_lt_of_le (p2_lt (by decide)) q2) (le_abs_self _))), asinRest_Z]
    exact anZ_same hm (env2 (sound_part e2 e3 e4) (sound_part q1 q2 q3)) asin_large_an.1
  · have s := sound_part ha n.ge n.le
    obtain ⟨e1, -, e2, e3, e4⟩ := anZ_in hm (env1 s) d3
    obtain ⟨g1, g2, g3, g4, g5⟩ := anZ_in hm (env1 s) d4
    rw [← dZ, ← dF] at e1
    rw [← ddZ, ← ddF] at g1
    rw [← dF] at e2 e3 e4
    rw [← ddF] at g2 g3 g4 g5
    have l : (lit 1.0 : F64).isFinite = true ∧ (lit 1.0 : F64).val = 1 ∧ (lit 1.0 : F64).sign = false := by decide +kernel
    have sg : (lit 1.0 - a).sign = false := sub_sign_nonneg l.1 ha l.2.2 (by rw [l.2.1]; exact h2)
    have sgg : ((lit 1.0 - a) + (lit 1.0 - a)).sign = false := add_sign_nonneg e2 e2 sg (by linarith)
    obtain ⟨q1, q2⟩ := sqrt_zero (by decide) g3 sgg (le_antisymm g5 g4)
    rw [g1, e1, sqrt_of hm g2 (Or.inl q2), asinRest_Z]
    exact anZ_same hm (env2 (sound_part e2 e3 e4) (sound_part q1 q2.ge q2.le)) asin_large_an.2
  · exfalso
    have := p2_pos (-53)
    linarith

theorem asin_same (hm : m.Ok) {x : F64} (hx : x.isFinite = true) (k : Keep x) (h : |x.val| ≤ 1) : fast_asin m x = Vdt.fast_asin x := by
  have cs : (lit 0.625 : F64).isFinite = true ∧ (lit 0.625 : F64).val = 625 / 1000 ∧ p2 b64.emin ≤ |(lit 0.625 : F64).val| ∧
    (lit 1e-8 : F64).isFinite = true ∧ 1 / 100000001 ≤ (lit 1e-8 : F64).val ∧ p2 b64.emin ≤ |(lit 1e-8 : F64).val| := by decide +kernel
  obtain ⟨c1, c2, c3, c4, c5, c6⟩ := cs
  have g1 : m.lt (FP.abs x) (lit 0.625) = FP.lt (FP.abs x) (lit 0.625) := by unfold Mode.lt; rw [k.abs.arg hm, arg_normal hm c3]
  have g2 : m.lt (FP.abs x) (lit 1e-8) = FP.lt (FP.abs x) (lit 1e-8) := by unfold Mode.lt; rw [k.abs.arg hm, arg_normal hm c6]
  have fa : (FP.abs x).isFinite = true := hx
  have l1 := lt_fin fa c1
  have l2 := lt_fin fa c4
  unfold fast_asin Vdt.fast_asin asinPos
  dsimp only
  rw [g1, g2]
  have va : (FP.abs x).val ≤ 1 := by rw [val_abs]; exact h
  generalize FP.abs x = a at *
  congr 1
  by_cases t : FP.lt a (lit 1e-8) = true
  · rw [if_pos t, if_pos t]
    rfl
  · rw [if_neg t, if_neg t]
    rw [l2, decide_eq_true_eq, not_lt] at t
    by_cases t2 : FP.lt a (lit 0.625) = true
    · rw [if_pos t2, if_pos t2]
      rw [l1, decide_eq_true_eq, c2] at t2
      exact asinSmall_same hm fa (c5.trans t) (by linarith)
    · rw [if_neg t2, if_neg t2]
      rw [l1, decide_eq_true_eq, c2, not_lt] at t2
      exact asinLarge_same hm fa t2 va

theorem acos_an : (anZ b64 (fun _ => some (upTo b64 (p2 (-40)))) ((E.const PIO2).sub (.var 0))).any (fun r => r.t.isNone) = true ∧
    (anZ b64 (fun _ => some (from_ b64 (-40) 2)) ((E.const PIO2).sub (.var 0))).any (fun r => r.t.isNone) = true := by decide +kernel

theorem acos_same (hm : m.Ok) {x : F64} (hx : x.isFinite = true) (k : Keep x) (h : |x.val| ≤ 1) : fast_acos m x = Vdt.fast_acos x := by
  unfold fast_acos Vdt.fast_acos
  rw [asin_same hm hx k h]
  obtain ⟨a1, a2, -⟩ := fast_asin_acc hx h
  have a3 : |(Vdt.fast_asin x).val| ≤ 2 := a2.trans (by decide +kernel)
  generalize Vdt.fast_asin x = s at *
  have t : (evalZ m (fun _ => s) ((E.const PIO2).sub (.var 0))).v = ((E.const PIO2).sub (.var 0)).evalF (fun _ => s) := by
    rcases le_total |s.val| (p2 (-40)) with c | c
    · exact anZ_same hm (env1 (sound_upTo a1 c)) acos_an.1
    · exact anZ_same hm (env1 (sound_from a1 a3 c)) acos_an.2
  exact t

/-! ## Single precision -/

/-- include/asin.h:166 and 176 -/
def asinfDE : E b32 := (E.const (lit 0.5)).mul ((E.const (lit 1)).sub (.var 0))
/-- include/asin.h:178-197, large and small arguments; `flag` is 1 or 0 -/
def asinfBigE : E b32 := (asinfLargeE.mul (.const (ofInt 1))).add ((E.const (ofInt 0)).mul (asinfPolyE (.var 0) (.var 1)))
def asinfLowE : E b32 :=
  (((E.const PIO2F).sub ((asinfPolyE ((E.var 0).mul (.var 0)) (.var 0)).add (asinfPolyE ((E.var 0).mul (.var 0)) (.var 0)))).mul (.const (ofInt 0))).add
    ((E.const (ofInt 1)).mul (asinfPolyE ((E.var 0).mul (.var 0)) (.var 0)))

theorem asinf_small_an : (anZ b32 (fun _ => some (part b32 (99 / 1000000) (501 / 1000))) asinfLowE).any (fun r => r.t.isNone) = true := by decide +kernel
theorem asinf_d_an : (anZ b32 (fun _ => some (part b32 (499 / 1000) (1 - p2 (-25)))) asinfDE).any (within b32 (p2 (-26)) (3 / 10)) = true ∧
    (anZ b32 (fun _ => some (part b32 1 1)) asinfDE).any (within b32 0 0) = true := by decide +kernel
theorem asinf_large_an : (anZ b32 (fun i => some (two (part b32 (p2 (-26)) (3 / 10)) (part b32 (p2 (-14)) (101 / 100)) i)) asinfBigE).any
      (fun r => r.t.isNone) = true ∧
    (anZ b32 (fun i => some (two (part b32 0 0) (part b32 0 0) i)) asinfBigE).any (fun r => r.t.isNone) = true := by decide +kernel

/-- include/asin.h:178-197 -/
def asinfRest (z x : Z m b32) (a b : F32) : Z m b32 :=
  let z := ((((of (lit 4.2163199048E-2) * z
    + of (lit 2.4181311049E-2)) * z
    + of (lit 4.5470025998E-2)) * z
    + of (lit 7.4953002686E-2)) * z
    + of (lit 1.6666752422E-1)) * z * x
    + x
  let tmp := z + z
  let tmp := of PIO2F - tmp
  tmp * of a + of b * z
def asinfRestF (z x : F32) (a b : F32) : F32 :=
  let z := asinfPoly z x
  let tmp := z + z
  let tmp := PIO2F - tmp
  tmp * a + b * z

theorem asinfBig_Z (z x : F32) : (asinfRest (of z) (of x) (ofInt 1) (ofInt 0) : Z m b32) = evalZ m (two z x) asinfBigE := (rfl)
theorem asinfBig_F (z x : F32) : asinfRestF z x (ofInt 1) (ofInt 0) = asinfBigE.evalF (two z x) := (rfl)
theorem asinfLow_Z (a : F32) : (asinfRest (of a * of a) (of a) (ofInt 0) (ofInt 1) : Z m b32) = evalZ m (fun _ => a) asinfLowE := (rfl)
theorem asinfLow_F (a : F32) : asinfRestF (a * a) a (ofInt 0) (ofInt 1) = asinfLowE.evalF (fun _ => a) := (rfl)

theorem asinf_big_same (hm : m.Ok) {a : F32} (ha : a.isFinite = true) (h1 : 499 / 1000 ≤ a.val) (h2 : a.val ≤ 1) :
    (asinfRest (of (lit 0.5) * (of (lit 1) - of a)) ((of (lit 0.5) * (of (lit 1) - of a)).sqrt) (ofInt 1) (ofInt 0) : Z m b32).v =
      asinfRestF (lit 0.5 * (lit 1 - a)) (FP.sqrt (lit 0.5 * (lit 1 - a))) (ofInt 1) (ofInt 0) := by
  have dZ : (of (lit 0.5) * (of (lit 1) - of a) : Z m b32) = evalZ m (fun _ => a) asinfDE := (rfl)
  have dF : lit 0.5 * (lit 1 - a) = asinfDE.evalF (fun _ => a) := (rfl)
  obtain ⟨d1, d3⟩ := asinf_d_an
  have n := near_one (x := a) (j := -2) (by rw [show p2 (-2) = 1 / 4 by decide +kernel]; linarith) (by decide)
  rw [show (-2 : ℤ) - (b32.mb : ℤ) = -25 by decide] at n
  rw [asinfBig_F]
  rcases n with n | n | n
  · have s := sound_part ha h1 n
    obtain ⟨e1, e0, e2, e3, e4⟩ := anZ_in hm (env1 s) d1
    rw [← dZ, ← dF] at e1
    rw [← dF] at e0 e2 e3 e4
    obtain ⟨q1, q2, q3⟩ := sqrt_in (k := 13) (by decide) (by decide +kernel) e2 e3 (by linarith)
    rw [e1, sqrt_of hm e0 (Or.inr (lt_of_lt_of_le (lt_of_lt_of_le (p2_lt (by decide)) q2) (le_abs_self _))), asinfBig_Z]
    exact anZ_same hm (env2 (sound_part e2 e3 e4) (sound_part q1 q2 q3)) asinf_large_an.1
  · have s := sound_part ha n.ge n.le
    obtain ⟨e1, e0, e2, e3, e4⟩ := anZ_in hm (env1 s) d3
    rw [← dZ, ← dF] at e1
    rw [← dF] at e0 e2 e3 e4
    have l : (lit 1 : F32).isFinite = true ∧ (lit 1 : F32).val = 1 ∧ (lit 1 : F32).sign = false ∧ (lit 0.5 : F32).isFinite = true ∧
      (lit 0.5 : F32).sign = false ∧ 1 ≤ b32.big := by decide +kernel
    have sg : (lit 1 - a).sign = false := sub_sign_nonneg l.1 ha l.2.2.1 (by rw [l.2.1]; exact h2)
    have fd := (sub_spec l.1 ha (by rw [l.2.1, n, sub_self, abs_zero]; exact b32.big_pos.le)).1
    have sgg : (lit 0.5 * (lit 1 - a)).sign = false := by
      have := mul_fin_sign l.2.2.2.1 fd
      rw [l.2.2.2.2.1] at this
      rw [sub_def] at sg
      rw [sg] at this
      exact this
    obtain ⟨q1, q2⟩ := sqrt_zero (by decide) e2 sgg (le_antisymm e4 e3)
    rw [e1, sqrt_of hm e0 (Or.inl q2), asinfBig_Z]
    exact anZ_same hm (env2 (sound_part e2 e3 e4) (sound_part q1 q2.ge q2.le)) asinf_large_an.2
  · exfalso
    have := p2_pos (-25)
    linarith

theorem asinf_same (hm : m.Ok) {x : F32} (hx : x.isFinite = true) (k : Keep x) (h : |x.val| ≤ 1) : fast_asinf m x = Vdt.fast_asinf x := by
  have cs : (lit 0.5 : F32).isFinite = true ∧ (lit 0.5 : F32).val = 1 / 2 ∧ p2 b32.emin ≤ |(lit 0.5 : F32).val| ∧
    (lit 1e-4 : F32).isFinite = true ∧ 99 / 1000000 ≤ (lit 1e-4 : F32).val ∧ p2 b32.emin ≤ |(lit 1e-4 : F32).val| := by decide +kernel
  obtain ⟨c1, c2, c3, c4, c5, c6⟩ := cs
  have g1 : m.gt (FP.abs x) (lit 0.5) = FP.gt (FP.abs x) (lit 0.5) := by unfold Mode.gt; rw [k.abs.arg hm, arg_normal hm c3]
  have g2 : m.lt (FP.abs x) (lit 1e-4) = FP.lt (FP.abs x) (lit 1e-4) := by unfold Mode.lt; rw [k.abs.arg hm, arg_normal hm c6]
  have fa : (FP.abs x).isFinite = true := hx
  have l1 := gt_fin fa c1
  have l2 := lt_fin fa c4
  unfold fast_asinf Vdt.fast_asinf asinfPos
  dsimp only
  rw [g1, g2]
  have va : (FP.abs x).val ≤ 1 := by rw [val_abs]; exact h
  generalize FP.abs x = a at *
  congr 1
  by_cases t : FP.lt a (lit 1e-4) = true
  · rw [if_pos t, if_pos t]
    rfl
  · rw [if_neg t, if_neg t]
    rw [l2, decide_eq_true_eq, not_lt] at t
    generalize FP.gt a (lit 0.5) = b at *
    have n1 : ((1#32 : BitVec 32).toNat : ℤ) = 1 := by decide
    have n0 : ((1#32 - 1#32 : BitVec 32).toNat : ℤ) = 0 := by decide
    have z1 : ((1#32 - 0#32 : BitVec 32).toNat : ℤ) = 1 := by decide
    have z0 : ((0#32 : BitVec 32).toNat : ℤ) = 0 := by decide
    cases b
    · rw [eq_comm, decide_eq_false_iff_not, not_lt, c2] at l1
      simp only [Bool.false_eq_true, if_false]
      rw [z1, z0]
      have e : (evalZ m (fun _ => a) asinfLowE).v = asinfLowE.evalF (fun _ => a) :=
        anZ_same hm (env1 (sound_part fa (c5.trans t) (by linarith))) asinf_small_an
      rw [← asinfLow_Z, ← asinfLow_F] at e
      exact e
    · rw [eq_comm, decide_eq_true_eq, c2] at l1
      simp only [if_true]
      rw [n1, n0]
      exact asinf_big_same hm fa (by linarith) va

theorem acosf_an : (anZ b32 (fun _ => some (upTo b32 (p2 (-40)))) ((E.const PIO2F).sub (.var 0))).any (fun r => r.t.isNone) = true ∧
    (anZ b32 (fun _ => some (from_ b32 (-40) 2)) ((E.const PIO2F).sub (.var 0))).any (fun r => r.t.isNone) = true := by decide +kernel

theorem acosf_same (hm : m.Ok) {x : F32} (hx : x.isFinite = true) (k : Keep x) (h : |x.val| ≤ 1) : fast_acosf m x = Vdt.fast_acosf x := by
  unfold fast_acosf Vdt.fast_acosf
  rw [asinf_same hm hx k h]
  obtain ⟨a1, a2, -⟩ := fast_asinf_acc hx h
  have a3 : |(Vdt.fast_asinf x).val| ≤ 2 := a2.trans (by decide +kernel)
  generalize Vdt.fast_asinf x = s at *
  have t : (evalZ m (fun _ => s) ((E.const PIO2F).sub (.var 0))).v = ((E.const PIO2F).sub (.var 0)).evalF (fun _ => s) := by
    rcases le_total |s.val| (p2 (-40)) with c | c
    · exact anZ_same hm (env1 (sound_upTo a1 c)) acosf_an.1
    · exact anZ_same hm (env1 (sound_from a1 a3 c)) acosf_an.2
  exact t

end Vdt.Flush
