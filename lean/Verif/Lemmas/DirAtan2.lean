import Verif.Lemmas.DirAtan
import Verif.Lemmas.FlushAtan2
import Verif.Props.Atan2

/-! # The arctangent of two arguments in every rounding direction -/

namespace Vdt.Flush
open FP details
variable {f : Fmt} {m : Mode}

theorem mul_one_dir [f.Ok] (hm : m.Dir) {r o : Z m f} (hr : r.v.isFinite = true) (ho : o.v.isFinite = true) (o1 : o.v.val = 1) (hb : |r.v.val| ≤ f.big) :
    (r * o).v.isFinite = true ∧ (r * o).v.val = r.v.val := by
  have t := mul_dir hm hr ho (by rw [o1, mul_one]; exact hb)
  rw [o1, mul_one] at t
  exact ⟨t.1, t.exactQ (val_rep r.v) hb⟩

theorem sub_zero_dir [f.Ok] (hm : m.Dir) {r o : Z m f} (hr : r.v.isFinite = true) (ho : o.v.isFinite = true) (o0 : o.v.val = 0) (hb : |r.v.val| ≤ f.big) :
    (r - o).v.isFinite = true ∧ (r - o).v.val = r.v.val := by
  have t := sub_dir hm hr ho (by rw [o0, sub_zero]; exact hb)
  rw [o0, sub_zero] at t
  exact ⟨t.1, t.exactQ (val_rep r.v) hb⟩

/-- `z` is the number below 1. -/
structure QuotD (f : Fmt) [f.Ok] (h : ℚ) (one z : FP f) : Prop where
  big : 1 ≤ f.big
  o : one.isFinite = true
  o1 : one.val = 1
  zf : z.isFinite = true
  z1 : z.val = 1 - h
  h0 : 0 < h
  h1 : h ≤ 1
  hu : 2 * hulp f (1 - h) ≤ h

theorem quot_dir [f.Ok] {h : ℚ} {one z : FP f} (ok : QuotD f h one z) (hm : m.Dir) {a b : FP f} {A : Z m f} (hA : A.v.isFinite = true) (eA : A.v.val = a.val)
    (hb : b.isFinite = true) (sb : b.sign = false) (a0 : 0 < a.val) (le : b.val ≤ a.val) :
    (of b / A : Z m f).v.isFinite = true ∧ 0 ≤ (of b / A : Z m f).v.val ∧ (of b / A : Z m f).v.val ≤ 1 ∧
    |(of b / A : Z m f).v.real - b.real / a.real| ≤ (h : ℝ) ∧
    |(of b / A : Z m f).v.real - b.real / a.real| ≤ 2 * (f.u : ℝ) * (b.real / a.real) + 2 * f.eta ∧ 0 ≤ b.real / a.real ∧ b.real / a.real ≤ 1 := by
  have b0 := val_nonneg_of_sign sb
  obtain ⟨q, hq⟩ : ∃ q, q = b.val / a.val := ⟨_, rfl⟩
  have q0 : 0 ≤ q := by rw [hq]; positivity
  have q1 : q ≤ 1 := by rw [hq, div_le_one a0]; exact le
  have t := div_dir hm (a := of b) hb hA (by rw [eA]; exact a0.ne') (by
    rw [eA, show (of b : Z m f).v = b from rfl, ← hq, abs_of_nonneg q0]; exact q1.trans ok.big)
  rw [eA, show (of b : Z m f).v = b from rfl, ← hq] at t
  have cq : b.real / a.real = (q : ℝ) := by rw [hq]; unfold FP.real; push_cast; rfl
  rw [cq]
  generalize (of b / A : Z m f).v = w at *
  have e1 : one.real = 1 := by unfold FP.real; rw [ok.o1]; simp
  have ez : (FP.zero false : FP f).real = 0 := by unfold FP.real; rw [zero_val]; simp
  have q0R : (0 : ℝ) ≤ q := by exact_mod_cast q0
  have q1R : (q : ℝ) ≤ 1 := by exact_mod_cast q1
  obtain ⟨g1, g2⟩ := t.between (zero_finite false) ok.o (by rw [ez]; exact q0R) (by rw [e1]; exact q1R)
  rw [ez] at g1
  rw [e1] at g2
  have er := t.err_add (by rw [abs_of_nonneg q0]; exact q1.trans ok.big)
  rw [abs_of_nonneg q0] at er
  have erR := (Rat.cast_le (K := ℝ)).2 er
  push_cast at erR
  refine ⟨t.1, by unfold FP.real at g1; exact_mod_cast g1, by unfold FP.real at g2; exact_mod_cast g2, ?_, erR, q0R, q1R⟩
  rcases le_total q (1 - h) with c | c
  · have k := (t.err (M := 1 - h) (by rw [abs_of_nonneg q0]; exact c) (le_trans (by linarith [ok.h0]) ok.big)).trans ok.hu
    have := (Rat.cast_le (K := ℝ)).2 k
    push_cast at this
    exact this
  · have cR := (Rat.cast_le (K := ℝ)).2 c
    obtain ⟨k1, -⟩ := t.between ok.zf ok.o (by rw [show z.real = ((1 - h : ℚ) : ℝ) by unfold FP.real; rw [ok.z1]]; exact cR) (by rw [e1]; exact q1R)
    rw [show z.real = ((1 - h : ℚ) : ℝ) by unfold FP.real; rw [ok.z1]] at k1
    push_cast at k1 cR
    rw [abs_le]
    constructor <;> linarith

/-! ## The quadrants -/

theorem quadrant_dir [f.Ok] (hm : m.Dir) {P2 P : FP f} {c h : ℚ} (ok : QuadOk f P2 P h) (hh : h ≤ 0.01) (hc : |P2.real - Real.pi / 2| ≤ (c : ℝ)) {r : Z m f}
    (hf : r.v.isFinite = true) (r0 : -0.01 ≤ r.v.val) (hr : r.v.val ≤ 0.8) {a e : ℝ} (ha : |r.v.real - a| ≤ e) (s n b : Bool) :
    (if b then -(qZ P2 P r s n).v else (qZ P2 P r s n).v).isFinite = true ∧
    |(if b then -(qZ P2 P r s n).v else (qZ P2 P r s n).v).real - quadR a s n b| ≤ e + (if s then (c : ℝ) + 2 * h else 0) + (if n then 2 * (c : ℝ) + 4 * h else 0) := by
  have lo := ok.lo
  have hi := ok.hi
  have big := ok.big
  have dbl := ok.dbl
  obtain ⟨r1, hr1, a1, c1, d1, e1⟩ : ∃ r1 : Z m f, (if s then of P2 - r else r) = r1 ∧ r1.v.isFinite = true ∧ -0.01 ≤ r1.v.val ∧ r1.v.val ≤ 1.62 ∧
      |r1.v.real - (if s then Real.pi / 2 - a else a)| ≤ e + (if s then (c : ℝ) + 2 * h else 0) := by
    cases s
    · refine ⟨r, rfl, hf, r0, by linarith, ?_⟩
      simpa using ha
    · have t := sub_dir hm (a := of P2) (b := r) ok.f2 hf (by rw [show (of P2 : Z m f).v = P2 from rfl, abs_le]; constructor <;> linarith)
      have er := t.err (M := 1.6) (by rw [show (of P2 : Z m f).v = P2 from rfl, abs_le]; constructor <;> linarith) (by linarith)
      rw [show (of P2 : Z m f).v = P2 from rfl] at er
      have er2 : |(of P2 - r : Z m f).v.val - (P2.val - r.v.val)| ≤ 2 * h := er.trans (by linarith [ok.h2])
      have er3 : |(of P2 - r : Z m f).v.val - (P2.val - r.v.val)| ≤ 0.02 := er2.trans (by linarith)
      rw [abs_le] at er3
      refine ⟨of P2 - r, rfl, t.1, by linarith [er3.1], by linarith [er3.2], ?_⟩
      have e2 := (Rat.cast_le (K := ℝ)).2 er2
      push_cast at e2
      simp only [if_true]
      unfold FP.real at *
      rw [abs_le] at *
      constructor <;> linarith [hc.1, hc.2, ha.1, ha.2, e2.1, e2.2]
  obtain ⟨r2, hr2, a2, g2⟩ : ∃ r2 : Z m f, (if n then of P - r1 else r1) = r2 ∧ r2.v.isFinite = true ∧
      |r2.v.real - (if n then Real.pi - (if s then Real.pi / 2 - a else a) else (if s then Real.pi / 2 - a else a))| ≤
        e + (if s then (c : ℝ) + 2 * h else 0) + (if n then 2 * (c : ℝ) + 4 * h else 0) := by
    cases n
    · refine ⟨r1, rfl, a1, ?_⟩
      simpa using e1
    · have t := sub_dir hm (a := of P) (b := r1) ok.f1 a1 (by rw [show (of P : Z m f).v = P from rfl, abs_le]; constructor <;> linarith)
      have er := t.err (M := 3.2) (by rw [show (of P : Z m f).v = P from rfl, abs_le]; constructor <;> linarith) (by linarith)
      rw [show (of P : Z m f).v = P from rfl] at er
      have er2 : |(of P - r1 : Z m f).v.val - (P.val - r1.v.val)| ≤ 4 * h := er.trans (by linarith [ok.h1])
      refine ⟨_, rfl, t.1, ?_⟩
      have e2 := (Rat.cast_le (K := ℝ)).2 er2
      have d : (P.val : ℝ) = 2 * P2.val := by rw [dbl]; push_cast; rfl
      push_cast at e2
      simp only [if_true]
      unfold FP.real at *
      generalize (if s = true then Real.pi / 2 - a else a) = A at *
      generalize (if s = true then (c : ℝ) + 2 * h else 0) = E at *
      rw [abs_le] at *
      constructor <;> linarith [hc.1, hc.2, e1.1, e1.2, e2.1, e2.2]
  have hq : qZ P2 P r s n = r2 := by
    unfold qZ
    simp only [hr1, hr2]
  have hqR : quadR a s n b = if b then
      -(if n then Real.pi - (if s then Real.pi / 2 - a else a) else (if s then Real.pi / 2 - a else a)) else
      (if n then Real.pi - (if s then Real.pi / 2 - a else a) else (if s then Real.pi / 2 - a else a)) := rfl
  rw [hq, hqR]
  generalize (if n then Real.pi - (if s then Real.pi / 2 - a else a) else (if s then Real.pi / 2 - a else a)) = A at *
  generalize e + (if s then (c : ℝ) + 2 * h else 0) + (if n then 2 * (c : ℝ) + 4 * h else 0) = E at *
  cases b
  · simp only [Bool.false_eq_true, if_false]
    exact ⟨a2, g2⟩
  · simp only [if_true]
    refine ⟨by simpa using a2, ?_⟩
    have en : (-r2.v).real = -r2.v.real := by unfold FP.real; rw [show -r2.v = FP.neg r2.v from rfl, val_neg]; push_cast; rfl
    rw [en, show -r2.v.real - -A = -(r2.v.real - A) by ring, abs_neg]
    exact g2

/-- From the octant to the whole plane. -/
theorem plane_dir [f.Ok] (hm : m.Dir) {P2 P : FP f} {h c : ℚ} (ok : QuadOk f P2 P h) (hh : h ≤ 0.01) (hc : |P2.real - Real.pi / 2| ≤ (c : ℝ)) (c0 : 0 ≤ c) (h0 : 0 ≤ h) {x y : FP f}
    {r : Z m f} {b1 b2 b3 : Bool}
    (hxy : x.val ≠ 0 ∨ y.val ≠ 0) (e1 : b1 = decide (|x.real| < |y.real|)) (e2 : b2 = decide (x.real < 0)) (e3 : b3 = decide (y.real < 0))
    (hf : r.v.isFinite = true) (hs : -0.01 ≤ r.v.val) (hr : r.v.val ≤ 0.8) {E C D k : ℝ}
    (hE : |r.v.real - Real.arctan (if |x.real| < |y.real| then |x.real| / |y.real| else |y.real| / |x.real|)| ≤ E)
    (hC : |r.v.real - Real.arctan (if |x.real| < |y.real| then |x.real| / |y.real| else |y.real| / |x.real|)| ≤
      C * Real.arctan (if |x.real| < |y.real| then |x.real| / |y.real| else |y.real| / |x.real|) + k)
    (k0 : 0 ≤ k) (hD : E + 3 * (c + 2 * h) ≤ D) (hD2 : E + (c + 2 * h) ≤ 0.78 * D) (hCD : C ≤ D) :
    (if b3 then -(qZ P2 P r b1 b2).v else (qZ P2 P r b1 b2).v).isFinite = true ∧
    |(if b3 then -(qZ P2 P r b1 b2).v else (qZ P2 P r b1 b2).v).real - Complex.arg ⟨x.real, y.real⟩| ≤ D ∧
    |(if b3 then -(qZ P2 P r b1 b2).v else (qZ P2 P r b1 b2).v).real - Complex.arg ⟨x.real, y.real⟩| ≤ D * |Complex.arg ⟨x.real, y.real⟩| + k := by
  have hxy' : x.real ≠ 0 ∨ y.real ≠ 0 := by
    unfold FP.real; exact hxy.imp (fun h => by exact_mod_cast h) (fun h => by exact_mod_cast h)
  rw [arg_quad hxy', ← e1, ← e2, ← e3]
  obtain ⟨q, hq⟩ : ∃ q : ℝ, (if |x.real| < |y.real| then |x.real| / |y.real| else |y.real| / |x.real|) = q := ⟨_, rfl⟩
  rw [hq] at hE hC ⊢
  have q01 : 0 ≤ q ∧ q ≤ 1 := by
    rw [← hq]
    split
    · rename_i hl
      exact ⟨by positivity, div_le_one_of_le₀ hl.le (abs_nonneg _)⟩
    · rename_i hl
      exact ⟨by positivity, div_le_one_of_le₀ (not_lt.1 hl) (abs_nonneg _)⟩
  have a0 := Real.arctan_nonneg.2 q01.1
  have a1 := arctan_le_quarter q01.2
  generalize Real.arctan q = a at *
  have E0 : 0 ≤ E := (abs_nonneg _).trans hE
  have c0' : (0 : ℝ) ≤ c := by exact_mod_cast c0
  have h0' : (0 : ℝ) ≤ h := by exact_mod_cast h0
  have s := quadrant_dir hm ok hh hc hf hs hr hE b1 b2 b3
  have s2 := quadrant_dir hm ok hh hc hf hs hr hC b1 b2 b3
  have l := quadR_lower a0 a1 b1 b2 b3
  refine ⟨s.1, ?_, ?_⟩
  · refine s.2.trans (le_trans ?_ hD)
    cases b1 <;> cases b2 <;> simp <;> linarith
  · have D0 : 0 ≤ D := by linarith
    have s := s.2
    have s2 := s2.2
    generalize (if b3 then -(qZ P2 P r b1 b2).v else (qZ P2 P r b1 b2).v).real = w at *
    cases hb2 : b2
    · cases hb1 : b1
      · have := s2
        rw [hb1, hb2] at this l
        rw [l.2.2 rfl rfl]
        simp only [Bool.false_eq_true, if_false, add_zero] at this
        refine this.trans (add_le_add (mul_le_mul_of_nonneg_right hCD a0) le_rfl)
      · have := s
        rw [hb1, hb2] at this l
        simp only [Bool.false_eq_true, if_false, if_true, add_zero] at this
        have m := mul_le_mul_of_nonneg_left (l.1 rfl) D0
        linarith
    · have := s
      rw [hb2] at this l
      have m := mul_le_mul_of_nonneg_left (l.2.1 rfl) D0
      refine this.trans ?_
      have : E + (if b1 = true then (c : ℝ) + 2 * h else 0) + (if true = true then 2 * (c : ℝ) + 4 * h else 0) ≤ D := by
        cases b1 <;> simp <;> linarith
      refine this.trans ?_
      linarith

/-! ## Double precision -/

theorem quotD64 : QuotD b64 (p2 (-53)) (lit 1) (lit (1 - p2 (-53))) where
  big := by decide +kernel
  o := by decide +kernel
  o1 := by decide +kernel
  zf := by decide +kernel
  z1 := by decide +kernel
  h0 := by decide +kernel
  h1 := by decide +kernel
  hu := by decide +kernel

theorem atanPos_le1 (hm : m.Dir) {x : F64} (hx : x.isFinite = true) (h0 : 0 ≤ x.real) :
    (atanPos (of x : Z m b64)).v.isFinite = true ∧
    |(atanPos (of x : Z m b64)).v.real - Real.arctan x.real| ≤ 6.4 * 2 ^ (-53 : ℤ) * Real.arctan x.real + 5 * (2 * b64.eta) := by
  have eta0 : (0 : ℝ) ≤ b64.eta := by exact_mod_cast b64.eta_pos.le
  rcases le_or_gt (2 ^ (-1000 : ℤ)) x.real with c | c
  · have := atanPos_dir hm hx c
    exact ⟨this.1, by linarith [this.2]⟩
  · obtain ⟨l1, l2, l3, l4, l5, l6⟩ := lit66
    have up : x.real ≤ 0.66 / 4 := c.le.trans (by
      refine (zpow_le_zpow_right₀ (by norm_num : (1 : ℝ) ≤ 2) (by norm_num : (-1000 : ℤ) ≤ -3)).trans ?_
      norm_num)
    have upv : x.val ≤ 0.165 := by
      have : x.real ≤ ((0.165 : ℚ) : ℝ) := up.trans (by norm_num)
      exact real_le_iff.1 this
    have A0 := Real.arctan_nonneg.2 h0
    unfold atanPos
    simp only [Mode.gt, Mode.le, hm.arg, of]
    rw [gt_fin hx l6, le_fin hx l3]
    have c2 : x.val ≤ (lit 0.66 : F64).val := by linarith
    have c1 : ¬ T3PO8.val < x.val := by linarith
    simp only [c1, c2, decide_false, decide_true, if_true]
    obtain ⟨s, t, hst, h1, h2⟩ := covers_spans atanSmallE_okD (a := 0) (b := 0.6601) (by decide +kernel) (x := x.real) (by push_cast; exact h0)
      (by push_cast; exact up.trans (by norm_num))
    have rn := okLinD_sound hm hst hx h1 h2
    rw [atanCoreE_real (.var 0) (.var 1) _ rfl, show (E.var 1 : E b64).evalR (fun _ => x.real) = x.real from rfl] at rn
    change (atanCoreZ (of x : Z m b64)).v.isFinite = true ∧ |(atanCoreZ (of x : Z m b64)).v.real - _| ≤ _ at rn
    have ap := atan_approx (z := x.real) (by rw [abs_of_nonneg h0]; exact up.trans (by norm_num))
    rw [abs_of_nonneg h0] at ap
    have lo := arctan_lower h0 (up.trans (by norm_num))
    have r2 := rn.2
    rw [abs_of_nonneg h0] at r2
    push_cast at r2
    have k := abs_sub_le (atanCoreZ (of x : Z m b64)).v.real (x.real * (pev atanNl (x.real * x.real) / pev atanQl (x.real * x.real))) (Real.arctan x.real)
    have r : |(atanCoreZ (of x : Z m b64)).v.real - Real.arctan x.real| ≤ 6.4 * 2 ^ (-53 : ℤ) * Real.arctan x.real + 5 * (2 * b64.eta) := by
      have u : (0 : ℝ) < 2 ^ (-53 : ℤ) := by positivity
      have lo' := mul_le_mul_of_nonneg_left lo u.le
      have x' := mul_nonneg u.le h0
      generalize (2 : ℝ) ^ (-53 : ℤ) = U at *
      norm_num at *
      nlinarith
    have z := (show (lit 0 : F64).isFinite = true ∧ (lit 0 : F64).val = 0 by decide +kernel)
    have e1 := eta64_le
    have up1 := arctan_abs_le x.real
    rw [abs_of_nonneg A0, abs_of_nonneg h0] at up1
    have bR : |(atanCoreZ (of x : Z m b64)).v.real| ≤ 1 := by
      have := abs_le.1 r
      norm_num at this up e1
      rw [abs_le]; constructor <;> nlinarith [this.1, this.2]
    have b1 : |(atanCoreZ (of x : Z m b64)).v.val| ≤ b64.big := by
      have h1 : |(atanCoreZ (of x : Z m b64)).v.val| ≤ 1 := by unfold FP.real at bR; exact_mod_cast bR
      exact h1.trans (by decide +kernel)
    obtain ⟨a1, a2⟩ := add_zero_dir hm rn.1 z.1 z.2 b1
    obtain ⟨b2, b3⟩ := add_zero_dir hm a1 z.1 z.2 (by rw [a2]; exact b1)
    refine ⟨b2, ?_⟩
    have e : (atanCoreZ (of x : Z m b64) + of (lit 0) + of (lit 0)).v.real = (atanCoreZ (of x : Z m b64)).v.real := by
      unfold FP.real; rw [b3, a2]
    refine (le_of_eq ?_).trans r
    exact congrArg (fun t => |t - Real.arctan x.real|) e

theorem one_dir64 (hm : m.Dir) : (of (lit 1) - of (ofBool false) : Z m b64).v.isFinite = true ∧ (of (lit 1) - of (ofBool false) : Z m b64).v.val = 1 := by
  have := sub_zero_dir hm (r := (of (lit 1) : Z m b64)) (o := of (ofBool false)) (show (lit 1 : F64).isFinite = true by decide +kernel)
    (show (ofBool false : F64).isFinite = true by decide +kernel) (show (ofBool false : F64).val = 0 by decide +kernel)
    (show |(lit 1 : F64).val| ≤ b64.big by decide +kernel)
  exact ⟨this.1, this.2.trans (show (lit 1 : F64).val = 1 by decide +kernel)⟩

theorem octZ_dir (hm : m.Dir) {y a b : F64} (ha : a.isFinite = true) (hb : b.isFinite = true) (sa : a.sign = false) (sb : b.sign = false)
    (le : b.val ≤ a.val) (a0 : a.val ≠ 0) (ab : a.val ≤ b64.big) (hy : FP.eq y (ofInt 0) = true → b.val = 0) :
    (octZ m y a b).v.isFinite = true ∧ -0.01 ≤ (octZ m y a b).v.val ∧ (octZ m y a b).v.val ≤ 0.8 ∧
    |(octZ m y a b).v.real - Real.arctan (b.real / a.real)| ≤ 6.04 * 2 ^ (-53 : ℤ) ∧
    |(octZ m y a b).v.real - Real.arctan (b.real / a.real)| ≤ 10.41 * 2 ^ (-53 : ℤ) * Real.arctan (b.real / a.real) + 14 * (b64.eta : ℝ) := by
  have eta0 : (0 : ℝ) ≤ b64.eta := by exact_mod_cast b64.eta_pos.le
  have ap : 0 < a.val := lt_of_le_of_ne (val_nonneg_of_sign sa) (Ne.symm a0)
  have z0v : (lit 0 : F64).val = 0 ∧ (lit 0 : F64).isFinite = true := by decide +kernel
  unfold octZ
  simp only [Mode.eq, hm.arg]
  by_cases hc : FP.eq y (ofInt 0) = true
  · rw [if_pos hc]
    have mz : b.real = 0 := by unfold FP.real; rw [hy hc]; norm_num
    rw [mz, zero_div, Real.arctan_zero]
    have l0 : (lit 0.0 : F64).isFinite = true ∧ (lit 0.0 : F64).val = 0 := by decide +kernel
    have lr : (of (lit 0.0) : Z m b64).v.real = 0 := by show (lit 0.0 : F64).real = 0; unfold FP.real; rw [l0.2]; norm_num
    rw [lr, sub_zero, abs_zero, mul_zero, zero_add]
    exact ⟨l0.1, by show -0.01 ≤ (lit 0.0 : F64).val; rw [l0.2]; norm_num, by show (lit 0.0 : F64).val ≤ 0.8; rw [l0.2]; norm_num, by positivity,
      mul_nonneg (by norm_num) eta0⟩
  · rw [if_neg hc]
    have e0 : FP.eq a (lit 0) = false := by rw [eq_fin ha z0v.2, z0v.1]; exact decide_eq_false a0
    rw [e0]
    obtain ⟨A1, A2⟩ := add_zero_dir hm (a := (of a : Z m b64)) (z := ofBool false) ha (by decide +kernel) (by decide +kernel)
      (by show |a.val| ≤ _; rw [abs_of_pos ap]; exact ab)
    obtain ⟨d1, d2, d3, d4, d5, d6, d7⟩ := quot_dir (a := a) quotD64 hm A1 A2 hb sb ap le
    obtain ⟨o1, o2⟩ := one_dir64 hm
    generalize (of (lit 1) - of (ofBool false) : Z m b64) = one at *
    generalize (of b / (of a + of (ofBool false)) : Z m b64) = t at *
    have t0 : 0 ≤ t.v.real := by unfold FP.real; exact_mod_cast d2
    have t1 : t.v.real ≤ 1 := by unfold FP.real; exact_mod_cast d3
    have acc := atanPos_le1 hm d1 t0
    rw [show (of t.v : Z m b64) = t from rfl] at acc
    have pb := pi_bounds
    have ph : Real.pi / 4 ≤ 0.7854 := by norm_num at pb ⊢; linarith [pb.2]
    have u : (b64.u : ℝ) = 2 ^ (-53 : ℤ) := by
      rw [show b64.u = p2 (-53) by decide +kernel, p2_eq]; push_cast; rfl
    have hh : ((p2 (-53) : ℚ) : ℝ) = 2 ^ (-53 : ℤ) := by rw [p2_eq]; push_cast; rfl
    rw [u] at d5
    rw [hh] at d4
    have k := oct_combine acc.2 t1 d4 d5 d6 d7 (by positivity) (by positivity) (by linarith) (by norm_num) ph
    have e1 := eta64_le
    have q4 := arctan_le_quarter d7
    have q0 := Real.arctan_nonneg.2 d6
    generalize Real.arctan (b.real / a.real) = q at *
    have vR : -0.01 ≤ (atanPos t).v.real ∧ (atanPos t).v.real ≤ 0.8 := by
      have k1 := abs_le.1 k.1
      norm_num at k1 e1 ph ⊢
      constructor <;> linarith [k1.1, k1.2]
    have v1 : -0.01 ≤ (atanPos t).v.val := by
      have : ((-0.01 : ℚ) : ℝ) ≤ (atanPos t).v.real := le_trans (by norm_num) vR.1
      exact le_real_iff.1 this
    have v2 : (atanPos t).v.val ≤ 0.8 := by
      have : (atanPos t).v.real ≤ ((0.8 : ℚ) : ℝ) := vR.2.trans (by norm_num)
      exact real_le_iff.1 this
    obtain ⟨w1, w2⟩ := mul_one_dir hm acc.1 o1 o2 (le_trans (by rw [abs_le]; constructor <;> linarith) quotD64.big)
    have wr : (atanPos t * one).v.real = (atanPos t).v.real := by unfold FP.real; rw [w2]
    rw [w2, wr]
    refine ⟨w1, v1, v2, k.1.trans ?_, k.2.trans ?_⟩
    · norm_num at e1 ⊢; linarith
    · have : (6.4 * 2 ^ (-53 : ℤ) + 2 * (2 * 2 ^ (-53 : ℤ)) + 2 * (6.4 * 2 ^ (-53 : ℤ)) * (2 * 2 ^ (-53 : ℤ)) : ℝ) * q ≤ 10.41 * 2 ^ (-53 : ℤ) * q :=
        mul_le_mul_of_nonneg_right (by norm_num) q0
      linarith

theorem atan2_ZD (hm : m.Dir) (y x : F64) : fast_atan2 m y x =
    if FP.lt y (ofInt 0) then
      -(qZ PIO2 PI (if FP.gt (FP.abs y) (FP.abs x) then octZ m y (FP.abs y) (FP.abs x) else octZ m y (FP.abs x) (FP.abs y))
        (FP.gt (FP.abs y) (FP.abs x)) (FP.lt x (ofInt 0))).v
    else (qZ PIO2 PI (if FP.gt (FP.abs y) (FP.abs x) then octZ m y (FP.abs y) (FP.abs x) else octZ m y (FP.abs x) (FP.abs y))
        (FP.gt (FP.abs y) (FP.abs x)) (FP.lt x (ofInt 0))).v := by
  have n1 : FP.ne (lit 1 : F64) (ofInt 0) = true := by decide +kernel
  have n0 : FP.ne (lit 0.0 : F64) (ofInt 0) = false := by decide +kernel
  unfold fast_atan2 octZ qZ
  simp only [Mode.gt, Mode.ne, Mode.lt, Mode.eq, hm.arg]
  cases h : FP.gt (FP.abs y) (FP.abs x)
  · simp only [Bool.false_eq_true, if_false, n0]
  · simp only [if_true, n1]

theorem atan2_dir (hm : m.Dir) (y x : F64) (hy : y.isFinite = true) (hx : x.isFinite = true) (h : x.val ≠ 0 ∨ y.val ≠ 0)
    (by' : |y.val| ≤ b64.big) (bx : |x.val| ≤ b64.big) :
    (fast_atan2 m y x).isFinite = true ∧
    |(fast_atan2 m y x).real - Complex.arg ⟨x.real, y.real⟩| ≤ 13.8 * 2 ^ (-53 : ℤ) ∧
    |(fast_atan2 m y x).real - Complex.arg ⟨x.real, y.real⟩| ≤ 13.8 * 2 ^ (-53 : ℤ) * |Complex.arg ⟨x.real, y.real⟩| + 14 * (b64.eta : ℝ) := by
  have i0 : (ofInt 0 : F64).isFinite = true ∧ (ofInt 0 : F64).val = 0 := by decide +kernel
  have ax : (FP.abs x).isFinite = true := by simpa using hx
  have ay : (FP.abs y).isFinite = true := by simpa using hy
  have hg := gt_abs_fin hx hy
  have eta0 : (0 : ℝ) ≤ b64.eta := by exact_mod_cast b64.eta_pos.le
  obtain ⟨r, hr, o1, o2, o3, o4, o5⟩ : ∃ r : Z m b64, (if FP.gt (FP.abs y) (FP.abs x) then octZ m y (FP.abs y) (FP.abs x) else octZ m y (FP.abs x) (FP.abs y)) = r ∧
      r.v.isFinite = true ∧ -0.01 ≤ r.v.val ∧ r.v.val ≤ 0.8 ∧
      |r.v.real - Real.arctan (if |x.real| < |y.real| then |x.real| / |y.real| else |y.real| / |x.real|)| ≤ 6.04 * 2 ^ (-53 : ℤ) ∧
      |r.v.real - Real.arctan (if |x.real| < |y.real| then |x.real| / |y.real| else |y.real| / |x.real|)| ≤ 10.41 * 2 ^ (-53 : ℤ) *
        Real.arctan (if |x.real| < |y.real| then |x.real| / |y.real| else |y.real| / |x.real|) + 14 * (b64.eta : ℝ) := by
    have hlt : |x.real| < |y.real| ↔ |x.val| < |y.val| := by
      rw [← real_abs', ← real_abs', ← val_abs, ← val_abs]; unfold FP.real; exact Rat.cast_lt
    rw [hg]
    by_cases hs : |x.real| < |y.real|
    · have hv := hlt.1 hs
      have k := octZ_dir hm (y := y) (b := FP.abs x) (a := FP.abs y) ay ax (by simp) (by simp) (by rw [val_abs, val_abs]; exact hv.le)
        (by rw [val_abs]; exact (lt_of_le_of_lt (abs_nonneg _) hv).ne') (by rw [val_abs]; exact by')
        (fun he => by
          rw [eq_fin hy i0.1, i0.2, decide_eq_true_eq] at he
          rw [he, abs_zero] at hv
          exact absurd hv (not_lt.2 (abs_nonneg _)))
      rw [real_abs', real_abs'] at k
      refine ⟨octZ m y (FP.abs y) (FP.abs x), by simp [hs], ?_⟩
      simp only [hs, if_true]
      exact k
    · have hv : |y.val| ≤ |x.val| := not_lt.1 (fun hc => hs (hlt.2 hc))
      have k := octZ_dir hm (y := y) (b := FP.abs y) (a := FP.abs x) ax ay (by simp) (by simp) (by rw [val_abs, val_abs]; exact hv)
        (by
          rw [val_abs]
          intro hc
          rw [hc] at hv
          rcases h with h | h
          · exact h (abs_eq_zero.1 hc)
          · exact h (abs_eq_zero.1 (le_antisymm hv (abs_nonneg _)))) (by rw [val_abs]; exact bx)
        (fun he => by
          rw [eq_fin hy i0.1, i0.2, decide_eq_true_eq] at he
          rw [val_abs, he, abs_zero])
      rw [real_abs', real_abs'] at k
      refine ⟨octZ m y (FP.abs x) (FP.abs y), by simp [hs], ?_⟩
      simp only [hs, if_false]
      exact k
  rw [atan2_ZD hm, hr]
  have u : ((p2 (-53) : ℚ) : ℝ) = 2 ^ (-53 : ℤ) := by rw [p2_eq]; push_cast; rfl
  exact plane_dir hm quad64 (by decide +kernel) pi2_const64 (by decide +kernel) (by decide +kernel) h hg (lt_zero_fin hx i0.1 i0.2) (lt_zero_fin hy i0.1 i0.2) o1 o2 o3 o4 o5
    (D := 13.8 * 2 ^ (-53 : ℤ)) (mul_nonneg (by norm_num) eta0) (by rw [Rat.cast_mul, u]; norm_num) (by rw [Rat.cast_mul, u]; norm_num) (by norm_num)

/-! ## Single precision -/

theorem quotD32 : QuotD b32 (p2 (-24)) (lit 1) (lit (1 - p2 (-24))) where
  big := by decide +kernel
  o := by decide +kernel
  o1 := by decide +kernel
  zf := by decide +kernel
  z1 := by decide +kernel
  h0 := by decide +kernel
  h1 := by decide +kernel
  hu := by decide +kernel

theorem atanfPoly_small (hm : m.Dir) {x : F32} (hx : x.isFinite = true) (h0 : 0 ≤ x.real) (h : x.real ≤ 0.4145) :
    (atanfPoly (of x : Z m b32)).v.isFinite = true ∧
    |(atanfPoly (of x : Z m b32)).v.real - Real.arctan x.real| ≤ 3.4 * 2 ^ (-24 : ℤ) * Real.arctan x.real + 5 * (2 * b32.eta) := by
  obtain ⟨s, t, hst, h1, h2⟩ := covers_spans atanfSmallE_okD (a := 0) (b := 0.4145) (by decide +kernel) (x := x.real) (by push_cast; exact h0)
    (by push_cast; exact h)
  have rn := okLinD_sound hm hst hx h1 h2
  rw [atanfCoreE_real (.var 0) (.var 1) _ rfl, show (E.var 1 : E b32).evalR (fun _ => x.real) = x.real from rfl] at rn
  change (atanfPoly (of x : Z m b32)).v.isFinite = true ∧ |(atanfPoly (of x : Z m b32)).v.real - _| ≤ _ at rn
  refine ⟨rn.1, ?_⟩
  have ap := atanf_approx (z := x.real) (by rw [abs_of_nonneg h0]; exact h)
  rw [abs_of_nonneg h0] at ap
  have lo := arctan_lower h0 (h.trans (by norm_num))
  have r2 := rn.2
  rw [abs_of_nonneg h0] at r2
  push_cast at r2
  have k := abs_sub_le (atanfPoly (of x : Z m b32)).v.real (x.real * (pev atanfNl (x.real * x.real) / pev [1] (x.real * x.real))) (Real.arctan x.real)
  have u : (0 : ℝ) < 2 ^ (-24 : ℤ) := by positivity
  have lo' := mul_le_mul_of_nonneg_left lo u.le
  have x' := mul_nonneg u.le h0
  generalize (2 : ℝ) ^ (-24 : ℤ) = U at *
  norm_num at *
  nlinarith

theorem atanfCoreMid_okD : covers (okAbsD b32 (atanfCoreE atanfMidR atanfMidR) (3 * 2 ^ (-24 : ℤ))) [207 / 500, 15 / 32, 1 / 2, 5 / 8, 3 / 4, 1] = true := by
  decide +kernel

theorem atanfPoly_mid (hm : m.Dir) {x : F32} (hx : x.isFinite = true) (h1 : 0.414 ≤ x.val) (h2 : x.val ≤ 1) :
    (atanfPoly ((of x - of (lit 1)) / (of x + of (lit 1)) : Z m b32)).v.isFinite = true ∧
    |(atanfPoly ((of x - of (lit 1)) / (of x + of (lit 1)) : Z m b32)).v.real - (Real.arctan x.real - Real.pi / 4)| ≤ 3.15 * 2 ^ (-24 : ℤ) := by
  have r1 := le_real_iff.2 h1
  have r2 := real_le_iff.2 h2
  obtain ⟨s, t, hst, g1, g2⟩ := covers_spans atanfCoreMid_okD (a := 0.414) (b := 1) (by decide +kernel) (x := x.real) r1 r2
  have rn := okAbsD_sound hm hst hx g1 g2
  push_cast at r1 r2
  have l1 : (lit 1 : F32).real = 1 := by
    have : (lit 1 : F32).val = 1 := by decide +kernel
    unfold FP.real; rw [this]; norm_num
  have ez : atanfMidR.evalR (fun _ => x.real) = (x.real - 1) / (x.real + 1) := by
    have : atanfMidR.evalR (fun _ => x.real) = (x.real - (lit 1 : F32).real) / (x.real + (lit 1 : F32).real) := rfl
    rw [this, l1]
  rw [atanfCoreE_real _ _ _ rfl, ez] at rn
  change (atanfPoly ((of x - of (lit 1)) / (of x + of (lit 1)) : Z m b32)).v.isFinite = true ∧
    |(atanfPoly ((of x - of (lit 1)) / (of x + of (lit 1)) : Z m b32)).v.real - _| ≤ _ at rn
  have zb := (z_mid r1 (r2.trans (by norm_num))).1
  have ap := atanf_approx (z := (x.real - 1) / (x.real + 1)) (zb.trans (by norm_num))
  have am := arctan_mid (x := x.real) (by linarith)
  refine ⟨rn.1, ?_⟩
  have e : Real.arctan x.real - Real.pi / 4 = Real.arctan ((x.real - 1) / (x.real + 1)) := by rw [am]; ring
  rw [e]
  generalize (x.real - 1) / (x.real + 1) = z at *
  have := mul_le_mul_of_nonneg_left zb (show (0 : ℝ) ≤ 0.36 * 2 ^ (-24 : ℤ) by positivity)
  have r2 := rn.2
  push_cast at r2
  refine (abs_sub_le _ _ _).trans ((add_le_add r2 (ap.trans this)).trans ?_)
  norm_num

theorem one_dir32 (hm : m.Dir) : (of (lit 1) - of (ofBool false) : Z m b32).v.isFinite = true ∧ (of (lit 1) - of (ofBool false) : Z m b32).v.val = 1 := by
  have := sub_zero_dir hm (r := (of (lit 1) : Z m b32)) (o := of (ofBool false)) (show (lit 1 : F32).isFinite = true by decide +kernel)
    (show (ofBool false : F32).isFinite = true by decide +kernel) (show (ofBool false : F32).val = 0 by decide +kernel)
    (show |(lit 1 : F32).val| ≤ b32.big by decide +kernel)
  exact ⟨this.1, this.2.trans (show (lit 1 : F32).val = 1 by decide +kernel)⟩

theorem octfZ_dir (hm : m.Dir) {y a b : F32} (ha : a.isFinite = true) (hb : b.isFinite = true) (sa : a.sign = false) (sb : b.sign = false)
    (le : b.val ≤ a.val) (a0 : a.val ≠ 0) (hy : FP.eq y (lit 0) = true → b.val = 0) :
    (octfZ m y a b).v.isFinite = true ∧ -0.01 ≤ (octfZ m y a b).v.val ∧ (octfZ m y a b).v.val ≤ 0.8 ∧
    |(octfZ m y a b).v.real - Real.arctan (b.real / a.real)| ≤ 5.6 * 2 ^ (-24 : ℤ) ∧
    |(octfZ m y a b).v.real - Real.arctan (b.real / a.real)| ≤ 15.8 * 2 ^ (-24 : ℤ) * Real.arctan (b.real / a.real) + 14 * (b32.eta : ℝ) := by
  have eta0 : (0 : ℝ) ≤ b32.eta := by exact_mod_cast b32.eta_pos.le
  have ap : 0 < a.val := lt_of_le_of_ne (val_nonneg_of_sign sa) (Ne.symm a0)
  have z0v : (lit 0 : F32).val = 0 ∧ (lit 0 : F32).isFinite = true := by decide +kernel
  obtain ⟨l1, l2, l3, -⟩ := litf_bounds
  obtain ⟨d1, d2, d3, d4, d5, d6, d7⟩ := quot_dir (a := a) quotD32 hm (A := of a) ha rfl hb sb ap le
  have e0 : FP.eq a (lit 0) = false := by rw [eq_fin ha z0v.2, z0v.1]; exact decide_eq_false a0
  unfold octfZ
  simp only [Mode.eq, Mode.gt, hm.arg]
  rw [e0]
  obtain ⟨o1, o2⟩ := one_dir32 hm
  generalize (of (lit 1) - of (ofBool false) : Z m b32) = one at *
  have tz : b.val = 0 → (of b / of a : Z m b32).v.val = 0 := by
    intro hc
    have d4' := d5
    have mz : b.real = 0 := by unfold FP.real; rw [hc]; norm_num
    have t := div_dir hm (a := (of b : Z m b32)) (b := of a) hb ha a0 (by show |b.val / a.val| ≤ _; rw [hc, zero_div, abs_zero]; exact b32.big_pos.le)
    have e : (of b : Z m b32).v.val / (of a : Z m b32).v.val = 0 := by show b.val / a.val = 0; rw [hc, zero_div]
    rw [e] at t
    exact t.exactQ ⟨0, b32.emin - b32.mb, by simp, by simp, le_rfl⟩ (by rw [abs_zero]; exact b32.big_pos.le)
  generalize (of b / of a : Z m b32) = t at *
  rw [gt_fin d1 l3]
  have t0 : 0 ≤ t.v.real := by unfold FP.real; exact_mod_cast d2
  have t1 : t.v.real ≤ 1 := by unfold FP.real; exact_mod_cast d3
  have pb := pi_bounds
  have ph : Real.pi / 4 ≤ 0.7854 := by norm_num at pb ⊢; linarith [pb.2]
  have u : (b32.u : ℝ) = 2 ^ (-24 : ℤ) := by
    rw [show b32.u = p2 (-24) by decide +kernel, p2_eq]; push_cast; rfl
  have hh : ((p2 (-24) : ℚ) : ℝ) = 2 ^ (-24 : ℤ) := by rw [p2_eq]; push_cast; rfl
  rw [u] at d5
  rw [hh] at d4
  have e1 := eta32_le
  have q4 := arctan_le_quarter d7
  have q0 := Real.arctan_nonneg.2 d6
  by_cases hc : FP.eq y (lit 0) = true
  · have tv := tz (hy hc)
    have nb : ¬ (lit 0.4142135623730950 : F32).val < t.v.val := by rw [tv]; linarith
    have mz : b.real = 0 := by unfold FP.real; rw [hy hc]; norm_num
    rw [if_pos hc, mz, zero_div, Real.arctan_zero]
    simp only [nb, decide_false, Bool.false_eq_true, if_false]
    have lr : (of (lit 0) : Z m b32).v.real = 0 := by show (lit 0 : F32).real = 0; unfold FP.real; rw [z0v.1]; norm_num
    rw [lr, sub_zero, abs_zero, mul_zero, zero_add]
    exact ⟨z0v.2, by show -0.01 ≤ (lit 0 : F32).val; rw [z0v.1]; norm_num, by show (lit 0 : F32).val ≤ 0.8; rw [z0v.1]; norm_num, by positivity,
      mul_nonneg (by norm_num) eta0⟩
  · rw [if_neg hc]
    by_cases c : (lit 0.4142135623730950 : F32).val < t.v.val
    · simp only [c, decide_true, if_true]
      have acc := atanfPoly_mid hm d1 (by linarith) d3
      rw [show (of t.v : Z m b32) = t from rfl] at acc
      have tl : 0.414 ≤ t.v.real := by
        have := le_real_iff.2 (show (0.414 : ℚ) ≤ t.v.val by linarith); push_cast at this; exact this
      have al := arctan_lower (x := 0.414) (by norm_num) (by norm_num)
      have at1 := al.trans (Real.arctan_strictMono.monotone tl)
      have at2 := arctan_le_quarter t1
      generalize atanfPoly ((t - of (lit 1)) / (t + of (lit 1))) = w at *
      have wR : |w.v.real| ≤ 0.5 := by
        have k1 := abs_le.1 acc.2
        rw [abs_le]
        norm_num at k1 at1 pb ph ⊢
        constructor <;> linarith [k1.1, k1.2, pb.1]
      have wv : |w.v.val| ≤ 0.5 := by
        have : |w.v.real| ≤ ((0.5 : ℚ) : ℝ) := wR.trans (by norm_num)
        rw [real_abs] at this
        exact_mod_cast this
      obtain ⟨w1, w2⟩ := mul_one_dir hm acc.1 o1 o2 (wv.trans (by decide +kernel))
      have pi4 : PIO4F.isFinite = true ∧ 0.785 ≤ PIO4F.val ∧ PIO4F.val ≤ 0.786 := by decide +kernel
      have hw := abs_le.1 wv
      have s := add_dir hm (a := w * one) (b := of PIO4F) w1 pi4.1 (by
        rw [w2]
        show |w.v.val + PIO4F.val| ≤ _
        refine le_trans (b := 2) ?_ (by decide +kernel)
        rw [abs_le]; constructor <;> linarith [hw.1, hw.2, pi4.2.1, pi4.2.2])
      rw [w2] at s
      change Faithful (w * one + of PIO4F : Z m b32).v ((w.v.val + PIO4F.val : ℚ) : ℝ) at s
      have wu : w.v.val + PIO4F.val ≤ 0.9 := by
        have k1 := abs_le.1 acc.2
        have pc := abs_le.1 pi4f_const
        have : (w.v.val + PIO4F.val : ℝ) ≤ 0.9 := by
          show w.v.real + PIO4F.real ≤ 0.9
          norm_num at k1 pc ph ⊢
          linarith [k1.2, pc.2]
        have h2 : ((w.v.val + PIO4F.val : ℚ) : ℝ) ≤ ((0.9 : ℚ) : ℝ) := by push_cast; exact this.trans (by norm_num)
        exact Rat.cast_le.1 h2
      have er := s.err (M := 0.9) (by rw [abs_le]; constructor <;> linarith [hw.1, hw.2, pi4.2.1, pi4.2.2]) (by decide +kernel)
      have er2 := (Rat.cast_le (K := ℝ)).2 (er.trans (show 2 * hulp b32 0.9 ≤ p2 (-24) by decide +kernel))
      rw [hh] at er2
      push_cast at er2
      have pc := pi4f_const
      have main : |(w * one + of PIO4F : Z m b32).v.real - Real.arctan t.v.real| ≤ 4.52 * 2 ^ (-24 : ℤ) := by
        have e : (w * one + of PIO4F : Z m b32).v.real - Real.arctan t.v.real =
          ((w * one + of PIO4F : Z m b32).v.real - (w.v.real + PIO4F.real)) + ((w.v.real - (Real.arctan t.v.real - Real.pi / 4)) + (PIO4F.real - Real.pi / 4)) := by ring
        rw [e]
        refine (abs_add_le _ _).trans ((add_le_add er2 ((abs_add_le _ _).trans (add_le_add acc.2 pc))).trans ?_)
        norm_num
      generalize (w * one + of PIO4F : Z m b32) = r at *
      have lip := arctan_lip t.v.real (b.real / a.real)
      generalize Real.arctan (b.real / a.real) = q at *
      generalize Real.arctan t.v.real = A at *
      have E : |r.v.real - q| ≤ 5.6 * 2 ^ (-24 : ℤ) := by
        refine (abs_sub_le _ A _).trans ((add_le_add main (lip.trans d4)).trans ?_)
        norm_num
      have ql : 0.3643 ≤ q := by
        have k2 := abs_le.1 (lip.trans d4)
        norm_num at k2 at1 ⊢
        linarith [k2.1, k2.2]
      refine ⟨s.1, ?_, ?_, E, E.trans ?_⟩
      · have k1 := abs_le.1 E
        have : ((-0.01 : ℚ) : ℝ) ≤ r.v.real := by norm_num at k1 ql ⊢; linarith [k1.1]
        exact le_real_iff.1 this
      · have k1 := abs_le.1 E
        have : r.v.real ≤ ((0.8 : ℚ) : ℝ) := by norm_num at k1 ph ⊢; linarith [k1.2]
        exact real_le_iff.1 this
      · have m1 := mul_le_mul_of_nonneg_left ql (show (0 : ℝ) ≤ 15.8 * 2 ^ (-24 : ℤ) by positivity)
        refine le_trans ?_ (add_le_add m1 (mul_nonneg (by norm_num) eta0))
        norm_num
    · simp only [c, decide_false, Bool.false_eq_true, if_false]
      have tu : t.v.real ≤ 0.4145 := by
        have := real_le_iff.2 (show t.v.val ≤ 0.4145 by linarith [not_lt.1 c]); push_cast at this; exact this
      have acc := atanfPoly_small hm d1 t0 tu
      rw [show (of t.v : Z m b32) = t from rfl] at acc
      have k := oct_combine acc.2 t1 d4 d5 d6 d7 (by positivity) (by positivity) (by linarith) (by norm_num) ph
      generalize Real.arctan (b.real / a.real) = q at *
      have vR : -0.01 ≤ (atanfPoly t).v.real ∧ (atanfPoly t).v.real ≤ 0.8 := by
        have k1 := abs_le.1 k.1
        norm_num at k1 e1 ph ⊢
        constructor <;> linarith [k1.1, k1.2]
      have v1 : -0.01 ≤ (atanfPoly t).v.val := by
        have : ((-0.01 : ℚ) : ℝ) ≤ (atanfPoly t).v.real := le_trans (by norm_num) vR.1
        exact le_real_iff.1 this
      have v2 : (atanfPoly t).v.val ≤ 0.8 := by
        have : (atanfPoly t).v.real ≤ ((0.8 : ℚ) : ℝ) := vR.2.trans (by norm_num)
        exact real_le_iff.1 this
      obtain ⟨w1, w2⟩ := mul_one_dir hm acc.1 o1 o2 (le_trans (by rw [abs_le]; constructor <;> linarith) quotD32.big)
      have wr : (atanfPoly t * one).v.real = (atanfPoly t).v.real := by unfold FP.real; rw [w2]
      rw [w2, wr]
      refine ⟨w1, v1, v2, k.1.trans ?_, k.2.trans ?_⟩
      · norm_num at e1 ⊢; linarith
      · have : (3.4 * 2 ^ (-24 : ℤ) + 2 * (2 * 2 ^ (-24 : ℤ)) + 2 * (3.4 * 2 ^ (-24 : ℤ)) * (2 * 2 ^ (-24 : ℤ)) : ℝ) * q ≤ 15.8 * 2 ^ (-24 : ℤ) * q :=
          mul_le_mul_of_nonneg_right (by norm_num) q0
        linarith

theorem atan2f_ZD (hm : m.Dir) (y x : F32) : fast_atan2f m y x =
    if FP.lt y (lit 0) then
      -(qZ PIO2F PIF (if FP.gt (FP.abs y) (FP.abs x) then octfZ m y (FP.abs y) (FP.abs x) else octfZ m y (FP.abs x) (FP.abs y))
        (FP.gt (FP.abs y) (FP.abs x)) (FP.lt x (lit 0))).v
    else (qZ PIO2F PIF (if FP.gt (FP.abs y) (FP.abs x) then octfZ m y (FP.abs y) (FP.abs x) else octfZ m y (FP.abs x) (FP.abs y))
        (FP.gt (FP.abs y) (FP.abs x)) (FP.lt x (lit 0))).v := by
  have n1 : FP.ne (lit 1 : F32) (ofInt 0) = true := by decide +kernel
  have n0 : FP.ne (lit 0.0 : F32) (ofInt 0) = false := by decide +kernel
  unfold fast_atan2f octfZ qZ
  simp only [Mode.gt, Mode.ne, Mode.lt, Mode.eq, hm.arg]
  cases h : FP.gt (FP.abs y) (FP.abs x)
  · simp only [Bool.false_eq_true, if_false, n0]
  · simp only [if_true, n1]

theorem atan2f_dir (hm : m.Dir) (y x : F32) (hy : y.isFinite = true) (hx : x.isFinite = true) (h : x.val ≠ 0 ∨ y.val ≠ 0) :
    (fast_atan2f m y x).isFinite = true ∧
    |(fast_atan2f m y x).real - Complex.arg ⟨x.real, y.real⟩| ≤ 15.8 * 2 ^ (-24 : ℤ) ∧
    |(fast_atan2f m y x).real - Complex.arg ⟨x.real, y.real⟩| ≤ 15.8 * 2 ^ (-24 : ℤ) * |Complex.arg ⟨x.real, y.real⟩| + 14 * (b32.eta : ℝ) := by
  have i0 : (lit 0 : F32).isFinite = true ∧ (lit 0 : F32).val = 0 := by decide +kernel
  have ax : (FP.abs x).isFinite = true := by simpa using hx
  have ay : (FP.abs y).isFinite = true := by simpa using hy
  have hg := gt_abs_fin hx hy
  have eta0 : (0 : ℝ) ≤ b32.eta := by exact_mod_cast b32.eta_pos.le
  obtain ⟨r, hr, o1, o2, o3, o4, o5⟩ : ∃ r : Z m b32, (if FP.gt (FP.abs y) (FP.abs x) then octfZ m y (FP.abs y) (FP.abs x) else octfZ m y (FP.abs x) (FP.abs y)) = r ∧
      r.v.isFinite = true ∧ -0.01 ≤ r.v.val ∧ r.v.val ≤ 0.8 ∧
      |r.v.real - Real.arctan (if |x.real| < |y.real| then |x.real| / |y.real| else |y.real| / |x.real|)| ≤ 5.6 * 2 ^ (-24 : ℤ) ∧
      |r.v.real - Real.arctan (if |x.real| < |y.real| then |x.real| / |y.real| else |y.real| / |x.real|)| ≤ 15.8 * 2 ^ (-24 : ℤ) *
        Real.arctan (if |x.real| < |y.real| then |x.real| / |y.real| else |y.real| / |x.real|) + 14 * (b32.eta : ℝ) := by
    have hlt : |x.real| < |y.real| ↔ |x.val| < |y.val| := by
      rw [← real_abs', ← real_abs', ← val_abs, ← val_abs]; unfold FP.real; exact Rat.cast_lt
    rw [hg]
    by_cases hs : |x.real| < |y.real|
    · have hv := hlt.1 hs
      have k := octfZ_dir hm (y := y) (b := FP.abs x) (a := FP.abs y) ay ax (by simp) (by simp) (by rw [val_abs, val_abs]; exact hv.le)
        (by rw [val_abs]; exact (lt_of_le_of_lt (abs_nonneg _) hv).ne')
        (fun he => by
          rw [eq_fin hy i0.1, i0.2, decide_eq_true_eq] at he
          rw [he, abs_zero] at hv
          exact absurd hv (not_lt.2 (abs_nonneg _)))
      rw [real_abs', real_abs'] at k
      refine ⟨octfZ m y (FP.abs y) (FP.abs x), by simp [hs], ?_⟩
      simp only [hs, if_true]
      exact k
    · have hv : |y.val| ≤ |x.val| := not_lt.1 (fun hc => hs (hlt.2 hc))
      have k := octfZ_dir hm (y := y) (b := FP.abs y) (a := FP.abs x) ax ay (by simp) (by simp) (by rw [val_abs, val_abs]; exact hv)
        (by
          rw [val_abs]
          intro hc
          rw [hc] at hv
          rcases h with h | h
          · exact h (abs_eq_zero.1 hc)
          · exact h (abs_eq_zero.1 (le_antisymm hv (abs_nonneg _))))
        (fun he => by
          rw [eq_fin hy i0.1, i0.2, decide_eq_true_eq] at he
          rw [val_abs, he, abs_zero])
      rw [real_abs', real_abs'] at k
      refine ⟨octfZ m y (FP.abs x) (FP.abs y), by simp [hs], ?_⟩
      simp only [hs, if_false]
      exact k
  rw [atan2f_ZD hm, hr]
  have u : ((p2 (-24) : ℚ) : ℝ) = 2 ^ (-24 : ℤ) := by rw [p2_eq]; push_cast; rfl
  exact plane_dir hm quad32 (by decide +kernel) pi2_const32 (by decide +kernel) (by decide +kernel) h hg (lt_zero_fin hx i0.1 i0.2) (lt_zero_fin hy i0.1 i0.2) o1 o2 o3 o4 o5
    (D := 15.8 * 2 ^ (-24 : ℤ)) (mul_nonneg (by norm_num) eta0) (by rw [Rat.cast_mul, u]; norm_num) (by rw [Rat.cast_mul, u]; norm_num) (by norm_num)

end Vdt.Flush
