import Verif.Lemmas.FlushTrig
import Verif.Lemmas.AtanAcc
import Verif.Lemmas.AtanfPos

/-! # The arc tangent when small numbers are flushed to zero -/

namespace Vdt.Flush
open FP details
variable {f : Fmt} {m : Mode}

/-- A number around 1 is 1 or not too close to it. -/
theorem near_one [f.Ok] {x : FP f} {j : ℤ} (h : p2 j ≤ x.val) (hj : j - f.mb ≤ 0) :
    x.val ≤ 1 - p2 (j - f.mb) ∨ x.val = 1 ∨ 1 + p2 (j - f.mb) ≤ x.val := by
  have g0 := p2_pos (j - f.mb)
  obtain ⟨n, hn⟩ := mult_of_ge (x := x) (h.trans (le_abs_self _))
  have e : (1 : ℚ) = ((2 ^ (-(j - f.mb)).toNat : ℤ) : ℚ) * p2 (j - f.mb) := by
    rw [Int.cast_pow, Int.cast_ofNat, ← p2_nat, ← p2_add, show ((-(j - f.mb)).toNat : ℤ) + (j - f.mb) = 0 by omega, p2_eq, zpow_zero]
  generalize (2 ^ (-(j - f.mb)).toNat : ℤ) = N at e
  rw [hn, e]
  rcases lt_trichotomy n N with c | c | c
  · left
    have : (n : ℚ) ≤ N - 1 := by exact_mod_cast (by omega : n ≤ N - 1)
    nlinarith
  · right; left; rw [c]
  · right; right
    have : (N : ℚ) + 1 ≤ n := by exact_mod_cast (by omega : N + 1 ≤ n)
    nlinarith

/-- An interval of positive numbers. -/
def part (f : Fmt) (s t : ℚ) : Az := ⟨s, t, f.emin - f.mb, none⟩

theorem sound_part [f.Ok] {x : FP f} {s t : ℚ} (hx : x.isFinite = true) (h1 : s ≤ x.val) (h2 : x.val ≤ t) : (part f s t).Sound x x := by
  obtain ⟨B, hB⟩ : ∃ B, B = |x.val| := ⟨_, rfl⟩
  exact ⟨hx, hx, h1, h2, h1, h2, (sound_upTo hx hB.ge).gv, rfl⟩

/-! ## Double precision -/

/-- include/atan.h:93-122 for small arguments -/
def atanSmallE : E b64 := ((atanCoreE (.var 0) (.var 0)).add (.const (lit 0))).add (.const (lit 0))

def atanCuts64 : List ℚ := [tiny b64, p2 (-900), p2 (-300), p2 (-150), p2 (-70), p2 (-30), p2 (-12), 1 / 16, 1 / 4, 661 / 1000]

theorem atan_an : covers (okZ atanSmallE) atanCuts64 = true ∧ spans atanCuts64 (tiny b64) (661 / 1000) = true ∧
    (anZ b64 (fun _ => some (grid_ 0 0)) atanSmallE).any (fun r => r.t.isNone) = true := by decide +kernel
theorem atan_mid_an : [part b64 (64 / 100) (1 - p2 (-53)), part b64 (1 + p2 (-53)) (25 / 10), part b64 1 1].all (fun a =>
    (anZ b64 (fun _ => some a) atanMidE).any (fun r => r.t.isNone)) = true := by decide +kernel
theorem atan_big_an : [part b64 (24 / 10) (p2 100), part b64 (p2 100) (2 * b64.big)].all (fun a =>
    (anZ b64 (fun _ => some a) atanBigE).any (fun r => r.t.isNone)) = true := by decide +kernel

theorem atanPos_same (hm : m.Ok) {x : F64} (hx : x.isFinite = true) (k : Keep x) (h0 : 0 ≤ x.val) :
    (atanPos (of x) : Z m b64).v = details.atanPos x := by
  have cs : T3PO8.isFinite = true ∧ 24 / 10 ≤ T3PO8.val ∧ T3PO8.val ≤ 25 / 10 ∧ p2 b64.emin ≤ |T3PO8.val| ∧ (lit 0.66 : F64).isFinite = true ∧
    65 / 100 ≤ (lit 0.66 : F64).val ∧ (lit 0.66 : F64).val ≤ 661 / 1000 ∧ p2 b64.emin ≤ |(lit 0.66 : F64).val| := by decide +kernel
  obtain ⟨c1, c2, c3, c4, c5, c6, c7, c8⟩ := cs
  have g1 : m.gt x T3PO8 = FP.gt x T3PO8 := by unfold Mode.gt; rw [k.arg hm, arg_normal hm c4]
  have g2 : m.le x (lit 0.66) = FP.le x (lit 0.66) := by unfold Mode.le; rw [k.arg hm, arg_normal hm c8]
  have l1 := gt_fin hx c1
  have l2 := le_fin hx c5
  have hb := finite_le_big hx
  rw [abs_of_nonneg h0] at hb
  unfold atanPos details.atanPos atanReduce
  simp only [show (of x : Z m b64).v = x from rfl]
  rw [g1, g2]
  generalize FP.gt x T3PO8 = a at *
  generalize FP.le x (lit 0.66) = b at *
  cases b
  · rw [eq_comm, decide_eq_false_iff_not, not_le] at l2
    cases a
    · rw [eq_comm, decide_eq_false_iff_not, not_lt] at l1
      simp only [Bool.false_eq_true, if_false]
      have t : (evalZ m (fun _ => x) atanMidE).v = atanMidE.evalF (fun _ => x) := by
        have an := atan_mid_an
        rw [List.all_cons, List.all_cons, List.all_cons, Bool.and_eq_true, Bool.and_eq_true, Bool.and_eq_true] at an
        obtain ⟨a1, a2, a3, -⟩ := an
        have n := near_one (x := x) (j := -1) (by rw [show p2 (-1) = 1 / 2 by decide +kernel]; linarith) (by decide)
        rw [show (-1 : ℤ) - (b64.mb : ℤ) = -53 by decide] at n
        rcases n with n | n | n
        · exact anZ_same hm (env1 (sound_part hx (by linarith) n)) a1
        · exact anZ_same hm (env1 (sound_part hx n.ge n.le)) a3
        · exact anZ_same hm (env1 (sound_part hx n (by linarith))) a2
      exact t
    · rw [eq_comm, decide_eq_true_eq] at l1
      simp only [Bool.false_eq_true, if_false, if_true]
      have t : (evalZ m (fun _ => x) atanBigE).v = atanBigE.evalF (fun _ => x) := by
        have an := atan_big_an
        rw [List.all_cons, List.all_cons, Bool.and_eq_true, Bool.and_eq_true] at an
        obtain ⟨a1, a2, -⟩ := an
        rcases le_total x.val (p2 100) with n | n
        · exact anZ_same hm (env1 (sound_part hx (by linarith) n)) a1
        · exact anZ_same hm (env1 (sound_part hx n hb)) a2
      exact t
  · rw [eq_comm, decide_eq_true_eq] at l2
    simp only [if_true]
    have t := core_same hm atan_an.1 atan_an.2.1 atan_an.2.2 hx k (by rw [abs_of_nonneg h0]; linarith)
    exact t

theorem atan_same (hm : m.Ok) {x : F64} (hx : x.isFinite = true) (k : Keep x) : fast_atan m x = Vdt.fast_atan x := by
  unfold fast_atan Vdt.fast_atan
  dsimp only
  rw [atanPos_same hm (x := FP.abs x) hx k.abs (by rw [val_abs]; exact abs_nonneg _)]

/-! ## Single precision -/

/-- include/atan.h:137-154 for small arguments -/
def atanfSmallE : E b32 := (E.const (lit 0)).add (atanfCoreE (.var 0) (.var 0))

def atanCuts32 : List ℚ := [tiny b32, p2 (-99), p2 (-39), p2 (-15), p2 (-6), 1 / 4, 415 / 1000]

theorem atanf_an : covers (okZ atanfSmallE) atanCuts32 = true ∧ spans atanCuts32 (tiny b32) (415 / 1000) = true ∧
    (anZ b32 (fun _ => some (grid_ 0 0)) atanfSmallE).any (fun r => r.t.isNone) = true := by decide +kernel
theorem atanf_mid_an : [part b32 (4 / 10) (1 - p2 (-25)), part b32 (1 + p2 (-25)) (25 / 10), part b32 1 1].all (fun a =>
    (anZ b32 (fun _ => some a) atanfMidE).any (fun r => r.t.isNone)) = true := by decide +kernel
theorem atanf_big_an : [part b32 (24 / 10) (p2 20), part b32 (p2 20) (p2 50), part b32 (p2 50) (2 * b32.big)].all (fun a =>
    (anZ b32 (fun _ => some a) atanfBigE).any (fun r => r.t.isNone)) = true := by decide +kernel

/-- include/atan.h:137-154 -/
def atanfPos (m : Mode) (x0 : Z m b32) : Z m b32 :=
  let c1 := m.gt x0.v (lit 0.4142135623730950)
  let c2 := m.gt x0.v (lit 2.414213562373095)
  let x := if c1 then (x0 - of (lit 1)) / (x0 + of (lit 1)) else x0
  let y := if c1 then PIO4F else lit 0
  let x := if c2 then (of (lit 1) / x0).map fun r => -r else x
  let y := if c2 then PIO2F else y
  of y + atanfPoly x

theorem atanfPos_same (hm : m.Ok) {x : F32} (hx : x.isFinite = true) (k : Keep x) (h0 : 0 ≤ x.val) :
    (atanfPos m (of x)).v = details.atanfPos x := by
  have cs : (lit 0.4142135623730950 : F32).isFinite = true ∧ 41 / 100 ≤ (lit 0.4142135623730950 : F32).val ∧
    (lit 0.4142135623730950 : F32).val ≤ 415 / 1000 ∧ p2 b32.emin ≤ |(lit 0.4142135623730950 : F32).val| ∧
    (lit 2.414213562373095 : F32).isFinite = true ∧ 24 / 10 ≤ (lit 2.414213562373095 : F32).val ∧ (lit 2.414213562373095 : F32).val ≤ 25 / 10 ∧
    p2 b32.emin ≤ |(lit 2.414213562373095 : F32).val| := by decide +kernel
  obtain ⟨c1, c2, c3, c4, c5, c6, c7, c8⟩ := cs
  have g1 : m.gt x (lit 0.4142135623730950) = FP.gt x (lit 0.4142135623730950) := by unfold Mode.gt; rw [k.arg hm, arg_normal hm c4]
  have g2 : m.gt x (lit 2.414213562373095) = FP.gt x (lit 2.414213562373095) := by unfold Mode.gt; rw [k.arg hm, arg_normal hm c8]
  have l1 := gt_fin hx c1
  have l2 := gt_fin hx c5
  have hb := finite_le_big hx
  rw [abs_of_nonneg h0] at hb
  unfold atanfPos details.atanfPos atanfReduce
  simp only [show (of x : Z m b32).v = x from rfl]
  rw [g1, g2]
  generalize FP.gt x (lit 0.4142135623730950) = a at *
  generalize FP.gt x (lit 2.414213562373095) = b at *
  cases b
  · rw [eq_comm, decide_eq_false_iff_not, not_lt] at l2
    cases a
    · rw [eq_comm, decide_eq_false_iff_not, not_lt] at l1
      simp only [Bool.false_eq_true, if_false]
      have t := core_same hm atanf_an.1 atanf_an.2.1 atanf_an.2.2 hx k (by rw [abs_of_nonneg h0]; linarith)
      exact t
    · rw [eq_comm, decide_eq_true_eq] at l1
      simp only [Bool.false_eq_true, if_false, if_true]
      have t : (evalZ m (fun _ => x) atanfMidE).v = atanfMidE.evalF (fun _ => x) := by
        have an := atanf_mid_an
        rw [List.all_cons, List.all_cons, List.all_cons, Bool.and_eq_true, Bool.and_eq_true, Bool.and_eq_true] at an
        obtain ⟨a1, a2, a3, -⟩ := an
        have n := near_one (x := x) (j := -2) (by rw [show p2 (-2) = 1 / 4 by decide +kernel]; linarith) (by decide)
        rw [show (-2 : ℤ) - (b32.mb : ℤ) = -25 by decide] at n
        rcases n with n | n | n
        · exact anZ_same hm (env1 (sound_part hx (by linarith) n)) a1
        · exact anZ_same hm (env1 (sound_part hx n.ge n.le)) a3
        · exact anZ_same hm (env1 (sound_part hx n (by linarith))) a2
      exact t
  · rw [eq_comm, decide_eq_true_eq] at l2
    simp only [if_true]
    have t : (evalZ m (fun _ => x) atanfBigE).v = atanfBigE.evalF (fun _ => x) := by
      have an := atanf_big_an
      rw [List.all_cons, List.all_cons, List.all_cons, Bool.and_eq_true, Bool.and_eq_true, Bool.and_eq_true] at an
      obtain ⟨a1, a2, a3, -⟩ := an
      rcases le_total x.val (p2 20) with n | n
      · exact anZ_same hm (env1 (sound_part hx (by linarith) n)) a1
      rcases le_total x.val (p2 50) with n' | n'
      · exact anZ_same hm (env1 (sound_part hx n n')) a2
      · exact anZ_same hm (env1 (sound_part hx n' hb)) a3
    cases a
    · exact t
    · exact t

theorem atanf_same (hm : m.Ok) {x : F32} (hx : x.isFinite = true) (k : Keep x) : fast_atanf m x = Vdt.fast_atanf x := by
  have t := atanfPos_same hm (x := FP.abs x) hx k.abs (by rw [val_abs]; exact abs_nonneg _)
  unfold atanfPos at t
  unfold fast_atanf Vdt.fast_atanf
  dsimp only at t ⊢
  rw [t]

end Vdt.Flush
