import Verif.Lemmas.FlushTanh
import Verif.Lemmas.FlushAtan
import Verif.Lemmas.Atan2

/-! # The arc tangent of two arguments when small numbers are flushed to zero -/

namespace Vdt.Flush
open FP details
variable {f : Fmt} {m : Mode}

theorem chain_same2 [f.Ok] (hm : m.Ok) {l : List (E f)} {a : Az} {v w : FP f} (h : a.Sound v w) (hc : (chain f l a).any (fun r => r.t.isNone) = true) :
    l.foldl (fun v e => (evalZ m (fun _ => v) e).v) w = l.foldl (fun v e => e.evalF fun _ => v) v := by
  cases hr : chain f l a with
  | none => rw [hr] at hc; cases hc
  | some r =>
    rw [hr] at hc
    simp only [Option.any_some, Option.isNone_iff_eq_none] at hc
    have s := (chain_sound hm l a r v w h hr).rel
    rw [hc] at s
    exact s

/-! ## The quotient -/

/-- The quotient in the mode `m` is the ordinary one, or both are small. -/
def Quo (v w : FP f) : Prop := w = v ∨ |v.val| ≤ p2 f.emin ∧ w = zero v.sign

theorem quo_div (hm : m.Ok) {a b : FP f} (ha : Keep a) (hb : Keep b) : Quo (a / b) (of a / of b : Z m f).v := by
  show Quo (a / b) (m.res .div (m.arg a) (m.arg b) (m.arg a / m.arg b))
  rw [ha.arg hm, hb.arg hm]
  exact res_cases hm .div a b (a / b)

theorem Quo.big {v w : FP f} (h : Quo v w) (hv : p2 f.emin < |v.val|) : w = v := h.resolve_right fun c => absurd c.1 (not_le.2 hv)

theorem Quo.fin [f.Ok] {v w : FP f} (h : Quo v w) (hv : v.isFinite = true) : w.isFinite = true := by
  rcases h with h | ⟨-, h⟩
  · rw [h]; exact hv
  · rw [h]; exact zero_finite _

theorem Quo.le {v w : FP f} (h : Quo v w) (hv : 0 ≤ v.val) : w.val ≤ v.val ∧ 0 ≤ w.val := by
  rcases h with h | ⟨-, h⟩
  · rw [h]; exact ⟨le_rfl, hv⟩
  · rw [h, zero_val]; exact ⟨hv, le_rfl⟩

/-- A small quotient. -/
def tinyAz (f : Fmt) : Az := ⟨0, p2 (f.emin + 2), f.emin - f.mb, some f.emin⟩

theorem sound_tiny [f.Ok] {v w : FP f} (h : Quo v w) (hv : v.isFinite = true) (h0 : 0 ≤ v.val) (h1 : v.val ≤ p2 (f.emin + 2)) : (tinyAz f).Sound v w := by
  obtain ⟨B, hB⟩ : ∃ B, B = |v.val| := ⟨_, rfl⟩
  refine ⟨hv, h.fin hv, h0, h1, (h.le h0).2, (h.le h0).1.trans h1, (sound_upTo hv hB.ge).gv, le_rfl, ?_⟩
  rcases h with h | ⟨h, e⟩
  · exact Or.inl h
  · exact Or.inr ⟨h, by rw [e, zero_val, abs_zero]; exact (p2_pos _).le⟩

theorem arg_pos [f.Ok] (hm : m.Ok) {w : FP f} (hw : w.isFinite = true) (h0 : 0 ≤ w.val) : (m.arg w).isFinite = true ∧ (m.arg w).val ≤ w.val := by
  rcases arg_cases hm w with a | ⟨-, a⟩
  · rw [a]; exact ⟨hw, le_rfl⟩
  · rw [a, zero_val]; exact ⟨zero_finite _, h0⟩

theorem gt_false [f.Ok] (hm : m.Ok) {w c : FP f} (hw : w.isFinite = true) (h0 : 0 ≤ w.val) (hc : c.isFinite = true) (kc : p2 f.emin ≤ |c.val|) (h : w.val ≤ c.val) :
    m.gt w c = false := by
  obtain ⟨a1, a2⟩ := arg_pos hm hw h0
  unfold Mode.gt
  rw [arg_normal hm kc, gt_fin a1 hc, decide_eq_false_iff_not, not_lt]
  exact a2.trans h

theorem le_true [f.Ok] (hm : m.Ok) {w c : FP f} (hw : w.isFinite = true) (h0 : 0 ≤ w.val) (hc : c.isFinite = true) (kc : p2 f.emin ≤ |c.val|) (h : w.val ≤ c.val) :
    m.le w c = true := by
  obtain ⟨a1, a2⟩ := arg_pos hm hw h0
  unfold Mode.le
  rw [arg_normal hm kc, le_fin a1 hc, decide_eq_true_eq]
  exact a2.trans h

/-! ## The quadrant -/

/-- include/atan2.h:79 and 122: the factor is 1 -/
def oneE (e : E f) : E f := e.mul ((E.const (lit 1)).sub (.const (ofInt 0)))
/-- include/atan2.h:83-84 and 127-128 -/
def qE (P2 P : FP f) (s n : Bool) : E f :=
  let r := if s then (E.const P2).sub (.var 0) else .var 0
  if n then (E.const P).sub r else r
def qZ (P2 P : FP f) (r : Z m f) (s n : Bool) : Z m f :=
  let r := if s then of P2 - r else r
  if n then of P - r else r

theorem qZ_eq (P2 P : FP f) (r : Z m f) (s n : Bool) : qZ P2 P r s n = evalZ m (fun _ => r.v) (qE P2 P s n) := by cases s <;> cases n <;> rfl
theorem quad_q (P2 P r : FP f) (s n b : Bool) : quad P2 P r s n b = if b then -(qE P2 P s n).evalF (fun _ => r) else (qE P2 P s n).evalF (fun _ => r) := by
  cases s <;> cases n <;> cases b <;> rfl

def okP (P2 P : FP f) (e : E f) (s t : ℚ) : Bool := [(false, false), (true, false), (false, true), (true, true)].all fun p : Bool × Bool =>
  (chain f [e, qE P2 P p.1 p.2] (part f s t)).any fun r => r.t.isNone

theorem okP_same [f.Ok] (hm : m.Ok) {P2 P : FP f} {e : E f} {l : List ℚ} {A B : ℚ} (h : covers (okP P2 P e) l = true) (hs : spans l A B = true) {v : FP f}
    (hv : v.isFinite = true) (h0 : 0 ≤ v.val) (h1 : A ≤ v.val) (h2 : v.val ≤ B) (s n : Bool) :
    (evalZ m (fun _ => (evalZ m (fun _ => v) e).v) (qE P2 P s n)).v = (qE P2 P s n).evalF (fun _ => e.evalF fun _ => v) := by
  obtain ⟨a, b, hp, a1, a2⟩ := cover_find (x := v) h hs (by rw [abs_of_nonneg h0]; exact h1) (by rw [abs_of_nonneg h0]; exact h2)
  rw [abs_of_nonneg h0] at a1 a2
  have p := List.all_eq_true.1 hp (s, n) (by cases s <;> cases n <;> simp)
  exact chain_same1 hm (sound_part hv a1 a2) p

def okT (P2 P : FP f) (e : E f) : Bool := [(true, false), (false, true), (true, true)].all fun p : Bool × Bool =>
  (chain f [e, qE P2 P p.1 p.2] (tinyAz f)).any fun r => r.t.isNone

theorem okT_same [f.Ok] (hm : m.Ok) {P2 P : FP f} {e : E f} (h : okT P2 P e = true) {v w : FP f} (hq : Quo v w) (hv : v.isFinite = true) (h0 : 0 ≤ v.val)
    (h1 : v.val ≤ p2 (f.emin + 2)) {s n : Bool} (c : s = true ∨ n = true) :
    (evalZ m (fun _ => (evalZ m (fun _ => w) e).v) (qE P2 P s n)).v = (qE P2 P s n).evalF (fun _ => e.evalF fun _ => v) := by
  have p := List.all_eq_true.1 h (s, n) (by cases s <;> cases n <;> simp_all)
  exact chain_same2 hm (sound_tiny hq hv h0 h1) p

def okN (P2 P : FP f) : Bool := [false, true].all fun n => (anZ f (fun _ => some (grid_ 0 0)) (qE P2 P false n)).any fun r => r.t.isNone

theorem okN_same [f.Ok] (hm : m.Ok) {P2 P r : FP f} (h : okN P2 P = true) (hr : r.isFinite = true) (h0 : r.val = 0) (n : Bool) :
    (evalZ m (fun _ => r) (qE P2 P false n)).v = (qE P2 P false n).evalF (fun _ => r) :=
  anZ_same hm (env1 (sound_zero hr h0)) (List.all_eq_true.1 h n (by cases n <;> simp))

/-! ## Double precision -/

def octCuts64 : List ℚ := [p2 (-1020), p2 (-900), p2 (-300), p2 (-150), p2 (-70), p2 (-30), p2 (-12), 1 / 16, 1 / 4, 661 / 1000]

theorem oct_an : covers (okP PIO2 PI (oneE atanSmallE)) octCuts64 = true ∧ spans octCuts64 (p2 (-1020)) (661 / 1000) = true ∧
    okT PIO2 PI (oneE atanSmallE) = true ∧ covers (okP PIO2 PI (oneE atanMidE)) [65 / 100, 1 - p2 (-53)] = true ∧
    covers (okP PIO2 PI (oneE atanMidE)) [1, 1] = true ∧ okN PIO2 PI = true := by decide +kernel

theorem oct_same (hm : m.Ok) {v w : F64} (hq : Quo v w) (hv : v.isFinite = true) (h0 : 0 ≤ v.val) (h1 : v.val ≤ 1) {s n : Bool}
    (c : (s = true ∨ n = true) ∨ p2 (-1020) ≤ v.val) :
    (qZ PIO2 PI (atanPos (of w) * (of (lit 1) - of (ofInt 0)) : Z m b64) s n).v = (qE PIO2 PI s n).evalF (fun _ => details.atanPos v * (lit 1 - ofInt 0)) := by
  have cs : T3PO8.isFinite = true ∧ 24 / 10 ≤ T3PO8.val ∧ p2 b64.emin ≤ |T3PO8.val| ∧ (lit 0.66 : F64).isFinite = true ∧
    65 / 100 ≤ (lit 0.66 : F64).val ∧ (lit 0.66 : F64).val ≤ 661 / 1000 ∧ p2 b64.emin ≤ |(lit 0.66 : F64).val| ∧ p2 (-1020) ≤ 65 / 100 := by decide +kernel
  obtain ⟨c1, c2, c4, c5, c6, c7, c8, c9⟩ := cs
  have wf := hq.fin hv
  obtain ⟨w1, w0⟩ := hq.le h0
  have g1 : m.gt w T3PO8 = false := gt_false hm wf w0 c1 c4 (by linarith)
  have g2 : FP.gt v T3PO8 = false := by rw [gt_fin hv c1, decide_eq_false_iff_not, not_lt]; linarith
  rw [qZ_eq]
  unfold atanPos details.atanPos atanReduce
  simp only [show (of w : Z m b64).v = w from rfl]
  rw [g1, g2]
  rcases le_or_gt v.val (lit 0.66 : F64).val with l | l
  · have l1 : m.le w (lit 0.66) = true := le_true hm wf w0 c5 c8 (w1.trans l)
    have l2 : FP.le v (lit 0.66) = true := by rw [le_fin hv c5, decide_eq_true_eq]; exact l
    rw [l1, l2]
    simp only [Bool.false_eq_true, if_false, if_true]
    rcases le_or_gt (p2 (-1020)) v.val with t | t
    · obtain rfl := hq.big (by rw [abs_of_nonneg h0]; exact lt_of_lt_of_le (p2_lt (by decide)) t)
      have r := okP_same hm oct_an.1 oct_an.2.1 hv h0 t (l.trans c7) s n
      exact r
    · have r := okT_same hm oct_an.2.2.1 hq hv h0 (by exact t.le) (c.resolve_right (not_le.2 t))
      exact r
  · have kv : p2 b64.emin < |v.val| := by
      rw [abs_of_nonneg h0]
      exact lt_of_lt_of_le (p2_lt (show b64.emin < -1020 by decide)) (by linarith)
    obtain rfl := hq.big kv
    have l1 : m.le w (lit 0.66) = false := by
      unfold Mode.le
      rw [Keep.arg hm (Or.inr kv), arg_normal hm c8, le_fin hv c5, decide_eq_false_iff_not, not_le]; exact l
    have l2 : FP.le w (lit 0.66) = false := by rw [le_fin hv c5, decide_eq_false_iff_not, not_le]; exact l
    rw [l1, l2]
    simp only [Bool.false_eq_true, if_false]
    have nr := near_one (x := w) (j := -1) (by rw [show p2 (-1) = 1 / 2 by decide +kernel]; linarith) (by decide)
    rw [show (-1 : ℤ) - (b64.mb : ℤ) = -53 by decide] at nr
    rcases nr with nr | nr | nr
    · have r := okP_same hm oct_an.2.2.2.1 (A := 65 / 100) (B := 1 - p2 (-53)) (by decide +kernel) hv h0 (by linarith) nr s n
      exact r
    · have r := okP_same hm oct_an.2.2.2.2.1 (A := 1) (B := 1) (by decide +kernel) hv h0 nr.ge nr.le s n
      exact r
    · exfalso
      have := p2_pos (-53)
      linarith

/-- include/atan2.h:46-81 -/
def octZ (m : Mode) (y xx yy : F64) : Z m b64 :=
  if m.eq y (ofInt 0) then of (lit 0.0)
  else atanPos (of yy / (of xx + of (ofBool (m.eq xx (lit 0))))) * (of (lit 1) - of (ofBool (m.eq xx (lit 0))))

theorem atan2_Z (hm : m.Ok) (y x : F64) : fast_atan2 m y x =
    let s := m.gt (FP.abs y) (FP.abs x)
    let r := (qZ PIO2 PI (if s then octZ m y (FP.abs y) (FP.abs x) else octZ m y (FP.abs x) (FP.abs y)) s (m.lt x (ofInt 0))).v
    if m.lt y (ofInt 0) then -r else r := by
  have n1 : m.ne (lit 1 : F64) (ofInt 0) = true := by
    unfold Mode.ne
    rw [arg_normal hm (by decide +kernel), Keep.arg hm (Or.inl (by decide +kernel))]; decide +kernel
  have n0 : m.ne (lit 0.0 : F64) (ofInt 0) = false := by
    unfold Mode.ne
    rw [Keep.arg hm (Or.inl (by decide +kernel)), Keep.arg hm (Or.inl (by decide +kernel))]; decide +kernel
  unfold fast_atan2
  cases h : m.gt (FP.abs y) (FP.abs x)
  · simp only [h, Bool.false_eq_true, if_false, n0]; rfl
  · simp only [h, if_true, n1]; rfl

/-- The sum with zero. -/
theorem plus_zero [f.Ok] {M o : FP f} (hM : M.isFinite = true) (h0 : M.val ≠ 0) (ho : o = zero false) : M + o = M := by
  rw [add_def, add_fin hM (by rw [ho]; exact zero_finite false), ho, val_zero, add_zero]
  exact ofRat_val_fin hM h0

theorem octZ_same (hm : m.Ok) {y a b : F64} (ky : Keep y) (hy : y.isFinite = true) (y0 : y.val ≠ 0) (ka : Keep a) (kb : Keep b) (ha : a.isFinite = true) (hb : b.isFinite = true)
    (sa : a.sign = false) (sb : b.sign = false) (le : b.val ≤ a.val) (a0 : a.val ≠ 0) {s n : Bool} (c : (s = true ∨ n = true) ∨ p2 (-1020) * a.val ≤ b.val) :
    (qZ PIO2 PI (octZ m y a b) s n).v = (qE PIO2 PI s n).evalF (fun _ => oct64 y a b) := by
  have z : (ofInt 0 : F64).val = 0 ∧ (ofInt 0 : F64).isFinite = true ∧ (lit 0 : F64).val = 0 ∧ (lit 0 : F64).isFinite = true ∧ (ofInt 0 : F64) = zero false := by decide +kernel
  have e1 : m.eq y (ofInt 0) = false := by
    unfold Mode.eq
    rw [ky.arg hm, Keep.arg hm (Or.inl z.1), eq_fin hy z.2.1, z.1]; exact decide_eq_false y0
  have e2 : FP.eq y (ofInt 0) = false := by rw [eq_fin hy z.2.1, z.1]; exact decide_eq_false y0
  have e3 : m.eq a (lit 0) = false := by
    unfold Mode.eq
    rw [ka.arg hm, Keep.arg hm (Or.inl z.2.2.1), eq_fin ha z.2.2.2.1, z.2.2.1]; exact decide_eq_false a0
  have e4 : FP.eq a (lit 0) = false := by rw [eq_fin ha z.2.2.2.1, z.2.2.1]; exact decide_eq_false a0
  unfold octZ oct64
  rw [e1, e2, e3, e4]
  simp only [Bool.false_eq_true, if_false, show (ofBool false : F64) = ofInt 0 from rfl]
  have p := plus_zero ha a0 z.2.2.2.2
  have q : (of a + of (ofInt 0) : Z m b64) = of a := by
    rw [add_of hm ka (Or.inl z.1) (by rw [p]; exact ka), p]
  rw [q, p]
  obtain ⟨d1, d2, d3, -⟩ := quot_spec quot64 hb ha sb sa le a0
  have d0 := val_nonneg_of_sign d2
  have Q := quo_div hm kb ka
  have ap : 0 < a.val := lt_of_le_of_ne (val_nonneg_of_sign sa) (Ne.symm a0)
  rw [eq_of (z := (of b / of a : Z m b64)) rfl]
  refine oct_same hm Q d1 d0 d3 (c.imp_right fun c => ?_)
  have qb : |b.val / a.val| ≤ b64.big := by
    rw [abs_of_nonneg (div_nonneg (val_nonneg_of_sign sb) ap.le)]
    exact ((div_le_one ap).2 le).trans quot64.big
  rw [div_def, (div_spec hb ha a0 qb).2]
  have := rnd_mono b64 ((le_div_iff₀ ap).2 c)
  rwa [show rnd b64 (p2 (-1020)) = p2 (-1020) by decide +kernel] at this

theorem atan2_same (hm : m.Ok) {y x : F64} (hy : y.isFinite = true) (hx : x.isFinite = true) (ky : Keep y) (kx : Keep x)
    (h : y.val = 0 ∨ x.val < 0 ∨ |x.val| < |y.val| ∨ p2 (-1020) * |x.val| ≤ |y.val|) : fast_atan2 m y x = Vdt.fast_atan2 y x := by
  have z : (ofInt 0 : F64).val = 0 ∧ (ofInt 0 : F64).isFinite = true ∧ (lit 0.0 : F64).val = 0 ∧ (lit 0.0 : F64).isFinite = true := by decide +kernel
  have l1 : m.lt x (ofInt 0) = FP.lt x (ofInt 0) := by unfold Mode.lt; rw [kx.arg hm, Keep.arg hm (Or.inl z.1)]
  have l2 : m.lt y (ofInt 0) = FP.lt y (ofInt 0) := by unfold Mode.lt; rw [ky.arg hm, Keep.arg hm (Or.inl z.1)]
  have l3 : m.gt (FP.abs y) (FP.abs x) = FP.gt (FP.abs y) (FP.abs x) := by unfold Mode.gt; rw [ky.abs.arg hm, kx.abs.arg hm]
  have v1 := lt_fin hx z.2.1
  rw [z.1] at v1
  have v3 := gt_fin (x := FP.abs y) (y := FP.abs x) hy hx
  rw [val_abs, val_abs] at v3
  rw [atan2_Z hm, fast_atan2_eq, l1, l2, l3, quad_q]
  dsimp only
  suffices k : (qZ PIO2 PI (if FP.gt (FP.abs y) (FP.abs x) = true then octZ m y (FP.abs y) (FP.abs x) else octZ m y (FP.abs x) (FP.abs y))
      (FP.gt (FP.abs y) (FP.abs x)) (FP.lt x (ofInt 0))).v = (qE PIO2 PI (FP.gt (FP.abs y) (FP.abs x)) (FP.lt x (ofInt 0))).evalF
        (fun _ => if FP.gt (FP.abs y) (FP.abs x) = true then oct64 y (FP.abs y) (FP.abs x) else oct64 y (FP.abs x) (FP.abs y)) by rw [k]
  by_cases y0 : y.val = 0
  · have g : FP.gt (FP.abs y) (FP.abs x) = false := by
      rw [v3, decide_eq_false_iff_not, not_lt, y0, abs_zero]; exact abs_nonneg _
    have e1 : m.eq y (ofInt 0) = true := by
      unfold Mode.eq
      rw [ky.arg hm, Keep.arg hm (Or.inl z.1), eq_fin hy z.2.1, z.1]; exact decide_eq_true y0
    have e2 : FP.eq y (ofInt 0) = true := by rw [eq_fin hy z.2.1, z.1]; exact decide_eq_true y0
    rw [g]
    simp only [Bool.false_eq_true, if_false]
    unfold octZ oct64
    rw [e1, e2, qZ_eq]
    simp only [if_true]
    exact okN_same hm oct_an.2.2.2.2.2 z.2.2.2 z.2.2.1 _
  · replace h := h.resolve_left y0
    have ya : 0 < |y.val| := abs_pos.2 y0
    generalize FP.gt (FP.abs y) (FP.abs x) = s at *
    generalize FP.lt x (ofInt 0) = n at *
    cases s
    · rw [eq_comm, decide_eq_false_iff_not, not_lt] at v3
      simp only [Bool.false_eq_true, if_false]
      refine octZ_same hm ky hy y0 kx.abs ky.abs hx hy rfl rfl (by rw [val_abs, val_abs]; exact v3) (by rw [val_abs]; linarith) ?_
      rw [val_abs, val_abs]
      rcases h with h | h | h
      · left; right; rw [v1]; exact decide_eq_true h
      · exact absurd h (not_lt.2 v3)
      · exact Or.inr h
    · rw [eq_comm, decide_eq_true_eq] at v3
      simp only [if_true]
      exact octZ_same hm ky hy y0 ky.abs kx.abs hy hx rfl rfl (by rw [val_abs, val_abs]; exact v3.le) (by rw [val_abs]; exact ya.ne') (Or.inl (Or.inl rfl))

/-! ## Single precision -/

def octfSmallE : E b32 := oneE (atanfCoreE (.var 0) (.var 0))
def octfMidE : E b32 := (oneE (atanfCoreE atanfMidR atanfMidR)).add (.const PIO4F)

def octCuts32 : List ℚ := [p2 (-124), p2 (-99), p2 (-39), p2 (-15), p2 (-6), 1 / 4, 415 / 1000]

theorem octf_an : covers (okP PIO2F PIF octfSmallE) octCuts32 = true ∧ spans octCuts32 (p2 (-124)) (415 / 1000) = true ∧
    okT PIO2F PIF octfSmallE = true ∧ covers (okP PIO2F PIF octfMidE) [41 / 100, 1 - p2 (-25)] = true ∧
    covers (okP PIO2F PIF octfMidE) [1, 1] = true ∧ okN PIO2F PIF = true := by decide +kernel

/-- include/atan2.h:109-126 with the quotient given, for `y` and `xx` that are not zero -/
def octfRest (w : F32) : Z m b32 :=
  let big := m.gt w (lit 0.4142135623730950)
  let z : Z m b32 := if big then (of w - of (lit 1)) / (of w + of (lit 1)) else of w
  let r := atanfPoly z * (of (lit 1) - of (ofInt 0))
  if big then r + of PIO4F else r
def octfRestF (t : F32) : F32 :=
  let z := if FP.gt t (lit 0.4142135623730950) then (t - lit 1) / (t + lit 1) else t
  let r := atanfCore z * (lit 1 - ofInt 0)
  if FP.gt t (lit 0.4142135623730950) then r + PIO4F else r

theorem octf_same (hm : m.Ok) {v w : F32} (hq : Quo v w) (hv : v.isFinite = true) (h0 : 0 ≤ v.val) (h1 : v.val ≤ 1) {s n : Bool}
    (c : (s = true ∨ n = true) ∨ p2 (-124) ≤ v.val) : (qZ PIO2F PIF (octfRest w : Z m b32) s n).v = (qE PIO2F PIF s n).evalF (fun _ => octfRestF v) := by
  have cs : (lit 0.4142135623730950 : F32).isFinite = true ∧ 41 / 100 ≤ (lit 0.4142135623730950 : F32).val ∧
    (lit 0.4142135623730950 : F32).val ≤ 415 / 1000 ∧ p2 b32.emin ≤ |(lit 0.4142135623730950 : F32).val| ∧ p2 (-124) ≤ 41 / 100 := by decide +kernel
  obtain ⟨c1, c2, c3, c4, c5⟩ := cs
  have wf := hq.fin hv
  obtain ⟨w1, w0⟩ := hq.le h0
  rw [qZ_eq]
  unfold octfRest octfRestF
  dsimp only
  rcases le_or_gt v.val (lit 0.4142135623730950 : F32).val with l | l
  · have l1 : m.gt w (lit 0.4142135623730950) = false := gt_false hm wf w0 c1 c4 (w1.trans l)
    have l2 : FP.gt v (lit 0.4142135623730950) = false := by rw [gt_fin hv c1, decide_eq_false_iff_not, not_lt]; exact l
    rw [l1, l2]
    simp only [Bool.false_eq_true, if_false]
    rcases le_or_gt (p2 (-124)) v.val with t | t
    · obtain rfl := hq.big (by rw [abs_of_nonneg h0]; exact lt_of_lt_of_le (p2_lt (by decide)) t)
      have r := okP_same hm octf_an.1 octf_an.2.1 hv h0 t (l.trans c3) s n
      exact r
    · have r := okT_same hm octf_an.2.2.1 hq hv h0 (by exact t.le) (c.resolve_right (not_le.2 t))
      exact r
  · have kv : p2 b32.emin < |v.val| := by
      rw [abs_of_nonneg h0]
      exact lt_of_lt_of_le (p2_lt (show b32.emin < -124 by decide)) (by linarith)
    obtain rfl := hq.big kv
    have l1 : m.gt w (lit 0.4142135623730950) = true := by
      unfold Mode.gt
      rw [Keep.arg hm (Or.inr kv), arg_normal hm c4, gt_fin hv c1, decide_eq_true_eq]; exact l
    have l2 : FP.gt w (lit 0.4142135623730950) = true := by rw [gt_fin hv c1, decide_eq_true_eq]; exact l
    rw [l1, l2]
    simp only [if_true]
    have nr := near_one (x := w) (j := -2) (by rw [show p2 (-2) = 1 / 4 by decide +kernel]; linarith) (by decide)
    rw [show (-2 : ℤ) - (b32.mb : ℤ) = -25 by decide] at nr
    rcases nr with nr | nr | nr
    · have r := okP_same hm octf_an.2.2.2.1 (A := 41 / 100) (B := 1 - p2 (-25)) (by decide +kernel) hv h0 (by linarith) nr s n
      exact r
    · have r := okP_same hm octf_an.2.2.2.2.1 (A := 1) (B := 1) (by decide +kernel) hv h0 nr.ge nr.le s n
      exact r
    · exfalso
      have := p2_pos (-25)
      linarith

/-- include/atan2.h:106-126 -/
def octfZ (m : Mode) (y xx yy : F32) : Z m b32 :=
  let t : Z m b32 := of yy / of xx
  let big := m.gt t.v (lit 0.4142135623730950)
  let z := if big then (t - of (lit 1)) / (t + of (lit 1)) else t
  let r := if m.eq y (lit 0) then of (lit 0) else atanfPoly z * (of (lit 1) - of (ofBool (m.eq xx (lit 0))))
  if big then r + of PIO4F else r

theorem atan2f_Z (hm : m.Ok) (y x : F32) : fast_atan2f m y x =
    let s := m.gt (FP.abs y) (FP.abs x)
    let r := (qZ PIO2F PIF (if s then octfZ m y (FP.abs y) (FP.abs x) else octfZ m y (FP.abs x) (FP.abs y)) s (m.lt x (lit 0))).v
    if m.lt y (lit 0) then -r else r := by
  have n1 : m.ne (lit 1 : F32) (ofInt 0) = true := by
    unfold Mode.ne
    rw [arg_normal hm (by decide +kernel), Keep.arg hm (Or.inl (by decide +kernel))]; decide +kernel
  have n0 : m.ne (lit 0.0 : F32) (ofInt 0) = false := by
    unfold Mode.ne
    rw [Keep.arg hm (Or.inl (by decide +kernel)), Keep.arg hm (Or.inl (by decide +kernel))]; decide +kernel
  unfold fast_atan2f
  cases h : m.gt (FP.abs y) (FP.abs x)
  · simp only [h, Bool.false_eq_true, if_false, n0]; rfl
  · simp only [h, if_true, n1]; rfl

theorem octfZ_same (hm : m.Ok) {y a b : F32} (ky : Keep y) (hy : y.isFinite = true) (y0 : y.val ≠ 0) (ka : Keep a) (kb : Keep b) (ha : a.isFinite = true) (hb : b.isFinite = true)
    (sa : a.sign = false) (sb : b.sign = false) (le : b.val ≤ a.val) (a0 : a.val ≠ 0) {s n : Bool} (c : (s = true ∨ n = true) ∨ p2 (-124) * a.val ≤ b.val) :
    (qZ PIO2F PIF (octfZ m y a b) s n).v = (qE PIO2F PIF s n).evalF (fun _ => oct32 y a b) := by
  have z : (lit 0 : F32).val = 0 ∧ (lit 0 : F32).isFinite = true := by decide +kernel
  have e1 : m.eq y (lit 0) = false := by
    unfold Mode.eq
    rw [ky.arg hm, Keep.arg hm (Or.inl z.1), eq_fin hy z.2, z.1]; exact decide_eq_false y0
  have e2 : FP.eq y (lit 0) = false := by rw [eq_fin hy z.2, z.1]; exact decide_eq_false y0
  have e3 : m.eq a (lit 0) = false := by
    unfold Mode.eq
    rw [ka.arg hm, Keep.arg hm (Or.inl z.1), eq_fin ha z.2, z.1]; exact decide_eq_false a0
  have e4 : FP.eq a (lit 0) = false := by rw [eq_fin ha z.2, z.1]; exact decide_eq_false a0
  obtain ⟨d1, d2, d3, -⟩ := quot_spec quot32 hb ha sb sa le a0
  have d0 := val_nonneg_of_sign d2
  have Q := quo_div hm kb ka
  have ap : 0 < a.val := lt_of_le_of_ne (val_nonneg_of_sign sa) (Ne.symm a0)
  have A : octfZ m y a b = octfRest (of b / of a : Z m b32).v := by
    unfold octfZ octfRest
    rw [e1, e3]
    rfl
  have B : oct32 y a b = octfRestF (b / a) := by
    unfold oct32 octfRestF
    rw [e2, e4]
    rfl
  rw [A, B]
  refine octf_same hm Q d1 d0 d3 (c.imp_right fun c => ?_)
  have qb : |b.val / a.val| ≤ b32.big := by
    rw [abs_of_nonneg (div_nonneg (val_nonneg_of_sign sb) ap.le)]
    exact ((div_le_one ap).2 le).trans quot32.big
  rw [div_def, (div_spec hb ha a0 qb).2]
  have := rnd_mono b32 ((le_div_iff₀ ap).2 c)
  rwa [show rnd b32 (p2 (-124)) = p2 (-124) by decide +kernel] at this

/-- The quotient with a zero above is not large, whatever is below. -/
theorem zero_quot (hm : m.Ok) {a b c : F32} (hb : b.isFinite = true) (ha : a.isFinite = true) (b0 : b = zero false) (sa : a.sign = false) (ka : Keep a)
    (hc : c.isFinite = true) (kc : p2 b32.emin ≤ |c.val|) (c0 : 0 ≤ c.val) : m.gt (of b / of a : Z m b32).v c = false ∧ FP.gt (b / a) c = false := by
  by_cases a0 : a.val = 0
  · have az : a = zero false := by
      have := eq_zero' (x := a) (by rw [isZero, decide_eq_true_eq]; exact val_eq_zero.1 a0)
      rw [sa] at this; exact this
    have e : b / a = nan := by rw [b0, az]; decide +kernel
    have t : (of b / of a : Z m b32).v = nan := by
      rcases quo_div hm (a := b) (Or.inl (by rw [b0]; exact zero_val _)) ka with q | ⟨q, -⟩
      · rw [q, e]
      · rw [e] at q; exact absurd q (by decide +kernel)
    rw [t, e]
    have g : ∀ c : F32, FP.gt nan c = false := fun c => by
      unfold FP.gt FP.lt
      simp [show (nan : F32).isNaN = true by decide +kernel]
    refine ⟨?_, g c⟩
    unfold Mode.gt
    rw [arg_normal hm kc]
    rcases arg_cases hm (nan : F32) with q | ⟨q, -⟩
    · rw [q]; exact g c
    · exact absurd q (by decide +kernel)
  · have bv : b.val = 0 := by rw [b0]; exact zero_val _
    have d := div_spec hb ha a0 (by rw [bv, zero_div, abs_zero]; exact b32.big_pos.le)
    rw [bv, zero_div, rnd_zero] at d
    have Q := quo_div hm (Or.inl bv) ka
    have l := Q.le (by rw [div_def, d.2])
    rw [div_def, d.2] at l
    exact ⟨gt_false hm (Q.fin d.1) l.2 hc kc (l.1.trans c0), by rw [div_def, gt_fin d.1 hc, d.2, decide_eq_false_iff_not, not_lt]; exact c0⟩

theorem atan2f_same (hm : m.Ok) {y x : F32} (hy : y.isFinite = true) (hx : x.isFinite = true) (ky : Keep y) (kx : Keep x)
    (h : y.val = 0 ∨ x.val < 0 ∨ |x.val| < |y.val| ∨ p2 (-124) * |x.val| ≤ |y.val|) : fast_atan2f m y x = Vdt.fast_atan2f y x := by
  have z : (lit 0 : F32).val = 0 ∧ (lit 0 : F32).isFinite = true := by decide +kernel
  have l1 : m.lt x (lit 0) = FP.lt x (lit 0) := by unfold Mode.lt; rw [kx.arg hm, Keep.arg hm (Or.inl z.1)]
  have l2 : m.lt y (lit 0) = FP.lt y (lit 0) := by unfold Mode.lt; rw [ky.arg hm, Keep.arg hm (Or.inl z.1)]
  have l3 : m.gt (FP.abs y) (FP.abs x) = FP.gt (FP.abs y) (FP.abs x) := by unfold Mode.gt; rw [ky.abs.arg hm, kx.abs.arg hm]
  have v1 := lt_fin hx z.2
  rw [z.1] at v1
  have v3 := gt_fin (x := FP.abs y) (y := FP.abs x) hy hx
  rw [val_abs, val_abs] at v3
  rw [atan2f_Z hm, fast_atan2f_eq, l1, l2, l3, quad_q]
  dsimp only
  suffices k : (qZ PIO2F PIF (if FP.gt (FP.abs y) (FP.abs x) = true then octfZ m y (FP.abs y) (FP.abs x) else octfZ m y (FP.abs x) (FP.abs y))
      (FP.gt (FP.abs y) (FP.abs x)) (FP.lt x (lit 0))).v = (qE PIO2F PIF (FP.gt (FP.abs y) (FP.abs x)) (FP.lt x (lit 0))).evalF
        (fun _ => if FP.gt (FP.abs y) (FP.abs x) = true then oct32 y (FP.abs y) (FP.abs x) else oct32 y (FP.abs x) (FP.abs y)) by rw [k]
  by_cases y0 : y.val = 0
  · have g : FP.gt (FP.abs y) (FP.abs x) = false := by
      rw [v3, decide_eq_false_iff_not, not_lt, y0, abs_zero]; exact abs_nonneg _
    have e1 : m.eq y (lit 0) = true := by
      unfold Mode.eq
      rw [ky.arg hm, Keep.arg hm (Or.inl z.1), eq_fin hy z.2, z.1]; exact decide_eq_true y0
    have e2 : FP.eq y (lit 0) = true := by rw [eq_fin hy z.2, z.1]; exact decide_eq_true y0
    have yz : FP.abs y = zero false := eq_zero' (x := FP.abs y) (by rw [isZero, decide_eq_true_eq]; exact val_eq_zero.1 (by rw [val_abs, y0, abs_zero]))
    obtain ⟨g1, g2⟩ := zero_quot hm (a := FP.abs x) (b := FP.abs y) (c := lit 0.4142135623730950) hy hx yz rfl kx.abs (by decide +kernel) (by decide +kernel) (by decide +kernel)
    rw [g]
    simp only [Bool.false_eq_true, if_false]
    unfold octfZ oct32
    dsimp only
    rw [e1, e2, g1, g2, qZ_eq]
    simp only [if_true, Bool.false_eq_true, if_false]
    exact okN_same hm octf_an.2.2.2.2.2 z.2 z.1 _
  · replace h := h.resolve_left y0
    have ya : 0 < |y.val| := abs_pos.2 y0
    generalize FP.gt (FP.abs y) (FP.abs x) = s at *
    generalize FP.lt x (lit 0) = n at *
    cases s
    · rw [eq_comm, decide_eq_false_iff_not, not_lt] at v3
      simp only [Bool.false_eq_true, if_false]
      refine octfZ_same hm ky hy y0 kx.abs ky.abs hx hy rfl rfl (by rw [val_abs, val_abs]; exact v3) (by rw [val_abs]; linarith) ?_
      rw [val_abs, val_abs]
      rcases h with h | h | h
      · left; right; rw [v1]; exact decide_eq_true h
      · exact absurd h (not_lt.2 v3)
      · exact Or.inr h
    · rw [eq_comm, decide_eq_true_eq] at v3
      simp only [if_true]
      exact octfZ_same hm ky hy y0 ky.abs kx.abs hy hx rfl rfl (by rw [val_abs, val_abs]; exact v3.le) (by rw [val_abs]; exact ya.ne') (Or.inl (Or.inl rfl))

end Vdt.Flush
