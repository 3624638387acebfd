import Verif.Lemmas.FlushTrig
import Verif.Lemmas.Tanh

/-! # The hyperbolic tangent when small numbers are flushed to zero -/

namespace Vdt.Flush
open FP details
variable {f : Fmt} {m : Mode}

/-- Expressions in one variable, each applied to the value of the one before it. -/
def chain (f : Fmt) (l : List (E f)) (a : Az) : Option Az := l.foldlM (fun a e => anZ f (fun _ => some a) e) a

theorem chain_sound [f.Ok] (hm : m.Ok) : ∀ (l : List (E f)) (a r : Az) (s t : FP f), a.Sound s t → chain f l a = some r →
    r.Sound (l.foldl (fun v e => e.evalF fun _ => v) s) (l.foldl (fun v e => (evalZ m (fun _ => v) e).v) t)
  | [], a, r, s, t, h, hr => by
    obtain rfl : a = r := Option.some.inj hr
    exact h
  | e :: l, a, r, s, t, h, hr => by
    unfold chain at hr
    rw [List.foldlM_cons] at hr
    obtain ⟨b, hb, hr⟩ := Option.bind_eq_some_iff.1 hr
    exact chain_sound hm l b r _ _ (anZ_sound hm (env1 h) e b hb) hr

/-- The chain is not affected on an interval and its mirror image. -/
def okC (l : List (E f)) (s t : ℚ) : Bool := (sides f s t).all fun a => (chain f l a).any fun r => r.t.isNone

theorem chain_same1 [f.Ok] (hm : m.Ok) {l : List (E f)} {a : Az} {x : FP f} (h : a.Sound x x) (hc : (chain f l a).any (fun r => r.t.isNone) = true) :
    l.foldl (fun v e => (evalZ m (fun _ => v) e).v) x = l.foldl (fun v e => e.evalF fun _ => v) x := by
  cases hr : chain f l a with
  | none => rw [hr] at hc; cases hc
  | some r =>
    rw [hr] at hc
    have s := (chain_sound hm l a r x x h hr).rel
    cases ht : r.t with
    | none => rw [ht] at s; exact s
    | some k => rw [show (some r : Option Az).any (fun r => r.t.isNone) = r.t.isNone from rfl, ht] at hc; cases hc

theorem chain_same [f.Ok] (hm : m.Ok) {l : List (E f)} {c : List ℚ} {A B : ℚ} (h : covers (okC l) c = true) (hs : spans c A B = true)
    (h0 : (chain f l (grid_ 0 0)).any (fun r => r.t.isNone) = true) {x : FP f} (hx : x.isFinite = true) (k : x.val = 0 ∨ A ≤ |x.val|) (hB : |x.val| ≤ B) :
    l.foldl (fun v e => (evalZ m (fun _ => v) e).v) x = l.foldl (fun v e => e.evalF fun _ => v) x := by
  rcases k with k | k
  · exact chain_same1 hm (sound_zero hx k) h0
  · obtain ⟨s, t, hp, h1, h2⟩ := cover_find h hs k hB
    obtain ⟨a, ha, sa⟩ := sides_sound hx h1 h2
    exact chain_same1 hm sa (List.all_eq_true.1 hp a ha)

/-- include/tanh.h:51 -/
def tanhDoubleE : E f := ((E.const (ofInt 2)).mul (.var 0)).div (((E.var 0).mul (.var 0)).add (.const (ofInt 1)))
/-- include/tanh.h:45-53 -/
def tanhL : List (E b64) := [(E.var 0).mul (.const (lit 0.125)), tanhE, tanhDoubleE, tanhDoubleE, tanhDoubleE]
/-- include/tanh.h:64-69 -/
def tanhfL : List (E b32) := [(E.var 0).mul (.const (lit 0.125)), tanhfE, tanhDoubleE, tanhDoubleE, tanhDoubleE]

def tanhCuts64 : List ℚ := [p2 (-1018), p2 (-900), p2 (-300), 20]
def tanhCuts32 : List ℚ := [p2 (-122), p2 (-96), p2 (-36), 9.2]

theorem tanh_an : covers (okC tanhL) tanhCuts64 = true ∧ spans tanhCuts64 (p2 (-1018)) 20 = true ∧
    (chain b64 tanhL (grid_ 0 0)).any (fun r => r.t.isNone) = true := by decide +kernel
theorem tanhf_an : covers (okC tanhfL) tanhCuts32 = true ∧ spans tanhCuts32 (p2 (-122)) 9.2 = true ∧
    (chain b32 tanhfL (grid_ 0 0)).any (fun r => r.t.isNone) = true := by decide +kernel

theorem tanh_same (hm : m.Ok) {x : F64} (hx : x.isFinite = true) (k : x.val = 0 ∨ p2 (-1018) ≤ |x.val|) : fast_tanh m x = Vdt.fast_tanh x := by
  have cs : (lit 20 : F64).isFinite = true ∧ (lit 20 : F64).val = 20 ∧ p2 b64.emin ≤ |(lit 20 : F64).val| := by decide +kernel
  obtain ⟨c1, c2, c3⟩ := cs
  have k' : Keep x := k.imp_right fun k => lt_of_lt_of_le (p2_lt (by decide)) k
  have g : m.gt (FP.abs x) (lit 20) = FP.gt (FP.abs x) (lit 20) := by unfold Mode.gt; rw [k'.abs.arg hm, arg_normal hm c3]
  have l := gt_fin (x := FP.abs x) hx c1
  rw [val_abs, c2] at l
  unfold fast_tanh Vdt.fast_tanh
  rw [g]
  generalize FP.gt (FP.abs x) (lit 20) = b at *
  cases b
  · rw [eq_comm, decide_eq_false_iff_not, not_lt] at l
    have t := chain_same hm tanh_an.1 tanh_an.2.1 tanh_an.2.2 hx k l
    exact t
  · rfl

theorem tanhf_same (hm : m.Ok) {x : F32} (hx : x.isFinite = true) (k : x.val = 0 ∨ p2 (-122) ≤ |x.val|) : fast_tanhf m x = Vdt.fast_tanhf x := by
  have cs : (lit 9.1 : F32).isFinite = true ∧ (lit 9.1 : F32).val ≤ 9.2 ∧ p2 b32.emin ≤ |(lit 9.1 : F32).val| := by decide +kernel
  obtain ⟨c1, c2, c3⟩ := cs
  have k' : Keep x := k.imp_right fun k => lt_of_lt_of_le (p2_lt (by decide)) k
  have g : m.gt (FP.abs x) (lit 9.1) = FP.gt (FP.abs x) (lit 9.1) := by unfold Mode.gt; rw [k'.abs.arg hm, arg_normal hm c3]
  have l := gt_fin (x := FP.abs x) hx c1
  rw [val_abs] at l
  unfold fast_tanhf Vdt.fast_tanhf
  rw [g]
  generalize FP.gt (FP.abs x) (lit 9.1) = b at *
  cases b
  · rw [eq_comm, decide_eq_false_iff_not, not_lt] at l
    have t := chain_same hm tanhf_an.1 tanhf_an.2.1 tanhf_an.2.2 hx k (l.trans c2)
    exact t
  · rfl

end Vdt.Flush
