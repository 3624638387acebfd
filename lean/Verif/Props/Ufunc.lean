import Verif.Model.Ufunc
import Mathlib.Data.List.Nodup
import Mathlib.Tactic.Linarith

/-!
# C86: the functions of the numpy module
-/

namespace Vdt.Py
open Vdt.Txt (Text)
open Vdt.Arr (BMem)

local notation "‹" s "›" => String.toList s

/-- The address of element `k` of an operand with a base address and a distance. -/
def elt (o : Int × Int) (k : Nat) : Int := o.1 + o.2 * k

/-- What a universal function should do with one-dimensional operands: whatever their distances, the outputs get the value
of `f` at the inputs, element by element, and nothing else changes.  The arrays exist, no output element is an input
element of a later iteration, and the output elements are different from one another. -/
def Elementwise (u : Ufunc) (t : Nat) (s : Bool) (f : List (FP (fmt s)) → Option (List (FP (fmt s)))) (strides : List Int → Prop) : Prop :=
  ∀ (ins outs : List (Int × Int)) (n : Nat) (m : BMem (FP (fmt s))) (x y : Nat → List (FP (fmt s))),
    ins.length = u.nin → outs.length = u.nout → strides ((ins ++ outs).map Prod.snd) →
    (∀ k < n, ins.map (fun o => m (elt o k)) = (x k).map some) →
    (∀ k < n, f (x k) = some (y k)) →
    (∀ o ∈ outs, ∀ k < n, (m (elt o k)).isSome = true) →
    (∀ i ∈ ins, ∀ o ∈ outs, ∀ j k, j < k → k < n → elt i k ≠ elt o j) →
    (∀ (a b j k : Nat) (ha : a < outs.length) (hb : b < outs.length), j < n → k < n → elt outs[a] j = elt outs[b] k → a = b ∧ j = k) →
    ∃ m', u.run t s (ins ++ outs) n m = some m' ∧ (∀ k < n, outs.map (fun o => m' (elt o k)) = (y k).map some) ∧
      ∀ p, (∀ o ∈ outs, ∀ k < n, p ≠ elt o k) → m' p = m p

/-- The property: for inputs of any types, numpy finds a row of operands all of one type, `float` if all inputs are `float`, and
the loop of this row applies the array function of the library with the name of the universal function and this element
type. -/
def UfuncsRight (strides : Bool → List Int → Prop) : Prop :=
  ∀ u ∈ ufuncs, ∀ kinds : List Bool, kinds.length = u.nin →
    ∃ t S, u.pick kinds = some t ∧ u.row t = List.replicate (u.nin + u.nout) (kinds.all id) ∧
      lib.lookup (u.name ++ (if kinds.all id then ‹"fv"› else ‹"v"›)) = some S ∧ S.ins = u.nin ∧ S.outs = u.nout ∧
      ∃ h : S.single = kinds.all id, Elementwise u t (kinds.all id) (h ▸ S.fn) (strides (kinds.all id))

def C86_statement : Prop := UfuncsRight fun _ _ => True

theorem writes_spec {α : Type} : ∀ (as : List Int) (ys : List α) (m : BMem α), as.Nodup → ys.length = as.length →
    (∀ a ∈ as, (m a).isSome = true) →
    ∃ m', writes as ys m = some m' ∧ as.map m' = ys.map some ∧ ∀ p, p ∉ as → m' p = m p
  | [], [], m, _, _, _ => ⟨m, rfl, rfl, fun _ _ => rfl⟩
  | [], _ :: _, _, _, h, _ => by simp at h
  | _ :: _, [], _, _, h, _ => by simp at h
  | a :: as, y :: ys, m, hn, hl, hm => by
    rw [List.nodup_cons] at hn
    obtain ⟨m', h1, h2, h3⟩ := writes_spec as ys (Function.update m a (some y)) hn.2 (by simpa using hl) (by
      intro b hb
      rw [Function.update_of_ne (by rintro rfl; exact hn.1 hb)]
      exact hm b (by simp [hb]))
    refine ⟨m', ?_, ?_, ?_⟩
    · rw [writes, if_pos (hm a (by simp))]; exact h1
    · rw [List.map_cons, List.map_cons, h2, h3 a hn.1, Function.update_self]
    · intro p hp
      rw [List.mem_cons, not_or] at hp
      rw [h3 p hp.2, Function.update_of_ne hp.1]

theorem mapM_some {α : Type} (m : BMem α) : ∀ (l : List Int) (xs : List α), l.map m = xs.map some → l.mapM m = some xs
  | [], [], _ => rfl
  | [], _ :: _, h => by simp at h
  | _ :: _, [], h => by simp at h
  | a :: l, x :: xs, h => by
    simp only [List.map_cons, List.cons.injEq] at h
    simp [h.1, mapM_some m l xs h.2]

/-- The loop on operands without gaps. -/
theorem ptrLoop_spec {s : Bool} (f : List (FP (fmt s)) → Option (List (FP (fmt s)))) (ins outs : List Int) (n : Nat)
    (m : BMem (FP (fmt s))) (x y : Nat → List (FP (fmt s)))
    (hin : ∀ k < n, ins.map (fun o => m (o + esz s * k)) = (x k).map some)
    (hf : ∀ k < n, f (x k) = some (y k)) (hl : ∀ k < n, (y k).length = outs.length)
    (hout : ∀ o ∈ outs, ∀ k < n, (m (o + esz s * k)).isSome = true)
    (hsep : ∀ i ∈ ins, ∀ o ∈ outs, ∀ j k : Nat, j < k → k < n → i + esz s * k ≠ o + esz s * j)
    (hdis : ∀ (a b j k : Nat) (ha : a < outs.length) (hb : b < outs.length), j < n → k < n →
      outs[a] + esz s * j = outs[b] + esz s * k → a = b ∧ j = k) :
    ∃ m', ptrLoop f ins outs n 0 m = some m' ∧ (∀ k < n, outs.map (fun o => m' (o + esz s * k)) = (y k).map some) ∧
      ∀ p, (∀ o ∈ outs, ∀ k : Nat, k < n → p ≠ o + esz s * k) → m' p = m p := by
  have key : ∀ (d i : Nat) (m1 : BMem (FP (fmt s))), i + d = n →
      (∀ k < i, outs.map (fun o => m1 (o + esz s * k)) = (y k).map some) →
      (∀ p, (∀ o ∈ outs, ∀ k : Nat, k < i → p ≠ o + esz s * k) → m1 p = m p) →
      ∃ m', ptrLoop f ins outs d i m1 = some m' ∧ (∀ k < n, outs.map (fun o => m' (o + esz s * k)) = (y k).map some) ∧
        ∀ p, (∀ o ∈ outs, ∀ k : Nat, k < n → p ≠ o + esz s * k) → m' p = m p := by
    intro d
    induction d with
    | zero =>
      intro i m1 hi h1 h2
      obtain rfl : i = n := by omega
      exact ⟨m1, rfl, h1, h2⟩
    | succ d ih =>
      intro i m1 hi h1 h2
      have hi' : i < n := by omega
      have old : ∀ o ∈ outs, ∀ o' ∈ outs, ∀ k : Nat, k < i → o + esz s * i ≠ o' + esz s * k := by
        intro o ho o' ho' k hk he
        obtain ⟨a, ha, rfl⟩ := List.mem_iff_getElem.1 ho
        obtain ⟨b, hb, rfl⟩ := List.mem_iff_getElem.1 ho'
        have := (hdis a b i k ha hb hi' (by omega) he).2
        omega
      have e1 : ins.mapM (fun p => m1 (p + esz s * i)) = some (x i) := by
        have : ins.map (fun p => m1 (p + esz s * i)) = (x i).map some := by
          rw [← hin i hi']
          exact List.map_congr_left fun p hp => h2 _ fun o ho k hk => hsep p hp o ho k i hk hi'
        have k := mapM_some m1 (ins.map fun p => p + esz s * i) (x i) (by rw [List.map_map]; exact this)
        rwa [List.mapM_map] at k
      have nd : (outs.map fun p => p + esz s * (i : Int)).Nodup := by
        rw [List.nodup_iff_injective_get]
        intro a b hab
        have ha := a.2
        have hb := b.2
        simp only [List.length_map] at ha hb
        have : outs[a.1] + esz s * (i : Int) = outs[b.1] + esz s * (i : Int) := by simpa using hab
        exact Fin.ext (hdis a.1 b.1 i i ha hb hi' hi' this).1
      obtain ⟨m2, w1, w2, w3⟩ := writes_spec (outs.map fun p => p + esz s * (i : Int)) (y i) m1 nd (by rw [hl i hi', List.length_map]) (by
        intro a ha
        obtain ⟨o, ho, rfl⟩ := List.mem_map.1 ha
        rw [h2 _ fun o' ho' k hk => old o ho o' ho' k hk]
        exact hout o ho i hi')
      have w1' : writes (outs.map fun p => p + esz s * i) (y i) m1 = some m2 := w1
      simp only [ptrLoop, e1, hf i hi', Option.bind_eq_bind, Option.bind_some, w1']
      refine ih (i + 1) m2 (by omega) ?_ ?_
      · intro k hk
        rcases Nat.lt_succ_iff_lt_or_eq.1 hk with hk | rfl
        · rw [← h1 k hk]
          refine List.map_congr_left fun o ho => w3 _ fun hc => ?_
          obtain ⟨o', ho', e⟩ := List.mem_map.1 hc
          exact old o' ho' o ho k hk e
        · rw [← w2, List.map_map]; rfl
      · intro p hp
        rw [w3 p fun hc => by
          obtain ⟨o, ho, e⟩ := List.mem_map.1 hc
          exact hp o ho i (by omega) e.symm]
        exact h2 p fun o ho k hk => hp o ho k (by omega)
  exact key n 0 m (by omega) (by omega) (fun _ _ => rfl)

/-- As many results as outputs. -/
def Sym.Arity (S : Sym) : Prop := ∀ xs ys, S.fn xs = some ys → ys.length = S.outs

theorem arity11 (s : Bool) (f) : (sym11 s f).Arity := by
  intro xs ys h
  match xs, h with
  | [x], h => obtain ⟨y, _, rfl⟩ := Option.map_eq_some_iff.1 h; rfl
  | [], h => simp [sym11] at h
  | _ :: _ :: _, h => simp [sym11] at h
theorem arity21 (s : Bool) (f) : (sym21 s f).Arity := by
  intro xs ys h
  match xs, h with
  | [x, y], h => obtain ⟨y, _, rfl⟩ := Option.map_eq_some_iff.1 h; rfl
  | [], h => simp [sym21] at h
  | [_], h => simp [sym21] at h
  | _ :: _ :: _ :: _, h => simp [sym21] at h
theorem arity31 (s : Bool) (f) : (sym31 s f).Arity := by
  intro xs ys h
  match xs, h with
  | [x, y, z], h => obtain ⟨y, _, rfl⟩ := Option.map_eq_some_iff.1 h; rfl
  | [], h => simp [sym31] at h
  | [_], h => simp [sym31] at h
  | [_, _], h => simp [sym31] at h
  | _ :: _ :: _ :: _ :: _, h => simp [sym31] at h
theorem arity12 (s : Bool) (f) : (sym12 s f).Arity := by
  intro xs ys h
  match xs, h with
  | [x], h => obtain ⟨y, _, rfl⟩ := Option.map_eq_some_iff.1 h; rfl
  | [], h => simp [sym12] at h
  | _ :: _ :: _, h => simp [sym12] at h

theorem lib_arity : ∀ p ∈ lib, p.2.Arity := by
  unfold lib
  repeat' rw [List.forall_mem_cons]
  refine ⟨?_, ?_, ?_, ?_, ?_, ?_, ?_, ?_, ?_, ?_, ?_, ?_, ?_, ?_, ?_, ?_, ?_, ?_, ?_, ?_, ?_, ?_, ?_, ?_, ?_, ?_, ?_, ?_, ?_, ?_, by simp⟩ <;>
    first | exact arity11 _ _ | exact arity21 _ _ | exact arity31 _ _ | exact arity12 _ _

theorem lookup_mem {β : Type} : ∀ (l : List (Text × β)) (a : Text) (b : β), l.lookup a = some b → (a, b) ∈ l
  | [], _, _, h => by simp at h
  | (c, d) :: l, a, b, h => by
    rw [List.lookup_cons] at h
    by_cases e : a = c
    · subst e
      simp at h
      simp [h]
    · have : (a == c) = false := by simpa using e
      rw [this] at h
      exact List.mem_cons_of_mem _ (lookup_mem l a b h)

/-- The tables: in row 0 everything is `float`, in row 1 everything is `double`. -/
theorem tables : ∀ u ∈ ufuncs, u.ntypes = 2 ∧ ∀ s : Bool, u.row (if s then 0 else 1) = List.replicate (u.nin + u.nout) s ∧
    u.funcs[if s then 0 else 1]? = some ⟨s, u.nin, u.nout⟩ ∧
    u.data[if s then 0 else 1]? = some (u.name ++ (if s then ‹"fv"› else ‹"v"›)) ∧
    (lib.lookup (u.name ++ (if s then ‹"fv"› else ‹"v"›))).map (fun S => (S.single, S.ins, S.outs)) = some (s, u.nin, u.nout) := by
  decide +kernel

theorem zip_all_true : ∀ (l : List Bool) (n : Nat), l.length ≤ n → ((l.zip (List.replicate n true)).all fun p => p.1 || !p.2) = l.all id
  | [], _, _ => by simp
  | a :: l, 0, h => by simp at h
  | a :: l, n + 1, h => by
    rw [List.replicate_succ, List.zip_cons_cons, List.all_cons, List.all_cons, zip_all_true l n (by simpa using h)]
    simp
theorem zip_all_false : ∀ (l : List Bool) (n : Nat), ((l.zip (List.replicate n false)).all fun p => p.1 || !p.2) = true
  | [], _ => by simp
  | a :: l, 0 => by simp
  | a :: l, n + 1 => by
    rw [List.replicate_succ, List.zip_cons_cons, List.all_cons, zip_all_false l n]
    simp

/-- **C86**, the part that holds: with operands without gaps (distance = size of an element) every universal function
applies the library function of its name, for every number of elements and all types of inputs.
Missing from the full statement: all other distances. -/
theorem C86_contiguous_partial : UfuncsRight fun s l => ∀ d ∈ l, d = esz s := by
  intro u hu kinds hk
  obtain ⟨nt, tb⟩ := tables u hu
  obtain ⟨r0, -⟩ := tb true
  obtain ⟨r1, -⟩ := tb false
  obtain ⟨t1, t2, t3, t4⟩ := tb (kinds.all id)
  obtain ⟨S, hS, e⟩ := Option.map_eq_some_iff.1 t4
  simp only [Prod.mk.injEq] at e
  obtain ⟨e1, e2, e3⟩ := e
  refine ⟨if kinds.all id then 0 else 1, S, ?_, t1, hS, e2, e3, e1, ?_⟩
  · simp only [if_true, Bool.false_eq_true, if_false] at r0 r1
    unfold Ufunc.pick
    rw [nt]
    show ([0, 1].find? _) = _
    rw [List.find?_cons, r0, zip_all_true _ _ (by omega)]
    cases kinds.all id
    · simp only [List.find?_cons, r1, zip_all_false]; rfl
    · rfl
  · have ar := lib_arity _ (lookup_mem _ _ _ hS)
    generalize kinds.all id = s at *
    subst e1
    intro ins outs n m x y hi ho hst hin hf hout hsep hdis
    have si : ∀ o ∈ ins, ∀ k : Nat, elt o k = o.1 + esz S.single * k := by
      intro o hoo k
      unfold elt
      rw [hst o.2 (by simp only [List.map_append, List.mem_append, List.mem_map]; exact Or.inl ⟨o, hoo, rfl⟩)]
    have so : ∀ o ∈ outs, ∀ k : Nat, elt o k = o.1 + esz S.single * k := by
      intro o hoo k
      unfold elt
      rw [hst o.2 (by simp only [List.map_append, List.mem_append, List.mem_map]; exact Or.inr ⟨o, hoo, rfl⟩)]
    obtain ⟨m', k1, k2, k3⟩ := ptrLoop_spec S.fn (ins.map Prod.fst) (outs.map Prod.fst) n m x y
      (by
        intro k hk
        rw [← hin k hk, List.map_map]
        exact List.map_congr_left fun o hoo => by rw [si o hoo]; rfl)
      hf (by intro k hk; rw [ar _ _ (hf k hk), e3, List.length_map, ho])
      (by
        intro o hoo k hk
        obtain ⟨o, hoo', rfl⟩ := List.mem_map.1 hoo
        rw [← so o hoo']; exact hout o hoo' k hk)
      (by
        intro i hii o hoo j k hj hk
        obtain ⟨o, hoo', rfl⟩ := List.mem_map.1 hoo
        obtain ⟨i, hii', rfl⟩ := List.mem_map.1 hii
        rw [← so o hoo', ← si i hii']; exact hsep i hii' o hoo' j k hj hk)
      (by
        intro a b j k ha hb hj hk h
        simp only [List.length_map] at ha hb
        simp only [List.getElem_map] at h
        rw [← so _ (List.getElem_mem ha), ← so _ (List.getElem_mem hb)] at h
        exact hdis a b j k ha hb hj hk h)
    refine ⟨m', ?_, ?_, ?_⟩
    · unfold Ufunc.run
      rw [t2, t3]
      unfold inner
      simp only [hS]
      rw [dif_pos trivial, if_pos ⟨by rw [e2, e3], by simp [hi, ho]⟩]
      rw [show ((ins ++ outs).map Prod.fst).take u.nin = ins.map Prod.fst by rw [List.map_append, ← hi, ← List.length_map Prod.fst, List.take_left],
        show ((ins ++ outs).map Prod.fst).drop u.nin = outs.map Prod.fst by rw [List.map_append, ← hi, ← List.length_map Prod.fst, List.drop_left]]
      exact k1
    · intro k hk
      rw [← k2 k hk, List.map_map]
      exact List.map_congr_left fun o hoo => by rw [so o hoo]; rfl
    · intro p hp
      refine k3 p fun o hoo k hk => ?_
      obtain ⟨o, hoo', rfl⟩ := List.mem_map.1 hoo
      rw [← so o hoo']
      exact hp o hoo' k hk

/-- `vdt_atan2` is one of the functions, and two of the fifteen are called with mixed types: the double loop is chosen. -/
example : ufuncs.length = 15 ∧ (ufuncs[11]?.map fun u => (u.name, u.pick [true, false], u.pick [true, true])) = some (‹"vdt_atan2"›, some 1, some 0) := by
  decide +kernel

/-- `vdt_div` on two arrays of two doubles each: the second quotient is stored behind the first, at 40. -/
example : ((⟨funcs21, [‹"vdt_divfv"›, ‹"vdt_divv"›], types12, 2, 2, 1, ‹"vdt_div"›⟩ : Ufunc).run 1 false [(0, 8), (16, 8), (32, 8)] 2
    fun p => if p = 0 ∨ p = 8 then some (FP.lit 3) else if p = 16 ∨ p = 24 then some (FP.lit 4) else if p = 32 ∨ p = 40 then some (FP.zero true)
      else none).bind (· 40) = some (FP.lit 0.75) := by decide +kernel

/-! ## Other distances -/

theorem writes_unmapped {α : Type} (p : Int) : ∀ (as : List Int) (ys : List α) (m m' : BMem α), m p = none → writes as ys m = some m' → m' p = none
  | [], [], m, m', h, e => by
    simp only [writes, Option.some.injEq] at e
    rw [← e]; exact h
  | [], _ :: _, _, _, _, e => by simp [writes] at e
  | _ :: _, [], _, _, _, e => by simp [writes] at e
  | a :: as, y :: ys, m, m', h, e => by
    rw [writes] at e
    split at e
    · rename_i hm
      have : p ≠ a := by rintro rfl; rw [h] at hm; exact absurd hm (by simp)
      exact writes_unmapped p as ys _ m' (by rw [Function.update_of_ne this]; exact h) e
    · exact absurd e (by simp)

theorem mapM_unmapped {α : Type} (g : Int → Option α) : ∀ (l : List Int) (p : Int), p ∈ l → g p = none → l.mapM g = none
  | a :: l, p, hp, h => by
    rw [List.mapM_cons]
    rcases List.mem_cons.1 hp with rfl | hp
    · rw [h]; rfl
    · rw [mapM_unmapped g l p hp h]
      cases g a <;> rfl

theorem ptrLoop_outside {s : Bool} (f : List (FP (fmt s)) → Option (List (FP (fmt s)))) (ins outs : List Int) (p : Int) (hp : p ∈ ins) :
    ∀ (k i j : Nat) (m : BMem (FP (fmt s))), i ≤ j → j < i + k → m (p + esz s * j) = none → ptrLoop f ins outs k i m = none
  | 0, i, j, m, h1, h2, _ => by omega
  | k + 1, i, j, m, h1, h2, h => by
    rw [ptrLoop]
    rcases h1.eq_or_lt with rfl | h1
    · have := mapM_unmapped (fun p => m (p + esz s * i)) ins p hp h
      rw [this]; rfl
    · cases ins.mapM fun p => m (p + esz s * i) with
      | none => rfl
      | some xs =>
        simp only [Option.bind_eq_bind, Option.bind_some]
        cases f xs with
        | none => rfl
        | some ys =>
          simp only [Option.bind_some]
          cases e : writes (outs.map fun p => p + esz s * i) ys m with
          | none => rfl
          | some m' =>
            simp only [Option.bind_some]
            exact ptrLoop_outside f ins outs p hp k (i + 1) j m' h1 (by omega) (writes_unmapped _ _ _ _ _ h e)

/-- An input that is repeated (a number in the place of an array: distance 0) is read beyond its end: with a second iteration
the call is undefined, for every universal function, in each position of the input. -/
theorem C86_scalar_undefined (u : Ufunc) (hu : u ∈ ufuncs) (s : Bool) (ins outs : List (Int × Int)) (hi : ins.length = u.nin) (n : Nat) (hn : 2 ≤ n)
    (m : BMem (FP (fmt s))) (a : Int) (ha : (a, 0) ∈ ins) (h : m (a + esz s) = none) :
    u.run (if s then 0 else 1) s (ins ++ outs) n m = none := by
  obtain ⟨-, t2, t3, t4⟩ := (tables u hu).2 s
  obtain ⟨S, hS, e⟩ := Option.map_eq_some_iff.1 t4
  simp only [Prod.mk.injEq] at e
  obtain ⟨e1, e2, e3⟩ := e
  subst e1
  unfold Ufunc.run
  rw [t2, t3]
  unfold inner
  simp only [hS]
  rw [dif_pos trivial]
  split
  · rw [show ((ins ++ outs).map Prod.fst).take u.nin = ins.map Prod.fst by rw [List.map_append, ← hi, ← List.length_map Prod.fst, List.take_left]]
    exact ptrLoop_outside _ _ _ a (List.mem_map.2 ⟨_, ha, rfl⟩) n 0 1 m (by omega) (by omega) (by simpa using h)
  · rfl

/-- The second argument of `vdt_atan2` is one number at the address 500, repeated; the others are arrays of two elements. -/
def oneNumber : BMem (FP (fmt false)) := fun p =>
  if p = 0 ∨ p = 8 ∨ p = 500 ∨ p = 1000 ∨ p = 1008 then some (FP.lit 1) else none

theorem C86_violated : ¬ C86_statement := by
  intro h
  have hm : (⟨funcs21, [‹"vdt_atan2fv"›, ‹"vdt_atan2v"›], types12, 2, 2, 1, ‹"vdt_atan2"›⟩ : Ufunc) ∈ ufuncs := by
    unfold ufuncs
    simp only [List.mem_append, List.mem_cons]
    exact Or.inr (Or.inr (Or.inl trivial))
  obtain ⟨t, S, h1, -, h3, -, -, hs, h6⟩ := h _ hm [false, false] rfl
  have ht : t = 1 := by
    have : (⟨funcs21, [‹"vdt_atan2fv"›, ‹"vdt_atan2v"›], types12, 2, 2, 1, ‹"vdt_atan2"›⟩ : Ufunc).pick [false, false] = some 1 := by decide
    rw [this] at h1
    exact (Option.some.inj h1).symm
  subst ht
  have e3 : S = sym21 false fun x y => some (fast_atan2 x y) := by
    have : lib.lookup ((‹"vdt_atan2"› : Text) ++ ‹"v"›) = some (sym21 false fun x y => some (fast_atan2 x y)) := by rfl
    have h3' : lib.lookup ((‹"vdt_atan2"› : Text) ++ ‹"v"›) = some S := h3
    rw [this] at h3'
    exact (Option.some.inj h3').symm
  subst e3
  obtain ⟨m', k, -⟩ := h6 [(0, 8), (500, 0)] [(1000, 8)] 2 oneNumber (fun _ => [FP.lit 1, FP.lit 1]) (fun _ => [fast_atan2 (FP.lit 1) (FP.lit 1)])
    rfl rfl trivial (by
      intro k hk
      have : k = 0 ∨ k = 1 := by omega
      rcases this with rfl | rfl <;> rfl) (by intro k hk; rfl) (by
      intro o ho k hk
      simp only [List.mem_singleton] at ho
      subst ho
      have : k = 0 ∨ k = 1 := by omega
      rcases this with rfl | rfl <;> rfl) (by
      intro i hi o ho j k hj hk
      simp only [List.mem_singleton] at ho
      subst ho
      simp only [List.mem_cons, List.not_mem_nil, or_false] at hi
      rcases hi with rfl | rfl <;> simp only [elt] <;> omega) (by
      intro a b j k ha hb hj hk he
      simp only [List.length_singleton] at ha hb
      obtain rfl : a = 0 := by omega
      obtain rfl : b = 0 := by omega
      simp only [List.getElem_cons_zero, elt] at he
      omega)
  have := C86_scalar_undefined _ hm false [(0, 8), (500, 0)] [(1000, 8)] rfl 2 le_rfl oneNumber 500 (by simp) (by rfl)
  have k' : Ufunc.run ⟨funcs21, [‹"vdt_atan2fv"›, ‹"vdt_atan2v"›], types12, 2, 2, 1, ‹"vdt_atan2"›⟩ (if false then 0 else 1) false
    ([(0, 8), (500, 0)] ++ [(1000, 8)]) 2 oneNumber = some m' := k
  rw [this] at k'
  exact absurd k' (by simp)

end Vdt.Py
