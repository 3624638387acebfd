import Verif.Model.Arrays
import Mathlib.Data.List.Basic
import Mathlib.Data.List.Nodup
import Mathlib.Data.List.Range
import Mathlib.Tactic.Linarith

/-!
# Array functions (C37, C38)
-/

namespace Vdt.Arr
variable {α : Type}

theorem toNat_succ {i size : BitVec 32} (h : i < size) : (i + 1).toNat = i.toNat + 1 := by
  have h1 : i.toNat < size.toNat := h
  have h2 : size.toNat < 2 ^ 32 := size.isLt
  rw [BitVec.toNat_add]; simp; omega

/-- One iteration of the loop. -/
def iter (f : α → Option α) (ia oa : Nat) (m : Mem α) (i : Nat) : Option (Mem α) := do
  let x ← load m (ia + i)
  let y ← f x
  store m (oa + i) y

theorem vloop_eq (f : α → Option α) (size : BitVec 32) (ia oa : Nat) (d : Nat) :
    ∀ (i : BitVec 32) (m : Mem α), i.toNat + d = size.toNat →
      vloop f size ia oa i m = (List.range' i.toNat d).foldlM (iter f ia oa) m := by
  induction d with
  | zero =>
    intro i m h
    rw [vloop, dif_neg (by intro h'; have : i.toNat < size.toNat := h'; omega)]
    rfl
  | succ d ih =>
    intro i m h
    have hi : i < size := by show i.toNat < size.toNat; omega
    rw [vloop, dif_pos hi, List.range'_succ, List.foldlM_cons]
    unfold iter
    cases h1 : load m (ia + i.toNat) with
    | none => rfl
    | some x =>
      cases h2 : f x with
      | none => simp [h2]
      | some y =>
        cases h3 : store m (oa + i.toNat) y with
        | none => simp [h2, h3]
        | some m' =>
          simp only [h2, h3, Option.bind_eq_bind, Option.bind_some]
          rw [ih (i + 1) m' (by rw [toNat_succ hi]; omega), toNat_succ hi]
          rfl

theorem arrayFn_eq (f : α → Option α) (size : BitVec 32) (ia oa : Nat) (m : Mem α) :
    arrayFn f size ia oa m = (List.range size.toNat).foldlM (iter f ia oa) m := by
  unfold arrayFn
  rw [vloop_eq f size ia oa size.toNat 0 m (by simp), List.range_eq_range']
  rfl

/-- The value iteration `k` computes from the original memory. -/
def elem (f : α → Option α) (ia : Nat) (m : Mem α) (k : Nat) : Option α := (m (ia + k)).bind f

/-- Memory in which the output cells in the set `W` have been filled. -/
def filled (f : α → Option α) (ia oa : Nat) (m : Mem α) (W : Nat → Prop) [DecidablePred W] : Mem α := fun p =>
  if oa ≤ p ∧ W (p - oa) then elem f ia m (p - oa) else m p

theorem filled_read {f : α → Option α} {ia oa : Nat} {m : Mem α} {W : Nat → Prop} [DecidablePred W] {k : Nat}
    (h : ∀ j, W j → ia + k ≠ oa + j) : filled f ia oa m W (ia + k) = m (ia + k) := by
  unfold filled
  rw [if_neg]
  rintro ⟨h1, h2⟩
  exact h _ h2 (by omega)

theorem filled_isSome {f : α → Option α} {ia oa : Nat} {m : Mem α} {W : Nat → Prop} [DecidablePred W]
    (hW : ∀ j, W j → (elem f ia m j).isSome ∧ (m (oa + j)).isSome) (p : Nat) :
    (filled f ia oa m W p).isSome = (m p).isSome := by
  unfold filled
  split
  · next h =>
    have := hW _ h.2
    rw [show oa + (p - oa) = p by omega] at this
    rw [this.1, this.2]
  · rfl

/-- Closed form of the sequential loop. -/
theorem fold_iter (f : α → Option α) (ia oa : Nat) (m : Mem α) (n : Nat)
    (hal : ∀ j k, j < k → k < n → ia + k ≠ oa + j) :
    (List.range n).foldlM (iter f ia oa) m =
      if ∀ k < n, (elem f ia m k).isSome ∧ (m (oa + k)).isSome then some (filled f ia oa m (· < n)) else none := by
  induction n with
  | zero =>
    simp only [List.range_zero, List.foldlM_nil, Nat.not_lt_zero, false_implies, implies_true, if_true]
    show some m = _
    congr 1
    funext p
    unfold filled
    rw [if_neg (by omega)]
  | succ n ih =>
    rw [List.range_succ, List.foldlM_append, ih (fun j k h1 h2 => hal j k h1 (by omega))]
    by_cases hc : ∀ k < n, (elem f ia m k).isSome ∧ (m (oa + k)).isSome
    · rw [if_pos hc]
      simp only [Option.bind_eq_bind, Option.bind_some, List.foldlM_cons, List.foldlM_nil]
      have hr : filled f ia oa m (· < n) (ia + n) = m (ia + n) :=
        filled_read (fun j hj => hal j n hj (by omega))
      have hs := filled_isSome (f := f) (ia := ia) (oa := oa) (m := m) (W := (· < n)) hc (oa + n)
      unfold iter load store
      rw [hr]
      cases h1 : m (ia + n) with
      | none =>
        rw [if_neg]
        · rfl
        · intro h
          have := (h n (by omega)).1
          unfold elem at this
          rw [h1] at this
          simp at this
      | some x =>
        simp only [Option.bind_eq_bind, Option.bind_some]
        cases h2 : f x with
        | none =>
          rw [if_neg]
          · rfl
          · intro h
            have := (h n (by omega)).1
            unfold elem at this
            rw [h1] at this
            simp [h2] at this
        | some y =>
          simp only [Option.bind_some]
          rw [hs]
          cases h3 : (m (oa + n)).isSome with
          | false =>
            rw [if_neg (by simp), if_neg (fun h => by
              have := (h n (by omega)).2
              rw [h3] at this
              exact absurd this (by simp))]
            rfl
          | true =>
            have he : elem f ia m n = some y := by unfold elem; rw [h1]; exact h2
            rw [if_pos rfl, if_pos]
            · show some _ = some _
              congr 1
              funext p
              by_cases hp : p = oa + n
              · subst hp
                rw [Function.update_self]
                unfold filled
                rw [if_pos (by constructor <;> omega), show oa + n - oa = n by omega, he]
              · rw [Function.update_of_ne hp]
                unfold filled
                by_cases hq : oa ≤ p ∧ p - oa < n
                · rw [if_pos hq, if_pos (by omega)]
                · rw [if_neg hq, if_neg (by omega)]
            · intro k hk
              rcases Nat.lt_succ_iff_lt_or_eq.1 hk with h | rfl
              · exact hc k h
              · exact ⟨by rw [he]; rfl, h3⟩
    · rw [if_neg hc, if_neg (fun h => hc fun k hk => h k (by omega))]
      rfl

/-- **C37.**  `f_v(size, iarray, oarray)` when no cell is read after having been written
(`__restrict__` buffers, or both pointers equal): if all inputs are mapped, the scalar function is
defined on them and the outputs are mapped, the call is defined, `oarray[k]` holds `f(iarray[k])` for
the *original* `iarray[k]`, and no other cell has changed. -/
theorem C37_array_elementwise (f : α → Option α) (size : BitVec 32) (ia oa : Nat) (m : Mem α)
    (x y : Nat → α)
    (hal : ∀ j k, j < k → k < size.toNat → ia + k ≠ oa + j)
    (hin : ∀ k < size.toNat, m (ia + k) = some (x k))
    (hf : ∀ k < size.toNat, f (x k) = some (y k))
    (hout : ∀ k < size.toNat, (m (oa + k)).isSome = true) :
    ∃ m', arrayFn f size ia oa m = some m' ∧ (∀ k < size.toNat, m' (oa + k) = some (y k)) ∧
      ∀ p, (∀ k < size.toNat, p ≠ oa + k) → m' p = m p := by
  have he : ∀ k < size.toNat, elem f ia m k = some (y k) := by
    intro k hk; unfold elem; rw [hin k hk]; exact hf k hk
  refine ⟨filled f ia oa m (· < size.toNat), ?_, ?_, ?_⟩
  · rw [arrayFn_eq, fold_iter f ia oa m _ hal, if_pos]
    intro k hk
    exact ⟨by rw [he k hk]; rfl, hout k hk⟩
  · intro k hk
    unfold filled
    rw [if_pos (by constructor <;> omega), show oa + k - oa = k by omega, he k hk]
  · intro p hp
    unfold filled
    rw [if_neg]
    rintro ⟨h1, h2⟩
    exact hp _ h2 (by omega)

/-- The call touches every one of the cells `iarray[0..size)` and `oarray[0..size)`: it is undefined
as soon as one of them does not exist or `f` is undefined on one of the inputs.  With the previous
theorem (which holds for every memory, in particular one that consists of these cells only) this says
exactly which cells are accessed. -/
theorem C37_array_defined_iff (f : α → Option α) (size : BitVec 32) (ia oa : Nat) (m : Mem α)
    (hal : ∀ j k, j < k → k < size.toNat → ia + k ≠ oa + j) :
    (arrayFn f size ia oa m).isSome = true ↔
      ∀ k < size.toNat, (∃ x, m (ia + k) = some x ∧ (f x).isSome = true) ∧ (m (oa + k)).isSome = true := by
  rw [arrayFn_eq, fold_iter f ia oa m _ hal]
  have key : ∀ k, (elem f ia m k).isSome = true ↔ ∃ x, m (ia + k) = some x ∧ (f x).isSome = true := by
    intro k
    unfold elem
    cases m (ia + k) with
    | none => simp
    | some x => simp
  constructor
  · intro h k hk
    split at h
    · next hc => exact ⟨(key k).1 (hc k hk).1, (hc k hk).2⟩
    · exact absurd h (by simp)
  · intro h
    rw [if_pos]
    · rfl
    · intro k hk
      exact ⟨(key k).2 (h k hk).1, (h k hk).2⟩

/-- Three elements, a function that is undefined somewhere, separate buffers at 10 and 20. -/
example : ∃ m', arrayFn (fun x : Nat => if x = 7 then none else some (x * x)) 3 10 20
      (fun p => if 10 ≤ p ∧ p < 13 then some p else if 20 ≤ p ∧ p < 23 then some 0 else none) = some m' ∧
    m' 22 = some 144 ∧ m' 12 = some 12 := by
  obtain ⟨m', h1, h2, h3⟩ := C37_array_elementwise (fun x : Nat => if x = 7 then none else some (x * x)) 3 10 20
    (fun p => if 10 ≤ p ∧ p < 13 then some p else if 20 ≤ p ∧ p < 23 then some 0 else none)
    (fun k => 10 + k) (fun k => (10 + k) * (10 + k))
    (by intro j k h1 h2; have : k < 3 := h2; omega)
    (by intro k hk; have : k < 3 := hk; rw [if_pos (by omega)])
    (by intro k hk; have : k < 3 := hk; rw [if_neg (by omega)])
    (by intro k hk; have : k < 3 := hk; rw [if_neg (by omega), if_pos (by omega)]; rfl)
  refine ⟨m', h1, h2 2 (by decide), ?_⟩
  rw [h3 12 (by intro k hk; omega)]
  rfl

/-- The call with `iarray = oarray` works in place. -/
theorem C37_array_in_place (f : α → Option α) (size : BitVec 32) (a : Nat) (m : Mem α) (x y : Nat → α)
    (hin : ∀ k < size.toNat, m (a + k) = some (x k)) (hf : ∀ k < size.toNat, f (x k) = some (y k)) :
    ∃ m', arrayFn f size a a m = some m' ∧ (∀ k < size.toNat, m' (a + k) = some (y k)) ∧
      ∀ p, (∀ k < size.toNat, p ≠ a + k) → m' p = m p :=
  C37_array_elementwise f size a a m x y (fun j k h _ => by omega) hin hf (fun k hk => by rw [hin k hk]; rfl)

/-! ### Two arguments -/

def iter2 (f : α → α → Option α) (ia ib oa : Nat) (m : Mem α) (i : Nat) : Option (Mem α) := do
  let x ← load m (ia + i)
  let y ← load m (ib + i)
  let z ← f x y
  store m (oa + i) z

theorem vloop2_eq (f : α → α → Option α) (size : BitVec 32) (ia ib oa : Nat) (d : Nat) :
    ∀ (i : BitVec 32) (m : Mem α), i.toNat + d = size.toNat →
      vloop2 f size ia ib oa i m = (List.range' i.toNat d).foldlM (iter2 f ia ib oa) m := by
  induction d with
  | zero =>
    intro i m h
    rw [vloop2, dif_neg (by intro h'; have : i.toNat < size.toNat := h'; omega)]
    rfl
  | succ d ih =>
    intro i m h
    have hi : i < size := by show i.toNat < size.toNat; omega
    rw [vloop2, dif_pos hi, List.range'_succ, List.foldlM_cons]
    unfold iter2
    cases h1 : load m (ia + i.toNat) with
    | none => rfl
    | some x =>
      cases h1' : load m (ib + i.toNat) with
      | none => rfl
      | some x' =>
        cases h2 : f x x' with
        | none => simp [h2]
        | some y =>
          cases h3 : store m (oa + i.toNat) y with
          | none => simp [h2, h3]
          | some m' =>
            simp only [h2, h3, Option.bind_eq_bind, Option.bind_some]
            rw [ih (i + 1) m' (by rw [toNat_succ hi]; omega), toNat_succ hi]
            rfl

/-- Two-argument array functions (`atan2v`, `identity2Dv`, ...). -/
theorem C37_array2_elementwise (f : α → α → Option α) (size : BitVec 32) (ia ib oa : Nat) (m : Mem α)
    (x x' y : Nat → α)
    (hal : ∀ j k, j < k → k < size.toNat → ia + k ≠ oa + j)
    (hal' : ∀ j k, j < k → k < size.toNat → ib + k ≠ oa + j)
    (hin : ∀ k < size.toNat, m (ia + k) = some (x k))
    (hin' : ∀ k < size.toNat, m (ib + k) = some (x' k))
    (hf : ∀ k < size.toNat, f (x k) (x' k) = some (y k))
    (hout : ∀ k < size.toNat, (m (oa + k)).isSome = true) :
    ∃ m', arrayFn2 f size ia ib oa m = some m' ∧ (∀ k < size.toNat, m' (oa + k) = some (y k)) ∧
      ∀ p, (∀ k < size.toNat, p ≠ oa + k) → m' p = m p := by
  unfold arrayFn2
  rw [vloop2_eq f size ia ib oa size.toNat 0 m (by simp)]
  show ∃ m', (List.range' 0 size.toNat).foldlM (iter2 f ia ib oa) m = some m' ∧ _
  rw [← List.range_eq_range']
  generalize size.toNat = n at *
  induction n with
  | zero => exact ⟨m, rfl, by simp, by simp⟩
  | succ n ih =>
    obtain ⟨m', h1, h2, h3⟩ := ih (fun j k a b => hal j k a (by omega)) (fun j k a b => hal' j k a (by omega))
      (fun k hk => hin k (by omega)) (fun k hk => hin' k (by omega)) (fun k hk => hf k (by omega))
      (fun k hk => hout k (by omega))
    rw [List.range_succ, List.foldlM_append, h1]
    have e1 : m' (ia + n) = some (x n) := by
      rw [h3 _ (fun k hk => hal k n hk (by omega)), hin n (by omega)]
    have e2 : m' (ib + n) = some (x' n) := by
      rw [h3 _ (fun k hk => hal' k n hk (by omega)), hin' n (by omega)]
    have e3 : (m' (oa + n)).isSome = true := by
      rw [h3 _ (fun k hk => by omega)]; exact hout n (by omega)
    refine ⟨Function.update m' (oa + n) (some (y n)), ?_, ?_, ?_⟩
    · simp only [Option.bind_eq_bind, Option.bind_some, List.foldlM_cons, List.foldlM_nil, iter2, load, store, e1, e2,
        hf n (by omega), e3, if_true]
      rfl
    · intro k hk
      by_cases hkn : k = n
      · subst hkn; rw [Function.update_self]
      · rw [Function.update_of_ne (by omega)]; exact h2 k (by omega)
    · intro p hp
      rw [Function.update_of_ne (hp n (by omega))]
      exact h3 p (fun k hk => hp k (by omega))

/-- Two inputs at 10 and 20, output at 30. -/
example : ∃ m', arrayFn2 (fun x y : Nat => some (x - y)) 2 10 20 30
      (fun p => if 10 ≤ p ∧ p < 12 then some (2 * p) else if 20 ≤ p ∧ p < 22 then some 1 else
        if 30 ≤ p ∧ p < 32 then some 0 else none) = some m' ∧ m' 31 = some 21 := by
  obtain ⟨m', h1, h2, -⟩ := C37_array2_elementwise (fun x y : Nat => some (x - y)) 2 10 20 30
    (fun p => if 10 ≤ p ∧ p < 12 then some (2 * p) else if 20 ≤ p ∧ p < 22 then some 1 else
        if 30 ≤ p ∧ p < 32 then some 0 else none) (fun k => 2 * (10 + k)) (fun _ => 1) (fun k => 2 * (10 + k) - 1)
    (by intro j k h1 h2; have : k < 2 := h2; omega)
    (by intro j k h1 h2; have : k < 2 := h2; omega)
    (by intro k hk; have : k < 2 := hk; rw [if_pos (by omega)])
    (by intro k hk; have : k < 2 := hk; rw [if_neg (by omega), if_pos (by omega)])
    (by intro k hk; rfl)
    (by intro k hk; have : k < 2 := hk; rw [if_neg (by omega), if_neg (by omega), if_pos (by omega)]; rfl)
  exact ⟨m', h1, h2 1 (by decide)⟩

/-! ### Order independence -/

/-- A legal rearrangement of the `n` iterations: every iteration reads once and writes once, the read
comes before the write. -/
structure Legal (n : Nat) (l : List Step) : Prop where
  perm : l.Perm (sequential n)
  order : ∀ a b i, l = a ++ Step.write i :: b → Step.read i ∈ a

/-- What a step needs, in terms of the original memory. -/
def stepOk (f : α → Option α) (ia oa : Nat) (m : Mem α) : Step → Prop
  | .read i => (m (ia + i)).isSome
  | .write i => (elem f ia m i).isSome ∧ (m (oa + i)).isSome

open Classical in
theorem schedule_closed (f : α → Option α) (ia oa : Nat) (m : Mem α) (l : List Step)
    (hnd : l.Nodup) (hord : ∀ a b i, l = a ++ Step.write i :: b → Step.read i ∈ a)
    (hal : ∀ j k, Step.write j ∈ l → Step.read k ∈ l → ia + k = oa + j → k = j) :
    l.foldlM (step f ia oa) (m, fun _ => none) =
      if ∀ s ∈ l, stepOk f ia oa m s then
        some (filled f ia oa m (fun j => Step.write j ∈ l), fun i => if Step.read i ∈ l then m (ia + i) else none)
      else none := by
  induction l using List.reverseRecOn with
  | nil =>
    simp only [List.foldlM_nil, List.not_mem_nil, false_implies, implies_true, if_true, if_false]
    show some _ = some _
    congr 2
    funext p
    unfold filled
    rw [if_neg (by simp)]
  | append_singleton l s ih =>
    have hnd' : l.Nodup := (List.nodup_append.1 hnd).1
    have hs : s ∉ l := by
      intro h
      exact (List.nodup_append.1 hnd).2.2 s h s (by simp) rfl
    have ih' := ih hnd' (by
      intro a b i h
      exact hord a (b ++ [s]) i (by rw [h]; simp)) (by
      intro j k hj hk
      exact hal j k (by simp [hj]) (by simp [hk]))
    rw [List.foldlM_append, ih']
    by_cases hc : ∀ s ∈ l, stepOk f ia oa m s
    · rw [if_pos hc]
      simp only [Option.bind_eq_bind, Option.bind_some, List.foldlM_cons, List.foldlM_nil]
      have hW : ∀ j, Step.write j ∈ l → (elem f ia m j).isSome ∧ (m (oa + j)).isSome := fun j hj => hc _ hj
      cases s with
      | read i =>
        have hr : filled f ia oa m (fun j => Step.write j ∈ l) (ia + i) = m (ia + i) := by
          apply filled_read
          intro j hj he
          have := hal j i (by simp [hj]) (by simp) he
          subst this
          obtain ⟨a, b, hab⟩ := List.append_of_mem hj
          have := hord a (b ++ [Step.read i]) i (by rw [hab]; simp)
          exact hs (by rw [hab]; simp [this])
        simp only [step, load, hr]
        cases h1 : m (ia + i) with
        | none =>
          rw [if_neg]
          · rfl
          · intro h
            have : (m (ia + i)).isSome = true := h (Step.read i) (by simp)
            rw [h1] at this
            simp at this
        | some x =>
          rw [if_pos]
          · show some _ = some _
            congr 2
            · funext p
              unfold filled
              simp
            · funext k
              by_cases hk : k = i
              · subst hk
                rw [Function.update_self, if_pos (by simp), h1]
              · rw [Function.update_of_ne hk]
                have : Step.read k ≠ Step.read i := by simpa using hk
                simp [this]
          · intro s hs
            rcases List.mem_append.1 hs with h | h
            · exact hc s h
            · rw [List.mem_singleton.1 h]
              show (m (ia + i)).isSome = true
              rw [h1]; rfl
      | write i =>
        have hrd : Step.read i ∈ l := hord l [] i rfl
        simp only [step, if_pos hrd]
        have hs' := filled_isSome (f := f) (ia := ia) (oa := oa) (m := m) (W := fun j => Step.write j ∈ l) hW (oa + i)
        have hx : (m (ia + i)).isSome = true := hc _ hrd
        obtain ⟨x, hx⟩ := Option.isSome_iff_exists.1 hx
        rw [hx]
        simp only [Option.bind_eq_bind, Option.bind_some]
        cases h2 : f x with
        | none =>
          rw [if_neg]
          · rfl
          · intro h
            have : (elem f ia m i).isSome = true := (h (Step.write i) (by simp)).1
            unfold elem at this
            rw [hx] at this
            simp [h2] at this
        | some y =>
          have he : elem f ia m i = some y := by unfold elem; rw [hx]; exact h2
          simp only [Option.bind_some, store]
          rw [hs']
          cases h3 : (m (oa + i)).isSome with
          | false =>
            rw [if_neg (by simp), if_neg (fun h => by
              have : (m (oa + i)).isSome = true := (h (Step.write i) (by simp)).2
              rw [h3] at this
              exact absurd this (by simp))]
            rfl
          | true =>
            rw [if_pos rfl, if_pos]
            · show some _ = some _
              congr 2
              · funext p
                by_cases hp : p = oa + i
                · subst hp
                  rw [Function.update_self]
                  unfold filled
                  rw [if_pos (by simp), show oa + i - oa = i by omega, he]
                · rw [Function.update_of_ne hp]
                  unfold filled
                  by_cases hq : oa ≤ p ∧ Step.write (p - oa) ∈ l
                  · rw [if_pos hq, if_pos ⟨hq.1, by simp [hq.2]⟩]
                  · rw [if_neg hq, if_neg]
                    rintro ⟨ha, hb⟩
                    rcases List.mem_append.1 hb with h | h
                    · exact hq ⟨ha, h⟩
                    · have := List.mem_singleton.1 h
                      injection this with this
                      omega
              · funext k
                simp
            · intro s hs
              rcases List.mem_append.1 hs with h | h
              · exact hc s h
              · rw [List.mem_singleton.1 h]
                exact ⟨by rw [he]; rfl, h3⟩
    · rw [if_neg hc, if_neg (fun h => hc fun k hk => h k (by simp [hk]))]
      rfl

theorem mem_sequential_read {n i : Nat} : Step.read i ∈ sequential n ↔ i < n := by
  simp [sequential]

theorem mem_sequential_write {n i : Nat} : Step.write i ∈ sequential n ↔ i < n := by
  simp [sequential]

theorem sequential_succ (n : Nat) : sequential (n + 1) = sequential n ++ [Step.read n, Step.write n] := by
  simp [sequential, List.range_succ]

theorem sequential_nodup (n : Nat) : (sequential n).Nodup := by
  induction n with
  | zero => simp [sequential]
  | succ n ih =>
    rw [sequential_succ]
    refine List.nodup_append.2 ⟨ih, by simp, ?_⟩
    intro a ha b hb he
    subst he
    simp at hb
    rcases hb with rfl | rfl
    · exact absurd (mem_sequential_read.1 ha) (by omega)
    · exact absurd (mem_sequential_write.1 ha) (by omega)

/-- **C38.**  If the buffers are disjoint or identical (iteration `j` writes a cell iteration `k` reads
only if `j = k`), every legal rearrangement of the iterations leaves the same memory as the loop as
written, and is defined exactly when the loop is. -/
theorem C38_any_order (f : α → Option α) (size : BitVec 32) (ia oa : Nat) (m : Mem α) (l : List Step)
    (hl : Legal size.toNat l)
    (hal : ∀ j k, j < size.toNat → k < size.toNat → ia + k = oa + j → k = j) :
    runSchedule f ia oa l m = arrayFn f size ia oa m := by
  classical
  have hr : ∀ i, Step.read i ∈ l ↔ i < size.toNat := fun i => by
    rw [hl.perm.mem_iff]; exact mem_sequential_read
  have hw : ∀ i, Step.write i ∈ l ↔ i < size.toNat := fun i => by
    rw [hl.perm.mem_iff]; exact mem_sequential_write
  unfold runSchedule
  rw [schedule_closed f ia oa m l (hl.perm.nodup_iff.2 (sequential_nodup _)) hl.order
    (fun j k hj hk h => hal j k ((hw j).1 hj) ((hr k).1 hk) h), arrayFn_eq,
    fold_iter f ia oa m _ (fun j k h1 h2 h3 => by have := hal j k (by omega) h2 h3; omega)]
  have hiff : (∀ s ∈ l, stepOk f ia oa m s) ↔ ∀ k < size.toNat, (elem f ia m k).isSome ∧ (m (oa + k)).isSome := by
    constructor
    · intro h k hk
      exact h _ ((hw k).2 hk)
    · intro h s hs
      cases s with
      | read i =>
        have := (h i ((hr i).1 hs)).1
        unfold elem at this
        show (m (ia + i)).isSome = true
        cases h1 : m (ia + i) with
        | none => rw [h1] at this; exact absurd this (by simp)
        | some x => rfl
      | write i => exact h i ((hw i).1 hs)
  by_cases hc : ∀ k < size.toNat, (elem f ia m k).isSome ∧ (m (oa + k)).isSome
  · rw [if_pos hc, if_pos (hiff.2 hc)]
    show some _ = some _
    congr 1
    funext p
    unfold filled
    simp only [hw]
  · rw [if_neg hc, if_neg (fun h => hc (hiff.1 h))]
    rfl

/-- The loop as written is one of the legal schedules. -/
theorem C38_sequential_legal (n : Nat) : Legal n (sequential n) := by
  refine ⟨List.Perm.refl _, ?_⟩
  induction n with
  | zero => intro a b i h; simp [sequential] at h
  | succ n ih =>
    intro a b i h
    have hmem : Step.write i ∈ sequential (n + 1) := by rw [h]; simp
    have hi := mem_sequential_write.1 hmem
    have hnd := sequential_nodup (n + 1)
    rw [sequential_succ] at h hnd
    rcases List.eq_nil_or_concat b with hb | ⟨b', s, hb⟩
    · subst hb
      obtain ⟨h1, h2⟩ := List.append_inj' (s₁ := sequential n ++ [Step.read n]) (s₂ := a) (t₁ := [Step.write n])
        (t₂ := [Step.write i]) (by simpa using h) rfl
      injection h2 with h2 _
      injection h2 with h2
      subst h2
      rw [← h1]; simp
    · subst hb
      obtain ⟨h1, -⟩ := List.append_inj' (s₁ := sequential n ++ [Step.read n]) (s₂ := a ++ Step.write i :: b')
        (t₁ := [Step.write n]) (t₂ := [s]) (by simpa using h) rfl
      rcases List.eq_nil_or_concat b' with hb | ⟨b'', t, hb⟩
      · subst hb
        obtain ⟨-, h3⟩ := List.append_inj' (s₁ := sequential n) (s₂ := a)
          (t₁ := [Step.read n]) (t₂ := [Step.write i]) (by simpa using h1) rfl
        simp at h3
      · subst hb
        obtain ⟨h3, -⟩ := List.append_inj' (s₁ := sequential n) (s₂ := a ++ Step.write i :: b'')
          (t₁ := [Step.read n]) (t₂ := [t]) (by simpa using h1) rfl
        exact ih a b'' i h3

/-- A schedule that loads all three elements first and stores them in reverse order. -/
example : Legal 3 [.read 0, .read 1, .read 2, .write 2, .write 1, .write 0] := by
  refine ⟨by decide, ?_⟩
  intro a b i h
  match a, h with
  | [], h => simp at h
  | [_], h => simp at h
  | [_, _], h => simp at h
  | [a0, a1, a2], h => simp at h; obtain ⟨rfl, rfl, rfl, rfl, -⟩ := h; simp
  | [a0, a1, a2, a3], h => simp at h; obtain ⟨rfl, rfl, rfl, rfl, rfl, -⟩ := h; simp
  | [a0, a1, a2, a3, a4], h => simp at h; obtain ⟨rfl, rfl, rfl, rfl, rfl, rfl, -⟩ := h; simp
  | a0 :: a1 :: a2 :: a3 :: a4 :: a5 :: r, h => simp at h

/-- Shifted buffers (`oarray = iarray + 1`) do depend on the order: the loop as written copies the
first element everywhere, a schedule that loads first shifts the array. -/
theorem C38_shifted_depends_on_order :
    ∃ (m : Mem Nat) (l : List Step), Legal 2 l ∧
      runSchedule some 0 1 l m ≠ arrayFn some 2 0 1 m := by
  refine ⟨fun p => if p < 3 then some p else none, [.read 0, .read 1, .write 0, .write 1], ⟨by decide, ?_⟩, ?_⟩
  · intro a b i h
    match a, h with
    | [], h => simp at h
    | [_], h => simp at h
    | [a0, a1], h => simp at h; obtain ⟨rfl, rfl, rfl, -⟩ := h; simp
    | [a0, a1, a2], h => simp at h; obtain ⟨rfl, rfl, rfl, rfl, -⟩ := h; simp
    | a0 :: a1 :: a2 :: a3 :: r, h => simp at h
  · intro h
    have := congrArg (fun o : Option (Mem Nat) => o.bind fun m => m 2) h
    rw [arrayFn_eq] at this
    revert this
    decide

end Vdt.Arr
