import Verif.Props.Arrays
import Mathlib.Algebra.Order.Ring.Nat
import Mathlib.Tactic.Ring

/-!
# Vc wrappers and the numpy extension (C39, C40)
-/

namespace Vdt.Arr
variable {α : Type}

theorem vcLoad_spec (m : Mem α) : ∀ (W p : Nat) (x : Nat → α), (∀ j < W, m (p + j) = some (x j)) →
    ∃ r, vcLoad m p W = some r ∧ r.length = W ∧ ∀ j < W, r[j]? = some (x j) := by
  intro W
  induction W with
  | zero => intro p x _; exact ⟨[], rfl, rfl, by omega⟩
  | succ W ih =>
    intro p x h
    obtain ⟨r, h1, h2, h3⟩ := ih (p + 1) (fun j => x (j + 1)) (fun j hj => by
      rw [show p + 1 + j = p + (j + 1) by omega]; exact h (j + 1) (by omega))
    refine ⟨x 0 :: r, ?_, by simp [h2], ?_⟩
    · have := h 0 (by omega)
      simp only [Nat.add_zero] at this
      simp [vcLoad, load, this, h1]
    · intro j hj
      cases j with
      | zero => rfl
      | succ j => rw [List.getElem?_cons_succ]; exact h3 j (by omega)

theorem vcStore_spec : ∀ (l : List α) (m : Mem α) (p : Nat), (∀ j < l.length, (m (p + j)).isSome = true) →
    ∃ m', vcStore m p l = some m' ∧ (∀ j v, l[j]? = some v → m' (p + j) = some v) ∧
      ∀ q, (q < p ∨ p + l.length ≤ q) → m' q = m q := by
  intro l
  induction l with
  | nil => intro m p _; exact ⟨m, rfl, by simp, by simp⟩
  | cons x r ih =>
    intro m p h
    have h0 := h 0 (by simp)
    simp only [Nat.add_zero] at h0
    obtain ⟨m', h1, h2, h3⟩ := ih (Function.update m p (some x)) (p + 1) (by
      intro j hj
      rw [Function.update_of_ne (by omega), show p + 1 + j = p + (j + 1) by omega]
      exact h (j + 1) (by simp; omega))
    refine ⟨m', ?_, ?_, ?_⟩
    · simp only [vcStore, store, h0, if_true, Option.bind_eq_bind, Option.bind_some]
      exact h1
    · intro j v hv
      cases j with
      | zero =>
        simp at hv
        rw [h3 _ (by omega), Nat.add_zero, Function.update_self, hv]
      | succ j =>
        rw [show p + (j + 1) = p + 1 + j by omega]
        exact h2 j v (by simpa using hv)
    · intro q hq
      simp at hq
      rw [h3 q (by omega), Function.update_of_ne (by omega)]

/-- The output cells below `n` hold the results, everything else is as in `m`. -/
def Done (f : α → α) (ia oa : Nat) (m : Mem α) (n : Nat) (m' : Mem α) : Prop :=
  (∀ k < n, m' (oa + k) = (m (ia + k)).map f) ∧ ∀ p, (∀ k < n, p ≠ oa + k) → m' p = m p

section
variable {f : α → α} {W size : BitVec 32} {ia oa : Nat} {m : Mem α} {x : Nat → α}

theorem Done.read {n : Nat} {m' : Mem α} (h : Done f ia oa m n m')
    (hal : ∀ j k, j < k → k < size.toNat → ia + k ≠ oa + j) {k : Nat} (h1 : n ≤ k) (h2 : k < size.toNat) :
    m' (ia + k) = m (ia + k) := h.2 _ (fun j hj => hal j k (by omega) h2)

theorem Done.mapped {n : Nat} {m' : Mem α} (h : Done f ia oa m n m')
    (hin : ∀ k < n, m (ia + k) = some (x k)) (hout : ∀ k < size.toNat, (m (oa + k)).isSome = true)
    {k : Nat} (h2 : k < size.toNat) :
    (m' (oa + k)).isSome = true := by
  by_cases hk : k < n
  · rw [h.1 k hk, hin k hk]; rfl
  · rw [h.2 _ (by intro j hj; omega)]; exact hout k h2

theorem Done.extend {n : Nat} {m' m'' : Mem α} (h : Done f ia oa m n m') {l : List α}
    (hl : ∀ j < l.length, l[j]? = (m (ia + (n + j))).map f)
    (h1 : ∀ j v, l[j]? = some v → m'' (oa + n + j) = some v)
    (h2 : ∀ q, (q < oa + n ∨ oa + n + l.length ≤ q) → m'' q = m' q) : Done f ia oa m (n + l.length) m'' := by
  constructor
  · intro k hk
    by_cases hkn : k < n
    · rw [h2 _ (by omega)]; exact h.1 k hkn
    · obtain ⟨j, rfl⟩ : ∃ j, k = n + j := ⟨k - n, by omega⟩
      have hj : j < l.length := by omega
      have := hl j hj
      rw [← this, show oa + (n + j) = oa + n + j by omega, List.getElem?_eq_getElem hj]
      exact h1 j _ (List.getElem?_eq_getElem hj)
  · intro p hp
    by_cases hq : p < oa + n ∨ oa + n + l.length ≤ p
    · rw [h2 p hq]; exact h.2 p (fun k hk => hp k (by omega))
    · have := hp (p - oa) (by omega)
      omega

end

theorem sub_mod_toNat (size W : BitVec 32) : (size - size % W).toNat = size.toNat - size.toNat % W.toNat := by
  have : (size % W).toNat ≤ size.toNat := by
    rw [BitVec.toNat_umod]; exact Nat.mod_le _ _
  rw [BitVec.toNat_sub_of_le this, BitVec.toNat_umod]

theorem vcMain_spec (f : α → α) (W : BitVec 32) (hW : 0 < W.toNat) (size : BitVec 32) (ia oa : Nat) (m : Mem α)
    (x : Nat → α) (hal : ∀ j k, j < k → k < size.toNat → ia + k ≠ oa + j)
    (hin : ∀ k < size.toNat, m (ia + k) = some (x k))
    (hout : ∀ k < size.toNat, (m (oa + k)).isSome = true) (c : Nat) :
    ∀ (st : BitVec 32) (reg : List α) (m' : Mem α), reg.length = W.toNat →
      st.toNat + c * W.toNat = size.toNat - size.toNat % W.toNat → Done f ia oa m st.toNat m' →
      ∃ m'' reg', vcMain f W hW size ia oa st reg m' = some (m'', reg', size - size % W) ∧
        reg'.length = W.toNat ∧ Done f ia oa m (size.toNat - size.toNat % W.toNat) m'' := by
  induction c with
  | zero =>
    intro st reg m' hr hst hd
    have he : st = size - size % W := by
      apply BitVec.eq_of_toNat_eq; rw [sub_mod_toNat]; omega
    have hn : ¬ st < size - size % W := by rw [he]; exact Nat.lt_irrefl _
    rw [vcMain, dif_neg (fun h => hn h.1), if_neg hn]
    refine ⟨m', reg, by rw [he], hr, ?_⟩
    rw [show size.toNat - size.toNat % W.toNat = st.toNat by omega]
    exact hd
  | succ c ih =>
    intro st reg m' hr hst hd
    have hle : st.toNat + W.toNat ≤ size.toNat - size.toNat % W.toNat := by
      rw [← hst, Nat.succ_mul]; omega
    have hlt : st < size - size % W := by
      show st.toNat < (size - size % W).toNat
      rw [sub_mod_toNat]; omega
    have hsz := size.isLt
    have hadd : (st + W).toNat = st.toNat + W.toNat := by
      rw [BitVec.toNat_add]; exact Nat.mod_eq_of_lt (by omega)
    rw [vcMain, dif_pos ⟨hlt, by omega⟩]
    obtain ⟨r, l1, l2, l3⟩ := vcLoad_spec m' W.toNat (ia + st.toNat) (fun j => x (st.toNat + j)) (by
      intro j hj
      rw [Nat.add_assoc, hd.read (size := size) hal (by omega) (by omega)]
      exact hin _ (by omega))
    obtain ⟨m'', s1, s2, s3⟩ := vcStore_spec (r.map f) m' (oa + st.toNat) (by
      intro j hj
      simp [l2] at hj
      rw [Nat.add_assoc]
      exact hd.mapped (x := x) (fun k hk => hin k (by omega)) hout (by omega))
    simp only [l1, s1, Option.bind_eq_bind, Option.bind_some]
    refine ih (st + W) r m'' l2 (by rw [hadd, ← hst, Nat.succ_mul]; omega) ?_
    rw [hadd]
    have := hd.extend (l := r.map f) (m'' := m'') (by
      intro j hj
      simp [l2] at hj
      rw [List.getElem?_map, l3 j hj, hin _ (by omega)]) s2 s3
    simpa [l2] using this

theorem vcTailIn_spec (m : Mem α) (p : Nat) : ∀ (t i : Nat) (r : List α) (x : Nat → α), i + t ≤ r.length →
    (∀ j, i ≤ j → j < i + t → m (p + j) = some (x j)) →
    ∃ r', vcTailIn m p t i r = some r' ∧ r'.length = r.length ∧ (∀ j < i, r'[j]? = r[j]?) ∧
      ∀ j, i ≤ j → j < i + t → r'[j]? = some (x j) := by
  intro t
  induction t with
  | zero => intro i r x _ _; exact ⟨r, rfl, rfl, fun _ _ => rfl, by omega⟩
  | succ t ih =>
    intro i r x hl h
    obtain ⟨r', h1, h2, h3, h4⟩ := ih (i + 1) (r.set i (x i)) x (by simp; omega) (fun j a b => h j (by omega) (by omega))
    refine ⟨r', ?_, by simpa using h2, ?_, ?_⟩
    · simp only [vcTailIn, load, h i (by omega) (by omega), Option.bind_eq_bind, Option.bind_some]
      rw [if_pos (by omega)]
      exact h1
    · intro j hj
      rw [h3 j (by omega), List.getElem?_set_ne (by omega)]
    · intro j a b
      by_cases hj : j = i
      · subst hj
        rw [h3 j (by omega), List.getElem?_set_self (by omega)]
      · exact h4 j (by omega) (by omega)

theorem vcTailOut_eq (p : Nat) (out : List α) : ∀ (t i : Nat) (m : Mem α), i + t ≤ out.length →
    vcTailOut p out t i m = vcStore m (p + i) ((out.drop i).take t) := by
  intro t
  induction t with
  | zero => intro i m _; simp [vcTailOut, vcStore]
  | succ t ih =>
    intro i m h
    have hi : i < out.length := by omega
    rw [List.drop_eq_getElem_cons hi, List.take_succ_cons]
    simp only [vcTailOut, vcStore, List.getElem?_eq_getElem hi, Option.bind_eq_bind, Option.bind_some]
    cases store m (p + i) out[i] with
    | none => rfl
    | some m' =>
      simp only [Option.bind_some]
      rw [ih (i + 1) m' (by omega)]
      rfl

/-- **C39.**  For every vector width `W`, every size and every initial register content: the generated
Vc loop (chunks of `W`, then the tail) stores `f(iarray[k])` into `oarray[k]` for all `k < size`,
changes nothing else and accesses no unmapped cell. -/
theorem C39_vc_elementwise (f : α → α) (W : BitVec 32) (hW : 0 < W.toNat) (reg : List α)
    (hreg : reg.length = W.toNat) (size : BitVec 32) (ia oa : Nat) (m : Mem α) (x : Nat → α)
    (hal : ∀ j k, j < k → k < size.toNat → ia + k ≠ oa + j)
    (hin : ∀ k < size.toNat, m (ia + k) = some (x k))
    (hout : ∀ k < size.toNat, (m (oa + k)).isSome = true) :
    ∃ m', vcFn f W hW reg size ia oa m = some m' ∧ (∀ k < size.toNat, m' (oa + k) = some (f (x k))) ∧
      ∀ p, (∀ k < size.toNat, p ≠ oa + k) → m' p = m p := by
  have hmod : size.toNat % W.toNat < W.toNat := Nat.mod_lt _ hW
  have hmod' : size.toNat % W.toNat ≤ size.toNat := Nat.mod_le _ _
  obtain ⟨m1, reg1, h1, h2, h3⟩ := vcMain_spec f W hW size ia oa m x hal hin hout (size.toNat / W.toNat) 0 reg m hreg
    (by
      have := Nat.div_add_mod size.toNat W.toNat
      rw [Nat.mul_comm] at this
      simp
      omega) ⟨by simp, fun _ _ => rfl⟩
  have hst := sub_mod_toNat size W
  have htail : (size - (size - size % W)).toNat = size.toNat % W.toNat := by
    rw [BitVec.toNat_sub_of_le (by show (size - size % W).toNat ≤ size.toNat; omega)]; omega
  obtain ⟨r', t1, t2, -, t4⟩ := vcTailIn_spec m1 (ia + (size - size % W).toNat) (size.toNat % W.toNat) 0 reg1
    (fun j => x (size.toNat - size.toNat % W.toNat + j)) (by omega) (by
      intro j _ hj
      rw [hst, Nat.add_assoc, h3.read (size := size) hal (by omega) (by omega)]
      exact hin _ (by omega))
  obtain ⟨m2, s1, s2, s3⟩ := vcStore_spec ((r'.map f).take (size.toNat % W.toNat)) m1 (oa + (size - size % W).toNat) (by
    intro j hj
    simp at hj
    rw [hst, Nat.add_assoc]
    exact h3.mapped (x := x) (fun k hk => hin k (by omega)) hout (by omega))
  refine ⟨m2, ?_, ?_⟩
  · unfold vcFn
    simp only [h1, Option.bind_eq_bind, Option.bind_some, htail, t1]
    rw [vcTailOut_eq _ _ _ _ _ (by simp; omega)]
    simpa using s1
  · have hlen : ((r'.map f).take (size.toNat % W.toNat)).length = size.toNat % W.toNat := by
      simp; omega
    rw [hst] at s2 s3
    have hd := h3.extend (m'' := m2) (l := (r'.map f).take (size.toNat % W.toNat)) (by
      intro j hj
      rw [hlen] at hj
      rw [List.getElem?_take_of_lt hj, List.getElem?_map, t4 j (by omega) (by omega), hin _ (by omega)]) s2 s3
    rw [hlen, Nat.sub_add_cancel hmod'] at hd
    refine ⟨?_, hd.2⟩
    intro k hk
    rw [hd.1 k hk, hin k hk]
    rfl

/-- Width 4, ten elements in place, garbage in the register. -/
example : ∃ m', vcFn (fun x : Nat => x + 1) 4 (by decide) [9, 9, 9, 9] 10 5 5
      (fun p => if 5 ≤ p ∧ p < 15 then some p else none) = some m' ∧ m' 14 = some 15 ∧ m' 15 = none := by
  obtain ⟨m', h1, h2, h3⟩ := C39_vc_elementwise (fun x : Nat => x + 1) 4 (by decide) [9, 9, 9, 9] rfl 10 5 5
    (fun p => if 5 ≤ p ∧ p < 15 then some p else none) (fun k => 5 + k)
    (by intro j k h _; omega) (by intro k hk; have : k < 10 := hk; rw [if_pos (by omega)])
    (by intro k hk; have : k < 10 := hk; rw [if_pos (by omega)]; rfl)
  refine ⟨m', h1, h2 9 (by decide), ?_⟩
  rw [h3 15 (by intro k hk; have : k < 10 := hk; omega)]
  rfl

/-! ### numpy -/

/-- The property in full: whatever element count and strides numpy passes, the inner loop gives the
`k`-th output the value of `f` at the `k`-th input and changes nothing else (for an `f` that is defined
everywhere, separate and mapped arrays). -/
def C40_statement (esz : Int) : Prop :=
  ∀ (f : Nat → Option Nat) (args : Int × Int) (n : Nat) (steps : Int × Int) (m : BMem Nat) (x y : Nat → Nat),
    (∀ j k : Nat, j < n → k < n → args.1 + steps.1 * j ≠ args.2 + steps.2 * k) →
    (∀ j k : Nat, j < n → k < n → steps.2 * j = steps.2 * k → j = k) →
    (∀ k : Nat, k < n → m (args.1 + steps.1 * k) = some (x k)) →
    (∀ k : Nat, k < n → f (x k) = some (y k)) →
    (∀ k : Nat, k < n → (m (args.2 + steps.2 * k)).isSome = true) →
    ∃ m', npInner f esz args n steps m = some m' ∧ (∀ k : Nat, k < n → m' (args.2 + steps.2 * k) = some (y k)) ∧
      ∀ p, (∀ k : Nat, k < n → p ≠ args.2 + steps.2 * k) → m' p = m p

/-- The strides are ignored: every second element of a double array (stride 16) is not what gets
processed. -/
theorem C40_violated : ¬ C40_statement 8 := by
  intro h
  obtain ⟨m', h1, h2, -⟩ := h some (0, 1000) 2 (16, 8) (fun p => if p = 0 ∨ p = 8 ∨ p = 16 then some p.toNat else
    if p = 1000 ∨ p = 1008 then some 0 else none) (fun k => 16 * k) (fun k => 16 * k)
    (by intro j k hj hk; simp; omega) (by intro j k hj hk; simp) (by
      intro k hk
      have : k = 0 ∨ k = 1 := by omega
      rcases this with rfl | rfl <;> rfl) (by intro k _; rfl) (by
      intro k hk
      have : k = 0 ∨ k = 1 := by omega
      rcases this with rfl | rfl <;> rfl)
  have h3 := h2 1 (by omega)
  have h4 := congrArg (fun o : Option (BMem Nat) => o.bind fun m => m 1008) h1
  simp only [Option.bind_some] at h4
  have h5 : m' 1008 = some 16 := h3
  rw [h5] at h4
  revert h4
  decide

/-- A broadcast scalar (stride 0) makes the wrapper read beyond the only element there is. -/
theorem C40_broadcast_reads_outside :
    npInner some 8 (0, 1000) 2 (0, 8)
      (fun p => if p = 0 then some 5 else if p = 1000 ∨ p = 1008 then some 0 else none) = (none : Option (BMem Nat)) := by
  rfl

/-- Contiguous arrays: with both strides equal to the element size the wrapper does what it should,
for every element count.  Missing from the full statement: all other strides. -/
theorem C40_numpy_contiguous_partial (f : α → Option α) (esz : Int) (hesz : 0 < esz) (args : Int × Int) (n : Nat)
    (m : BMem α) (x y : Nat → α)
    (hal : ∀ j k : Nat, j < k → k < n → args.1 + esz * k ≠ args.2 + esz * j)
    (hin : ∀ k : Nat, k < n → m (args.1 + esz * k) = some (x k))
    (hf : ∀ k : Nat, k < n → f (x k) = some (y k))
    (hout : ∀ k : Nat, k < n → (m (args.2 + esz * k)).isSome = true) :
    ∃ m', npInner f esz args n (esz, esz) m = some m' ∧ (∀ k : Nat, k < n → m' (args.2 + esz * k) = some (y k)) ∧
      ∀ p, (∀ k : Nat, k < n → p ≠ args.2 + esz * k) → m' p = m p := by
  have key : ∀ (d i : Nat) (m1 : BMem α), i + d = n →
      (∀ k : Nat, k < i → m1 (args.2 + esz * k) = some (y k)) →
      (∀ p, (∀ k : Nat, k < i → p ≠ args.2 + esz * k) → m1 p = m p) →
      ∃ m', npLoop f esz args.1 args.2 d i m1 = some m' ∧ (∀ k : Nat, k < n → m' (args.2 + esz * k) = some (y k)) ∧
        ∀ p, (∀ k : Nat, k < n → p ≠ args.2 + esz * k) → m' p = m p := by
    intro d
    induction d with
    | zero =>
      intro i m1 hi h1 h2
      obtain rfl : i = n := by omega
      exact ⟨m1, rfl, h1, h2⟩
    | succ d ih =>
      intro i m1 hi h1 h2
      have hinj : ∀ k : Nat, k < i → args.2 + esz * (i : Int) ≠ args.2 + esz * k := by
        intro k hk he
        have : esz * (i : Int) = esz * k := by omega
        have := Int.eq_of_mul_eq_mul_left (by omega) this
        omega
      have e1 : m1 (args.1 + esz * i) = some (x i) := by
        rw [h2 _ (fun k hk => hal k i hk (by omega))]; exact hin i (by omega)
      have e2 : (m1 (args.2 + esz * i)).isSome = true := by
        rw [h2 _ hinj]; exact hout i (by omega)
      simp only [npLoop, e1, hf i (by omega), e2, if_true, Option.bind_eq_bind, Option.bind_some]
      refine ih (i + 1) _ (by omega) ?_ ?_
      · intro k hk
        by_cases hki : k = i
        · subst hki; rw [Function.update_self]
        · rw [Function.update_of_ne (by intro he; exact hinj k (by omega) he.symm)]
          exact h1 k (by omega)
      · intro p hp
        rw [Function.update_of_ne (hp i (by omega))]
        exact h2 p (fun k hk => hp k (by omega))
  exact key n 0 m (by omega) (by omega) (fun p _ => rfl)

/-- Two contiguous doubles. -/
example : ∃ m', npInner (fun x : Nat => some (x + 1)) 8 (0, 1000) 2 (8, 8)
      (fun p => if p = 0 ∨ p = 8 then some p.toNat else if p = 1000 ∨ p = 1008 then some 0 else none) = some m' ∧
    m' 1008 = some 9 := ⟨_, rfl, rfl⟩

end Vdt.Arr
