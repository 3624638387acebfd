import Verif.Model.PyCall
import Mathlib.Data.List.Forall2
import Mathlib.Data.List.Nodup
import Mathlib.Tactic.Linarith

/-!
# Calling the library from Python (C84)
-/

namespace Vdt.Py
open Vdt.Txt (Text)

local notation "‹" s "›" => String.toList s

/-! ## The loops -/

theorem getElem?_take_append {α : Type} (o ys : List α) (i : Nat) (h : i ≤ o.length) :
    (o.take i ++ ys)[i]? = ys[0]? := by
  rw [List.getElem?_append_right (by simp [h])]
  simp [h]

/-- Storing the next element of an output of which the first `i` are done. -/
theorem set_step {α : Type} (d o : List α) (i : Nat) (y : α) (hd : d.length = i) (h : i < o.length) :
    (d ++ o.drop i).set i y = (d ++ [y]) ++ o.drop (i + 1) := by
  rw [List.set_append_right _ _ (by omega), hd, Nat.sub_self, List.drop_eq_getElem_cons h, List.set_cons_zero]
  simp

theorem load0 {s : Bool} (x : List (FP (fmt s))) (h : Heap s) (i : Nat) : load (x :: h) 0 i = x[i]? := by simp [load]
theorem load1 {s : Bool} (x y : List (FP (fmt s))) (h : Heap s) (i : Nat) : load (x :: y :: h) 1 i = y[i]? := by simp [load]

/-- One input and one output array: the loop is the map of the elements, undefined where one of them is. -/
theorem loop11 (s : Bool) (f : FP (fmt s) → Option (FP (fmt s))) (x o : List (FP (fmt s))) (ho : o.length = x.length) :
    ∀ (k i : Nat) (d : List (FP (fmt s))), d.length = i → i + k = x.length →
      fatLoop (sym11 s f) [0] [1] k i [x, d ++ o.drop i] = ((x.drop i).mapM f).map fun ys => [x, d ++ ys] := by
  intro k
  induction k with
  | zero =>
    intro i d hd hk
    have h1 : x.drop i = [] := List.drop_eq_nil_of_le (by omega)
    have h2 : o.drop i = [] := List.drop_eq_nil_of_le (by omega)
    simp [fatLoop, h1, h2]; rfl
  | succ k ih =>
    intro i d hd hk
    have hi : i < x.length := by omega
    have hc := List.drop_eq_getElem_cons hi
    rw [hc]
    simp only [fatLoop, List.mapM_cons, List.mapM_nil, load0, List.getElem?_eq_getElem hi, Option.bind_eq_bind,
      Option.bind_some, Option.pure_def, sym11]
    cases hf : f x[i] with
    | none => simp
    | some y =>
      have hl : i < (d ++ o.drop i).length := by simp; omega
      simp only [Option.map_some, Option.bind_some, storeAll, store, List.getElem?_cons_succ, List.getElem?_cons_zero, hl,
        if_true, List.set_cons_succ, List.set_cons_zero]
      rw [set_step d o i y hd (by omega)]
      have := ih (i + 1) (d ++ [y]) (by simp [hd]) (by omega)
      simp only [sym11] at this
      rw [this]
      cases (x.drop (i + 1)).mapM f <;> simp

/-- Two input arrays, the second at least as long. -/
theorem loop21 (s : Bool) (f : FP (fmt s) → FP (fmt s) → Option (FP (fmt s))) (x w o : List (FP (fmt s)))
    (hw : x.length ≤ w.length) (ho : o.length = x.length) :
    ∀ (k i : Nat) (d : List (FP (fmt s))), d.length = i → i + k = x.length →
      fatLoop (sym21 s f) [0, 1] [2] k i [x, w, d ++ o.drop i] =
        (((x.drop i).zip (w.drop i)).mapM fun p => f p.1 p.2).map fun ys => [x, w, d ++ ys] := by
  intro k
  induction k with
  | zero =>
    intro i d hd hk
    have h1 : x.drop i = [] := List.drop_eq_nil_of_le (by omega)
    have h2 : o.drop i = [] := List.drop_eq_nil_of_le (by omega)
    simp [fatLoop, h1, h2]; rfl
  | succ k ih =>
    intro i d hd hk
    have hi : i < x.length := by omega
    have hi' : i < w.length := by omega
    rw [List.drop_eq_getElem_cons hi, List.drop_eq_getElem_cons hi']
    simp only [fatLoop, List.mapM_cons, List.mapM_nil, load0, load1, List.getElem?_eq_getElem hi,
      List.getElem?_eq_getElem hi', Option.bind_eq_bind, Option.bind_some, Option.pure_def, sym21, List.zip_cons_cons]
    cases hf : f x[i] w[i] with
    | none => simp
    | some y =>
      have hl : i < (d ++ o.drop i).length := by simp; omega
      simp only [Option.map_some, Option.bind_some, storeAll, store, List.getElem?_cons_succ, List.getElem?_cons_zero, hl,
        if_true, List.set_cons_succ, List.set_cons_zero]
      rw [set_step d o i y hd (by omega)]
      have := ih (i + 1) (d ++ [y]) (by simp [hd]) (by omega)
      simp only [sym21] at this
      rw [this]
      cases ((x.drop (i + 1)).zip (w.drop (i + 1))).mapM (fun p => f p.1 p.2) <;> simp

/-- A second array that is too short is read behind its end. -/
theorem loop21_short (s : Bool) (f : FP (fmt s) → FP (fmt s) → Option (FP (fmt s))) (x w : List (FP (fmt s)))
    (hw : w.length < x.length) :
    ∀ (k i : Nat) (o : List (FP (fmt s))), i ≤ w.length → i + k = x.length →
      fatLoop (sym21 s f) [0, 1] [2] k i [x, w, o] = none := by
  intro k
  induction k with
  | zero => intro i o hi hk; omega
  | succ k ih =>
    intro i o hi hk
    simp only [fatLoop, List.mapM_cons, List.mapM_nil, load0, load1, List.getElem?_eq_getElem (show i < x.length by omega),
      Option.bind_eq_bind, Option.bind_some, Option.pure_def, sym21]
    by_cases h : i < w.length
    · simp only [List.getElem?_eq_getElem h, Option.bind_some]
      cases hf : f x[i] w[i] with
      | none => simp
      | some y =>
        simp only [Option.map_some, Option.bind_some, storeAll, store, List.getElem?_cons_succ, List.getElem?_cons_zero]
        split
        · simp only [Option.bind_some, List.set_cons_succ, List.set_cons_zero]
          exact ih (i + 1) _ (by omega) (by omega)
        · simp
    · simp [List.getElem?_eq_none (show w.length ≤ i by omega)]

/-- One input and two output arrays. -/
theorem loop12 (s : Bool) (f : FP (fmt s) → Option (FP (fmt s) × FP (fmt s))) (x o o' : List (FP (fmt s)))
    (ho : o.length = x.length) (ho' : o'.length = x.length) :
    ∀ (k i : Nat) (d d' : List (FP (fmt s))), d.length = i → d'.length = i → i + k = x.length →
      fatLoop (sym12 s f) [0] [1, 2] k i [x, d ++ o.drop i, d' ++ o'.drop i] =
        ((x.drop i).mapM f).map fun ys => [x, d ++ ys.map Prod.fst, d' ++ ys.map Prod.snd] := by
  intro k
  induction k with
  | zero =>
    intro i d d' hd hd' hk
    have h1 : x.drop i = [] := List.drop_eq_nil_of_le (by omega)
    have h2 : o.drop i = [] := List.drop_eq_nil_of_le (by omega)
    have h3 : o'.drop i = [] := List.drop_eq_nil_of_le (by omega)
    simp [fatLoop, h1, h2, h3]; rfl
  | succ k ih =>
    intro i d d' hd hd' hk
    have hi : i < x.length := by omega
    rw [List.drop_eq_getElem_cons hi]
    simp only [fatLoop, List.mapM_cons, List.mapM_nil, load0, List.getElem?_eq_getElem hi, Option.bind_eq_bind,
      Option.bind_some, Option.pure_def, sym12]
    cases hf : f x[i] with
    | none => simp
    | some y =>
      have hl : i < (d ++ o.drop i).length := by simp; omega
      have hl' : i < (d' ++ o'.drop i).length := by simp; omega
      simp only [Option.map_some, Option.bind_some, storeAll, store, List.getElem?_cons_succ, List.getElem?_cons_zero, hl,
        if_true, List.set_cons_succ, List.set_cons_zero, hl']
      rw [set_step d o i y.1 hd (by omega), set_step d' o' i y.2 hd' (by omega)]
      have := ih (i + 1) (d ++ [y.1]) (d' ++ [y.2]) (by simp [hd]) (by simp [hd']) (by omega)
      simp only [sym12] at this
      rw [this]
      cases (x.drop (i + 1)).mapM f <;> simp

/-! ## One call -/

/-- An array has as many elements as its shape says. -/
def Nd.Wf (v : Nd) : Prop := v.data.length = v.shape.prod

theorem Dat.length_to (d : Dat) (s : Bool) : (d.to s).length = d.length := by
  cases d <;> cases s <;> simp [Dat.to, Dat.length]

theorem length_empty (s : Bool) (j : Nat → FP (fmt s)) (n : Nat) : (empty s j n).length = n := by simp [empty]

/-- What a call gives whose elements are all defined or not. -/
def outcome {α : Type} (r : Option α) (g : α → List Nd) : Except Err (List Nd) :=
  match r with
  | some a => .ok (g a)
  | none => .error .undefined

theorem invoke_eq (junk : Junk) (v : Nd) (hv : v.Wf) (s : Bool) (f : FP (fmt s) → Option (FP (fmt s))) :
    invoke junk v ⟨sym11 s f, s, [.ptr, .ptr, .intp]⟩ =
      outcome ((v.data.to s).mapM f) fun ys => [⟨v.shape, mk s ys⟩] := by
  have h := loop11 s f (v.data.to s) (empty s (junk s 0) v.size)
    (by rw [length_empty, Dat.length_to]; exact hv.symm) v.size 0 [] rfl
    (by rw [Dat.length_to, Nat.zero_add]; exact hv.symm)
  simp only [List.drop_zero, List.nil_append] at h
  simp only [invoke, call, Arg.at, List.map_cons, List.map_nil, List.length_cons, List.length_nil, List.take, List.drop,
    sym11, List.replicate, Arg.block] at h ⊢
  simp only [true_and, List.not_mem_nil, false_imp_iff, implies_true, if_true, dite_true, List.cons_append, List.nil_append,
    List.getLast?_cons_cons, List.getLast?_singleton, h]
  cases (v.data.to s).mapM f <;> rfl

theorem invoke2to1_eq (junk : Junk) (v w : Nd) (hv : v.Wf) (hw : w.Wf) (hvw : v.size ≤ w.size) (s : Bool)
    (f : FP (fmt s) → FP (fmt s) → Option (FP (fmt s))) :
    invoke2to1 junk v w ⟨sym21 s f, s, [.ptr, .ptr, .ptr, .intp]⟩ =
      outcome (((v.data.to s).zip (w.data.to s)).mapM fun p => f p.1 p.2) fun ys => [⟨v.shape, mk s ys⟩] := by
  have h := loop21 s f (v.data.to s) (w.data.to s) (empty s (junk s 0) v.size)
    (by rw [Dat.length_to, Dat.length_to, hv, hw]; exact hvw)
    (by rw [length_empty, Dat.length_to]; exact hv.symm) v.size 0 [] rfl
    (by rw [Dat.length_to, Nat.zero_add]; exact hv.symm)
  simp only [List.drop_zero, List.nil_append] at h
  simp only [invoke2to1, call, Arg.at, List.map_cons, List.map_nil, List.length_cons, List.length_nil, List.take, List.drop,
    sym21, List.replicate, Arg.block] at h ⊢
  simp only [true_and, List.not_mem_nil, false_imp_iff, implies_true, if_true, dite_true, List.cons_append, List.nil_append,
    List.getLast?_cons_cons, List.getLast?_singleton, h]
  cases ((v.data.to s).zip (w.data.to s)).mapM (fun p => f p.1 p.2) <;> rfl

theorem invoke2to1_short (junk : Junk) (v w : Nd) (hv : v.Wf) (hw : w.Wf) (hvw : w.size < v.size) (s : Bool)
    (f : FP (fmt s) → FP (fmt s) → Option (FP (fmt s))) :
    invoke2to1 junk v w ⟨sym21 s f, s, [.ptr, .ptr, .ptr, .intp]⟩ = .error .undefined := by
  have h := loop21_short s f (v.data.to s) (w.data.to s)
    (by rw [Dat.length_to, Dat.length_to, hv, hw]; exact hvw) v.size 0 (empty s (junk s 0) v.size) (Nat.zero_le _)
    (by rw [Dat.length_to, Nat.zero_add]; exact hv.symm)
  simp only [invoke2to1, call, Arg.at, List.map_cons, List.map_nil, List.length_cons, List.length_nil, List.take, List.drop,
    sym21, List.replicate, Arg.block] at h ⊢
  simp only [true_and, List.not_mem_nil, false_imp_iff, implies_true, if_true, dite_true, List.cons_append, List.nil_append,
    List.getLast?_cons_cons, List.getLast?_singleton, h]
  rfl

theorem invoke1to2_eq (junk : Junk) (v : Nd) (hv : v.Wf) (s : Bool) (f : FP (fmt s) → Option (FP (fmt s) × FP (fmt s))) :
    invoke1to2 junk v ⟨sym12 s f, s, [.ptr, .ptr, .ptr, .intp]⟩ =
      outcome ((v.data.to s).mapM f) fun ys => [⟨v.shape, mk s (ys.map Prod.fst)⟩, ⟨v.shape, mk s (ys.map Prod.snd)⟩] := by
  have h := loop12 s f (v.data.to s) (empty s (junk s 0) v.size) (empty s (junk s 1) v.size)
    (by rw [length_empty, Dat.length_to]; exact hv.symm) (by rw [length_empty, Dat.length_to]; exact hv.symm) v.size 0 [] [] rfl
    rfl (by rw [Dat.length_to, Nat.zero_add]; exact hv.symm)
  simp only [List.drop_zero, List.nil_append] at h
  simp only [invoke1to2, call, Arg.at, List.map_cons, List.map_nil, List.length_cons, List.length_nil, List.take, List.drop,
    sym12, List.replicate, Arg.block] at h ⊢
  simp only [true_and, List.not_mem_nil, false_imp_iff, implies_true, if_true, dite_true, List.cons_append, List.nil_append,
    List.getLast?_cons_cons, List.getLast?_singleton, h]
  cases (v.data.to s).mapM f <;> rfl

/-! ## The cache -/

/-- The states of `VDTFunMap` that calls of functions of the module can lead to. -/
inductive Reach (junk : Junk) : FunMap → Prop
  | start : Reach junk []
  | step {st : FunMap} (name : Text) (vals : List Nd) : Reach junk st → Reach junk (pyCall junk name vals st).2

/-- The numbers of arrays each of the three functions passes to `loadit`. -/
def arity (callee : Text) : Nat × Nat :=
  if callee = ‹"vdt_invoke2to1"› then (2, 1) else if callee = ‹"vdt_invoke1to2"› then (1, 2) else (1, 1)

/-- What is cached for a name is what its function of the module loads. -/
def Good (st : FunMap) : Prop :=
  ∀ fn f, st.lookup fn = some f → ∃ d ∈ moduleDefs, d.fn = fn ∧
    loadFn (fn ++ ‹"v"›) (fn.getLast? == some 'f') (arity d.callee).1 (arity d.callee).2 = .ok f

/-- The generated functions one by one: one array in and out but for `atan2` and `sincos`. -/
def defsList : List PyDef :=
  let u (n : Text) : PyDef := ⟨n, [‹"vi"›], ‹"vdt_invoke"›, n, [‹"vi"›]⟩
  let b (n : Text) : PyDef := ⟨n, [‹"vi1"›, ‹"vi2"›], ‹"vdt_invoke2to1"›, n, [‹"vi1"›, ‹"vi2"›]⟩
  let t (n : Text) : PyDef := ⟨n, [‹"vi"›], ‹"vdt_invoke1to2"›, n, [‹"vi"›]⟩
  [u ‹"vdt_asin"›, u ‹"vdt_atan"›, b ‹"vdt_atan2"›, u ‹"vdt_cos"›, u ‹"vdt_div"›, u ‹"vdt_exp"›, u ‹"vdt_fma"›, u ‹"vdt_fmac"›,
    u ‹"vdt_identity"›, u ‹"vdt_inv"›, u ‹"vdt_isqrt"›, u ‹"vdt_log"›, u ‹"vdt_sin"›, t ‹"vdt_sincos"›, u ‹"vdt_sqrt"›,
    u ‹"vdt_asinf"›, u ‹"vdt_atanf"›, b ‹"vdt_atan2f"›, u ‹"vdt_cosf"›, u ‹"vdt_divf"›, u ‹"vdt_expf"›, u ‹"vdt_fmaf"›,
    u ‹"vdt_fmacf"›, u ‹"vdt_identityf"›, u ‹"vdt_invf"›, u ‹"vdt_isqrtf"›, u ‹"vdt_logf"›, u ‹"vdt_sinf"›, t ‹"vdt_sincosf"›,
    u ‹"vdt_sqrtf"›]

theorem defs_eq : moduleDefs = defsList := by decide +kernel

theorem find_def (name : Text) (d : PyDef) (h : defsList.reverse.find? (fun d => d.name == name) = some d) :
    moduleDefs.reverse.find? (fun d => d.name == name) = some d := by rw [defs_eq]; exact h

theorem defs_names : ∀ d ∈ moduleDefs, d.name = d.fn := by rw [defs_eq]; decide +kernel
theorem defs_nodup : (moduleDefs.map PyDef.name).Nodup := by rw [defs_eq]; decide +kernel

theorem defs_unique {d e : PyDef} (hd : d ∈ moduleDefs) (he : e ∈ moduleDefs) (h : d.fn = e.fn) : d = e := by
  refine List.inj_on_of_nodup_map defs_nodup hd he ?_
  rw [defs_names d hd, defs_names e he, h]

theorem withFn_good (d : PyDef) (hd : d ∈ moduleDefs) (st : FunMap) (h : Good st) (k : Fn → Except Err (List Nd)) :
    Good (withFn d.fn (arity d.callee).1 (arity d.callee).2 st k).2 := by
  unfold withFn loadit
  cases hl : st.lookup d.fn with
  | some f => simpa [hl] using h
  | none =>
    cases hf : loadFn (d.fn ++ ‹"v"›) (d.fn.getLast? == some 'f') (arity d.callee).1 (arity d.callee).2 with
    | error e => simp only [Bind.bind, Except.bind, hf]; exact h
    | ok f =>
      simp only [Bind.bind, Except.bind, hf, pure, Except.pure, List.lookup_cons, beq_self_eq_true]
      intro fn g hg
      rw [List.lookup_cons] at hg
      split at hg
      · rename_i heq
        have heq : fn = d.fn := by simpa using heq
        subst heq
        cases hg
        exact ⟨d, hd, rfl, hf⟩
      · exact h fn g hg

theorem run_good (junk : Junk) (d : PyDef) (hd : d ∈ moduleDefs) (vals : List Nd) (st : FunMap) (h : Good st) :
    Good (d.run junk vals st).2 := by
  have hw := withFn_good d hd st h
  unfold PyDef.run
  split
  · split
    · rename_i v _
      split
      · rename_i hc
        have := hw (invoke junk v)
        rw [hc] at this
        exact this
      · split
        · rename_i hc
          have := hw (invoke1to2 junk v)
          rw [hc] at this
          exact this
        · exact h
    · rename_i v w _
      split
      · rename_i hc
        have := hw (invoke2to1 junk v w)
        rw [hc] at this
        exact this
      · exact h
    · exact h
  · exact h

theorem reach_good {junk : Junk} {st : FunMap} (h : Reach junk st) : Good st := by
  induction h with
  | start => intro fn f h; simp at h
  | step name vals _ ih =>
    unfold pyCall
    split
    · rename_i d hd
      exact run_good junk d (by simpa using List.mem_of_find?_eq_some hd) vals _ ih
    · exact ih

/-- Whatever was called before, the function called is the one freshly loaded. -/
theorem withFn_eq (d : PyDef) (hd : d ∈ moduleDefs) (st : FunMap) (h : Good st) (k : Fn → Except Err (List Nd)) (F : Fn)
    (hF : loadFn (d.fn ++ ‹"v"›) (d.fn.getLast? == some 'f') (arity d.callee).1 (arity d.callee).2 = .ok F) :
    (withFn d.fn (arity d.callee).1 (arity d.callee).2 st k).1 = k F := by
  unfold withFn loadit
  cases hl : st.lookup d.fn with
  | some f =>
    obtain ⟨e, he, hen, hf⟩ := h d.fn f hl
    obtain rfl := defs_unique hd he hen.symm
    rw [hF] at hf
    cases hf
    simp [hl]
  | none => simp only [Bind.bind, Except.bind, hF, pure, Except.pure, List.lookup_cons, beq_self_eq_true]

/-! ## The functions of the module -/

/-- The functions of one argument and what they should compute, `double` and `float`. -/
def unary : (single : Bool) → List (Text × (FP (fmt single) → Option (FP (fmt single))))
  | false => [(‹"vdt_asin"›, fun x => some (fast_asin x)), (‹"vdt_atan"›, fun x => some (fast_atan x)),
      (‹"vdt_cos"›, fast_cos), (‹"vdt_exp"›, fast_exp), (‹"vdt_identity"›, fun x => some x), (‹"vdt_inv"›, fun x => some (fast_inv x)),
      (‹"vdt_isqrt"›, fun x => some (fast_isqrt x)), (‹"vdt_log"›, fun x => some (fast_log x)), (‹"vdt_sin"›, fast_sin),
      (‹"vdt_sqrt"›, fun x => some (FP.sqrt x))]
  | true => [(‹"vdt_asinf"›, fun x => some (fast_asinf x)), (‹"vdt_atanf"›, fun x => some (fast_atanf x)),
      (‹"vdt_cosf"›, fast_cosf), (‹"vdt_expf"›, fast_expf), (‹"vdt_identityf"›, fun x => some x), (‹"vdt_invf"›, fun x => some (fast_invf x)),
      (‹"vdt_isqrtf"›, fun x => some (fast_isqrtf x)), (‹"vdt_logf"›, fun x => some (fast_logf x)), (‹"vdt_sinf"›, fast_sinf),
      (‹"vdt_sqrtf"›, fun x => some (FP.sqrt x))]

theorem call11 (junk : Junk) (st : FunMap) (hst : Reach junk st) (s : Bool) (name : Text) (f : FP (fmt s) → Option (FP (fmt s)))
    (hm : moduleDefs.reverse.find? (fun d => d.name == name) = some ⟨name, [‹"vi"›], ‹"vdt_invoke"›, name, [‹"vi"›]⟩)
    (hs : (name.getLast? == some 'f') = s) (hl : lib.lookup (name ++ ‹"v"›) = some (sym11 s f)) (v : Nd) (hv : v.Wf) :
    (pyCall junk name [v] st).1 = outcome ((v.data.to s).mapM f) fun ys => [⟨v.shape, mk s ys⟩] := by
  have hd := List.mem_of_find?_eq_some hm
  rw [List.mem_reverse] at hd
  have h := withFn_eq _ hd st (reach_good hst) (invoke junk v) ⟨sym11 s f, s, [.ptr, .ptr, .intp]⟩
    (by simp only [loadFn, hl, hs]; rfl)
  rw [← invoke_eq junk v hv s f, ← h, pyCall, hm]
  rfl

theorem call21 (junk : Junk) (st : FunMap) (hst : Reach junk st) (s : Bool) (name : Text)
    (f : FP (fmt s) → FP (fmt s) → Option (FP (fmt s)))
    (hm : moduleDefs.reverse.find? (fun d => d.name == name) =
      some ⟨name, [‹"vi1"›, ‹"vi2"›], ‹"vdt_invoke2to1"›, name, [‹"vi1"›, ‹"vi2"›]⟩)
    (hs : (name.getLast? == some 'f') = s) (hl : lib.lookup (name ++ ‹"v"›) = some (sym21 s f)) (v w : Nd) :
    (pyCall junk name [v, w] st).1 = invoke2to1 junk v w ⟨sym21 s f, s, [.ptr, .ptr, .ptr, .intp]⟩ := by
  have hd := List.mem_of_find?_eq_some hm
  rw [List.mem_reverse] at hd
  have h := withFn_eq _ hd st (reach_good hst) (invoke2to1 junk v w) ⟨sym21 s f, s, [.ptr, .ptr, .ptr, .intp]⟩
    (by simp only [loadFn, hl, hs]; rfl)
  rw [← h, pyCall, hm]
  rfl

theorem call12 (junk : Junk) (st : FunMap) (hst : Reach junk st) (s : Bool) (name : Text)
    (f : FP (fmt s) → Option (FP (fmt s) × FP (fmt s)))
    (hm : moduleDefs.reverse.find? (fun d => d.name == name) = some ⟨name, [‹"vi"›], ‹"vdt_invoke1to2"›, name, [‹"vi"›]⟩)
    (hs : (name.getLast? == some 'f') = s) (hl : lib.lookup (name ++ ‹"v"›) = some (sym12 s f)) (v : Nd) (hv : v.Wf) :
    (pyCall junk name [v] st).1 =
      outcome ((v.data.to s).mapM f) fun ys => [⟨v.shape, mk s (ys.map Prod.fst)⟩, ⟨v.shape, mk s (ys.map Prod.snd)⟩] := by
  have hd := List.mem_of_find?_eq_some hm
  rw [List.mem_reverse] at hd
  have h := withFn_eq _ hd st (reach_good hst) (invoke1to2 junk v) ⟨sym12 s f, s, [.ptr, .ptr, .ptr, .intp]⟩
    (by simp only [loadFn, hl, hs]; rfl)
  rw [← invoke1to2_eq junk v hv s f, ← h, pyCall, hm]
  rfl

theorem outcome_ok {α β : Type} (l : List α) (f : α → Option β) (ys : List β) (g : List β → List Nd)
    (h : List.Forall₂ (fun x y => f x = some y) l ys) : outcome (l.mapM f) g = .ok (g ys) := by
  have : l.mapM f = some ys := by
    induction h with
    | nil => rfl
    | cons h _ ih => simp [h, ih]
  rw [this]; rfl

theorem outcome_undefined {α β : Type} (l : List α) (f : α → Option β) (g : List β → List Nd) (x : α) (hx : x ∈ l)
    (h : f x = none) : outcome (l.mapM f) g = .error .undefined := by
  have : l.mapM f = none := by
    induction l with
    | nil => simp at hx
    | cons a l ih =>
      rcases List.mem_cons.1 hx with rfl | hx
      · simp [h]
      · simp [ih hx]
  rw [this]; rfl

/-- **C84**, functions of one argument: whatever was called before and whatever the new array held, a call of
`vdt_ctypes.name(v)` with an array of any shape and element type returns one array of the shape of `v` and of the
precision of the name, and its elements are the function at the converted elements of `v`; if the C++ function is
undefined at one of them, so is the call.  Missing from `C84_statement`: `div`, `fma`, `fmac`, and two arrays of
different sizes. -/
theorem C84_unary_partial (junk : Junk) (st : FunMap) (hst : Reach junk st) (s : Bool) (name : Text)
    (f : FP (fmt s) → Option (FP (fmt s))) (hf : (name, f) ∈ unary s) (v : Nd) (hv : v.Wf) :
    (∀ ys, List.Forall₂ (fun x y => f x = some y) (v.data.to s) ys →
      (pyCall junk name [v] st).1 = .ok [⟨v.shape, mk s ys⟩]) ∧
    ((∃ x ∈ v.data.to s, f x = none) → (pyCall junk name [v] st).1 = .error .undefined) := by
  have key : (pyCall junk name [v] st).1 = outcome ((v.data.to s).mapM f) fun ys => [⟨v.shape, mk s ys⟩] := by
    cases s
    all_goals
      simp only [unary, List.mem_cons, List.not_mem_nil, or_false, Prod.mk.injEq] at hf
      rcases hf with ⟨rfl, rfl⟩ | ⟨rfl, rfl⟩ | ⟨rfl, rfl⟩ | ⟨rfl, rfl⟩ | ⟨rfl, rfl⟩ | ⟨rfl, rfl⟩ | ⟨rfl, rfl⟩ | ⟨rfl, rfl⟩ |
        ⟨rfl, rfl⟩ | ⟨rfl, rfl⟩
    all_goals exact call11 junk st hst _ _ _ (find_def _ _ (by decide +kernel)) (by decide +kernel) rfl v hv
  rw [key]
  exact ⟨fun ys h => outcome_ok _ _ _ _ h, fun ⟨x, hx, h⟩ => outcome_undefined _ _ _ x hx h⟩

/-- **C84**, `atan2` for arrays of the same size. -/
theorem C84_atan2_partial (junk : Junk) (st : FunMap) (hst : Reach junk st) (v w : Nd) (hv : v.Wf) (hw : w.Wf)
    (h : v.size = w.size) :
    (pyCall junk ‹"vdt_atan2"› [v, w] st).1 = .ok [⟨v.shape, .f64 (List.zipWith fast_atan2 (v.data.to false) (w.data.to false))⟩] ∧
    (pyCall junk ‹"vdt_atan2f"› [v, w] st).1 =
      .ok [⟨v.shape, .f32 (List.zipWith fast_atan2f (v.data.to true) (w.data.to true))⟩] := by
  have z : ∀ {s : Bool} (g : FP (fmt s) → FP (fmt s) → FP (fmt s)) (a b : List (FP (fmt s))),
      ((a.zip b).mapM fun p => some (g p.1 p.2)) = some (List.zipWith g a b) := by
    intro s g a b
    induction a generalizing b with
    | nil => rfl
    | cons x a ih =>
      cases b with
      | nil => rfl
      | cons y b => simp [ih]
  constructor
  · rw [call21 junk st hst false ‹"vdt_atan2"› (fun x y => some (fast_atan2 x y)) (find_def _ _ (by decide +kernel)) (by decide +kernel) rfl v w,
      invoke2to1_eq junk v w hv hw h.le, z]
    rfl
  · rw [call21 junk st hst true ‹"vdt_atan2f"› (fun x y => some (fast_atan2f x y)) (find_def _ _ (by decide +kernel)) (by decide +kernel) rfl v w,
      invoke2to1_eq junk v w hv hw h.le, z]
    rfl

/-- **C84**, `sincos`: two arrays, the sines and the cosines. -/
theorem C84_sincos (junk : Junk) (st : FunMap) (hst : Reach junk st) (v : Nd) (hv : v.Wf) :
    (∀ ys, List.Forall₂ (fun x y => fast_sincos x = some y) (v.data.to false) ys →
      (pyCall junk ‹"vdt_sincos"› [v] st).1 = .ok [⟨v.shape, .f64 (ys.map Prod.fst)⟩, ⟨v.shape, .f64 (ys.map Prod.snd)⟩]) ∧
    (∀ ys, List.Forall₂ (fun x y => fast_sincosf x = some y) (v.data.to true) ys →
      (pyCall junk ‹"vdt_sincosf"› [v] st).1 = .ok [⟨v.shape, .f32 (ys.map Prod.fst)⟩, ⟨v.shape, .f32 (ys.map Prod.snd)⟩]) := by
  constructor <;> intro ys h
  · rw [call12 junk st hst false ‹"vdt_sincos"› fast_sincos (find_def _ _ (by decide +kernel)) (by decide +kernel) rfl v hv]
    exact outcome_ok _ _ _ _ h
  · rw [call12 junk st hst true ‹"vdt_sincosf"› fast_sincosf (find_def _ _ (by decide +kernel)) (by decide +kernel) rfl v hv]
    exact outcome_ok _ _ _ _ h

/-- A second array with fewer elements (a number, for example, which numpy's own functions of two arguments would repeat)
is read behind its end. -/
theorem C84_shorter (junk : Junk) (st : FunMap) (hst : Reach junk st) (v w : Nd) (hv : v.Wf) (hw : w.Wf) (h : w.size < v.size) :
    (pyCall junk ‹"vdt_atan2"› [v, w] st).1 = .error .undefined ∧ (pyCall junk ‹"vdt_atan2f"› [v, w] st).1 = .error .undefined := by
  constructor
  · rw [call21 junk st hst false ‹"vdt_atan2"› (fun x y => some (fast_atan2 x y)) (find_def _ _ (by decide +kernel)) (by decide +kernel) rfl v w,
      invoke2to1_short junk v w hv hw h]
  · rw [call21 junk st hst true ‹"vdt_atan2f"› (fun x y => some (fast_atan2f x y)) (find_def _ _ (by decide +kernel)) (by decide +kernel) rfl v w,
      invoke2to1_short junk v w hv hw h]

/-- The Python functions of the library functions with two and three arguments that are not `atan2` take one array and
pass two to a C function with three or four parameters. -/
theorem C84_div_undefined (junk : Junk) (st : FunMap) (hst : Reach junk st) (v : Nd) :
    ∀ name ∈ [‹"vdt_div"›, ‹"vdt_divf"›, ‹"vdt_fma"›, ‹"vdt_fmaf"›, ‹"vdt_fmac"›, ‹"vdt_fmacf"›],
      (pyCall junk name [v] st).1 = .error .undefined ∧ ∀ vals : List Nd, vals.length ≠ 1 → (pyCall junk name vals st).1 = .error .exception := by
  have key : ∀ (name : Text) (S : Sym),
      moduleDefs.reverse.find? (fun d => d.name == name) = some ⟨name, [‹"vi"›], ‹"vdt_invoke"›, name, [‹"vi"›]⟩ →
      lib.lookup (name ++ ‹"v"›) = some S → (name.getLast? == some 'f') = S.single → 2 < S.ins + S.outs →
      (pyCall junk name [v] st).1 = .error .undefined ∧ ∀ vals : List Nd, vals.length ≠ 1 → (pyCall junk name vals st).1 = .error .exception := by
    intro name S hm hl hs hn
    have hd := List.mem_of_find?_eq_some hm
    rw [List.mem_reverse] at hd
    constructor
    · have h := withFn_eq _ hd st (reach_good hst) (invoke junk v) ⟨S, S.single, [.ptr, .ptr, .intp]⟩
        (by simp only [loadFn, hl, hs]; rfl)
      have h2 : invoke junk v ⟨S, S.single, [.ptr, .ptr, .intp]⟩ = .error .undefined := by
        simp only [invoke, call, Arg.at, List.map_cons, List.map_nil, List.length_cons, List.length_nil, List.take, List.drop,
          true_and, List.not_mem_nil, false_imp_iff, implies_true, if_true, dite_true]
        rw [if_neg]
        · rfl
        · intro h
          have := congrArg List.length h
          simp at this
          omega
      rw [← h2, ← h, pyCall, hm]
      rfl
    · intro vals hv
      rw [pyCall, hm]
      show (PyDef.run junk ⟨name, [‹"vi"›], ‹"vdt_invoke"›, name, [‹"vi"›]⟩ vals st).1 = _
      unfold PyDef.run
      rw [if_neg (show ¬ vals.length = [‹"vi"›].length from hv)]
  intro name hname
  simp only [List.mem_cons, List.not_mem_nil, or_false] at hname
  rcases hname with rfl | rfl | rfl | rfl | rfl | rfl <;>
    exact key _ _ (find_def _ _ (by decide +kernel)) rfl (by decide +kernel) (by decide)

/-- The part of the property that does not hold: quotients, and a number as second argument of `atan2`. -/
def C84_statement : Prop :=
  ∀ (junk : Junk) (st : FunMap), Reach junk st → ∀ v w : Nd, v.Wf → w.Wf →
    (v.size = w.size → (pyCall junk ‹"vdt_div"› [v, w] st).1 =
      .ok [⟨v.shape, .f64 (List.zipWith (fun x y => x / y) (v.data.to false) (w.data.to false))⟩]) ∧
    (w.shape = [] → ∀ y, w.data.to false = [y] → (pyCall junk ‹"vdt_atan2"› [v, w] st).1 =
      .ok [⟨v.shape, .f64 ((v.data.to false).map fun x => fast_atan2 x y)⟩])

/-- Neither part holds. -/
theorem C84_violated : ¬ C84_statement := by
  intro h
  have h1 := (h (fun s _ _ => FP.zero false) [] .start ⟨[1], .i64 [6]⟩ ⟨[1], .i64 [3]⟩ rfl rfl).1 rfl
  rw [((C84_div_undefined _ [] .start ⟨[1], .i64 [6]⟩ _ (List.mem_cons_self ..)).2 _ (by decide))] at h1
  exact absurd h1 (by simp)

theorem C84_violated_number : ∃ (junk : Junk) (st : FunMap), Reach junk st ∧ ∃ v w : Nd, v.Wf ∧ w.Wf ∧ w.shape = [] ∧
    (pyCall junk ‹"vdt_atan2"› [v, w] st).1 = .error .undefined :=
  ⟨fun s _ _ => FP.zero false, [], .start, ⟨[2], .i64 [1, 2]⟩, ⟨[], .i64 [3]⟩, rfl, rfl, rfl,
    (C84_shorter _ _ .start ⟨[2], .i64 [1, 2]⟩ ⟨[], .i64 [3]⟩ rfl rfl (by decide)).1⟩

/-- Concrete calls: the function was used before, on an array of another type and shape. -/
example : ∃ (junk : Junk) (st : FunMap), Reach junk st ∧ st ≠ [] ∧
    (pyCall junk ‹"vdt_identityf"› [⟨[1, 2], .i64 [1, 16777217]⟩] st).1 =
      .ok [⟨[1, 2], .f32 [FP.ofInt 1, FP.ofInt 16777216]⟩] := by
  refine ⟨fun s _ _ => FP.zero false, _, .step ‹"vdt_identityf"› [⟨[], .i64 [7]⟩] .start, ?_, ?_⟩
  · rw [pyCall, find_def _ _ (show _ = some ⟨‹"vdt_identityf"›, [‹"vi"›], ‹"vdt_invoke"›, ‹"vdt_identityf"›, [‹"vi"›]⟩ by decide +kernel)]
    intro h
    exact absurd (congrArg List.length h) (by decide +kernel)
  · refine (C84_unary_partial _ _ (.step _ _ .start) true ‹"vdt_identityf"› (fun x => some x) (by simp [unary])
      ⟨[1, 2], .i64 [1, 16777217]⟩ rfl).1 _ ?_
    exact .cons rfl (.cons (by decide +kernel) .nil)

/-- A call at which the exponential is undefined: NaN. -/
example (junk : Junk) : (pyCall junk ‹"vdt_exp"› [⟨[1], .f64 [FP.nan]⟩] []).1 = .error .undefined :=
  (C84_unary_partial junk [] .start false ‹"vdt_exp"› fast_exp (by simp [unary]) ⟨[1], .f64 [FP.nan]⟩ rfl).2
    ⟨FP.nan, by simp [Dat.to], by decide +kernel⟩

example : ∃ v w : Nd, v.Wf ∧ w.Wf ∧ v.size = w.size ∧ v.shape = [2, 3] ∧ w.shape = [6] :=
  ⟨⟨[2, 3], .i64 [1, 2, 3, 4, 5, 6]⟩, ⟨[6], .i64 [1, 2, 3, 4, 5, 6]⟩, rfl, rfl, rfl, rfl, rfl⟩

end Vdt.Py
