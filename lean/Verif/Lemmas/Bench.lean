import Verif.Model.Bench
import Verif.Props.Persist
import Verif.Props.Arrays
import Verif.Props.Random

/-! # Lemmas on the benchmark: responses and the order of the files -/

namespace Vdt.Bench
open FP Txt Arr Rand

local notation "‹" s "›" => String.toList s

theorem mapM_some {α β : Type} {g : α → Option β} {h : α → β} (l : List α) (H : ∀ x ∈ l, g x = some (h x)) :
    l.mapM g = some (l.map h) := by
  induction l with
  | nil => rfl
  | cons a l ih =>
    rw [List.mapM_cons, H a (by simp), ih (fun x hx => H x (by simp [hx]))]
    rfl

theorem getD_get {α : Type} {l : List α} {k : Nat} {d : α} (h : k < l.length) : l.getD k d = l[k] := by simp [h]

/-- The rows a function leaves behind. -/
def rowsOf {f : Fmt} (fcn : Fcn f) (input : List (FP f)) : List (FP f × FP f) := input.map fun x => (x, (fcn x).getD pzero)

theorem getD_of_isSome {α : Type} {o : Option α} {d : α} (h : o.isSome = true) : o = some (o.getD d) := by
  cases o with
  | none => simp at h
  | some a => rfl

theorem respScalar_eq {f : Fmt} (name : Text) (input : List (FP f)) (fcn : Fcn f) (h : ∀ x ∈ input, (fcn x).isSome = true) :
    respScalar name input fcn = some ⟨false, name, ‹"From scratch"›, rowsOf fcn input⟩ := by
  unfold respScalar
  rw [mapM_some (h := fun x => (x, (fcn x).getD pzero)) input]
  · rfl
  · intro x hx
    conv_lhs => rw [getD_of_isSome (d := pzero) (h x hx)]
    rfl

theorem respArray_eq {f : Fmt} (garbage : Nat → FP f) (name : Text) (input : List (FP f)) (fcn : Fcn f)
    (h : ∀ x ∈ input, (fcn x).isSome = true) (h0 : 0 < input.length) (h1 : input.length < 2 ^ 32) :
    respArray garbage name input (arrayFn fcn) = some ⟨false, name, ‹"From scratch"›, rowsOf fcn input⟩ := by
  have hs : (BitVec.ofNat 32 input.length).toNat = input.length := by simp; omega
  obtain ⟨m', e1, e2, -⟩ := C37_array_elementwise fcn (BitVec.ofNat 32 input.length) 0 input.length (respMem garbage input)
    (fun k => input.getD k pzero) (fun k => (fcn (input.getD k pzero)).getD pzero)
    (by rw [hs]; intro j k _ hk; omega)
    (by
      rw [hs]; intro k hk
      unfold respMem
      rw [if_pos (by omega), Nat.zero_add, List.getElem?_eq_getElem hk]
      simp [hk])
    (by
      rw [hs]; intro k hk
      refine getD_of_isSome (h _ ?_)
      rw [getD_get hk]; exact List.getElem_mem hk)
    (by
      rw [hs]; intro k hk
      unfold respMem
      rw [if_neg (by omega), if_pos (by omega)]; rfl)
  rw [hs] at e2
  unfold respArray
  dsimp only
  rw [if_neg (by omega), e1]
  show (do
    let outs ← (List.range input.length).mapM fun i => load m' (input.length + i)
    return (⟨false, name, ‹"From scratch"›, input.zip outs⟩ : Resp1D f)) = _
  rw [mapM_some (g := fun i => load m' (input.length + i)) (h := fun k => (fcn (input.getD k pzero)).getD pzero) (List.range input.length)
    (fun i hi => e2 i (List.mem_range.1 hi))]
  show some _ = some _
  congr 2
  unfold rowsOf
  apply List.ext_getElem
  · simp
  · intro i hi1 hi2
    simp only [List.getElem_zip, List.getElem_map, List.getElem_range]
    have : i < input.length := by simpa using hi2
    rw [getD_get this]

/-- The rows of a two-argument function. -/
def rowsOf2 {f : Fmt} (fcn : Fcn2 f) (xs ys : List (FP f)) : List (FP f × FP f × FP f) :=
  (xs.zip ys).map fun p => (p.1, p.2, (fcn p.1 p.2).getD pzero)

theorem respScalar2_eq {f : Fmt} (name : Text) (xs ys : List (FP f)) (fcn : Fcn2 f) (hl : xs.length = ys.length)
    (h : ∀ p ∈ xs.zip ys, (fcn p.1 p.2).isSome = true) :
    respScalar2 name xs ys fcn = some ⟨false, name, ‹"From scratch"›, rowsOf2 fcn xs ys⟩ := by
  unfold respScalar2
  rw [mapM_some (h := fun i => (xs.getD i pzero, ys.getD i pzero, (fcn (xs.getD i pzero) (ys.getD i pzero)).getD pzero))]
  · show some _ = some _
    congr 2
    unfold rowsOf2
    apply List.ext_getElem
    · simp [hl]
    · intro i hi1 hi2
      have h1 : i < xs.length := by simpa using hi1
      have h2 : i < ys.length := by omega
      simp [h1, h2]
  · intro i hi
    have h1 : i < xs.length := List.mem_range.1 hi
    have h2 : i < ys.length := by omega
    rw [List.getElem?_eq_getElem h1, List.getElem?_eq_getElem h2, getD_get h1, getD_get h2]
    have hm : (xs[i], ys[i]) ∈ xs.zip ys := by
      rw [List.mem_iff_getElem]
      exact ⟨i, by simp [h1, h2], by simp⟩
    have := getD_of_isSome (d := pzero) (h _ hm)
    dsimp only at this
    show (do return (xs[i], ys[i], ← fcn xs[i] ys[i])) = _
    conv_lhs => rw [this]
    rfl

theorem respArray2_eq {f : Fmt} (garbage : Nat → FP f) (name : Text) (xs ys : List (FP f)) (fcn : Fcn2 f)
    (hl : xs.length = ys.length) (h : ∀ p ∈ xs.zip ys, (fcn p.1 p.2).isSome = true) (h0 : 0 < xs.length) (h1 : xs.length < 2 ^ 32) :
    respArray2 garbage name xs ys (arrayFn2 fcn) = some ⟨false, name, ‹"From scratch"›, rowsOf2 fcn xs ys⟩ := by
  have hs : (BitVec.ofNat 32 xs.length).toNat = xs.length := by simp; omega
  obtain ⟨m', e1, e2, -⟩ := C37_array2_elementwise fcn (BitVec.ofNat 32 xs.length) 0 xs.length (2 * xs.length) (respMem2 garbage xs ys)
    (fun k => xs.getD k pzero) (fun k => ys.getD k pzero) (fun k => (fcn (xs.getD k pzero) (ys.getD k pzero)).getD pzero)
    (by rw [hs]; intro j k _ hk; omega)
    (by rw [hs]; intro j k _ hk; omega)
    (by
      rw [hs]; intro k hk
      unfold respMem2
      rw [if_pos (by omega), Nat.zero_add, List.getElem?_eq_getElem hk]
      simp [hk])
    (by
      rw [hs]; intro k hk
      have hk' : k < ys.length := by omega
      unfold respMem2
      rw [if_neg (by omega), if_pos (by omega), Nat.add_sub_cancel_left, List.getElem?_eq_getElem hk']
      simp [hk'])
    (by
      rw [hs]; intro k hk
      have hk' : k < ys.length := by omega
      rw [getD_get hk, getD_get hk']
      refine getD_of_isSome (h (xs[k], ys[k]) ?_)
      rw [List.mem_iff_getElem]
      exact ⟨k, by simp [hk, hk'], by simp⟩)
    (by
      rw [hs]; intro k hk
      unfold respMem2
      rw [if_neg (by omega), if_neg (by omega), if_pos (by omega)]; rfl)
  rw [hs] at e2
  unfold respArray2
  dsimp only
  rw [if_neg (by omega), e1]
  show (do
    let outs ← (List.range xs.length).mapM fun i => load m' (2 * xs.length + i)
    return (⟨false, name, ‹"From scratch"›, xs.zip (ys.zip outs)⟩ : Resp2D f)) = _
  rw [mapM_some (g := fun i => load m' (2 * xs.length + i)) (h := fun k => (fcn (xs.getD k pzero) (ys.getD k pzero)).getD pzero) (List.range xs.length)
    (fun i hi => e2 i (List.mem_range.1 hi))]
  show some _ = some _
  congr 2
  unfold rowsOf2
  apply List.ext_getElem
  · simp [hl]
  · intro i hi1 hi2
    have h1 : i < xs.length := by
      simp only [List.length_zip, List.length_map, List.length_range] at hi1
      omega
    have h2 : i < ys.length := by omega
    simp [h1, h2]

/-! ### A run as a list of jobs -/

/-- One file to be written: the name of the function and the text, if the response is defined. -/
structure Job where
  name : Text
  content : Option Text

/-- Write one file. -/
def runJob (nick : Text) (fs : Fs) (j : Job) : Option Fs := j.content.map fun t => Function.update fs (fname nick j.name) (some t)

theorem fname_inj {nick a b : Text} (h : fname nick a = fname nick b) : a = b := by
  unfold fname at h
  simpa using h

theorem runJobs (nick : Text) (js : List Job) (h : ∀ j ∈ js, j.content.isSome = true) (hn : (js.map Job.name).Nodup) (fs : Fs) :
    ∃ fs', js.foldlM (runJob nick) fs = some fs' ∧ (∀ j ∈ js, fs' (fname nick j.name) = j.content) ∧
      ∀ p, (∀ j ∈ js, p ≠ fname nick j.name) → fs' p = fs p := by
  induction js generalizing fs with
  | nil => exact ⟨fs, rfl, by simp, by simp⟩
  | cons a js ih =>
    have ha := getD_of_isSome (d := []) (h a (by simp))
    rw [List.map_cons, List.nodup_cons] at hn
    obtain ⟨fs', e1, e2, e3⟩ := ih (fun j hj => h j (by simp [hj])) hn.2
      (Function.update fs (fname nick a.name) (some (a.content.getD [])))
    refine ⟨fs', ?_, ?_, ?_⟩
    · rw [List.foldlM_cons]
      have : runJob nick fs a = some (Function.update fs (fname nick a.name) (some (a.content.getD []))) := by
        unfold runJob; conv_lhs => rw [ha]
        rfl
      rw [this]
      exact e1
    · intro j hj
      rcases List.mem_cons.1 hj with rfl | hj
      · rw [e3 _ (fun k hk e => hn.1 (List.mem_map.2 ⟨k, hk, (fname_inj e).symm⟩)), Function.update_self, ← ha]
      · exact e2 j hj
    · intro p hp
      rw [e3 p (fun j hj => hp j (by simp [hj])), Function.update_of_ne (hp a (by simp))]

/-- The text of the file of a one-argument response. -/
def text1 {f : Fmt} (r : Resp1D f) : Text := respHeader f r.fcnName ++ r.rows.flatMap respRow
/-- The text of the file of a two-argument response. -/
def text2 {f : Fmt} (r : Resp2D f) : Text := respHeader f r.fcnName ++ r.rows.flatMap respRow2

theorem ofFile_text1 {f : Fmt} (hf : f.eb + f.mb + 1 ≤ 64) (fs : Fs) (out : Text) (r : Resp1D f) (hn : '\n' ∉ r.fcnName)
    (h : fs out = some (text1 r)) : (Resp1D.ofFile f fs out).rows = r.rows := by
  have h2 := (C44_response1D_roundtrip hf { r with fromFile := false } rfl hn out fs).1
  rw [← h2]
  unfold Resp1D.ofFile Resp1D.writeFile Fs.open
  dsimp only
  rw [if_neg (by simp), truncate_append, Function.update_self, h]
  rfl

theorem ofFile_text2 {f : Fmt} (hf : f.eb + f.mb + 1 ≤ 64) (fs : Fs) (out : Text) (r : Resp2D f) (hn : '\n' ∉ r.fcnName)
    (h : fs out = some (text2 r)) : (Resp2D.ofFile f fs out).rows = r.rows := by
  have h2 := (C44_response2D_roundtrip hf { r with fromFile := false } rfl hn out fs).1
  rw [← h2]
  unfold Resp2D.ofFile Resp2D.writeFile Fs.open
  dsimp only
  rw [if_neg (by simp), truncate_append, Function.update_self, h]
  rfl

theorem respScalar_job {f : Fmt} (nick : Text) (fs : Fs) (e : Entry f (Fcn f)) :
    saveScalar nick fs e = runJob nick fs ⟨e.name, (respScalar e.name e.input e.fcn).map text1⟩ := by
  unfold saveScalar runJob
  cases hr : respScalar e.name e.input e.fcn with
  | none => rfl
  | some r =>
    have h1 : r.fromFile = false ∧ r.fcnName = e.name := by
      unfold respScalar at hr
      obtain ⟨rows, -, h⟩ := Option.bind_eq_some_iff.1 hr
      cases h; exact ⟨rfl, rfl⟩
    show some (Resp1D.writeFile r (fname nick e.name) fs) = some _
    unfold Resp1D.writeFile
    dsimp only
    rw [if_neg (by simp [h1.1]), truncate_append]
    rfl

theorem respArray_job {f : Fmt} (garbage : Nat → FP f) (nick : Text) (fs : Fs) (e : Entry f (ArrayFcn f)) :
    saveArray garbage nick fs e = runJob nick fs ⟨e.name, (respArray garbage e.name e.input e.fcn).map text1⟩ := by
  unfold saveArray runJob
  cases hr : respArray garbage e.name e.input e.fcn with
  | none => rfl
  | some r =>
    have h1 : r.fromFile = false := by
      unfold respArray at hr
      dsimp only at hr
      split at hr
      · cases hr
      · obtain ⟨m, -, hr⟩ := Option.bind_eq_some_iff.1 hr
        obtain ⟨rows, -, h⟩ := Option.bind_eq_some_iff.1 hr
        cases h; rfl
    show some (Resp1D.writeFile r (fname nick e.name) fs) = some _
    unfold Resp1D.writeFile
    dsimp only
    rw [if_neg (by simp [h1]), truncate_append]
    rfl

theorem respScalar2_job {f : Fmt} (name : Text) (fcn : Fcn2 f) (xs ys : List (FP f)) (nick : Text) (fs : Fs) :
    saveScalar2 name fcn xs ys nick fs = runJob nick fs ⟨name, (respScalar2 name xs ys fcn).map text2⟩ := by
  unfold saveScalar2 runJob
  cases hr : respScalar2 name xs ys fcn with
  | none => rfl
  | some r =>
    have h1 : r.fromFile = false := by
      unfold respScalar2 at hr
      obtain ⟨rows, -, h⟩ := Option.bind_eq_some_iff.1 hr
      cases h; rfl
    show some (Resp2D.writeFile r (fname nick name) fs) = some _
    unfold Resp2D.writeFile
    dsimp only
    rw [if_neg (by simp [h1]), truncate_append]
    rfl

theorem respArray2_job {f : Fmt} (garbage : Nat → FP f) (name : Text) (fcn : ArrayFcn2 f) (xs ys : List (FP f)) (nick : Text) (fs : Fs) :
    saveArray2 garbage name fcn xs ys nick fs = runJob nick fs ⟨name, (respArray2 garbage name xs ys fcn).map text2⟩ := by
  unfold saveArray2 runJob
  cases hr : respArray2 garbage name xs ys fcn with
  | none => rfl
  | some r =>
    have h1 : r.fromFile = false := by
      unfold respArray2 at hr
      dsimp only at hr
      split at hr
      · cases hr
      · obtain ⟨m, -, hr⟩ := Option.bind_eq_some_iff.1 hr
        obtain ⟨rows, -, h⟩ := Option.bind_eq_some_iff.1 hr
        cases h; rfl
    show some (Resp2D.writeFile r (fname nick name) fs) = some _
    unfold Resp2D.writeFile
    dsimp only
    rw [if_neg (by simp [h1]), truncate_append]
    rfl

end Vdt.Bench
