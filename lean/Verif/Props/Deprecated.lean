import Verif.Model.Deprecated
import Verif.Props.Mersenne
import Verif.Props.Persist
import Verif.Props.Comparison
import Verif.Props.Benchmark

/-!
# C112: the classes kept for compatibility agree with their replacements
-/

namespace Vdt.Txt
open FP Mt

/-! ## Pools -/

/-- A non-negative `int32_t` seed gives the same engine as the `uint32_t` of the same value. -/
theorem engine_nonneg (s : BitVec 32) (h : s.msb = false) : ofInt32 s = ofUInt32 s := by
  unfold ofInt32 ofUInt32
  rw [BitVec.signExtend_eq_setWidth_of_msb_false h]

/-- Of the same limits, size and non-negative seed both classes make the same numbers, and write the
same file. -/
theorem C112_pool_partial {f : Fmt} (min max : FP f) (size : BitVec 64) (seed : BitVec 32) (h : seed.msb = false)
    (dec : FP f → Text) (out : Text) (fs : Fs) :
    (PoolOld.make min max size seed).numbers = (pool1D min max size seed).numbers ∧
    (PoolOld.make min max size seed).writeFile dec out fs = (pool1D min max size seed).writeFile dec out fs := by
  have e : (PoolOld.make min max size seed).numbers = (pool1D min max size seed).numbers := by
    unfold PoolOld.make pool1D Rand.pool1D Rand.fillVector
    rw [engine_nonneg seed h]
    simp
  refine ⟨e, ?_⟩
  unfold PoolOld.writeFile Pool1D.writeFile
  rw [e]
  rfl

/-- Both classes read the same numbers from any file, and write the same file afterwards. -/
theorem C112_pool_file {f : Fmt} (fs fs2 : Fs) (name out : Text) (dec : FP f → Text) :
    (PoolOld.ofFile f fs name).numbers = (Pool1D.ofFile f fs name).numbers ∧
    (PoolOld.ofFile f fs name).writeFile dec out fs2 = (Pool1D.ofFile f fs name).writeFile dec out fs2 := ⟨rfl, rfl⟩

/-- Each class reads back what the other wrote. -/
theorem C112_pool_exchange {f : Fmt} (hf : f.eb + f.mb + 1 ≤ 64) (min max : FP f) (size : BitVec 64) (hs : size ≠ 0)
    (seed : BitVec 32) (dec : FP f → Text) (hdec : ∀ x, '\n' ∉ dec x) (out : Text) (fs : Fs) :
    (Pool1D.ofFile f ((PoolOld.make min max size seed).writeFile dec out fs) out).numbers = (PoolOld.make min max size seed).numbers ∧
    (PoolOld.ofFile f ((pool1D min max size seed).writeFile dec out fs) out).numbers = (pool1D min max size seed).numbers :=
  ⟨(C43_pool1D_roundtrip hf dec hdec ⟨size, [], min, max, (PoolOld.make min max size seed).numbers⟩ hs out fs).1,
    (C43_pool1D_roundtrip hf dec hdec (pool1D min max size seed) hs out fs).1⟩

/-- What "the same numbers" asks for without a condition on the seed. -/
def C112_statement : Prop := ∀ (min max : F64) (size : BitVec 64) (seed : BitVec 32),
  (PoolOld.make min max size seed).numbers = (pool1D min max size seed).numbers

/-- A negative seed is another number for the replacement: with -1, that is `2^32 - 1` for the old
class, already the first number differs. -/
theorem C112_violated : ¬ C112_statement := by
  intro h
  have := h (lit 0) (lit 1) 1 (-1)
  revert this
  decide +kernel

/-- For every negative seed the engines differ within the first 312 outputs. -/
theorem C112_negative_seed (s : BitVec 32) (h : s.msb = true) : ∃ k < 312, ofInt32 s k ≠ ofUInt32 s k := by
  refine C111_engine _ _ fun e => ?_
  have := congrArg (fun b => BitVec.getLsbD b 63) e
  simp only [BitVec.getLsbD_signExtend, h, BitVec.getLsbD_setWidth, BitVec.getLsbD_of_ge s 63 (by decide)] at this
  exact absurd this (by decide)

example : (1 : BitVec 32).msb = false ∧ (-1 : BitVec 32).msb = true := by decide

/-! ## Responses -/

theorem mapM_some {α β : Type} (g : α → β) (l : List α) : (l.mapM fun a => some (g a)) = some (l.map g) := by
  induction l with
  | nil => rfl
  | cons a l ih => rw [List.mapM_cons, ih]; rfl

theorem mapM_congr {α β : Type} {g g' : α → Option β} {l : List α} (h : ∀ a ∈ l, g a = g' a) : l.mapM g = l.mapM g' := by
  induction l with
  | nil => rfl
  | cons a l ih => rw [List.mapM_cons, List.mapM_cons, ih fun x hx => h x (List.mem_cons_of_mem _ hx), h a List.mem_cons_self]

theorem mapM_pair {α β : Type} (g : α → Option β) (l : List α) :
    (l.mapM fun a => (g a).bind fun b => some (a, b)) = (l.mapM g).map fun bs => l.zip bs := by
  induction l with
  | nil => rfl
  | cons a l ih =>
    rw [List.mapM_cons, List.mapM_cons, ih]
    cases g a <;> cases l.mapM g <;> rfl

theorem mapM_length {α β : Type} (g : α → Option β) (l : List α) (bs : List β) (h : l.mapM g = some bs) : bs.length = l.length := by
  induction l generalizing bs with
  | nil => cases h; rfl
  | cons a l ih =>
    rw [List.mapM_cons] at h
    cases hg : g a with
    | none => rw [hg] at h; cases h
    | some b =>
      cases hl : l.mapM g with
      | none => rw [hg, hl] at h; cases h
      | some cs => rw [hg, hl] at h; cases h; simp [ih cs hl]

/-- A scalar function is applied to the same inputs with the same outcome, undefined behaviour
included. -/
theorem C112_response_scalar {f : Fmt} (name : Text) (input : List (FP f)) (fcn : Bench.Fcn f) :
    (RespOld.make name input fcn).map (fun o => (o.fcnName, o.input.zip o.output)) =
      (Bench.respScalar name input fcn).map (fun r => (r.fcnName, r.rows)) ∧
    ∀ o, RespOld.make name input fcn = some o → o.input = input ∧ o.output.length = input.length := by
  have e := mapM_pair fcn input
  constructor
  · have e2 : Bench.respScalar name input fcn = ((input.mapM fcn).map fun bs => input.zip bs).bind
        fun rows => some ⟨false, name, "From scratch".toList, rows⟩ := by rw [← e]; rfl
    have e3 : RespOld.make name input fcn = (input.mapM fcn).bind
        fun bs => some ⟨false, name, "From Scratch".toList, input, bs⟩ := rfl
    rw [e2, e3]
    cases input.mapM fcn <;> rfl
  · intro o h
    obtain ⟨bs, h1, h2⟩ := Option.bind_eq_some_iff.1 h
    cases h2
    exact ⟨rfl, mapM_length _ _ _ h1⟩

/-- An array function likewise, if there are fewer than `2^32` numbers. -/
theorem C112_response_array_partial {f : Fmt} (garbage : Nat → FP f) (name : Text) (input : List (FP f)) (fcnv : Bench.ArrayFcn f)
    (h : input.length < 2 ^ 32) :
    (RespOld.ofArray garbage name input fcnv).map (fun o => (o.fcnName, o.input.zip o.output)) =
      (Bench.respArray garbage name input fcnv).map (fun r => (r.fcnName, r.rows)) ∧
    ∀ o, RespOld.ofArray garbage name input fcnv = some o → o.input = input ∧ o.output.length = input.length := by
  unfold RespOld.ofArray Bench.respArray
  by_cases h0 : input.length = 0
  · simp [h0]
  have es : (BitVec.ofNat 32 input.length).toNat = input.length := by
    rw [BitVec.toNat_ofNat]; exact Nat.mod_eq_of_lt h
  dsimp only
  rw [if_neg h0, if_neg (by omega), es]
  cases fcnv (BitVec.ofNat 32 input.length) 0 input.length (Bench.respMem garbage input) with
  | none => exact ⟨rfl, fun o ho => by cases ho⟩
  | some m =>
    simp only [Option.bind_eq_bind, Option.bind_some]
    cases hl : (List.range input.length).mapM fun i => Arr.load m (input.length + i) with
    | none => exact ⟨rfl, fun o ho => by cases ho⟩
    | some outs =>
      refine ⟨rfl, fun o ho => ?_⟩
      cases ho
      exact ⟨rfl, (mapM_length _ _ _ hl).trans (List.length_range ..)⟩

/-- From `2^32` numbers on the old class silently keeps the outputs of `n mod 2^32` of them; its
replacement does not come back at all. -/
theorem C112_response_large {f : Fmt} (garbage : Nat → FP f) (name : Text) (input : List (FP f)) (fcnv : Bench.ArrayFcn f)
    (h : 2 ^ 32 ≤ input.length) :
    Bench.respArray garbage name input fcnv = none ∧
    ∀ o, RespOld.ofArray garbage name input fcnv = some o → o.input = input ∧ o.output.length = input.length % 2 ^ 32 := by
  refine ⟨Bench.C61_array_sizes garbage name input fcnv (Or.inr h), fun o ho => ?_⟩
  unfold RespOld.ofArray at ho
  rw [if_neg (by omega)] at ho
  obtain ⟨m, -, ho⟩ := Option.bind_eq_some_iff.1 ho
  obtain ⟨outs, h1, ho⟩ := Option.bind_eq_some_iff.1 ho
  cases ho
  exact ⟨rfl, (mapM_length _ _ _ h1).trans ((List.length_range ..).trans (BitVec.toNat_ofNat ..))⟩

/-- Both classes read the same rows from any file. -/
theorem C112_response_file {f : Fmt} (fs : Fs) (name : Text) :
    (RespOld.ofFile f fs name).input.zip (RespOld.ofFile f fs name).output = (Resp1D.ofFile f fs name).rows := by
  show List.zip (List.map _ _) (List.map _ _) = _
  rw [List.zip_map']
  simp
  rfl

/-- The text `fcnResponse_old::writeFile` puts into the file. -/
theorem respOld_text {f : Fmt} (o : RespOld f) (h : o.fromFile = false) (hl : o.output.length = o.input.length) (out : Text) (fs : Fs) :
    o.writeFile out fs = some (Function.update fs out (some (respOldPreamble ++ precisionLine f ++ "Function Name = ".toList ++
      o.fcnName ++ ['\n'] ++ "--\n--\n".toList ++ (o.input.zip o.output).flatMap respRow))) := by
  have e : ((List.range o.input.length).mapM fun i => do
      return fpToHex (← o.input[i]?) ++ fpToHex (← o.output[i]?) ++ ['\n'] : Option (List Text)) =
      some ((o.input.zip o.output).map respRow) := by
    generalize o.input = xs at *
    generalize o.output = ys at *
    have e1 : ∀ i ∈ List.range xs.length, ((do return fpToHex (← xs[i]?) ++ fpToHex (← ys[i]?) ++ ['\n'] : Option Text)) =
        some (((xs.zip ys).map respRow).getD i []) := by
      intro i hi
      have hi := List.mem_range.1 hi
      have hi2 : i < ys.length := by omega
      simp [hi, hi2, respRow]
    rw [mapM_congr e1, mapM_some]
    congr 1
    apply List.ext_getElem
    · simp [hl]
    · intro i h1 h2
      simp at h1
      simp [h1, hl]
  unfold RespOld.writeFile
  rw [h]
  simp only [Bool.false_eq_true, if_false]
  erw [e]
  show some (Fs.append _ _ _) = _
  rw [truncate_append, List.flatMap_def]

theorem respOld_first (f : Fmt) (name r : Text) :
    getline ⟨respOldPreamble ++ precisionLine f ++ "Function Name = ".toList ++ name ++ ['\n'] ++ "--\n--\n".toList ++ r, false⟩ =
      getline ⟨respHeader f name ++ r, false⟩ := by
  unfold respHeader
  rw [show respPreamble = "VDT function arithmetics performance 1 input file (the first 5 lines are the header)".toList ++ ['\n'] by decide,
    show respOldPreamble = "VDT function arithmetics performance file (the first 5 lines are the header)".toList ++ ['\n'] by decide]
  simp only [List.append_assoc, List.cons_append, List.nil_append]
  rw [getline_line _ _ (by decide), getline_line _ _ (by decide)]

/-- Each of the two classes reads back the rows the other one wrote, and the comparison program sees
the same precision and function name in both files. -/
theorem C112_response_exchange {f : Fmt} (hf : f.eb + f.mb + 1 ≤ 64) (o : RespOld f) (r : Resp1D f)
    (ho : o.fromFile = false) (hr : r.fromFile = false) (hn : o.fcnName = r.fcnName) (hnl : '\n' ∉ r.fcnName)
    (hl : o.output.length = o.input.length) (hrows : o.input.zip o.output = r.rows) (out : Text) (fs : Fs) :
    ∃ fs', o.writeFile out fs = some fs' ∧ (Resp1D.ofFile f fs' out).rows = r.rows ∧
      (RespOld.ofFile f (r.writeFile out fs) out).input = o.input ∧ (RespOld.ofFile f (r.writeFile out fs) out).output = o.output ∧
      Compare.readHeader (fs'.open out) = Compare.readHeader ((r.writeFile out fs).open out) ∧
      ∀ n, n ≠ out → fs' n = r.writeFile out fs n := by
  refine ⟨_, respOld_text o ho hl out fs, ?_, ?_, ?_, ?_, ?_⟩
  · rw [← (C44_response1D_roundtrip hf r hr hnl out fs).1]
    unfold Resp1D.ofFile Resp1D.writeFile
    dsimp only
    rw [if_neg (by simp [hr]), truncate_append, open_update, open_update, hn, hrows]
    show ((hexR f).and (hexR f)).all (skipLines 4 (getline _)) = ((hexR f).and (hexR f)).all (skipLines 4 (getline _))
    rw [respOld_first]
  · show (Resp1D.ofFile f (r.writeFile out fs) out).rows.map Prod.fst = _
    rw [(C44_response1D_roundtrip hf r hr hnl out fs).1, ← hrows, List.map_fst_zip (by omega)]
  · show (Resp1D.ofFile f (r.writeFile out fs) out).rows.map Prod.snd = _
    rw [(C44_response1D_roundtrip hf r hr hnl out fs).1, ← hrows, List.map_snd_zip (by omega)]
  · unfold Resp1D.writeFile
    dsimp only
    rw [if_neg (by simp [hr]), truncate_append, open_update, open_update, hn, hrows]
    unfold Compare.readHeader
    rw [respOld_first]
  · intro n h
    rw [Function.update_of_ne h, (C44_response1D_roundtrip hf r hr hnl out fs).2 n h]

example : ∃ (o : RespOld b64) (r : Resp1D b64), o.fromFile = false ∧ r.fromFile = false ∧ o.fcnName = r.fcnName ∧ '\n' ∉ r.fcnName ∧
    o.output.length = o.input.length ∧ o.input.zip o.output = r.rows ∧ r.rows ≠ [] :=
  ⟨⟨false, ['E'], [], [zero true], [nan]⟩, ⟨false, ['E'], [], [(zero true, nan)]⟩, rfl, rfl, rfl, by decide, rfl, rfl, List.cons_ne_nil _ _⟩

/-! ## Comparisons -/

theorem mapM_zip {α β γ : Type} (F : α → β → Option γ) (xs : List α) (ys : List β) (h : xs.length = ys.length) :
    ((List.range xs.length).mapM fun i => do F (← xs[i]?) (← ys[i]?) : Option (List γ)) = (xs.zip ys).mapM fun p => F p.1 p.2 := by
  induction xs generalizing ys with
  | nil => rfl
  | cons x xs ih =>
    cases ys with
    | nil => simp at h
    | cons y ys =>
      have ih := ih ys (by simpa using h)
      rw [List.length_cons, List.range_succ_eq_map, List.mapM_cons, List.mapM_map, List.zip_cons_cons, List.mapM_cons, ← ih]
      rfl

/-- Of outputs as long as the input both classes make the same comparison, undefined behaviour
included; the old class refuses all others. -/
theorem C112_comparison {f : Fmt} (cast : F64 → Option Nat) (log2 : F64 → F64) (name : Text) (input out1 out2 : List (FP f)) :
    (input.length = out1.length → input.length = out2.length →
      cmpOldMake cast log2 name input out1 out2 = Compare.makeCmp cast log2 name input out1 out2) ∧
    (input.length ≠ out1.length ∨ input.length ≠ out2.length → cmpOldMake cast log2 name input out1 out2 = none) := by
  constructor
  · intro h1 h2
    unfold cmpOldMake Compare.makeCmp
    rw [if_neg (by simp [h1]), if_neg (by simp [h2]), if_neg (by omega)]
    have e : ((List.range input.length).mapM fun i => do Compare.diffbitOn cast log2 (← out1[i]?) (← out2[i]?) : Option (List Nat)) =
        (out1.zip out2).mapM fun p => Compare.diffbitOn cast log2 p.1 p.2 := by
      rw [h1]
      exact mapM_zip _ out1 out2 (h1.symm.trans h2)
    rw [e]
  · rintro (h | h)
    · unfold cmpOldMake
      rw [if_pos h]
    · unfold cmpOldMake
      rw [if_pos h]
      split <;> rfl

/-- From a comparison file the replacement reads the statistics and all rows, the old class nothing
(it skips two of the five header lines). -/
theorem C112_comparison_file {f : Fmt} [MaxNat f] (hf : f.eb + f.mb + 1 ≤ 64) (p : Cmp1D f) (hp : p.fromFile = false)
    (hn : '\n' ∉ p.name) (h1 : p.max < 2 ^ 16) (h2 : p.min < 2 ^ 16) (hd : ∀ r ∈ p.rows, r.diff < 2 ^ 16)
    (hfin : ∀ r ∈ p.rows, r.input.isFinite = true) (out : Text) (fs : Fs) :
    readCmp f 5 (Fs.open (p.writeFile out fs) out) = (some (p.max, p.min, p.mean, p.rms), p.rows) ∧
    readCmp f 2 (Fs.open (p.writeFile out fs) out) = (none, []) :=
  ⟨C45_comparison_partial hf p hp hn h1 h2 hd hfin out fs, C45_old_reads_nothing p hp out fs⟩

end Vdt.Txt
