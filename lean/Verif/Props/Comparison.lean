import Verif.Lemmas.Compare

/-!
# C66: the comparison of two responses
-/

namespace Vdt.Compare
open FP Txt Cmd Diag
open Bench (text1 text2)

local notation "‹" s "›" => String.toList s

theorem write_text1 {f : Fmt} (r : Resp1D f) (h : r.fromFile = false) (out : Text) (fs : Fs) :
    r.writeFile out fs = Function.update fs out (some (text1 r)) := by
  unfold Resp1D.writeFile
  dsimp only
  rw [if_neg (by simp [h]), truncate_append]
  rfl

theorem write_text2 {f : Fmt} (r : Resp2D f) (h : r.fromFile = false) (out : Text) (fs : Fs) :
    r.writeFile out fs = Function.update fs out (some (text2 r)) := by
  unfold Resp2D.writeFile
  dsimp only
  rw [if_neg (by simp [h]), truncate_append]
  rfl

/-- The full property for functions of one variable: the program compares two responses of equal
length that were saved before, writes one file and leaves the others alone.  The file holds the inputs,
both outputs, their differences and the statistics.  `toUInt 16` is the conversion as the standard
defines it. -/
def C66_statement : Prop := ∀ (L : F64 → F64), Log2Ok L → ∀ (z : ℕ) (nick ref test : Text) (rr rt : Resp1D b64) (fs : Fs),
  rr.fromFile = false → rt.fromFile = false → rr.rows.length = rt.rows.length → rr.rows ≠ [] → rr.rows.length < 2 ^ 32 →
  (∀ r ∈ rr.rows, r.1.isFinite = true) → '\n' ∉ ref → '\n' ∉ test → '\n' ∉ rr.fcnName → '\n' ∉ rt.fcnName → ref ≠ test →
  ∃ fs' t, compareFile (toUInt 16) L nick (rt.writeFile test (rr.writeFile ref fs)) (ref, test) = some fs' ∧
    fs' (outName nick (strip rr.fcnName)) = some t ∧ Reads1 z rr.rows rt.rows t ∧
    ∀ n, n ≠ outName nick (strip rr.fcnName) → n ≠ ref → n ≠ test → fs' n = fs n

/-- **C66** (partial: the conversion of `-inf` must be defined, the name of the reference file must not
contain `Atan2`, the inputs must be finite). -/
theorem C66_compare_partial {f : Fmt} [MaxNat f] (hf : f = b64 ∨ f = b32) {z : ℕ} {cast : F64 → Option ℕ} (hc : CastOk z cast)
    (L : F64 → F64) (hL : Log2Ok L) (nick ref test : Text) (rr rt : Resp1D f) (fs : Fs) (hr0 : rr.fromFile = false)
    (ht0 : rt.fromFile = false) (hl : rr.rows.length = rt.rows.length) (h0 : rr.rows ≠ []) (h1 : rr.rows.length < 2 ^ 32)
    (hfin : ∀ r ∈ rr.rows, r.1.isFinite = true) (hr : '\n' ∉ ref) (ht : '\n' ∉ test) (hnr : '\n' ∉ rr.fcnName)
    (hnt : '\n' ∉ rt.fcnName) (hne : ref ≠ test) (hA : contains ‹"Atan2"› ref = false) :
    ∃ fs' t, compareFile cast L nick (rt.writeFile test (rr.writeFile ref fs)) (ref, test) = some fs' ∧
      fs' (outName nick (strip rr.fcnName)) = some t ∧ Reads1 z rr.rows rt.rows t ∧
      ∀ n, n ≠ outName nick (strip rr.fcnName) → n ≠ ref → n ≠ test → fs' n = fs n := by
  obtain ⟨t, e, hR⟩ := compareFile_ok1 hf hc L hL nick ref test rr rt hl h0 h1 hfin hr ht hnr hnt hA
  refine ⟨_, t, e _ ?_ ?_, Function.update_self .., hR, ?_⟩
  · rw [write_text1 rt ht0, write_text1 rr hr0, Function.update_of_ne hne, Function.update_self]
  · rw [write_text1 rt ht0, Function.update_self]
  · intro n a b c
    rw [Function.update_of_ne a, write_text1 rt ht0, write_text1 rr hr0, Function.update_of_ne c, Function.update_of_ne b]

/-- The same for functions of two variables, whose files are recognised by `Atan2` in the name. -/
theorem C66_compare2D_partial {f : Fmt} [MaxNat f] (hf : f = b64 ∨ f = b32) {z : ℕ} {cast : F64 → Option ℕ} (hc : CastOk z cast)
    (L : F64 → F64) (hL : Log2Ok L) (nick ref test : Text) (rr rt : Resp2D f) (fs : Fs) (hr0 : rr.fromFile = false)
    (ht0 : rt.fromFile = false) (hl : rr.rows.length = rt.rows.length) (h0 : rr.rows ≠ []) (h1 : rr.rows.length < 2 ^ 32)
    (hfin : ∀ r ∈ rr.rows, r.1.isFinite = true ∧ r.2.1.isFinite = true) (hr : '\n' ∉ ref) (ht : '\n' ∉ test)
    (hnr : '\n' ∉ rr.fcnName) (hnt : '\n' ∉ rt.fcnName) (hne : ref ≠ test) (hA : contains ‹"Atan2"› ref = true) :
    ∃ fs' t, compareFile cast L nick (rt.writeFile test (rr.writeFile ref fs)) (ref, test) = some fs' ∧
      fs' (outName nick (strip rr.fcnName)) = some t ∧ Reads2 z rr.rows rt.rows t ∧
      ∀ n, n ≠ outName nick (strip rr.fcnName) → n ≠ ref → n ≠ test → fs' n = fs n := by
  obtain ⟨t, e, hR⟩ := compareFile_ok2 hf hc L hL nick ref test rr rt hl h0 h1 hfin hr ht hnr hnt hA
  refine ⟨_, t, e _ ?_ ?_, Function.update_self .., hR, ?_⟩
  · rw [write_text2 rt ht0, write_text2 rr hr0, Function.update_of_ne hne, Function.update_self]
  · rw [write_text2 rt ht0, Function.update_self]
  · intro n a b c
    rw [Function.update_of_ne a, write_text2 rt ht0, write_text2 rr hr0, Function.update_of_ne c, Function.update_of_ne b]

/-- A conversion as assumed: that of the standard, and 0 (the result on x86) outside its domain. -/
theorem castOk_exists : CastOk 0 (fun x => some ((toUInt 16 x).getD 0)) := by
  refine ⟨fun x n h => by rw [h]; rfl, ?_, by norm_num⟩
  decide +kernel

/-- Two exponentials that differ in the last bit meet the hypotheses. -/
example : ∃ (cast : F64 → Option ℕ) (L : F64 → F64) (rr rt : Resp1D b64), CastOk 0 cast ∧ Log2Ok L ∧ rr.rows.length = rt.rows.length ∧
    rr.rows ≠ [] ∧ (∀ r ∈ rr.rows, r.1.isFinite = true) ∧ '\n' ∉ rr.fcnName ∧ rr.rows ≠ rt.rows ∧
    contains ‹"Atan2"› ‹"run__Exp__response.txt"› = false ∧ strip rt.fcnName = ‹"Exp"› := by
  obtain ⟨L, hL⟩ := log2Ok_exists
  refine ⟨_, L, ⟨false, ‹"Exp"›, [], [(lit 1, ⟨false, 4613303445314885481, by decide⟩)]⟩,
    ⟨false, ‹"Fast_Exp"›, [], [(lit 1, ⟨false, 4613303445314885482, by decide⟩)]⟩, castOk_exists, hL, rfl, by simp, ?_, by decide, ?_, ?_, by decide⟩
  · simp only [List.mem_singleton, forall_eq]; decide +kernel
  · intro h
    have := congrArg (fun l => l.map fun p => p.2.mag) h
    revert this; decide
  · simp only [String.reduceToList]; decide

theorem compareFile_undef {f : Fmt} (hf : f = b64 ∨ f = b32) (L : F64 → F64) (hL : Log2Ok L) (nick ref test : Text) (rr rt : Resp1D f)
    (fs1 : Fs) (e1 : fs1 ref = some (text1 rr)) (e2 : fs1 test = some (text1 rt))
    (hnr : '\n' ∉ rr.fcnName) (hnt : '\n' ∉ rt.fcnName) (hA : contains ‹"Atan2"› ref = false)
    (heq : ∃ p ∈ (rr.rows.map Prod.snd).zip (rt.rows.map Prod.snd), p.1 = p.2) :
    compareFile (toUInt 16) L nick fs1 (ref, test) = none := by
  have hw : f.eb + f.mb + 1 ≤ 64 := by rcases hf with rfl | rfl <;> decide
  have key : ∀ l : List (FP f × FP f), (∃ p ∈ l, p.1 = p.2) → l.mapM (fun p => diffbitOn (toUInt 16) L p.1 p.2) = none := by
    intro l h
    induction l with
    | nil => simp at h
    | cons a l ih =>
      rw [List.mapM_cons]
      by_cases ha : a.1 = a.2
      · rw [diffbitOn_eq hw, patDist_zero.2 ha, show ofNat 0 = (pzero : F64) by decide +kernel, hL.zero,
          show toUInt 16 (FP.inf true + lit 1 : F64) = none by decide +kernel]
        rfl
      · obtain ⟨p, hp, hpe⟩ := h
        rcases List.mem_cons.1 hp with rfl | hp
        · exact absurd hpe ha
        · rw [ih ⟨p, hp, hpe⟩]
          cases diffbitOn (toUInt 16) L a.1 a.2 <;> rfl
  have hca : compareAs f (toUInt 16) L nick (strip rr.fcnName) fs1 ref test = none := by
    unfold compareAs
    rw [if_neg (by rw [hA]; simp)]
    dsimp only
    rw [Bench.ofFile_text1 hw fs1 ref rr hnr e1, Bench.ofFile_text1 hw fs1 test rt hnt e2]
    unfold makeCmp
    split
    · rfl
    · rw [key _ heq]; rfl
  rw [compareFile_as hf _ L nick ref test _ _ hnr fs1 e1 (by rw [e2]; simp), hca]

/-- The strict conversion: two equal outputs make the run undefined. -/
theorem C66_equal_undefined {f : Fmt} (hf : f = b64 ∨ f = b32) (L : F64 → F64) (hL : Log2Ok L) (nick ref test : Text) (rr rt : Resp1D f)
    (fs : Fs) (hr0 : rr.fromFile = false) (ht0 : rt.fromFile = false)
    (hnr : '\n' ∉ rr.fcnName) (hnt : '\n' ∉ rt.fcnName) (hne : ref ≠ test) (hA : contains ‹"Atan2"› ref = false)
    (heq : ∃ p ∈ (rr.rows.map Prod.snd).zip (rt.rows.map Prod.snd), p.1 = p.2) :
    compareFile (toUInt 16) L nick (rt.writeFile test (rr.writeFile ref fs)) (ref, test) = none := by
  rw [write_text1 rt ht0, write_text1 rr hr0]
  exact compareFile_undef hf L hL nick ref test rr rt _ (by rw [Function.update_of_ne hne, Function.update_self])
    (by rw [Function.update_self]) hnr hnt hA heq

theorem C66_violated : ¬ C66_statement := by
  intro h
  obtain ⟨L, hL⟩ := log2Ok_exists
  let r : Resp1D b64 := ⟨false, ‹"Exp"›, [], [(lit 0, lit 1)]⟩
  have hfin : ∀ p ∈ r.rows, p.1.isFinite = true := by
    simp only [r, List.mem_singleton, forall_eq]; decide +kernel
  obtain ⟨fs', t, h1, -⟩ := h L hL 0 [] ['a'] ['b'] r r (fun _ => none) rfl rfl rfl (by simp [r]) (by simp [r]) hfin (by decide) (by decide)
    (by decide) (by decide) (by decide)
  rw [C66_equal_undefined (Or.inl rfl) L hL [] ['a'] ['b'] r r (fun _ => none) rfl rfl (by decide) (by decide) (by decide)
    (by simp only [String.reduceToList]; decide) ⟨(lit 1, lit 1), by simp [r], rfl⟩] at h1
  cases h1

/-- With `Atan2` in the nickname the files of all functions are read as those of a function of two
variables: the comparison of two responses with one row each is empty. -/
theorem C66_nickname (cast : F64 → Option ℕ) (L : F64 → F64) (fs : Fs) :
    ∃ fs' t s, compareFile cast L ‹"Atan2"› ((⟨false, ‹"Fast_Exp"›, [], [(lit 0, lit 2)]⟩ : Resp1D b64).writeFile ‹"Atan2__Fast_Exp__response.txt"›
      ((⟨false, ‹"Exp"›, [], [(lit 0, lit 1)]⟩ : Resp1D b64).writeFile ‹"Atan2__Exp__response.txt"› fs))
      (‹"Atan2__Exp__response.txt"›, ‹"Atan2__Fast_Exp__response.txt"›) = some fs' ∧
      fs' ‹"comparison__Atan2__Exp.txt"› = some t ∧ readCmp2 b64 ⟨t, false⟩ = (s, []) := by
  rw [write_text1 _ rfl, write_text1 _ rfl]
  generalize hr : (⟨false, ‹"Exp"›, [], [(lit 0, lit 1)]⟩ : Resp1D b64) = rr
  generalize ht : (⟨false, ‹"Fast_Exp"›, [], [(lit 0, lit 2)]⟩ : Resp1D b64) = rt
  generalize hfs : Function.update (Function.update fs ‹"Atan2__Exp__response.txt"› (some (text1 rr))) ‹"Atan2__Fast_Exp__response.txt"›
    (some (text1 rt)) = fs1
  have e1 : fs1 ‹"Atan2__Exp__response.txt"› = some (text1 rr) := by
    rw [← hfs, Function.update_of_ne (by simp only [String.reduceToList]; decide), Function.update_self]
  have e2 : fs1 ‹"Atan2__Fast_Exp__response.txt"› = some (text1 rt) := by rw [← hfs, Function.update_self]
  have o1 : Fs.open fs1 ‹"Atan2__Exp__response.txt"› = ⟨respHeader b64 rr.fcnName ++ rr.rows.flatMap respRow, false⟩ := by
    unfold Fs.open; rw [e1]; rfl
  have o2 : Fs.open fs1 ‹"Atan2__Fast_Exp__response.txt"› = ⟨respHeader b64 rt.fcnName ++ rt.rows.flatMap respRow, false⟩ := by
    unfold Fs.open; rw [e2]; rfl
  have n1 : '\n' ∉ rr.fcnName := by rw [← hr]; decide
  have n2 : '\n' ∉ rt.fcnName := by rw [← ht]; decide
  have r1 : (Resp2D.ofFile b64 fs1 ‹"Atan2__Exp__response.txt"›).rows = [] := by
    unfold Resp2D.ofFile
    rw [o1, respHeader_skip _ _ _ n1]
    refine Reader.all_none _ _ ?_
    rw [← hr]; decide +kernel
  have r2 : (Resp2D.ofFile b64 fs1 ‹"Atan2__Fast_Exp__response.txt"›).rows = [] := by
    unfold Resp2D.ofFile
    rw [o2, respHeader_skip _ _ _ n2]
    refine Reader.all_none _ _ ?_
    rw [← ht]; decide +kernel
  have hs := calcStats_eq [] (by norm_num) (by simp)
  generalize hst : (⟨_, _, _, _⟩ : Stats) = st at hs
  have hmm : st.max < 2 ^ 16 ∧ st.min < 2 ^ 16 := by rw [← hst]; decide
  let lb := label ‹"Exp"› ‹"Atan2__Exp__response.txt"› ‹"Atan2__Fast_Exp__response.txt"›
  let c : Cmp2D b64 := ⟨false, lb, ‹"From scratch"›, st.max, st.min, st.mean, st.rms, []⟩
  have hlb : '\n' ∉ lb := by
    have := label_nl (name := ‹"Exp"›) (ref := ‹"Atan2__Exp__response.txt"›) (test := ‹"Atan2__Fast_Exp__response.txt"›)
      (by decide) (by decide) (by decide)
    rwa [strip_plain (by decide)] at this
  have hst0 : strip rr.fcnName = ‹"Exp"› := by rw [← hr]; exact strip_plain (by decide)
  have hm : makeCmp2 cast L lb ([] : List F64) [] [] [] = some c := by
    unfold makeCmp2
    rw [if_neg (by simp)]
    simp only [List.zip_nil_left, List.mapM_nil, Option.pure_def, Option.bind_eq_bind, Option.bind_some, hs, List.length_nil,
      List.range_zero]
    rfl
  have hca : compareAs b64 cast L ‹"Atan2"› ‹"Exp"› fs1 ‹"Atan2__Exp__response.txt"› ‹"Atan2__Fast_Exp__response.txt"› =
      some (c.writeFile (outName ‹"Atan2"› ‹"Exp"›) fs1) := by
    unfold compareAs
    rw [if_pos (by simp only [String.reduceToList]; decide)]
    dsimp only
    rw [r1, r2]
    show Option.bind (makeCmp2 cast L lb ([] : List F64) [] [] []) _ = _
    rw [hm]; rfl
  have ho : outName ‹"Atan2"› ‹"Exp"› = ‹"comparison__Atan2__Exp.txt"› := by unfold outName; simp only [String.reduceToList]; rfl
  have hw : ∃ t, c.writeFile (outName ‹"Atan2"› ‹"Exp"›) fs1 = Function.update fs1 (outName ‹"Atan2"› ‹"Exp"›) (some t) := by
    unfold Cmp2D.writeFile
    dsimp only
    rw [if_neg (by simp [c]), truncate_append]
    exact ⟨_, rfl⟩
  obtain ⟨t, hw⟩ := hw
  have hread := C45_comparison2D_partial (by decide) c rfl hlb hmm.1 hmm.2 (by simp [c]) (by simp [c]) (outName ‹"Atan2"› ‹"Exp"›) fs1
  rw [hw, open_update] at hread
  refine ⟨c.writeFile (outName ‹"Atan2"› ‹"Exp"›) fs1, t, _, ?_, ?_, hread⟩
  · rw [compareFile_as (Or.inl rfl) cast L _ _ _ _ _ n1 fs1 e1 (by rw [e2]; simp), hst0, hca]
  · rw [hw, ← ho, Function.update_self]

end Vdt.Compare
