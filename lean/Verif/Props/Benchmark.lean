import Verif.Lemmas.Bench

/-!
# C61, C62: responses and files of the accuracy benchmark
-/

namespace Vdt.Bench
open FP Txt Arr Rand

local notation "‹" s "›" => String.toList s

/-! ## C61 -/

/-- **C61.** An array function records the same response as the scalar function it is generated from,
whatever the output array contained before. -/
theorem C61_array_response {f : Fmt} (garbage : Nat → FP f) (name : Text) (input : List (FP f)) (fcn : FP f → Option (FP f))
    (h : ∀ x ∈ input, (fcn x).isSome = true) (h0 : 0 < input.length) (h1 : input.length < 2 ^ 32) :
    ∃ r, respArray garbage name input (arrayFn fcn) = some r ∧ respScalar name input fcn = some r ∧ r.fcnName = name ∧
      r.rows.map Prod.fst = input ∧ ∀ p ∈ r.rows, fcn p.1 = some p.2 := by
  refine ⟨_, respArray_eq garbage name input fcn h h0 h1, respScalar_eq name input fcn h, rfl, ?_, ?_⟩
  · simp [rowsOf, Function.comp_def]
  · intro p hp
    obtain ⟨x, hx, rfl⟩ := List.mem_map.1 hp
    exact getD_of_isSome (h x hx)

theorem C61_array_response2D {f : Fmt} (garbage : Nat → FP f) (name : Text) (xs ys : List (FP f)) (fcn : FP f → FP f → Option (FP f))
    (hl : xs.length = ys.length) (h : ∀ p ∈ xs.zip ys, (fcn p.1 p.2).isSome = true) (h0 : 0 < xs.length) (h1 : xs.length < 2 ^ 32) :
    ∃ r, respArray2 garbage name xs ys (arrayFn2 fcn) = some r ∧ respScalar2 name xs ys fcn = some r ∧ r.fcnName = name ∧
      r.rows.map (fun p => (p.1, p.2.1)) = xs.zip ys ∧ ∀ p ∈ r.rows, fcn p.1 p.2.1 = some p.2.2 := by
  refine ⟨_, respArray2_eq garbage name xs ys fcn hl h h0 h1, respScalar2_eq name xs ys fcn hl h, rfl, ?_, ?_⟩
  · simp [rowsOf2, Function.comp_def]
  · intro p hp
    obtain ⟨x, hx, rfl⟩ := List.mem_map.1 hp
    exact getD_of_isSome (h x hx)

/-- A response needs at least one and fewer than `2^32` numbers. -/
theorem C61_array_sizes {f : Fmt} (garbage : Nat → FP f) (name : Text) (input : List (FP f)) (fcnv : ArrayFcn f)
    (h : input = [] ∨ 2 ^ 32 ≤ input.length) : respArray garbage name input fcnv = none := by
  unfold respArray
  dsimp only
  rw [if_pos]
  rcases h with rfl | h
  · left; rfl
  · right; exact h

example : (lit 1 : F64) ∈ [lit 0, lit 1] ∧ (∀ x ∈ ([lit 0, lit 1] : List F64), (Vdt.fast_exp x).isSome = true) ∧
    rowsOf Vdt.fast_exp [lit 0, lit 1] = [(lit 0, lit 1), (lit 1, ⟨false, 4613303445314885482, by decide⟩)] := by decide +kernel

/-! ## C62 -/

/-- The array tables are the scalar tables with `v` appended to every name and every function replaced
by the array function generated from it. -/
theorem tuplesv64_eq (R : RefMath b64) (P : Pools b64) :
    tuplesv64 R none P = (tuples64 R none P).map fun e => ⟨e.name ++ ['v'], arrayFn e.fcn, e.input⟩ := rfl

theorem tuplesv32_eq (R : RefMath b32) (P : Pools b32) :
    tuplesv32 R none P = (tuples32 R none P).map fun e => ⟨e.name ++ ['v'], arrayFn e.fcn, e.input⟩ := rfl

/-- The names of the functions without a precision or array suffix. -/
def baseNames : List Text :=
  [‹"Identity"›, ‹"Exp"›, ‹"Log"›, ‹"Sin"›, ‹"Cos"›, ‹"Tan"›, ‹"Tanh"›, ‹"Asin"›, ‹"Acos"›, ‹"Atan"›, ‹"Isqrt"›, ‹"Inverse"›,
   ‹"Fast_Exp"›, ‹"Fast_Log"›, ‹"Fast_Sin"›, ‹"Fast_Cos"›, ‹"Fast_Tan"›, ‹"Fast_Tanh"›, ‹"Fast_Asin"›, ‹"Fast_Acos"›,
   ‹"Fast_Atan"›, ‹"Fast_Isqrt"›, ‹"Fast_Inv"›, ‹"Fast_Apr_Isqrt"›, ‹"Fast_Apr_Inv"›]

/-- The names Vc adds. -/
def vcNames : List Text :=
  [‹"VC_Identity"›, ‹"VC_Log"›, ‹"VC_Sin"›, ‹"VC_Cos"›, ‹"VC_Asin"›, ‹"VC_Atan"›, ‹"VC_Isqrt"›, ‹"VC_Inverse"›]

/-- The two-argument functions. -/
def pairNames : List Text := [‹"Atan2"›, ‹"Fast_Atan2"›]

/-- The names under which a run of the benchmark saves responses: one-argument functions, with Vc or
not, two-argument functions, in both precisions, scalar and array. -/
def runNames (vc : Bool) : List Text :=
  [‹""›, ‹"v"›, ‹"f"›, ‹"fv"›].flatMap fun s => ((baseNames ++ (if vc then vcNames else [])) ++ pairNames).map (· ++ s)

/-- The jobs of the double precision half. -/
def jobs64 (R : RefMath b64) (vc : Option (VcFns b64)) (garbage : Nat → F64) (eng : Engine) (SIZE : BitVec 32) : List Job :=
  ((tuples64 R vc (pools64 eng SIZE)).map fun e => ⟨e.name, (respScalar e.name e.input e.fcn).map text1⟩) ++
  ((tuplesv64 R vc (pools64 eng SIZE)).map fun e => ⟨e.name, (respArray garbage e.name e.input e.fcn).map text1⟩) ++
  [⟨‹"Atan2"›, (respScalar2 ‹"Atan2"› (poolPairs b64 eng SIZE).1 (poolPairs b64 eng SIZE).2 (some <| R.atan2 · ·)).map text2⟩,
   ⟨‹"Fast_Atan2"›, (respScalar2 ‹"Fast_Atan2"› (poolPairs b64 eng SIZE).1 (poolPairs b64 eng SIZE).2 (some <| Vdt.fast_atan2 · ·)).map text2⟩,
   ⟨‹"Atan2v"›, (respArray2 garbage ‹"Atan2v"› (poolPairs b64 eng SIZE).1 (poolPairs b64 eng SIZE).2 (arrayFn2 (some <| R.atan2 · ·))).map text2⟩,
   ⟨‹"Fast_Atan2v"›, (respArray2 garbage ‹"Fast_Atan2v"› (poolPairs b64 eng SIZE).1 (poolPairs b64 eng SIZE).2
      (arrayFn2 (some <| Vdt.fast_atan2 · ·))).map text2⟩]

/-- The jobs of the single precision half. -/
def jobs32 (R : RefMath b32) (vc : Option (VcFns b32)) (garbage : Nat → F32) (eng : Engine) (SIZE : BitVec 32) : List Job :=
  ((tuples32 R vc (pools32 eng SIZE)).map fun e => ⟨e.name, (respScalar e.name e.input e.fcn).map text1⟩) ++
  ((tuplesv32 R vc (pools32 eng SIZE)).map fun e => ⟨e.name, (respArray garbage e.name e.input e.fcn).map text1⟩) ++
  [⟨‹"Atan2f"›, (respScalar2 ‹"Atan2f"› (poolPairs b32 eng SIZE).1 (poolPairs b32 eng SIZE).2 (some <| R.atan2 · ·)).map text2⟩,
   ⟨‹"Fast_Atan2f"›, (respScalar2 ‹"Fast_Atan2f"› (poolPairs b32 eng SIZE).1 (poolPairs b32 eng SIZE).2 (some <| Vdt.fast_atan2f · ·)).map text2⟩,
   ⟨‹"Atan2fv"›, (respArray2 garbage ‹"Atan2fv"› (poolPairs b32 eng SIZE).1 (poolPairs b32 eng SIZE).2 (arrayFn2 (some <| R.atan2 · ·))).map text2⟩,
   ⟨‹"Fast_Atan2fv"›, (respArray2 garbage ‹"Fast_Atan2fv"› (poolPairs b32 eng SIZE).1 (poolPairs b32 eng SIZE).2
      (arrayFn2 (some <| Vdt.fast_atan2f · ·))).map text2⟩]

theorem main64_eq (R : RefMath b64) (vc : Option (VcFns b64)) (garbage : Nat → F64) (eng : Engine) (nick : Text) (SIZE : BitVec 32)
    (fs : Fs) : main64 R vc garbage eng nick SIZE fs = (jobs64 R vc garbage eng SIZE).foldlM (runJob nick) fs := by
  simp only [main64, jobs64, List.foldlM_append, List.foldlM_map, ← respScalar_job, ← respArray_job, List.foldlM_cons, List.foldlM_nil,
    ← respScalar2_job, ← respArray2_job, bind_assoc, bind_pure]

theorem main32_eq (R : RefMath b32) (vc : Option (VcFns b32)) (garbage : Nat → F32) (eng : Engine) (nick : Text) (SIZE : BitVec 32)
    (fs : Fs) : main32 R vc garbage eng nick SIZE fs = (jobs32 R vc garbage eng SIZE).foldlM (runJob nick) fs := by
  simp only [main32, jobs32, List.foldlM_append, List.foldlM_map, ← respScalar_job, ← respArray_job, List.foldlM_cons, List.foldlM_nil,
    ← respScalar2_job, ← respArray2_job, bind_assoc, bind_pure]

theorem main_eq (R : RefMath b64) (Rf : RefMath b32) (vc : Option (VcFns b64 × VcFns b32)) (garbage : Nat → F64) (garbagef : Nat → F32)
    (eng : Engine) (nick : Text) (SIZE : BitVec 32) (fs : Fs) :
    main R Rf vc garbage garbagef eng nick SIZE fs =
      (jobs64 R (vc.map (·.1)) garbage eng SIZE ++ jobs32 Rf (vc.map (·.2)) garbagef eng SIZE).foldlM (runJob nick) fs := by
  unfold main
  rw [List.foldlM_append, main64_eq]
  simp only [main32_eq]

/-- The names in the order of the run. -/
def orderedNames (vc : Bool) : List Text :=
  ([‹""›, ‹"v"›].flatMap (fun s => (baseNames ++ (if vc then vcNames else [])).map (· ++ s)) ++
   [‹""›, ‹"v"›].flatMap (fun s => pairNames.map (· ++ s))) ++
  ([‹"f"›, ‹"fv"›].flatMap (fun s => (baseNames ++ (if vc then vcNames else [])).map (· ++ s)) ++
   [‹"f"›, ‹"fv"›].flatMap (fun s => pairNames.map (· ++ s)))

theorem job_names (R : RefMath b64) (Rf : RefMath b32) (vc : Option (VcFns b64 × VcFns b32)) (garbage : Nat → F64) (garbagef : Nat → F32)
    (eng : Engine) (SIZE : BitVec 32) :
    (jobs64 R (vc.map (·.1)) garbage eng SIZE ++ jobs32 Rf (vc.map (·.2)) garbagef eng SIZE).map Job.name = orderedNames vc.isSome := by
  cases vc with
  | none =>
    simp only [jobs64, jobs32, Option.map_none, tuples64, tuples32, tuplesv64, tuplesv32, List.map_append, List.map_cons, List.map_nil,
      Option.isSome_none, orderedNames, List.flatMap_cons, List.flatMap_nil, baseNames, pairNames, Bool.false_eq_true, if_false,
      String.reduceToList, List.cons_append, List.nil_append, List.append_nil]
  | some V =>
    simp only [jobs64, jobs32, Option.map_some, tuples64, tuples32, tuplesv64, tuplesv32, List.map_append, List.map_cons, List.map_nil,
      Option.isSome_some, orderedNames, List.flatMap_cons, List.flatMap_nil, baseNames, vcNames, pairNames, if_true,
      String.reduceToList, List.cons_append, List.nil_append, List.append_nil]

/-- A text as a number. -/
def code (t : Text) : Nat := t.foldl (fun n c => n * 128 + c.toNat) 1

theorem ordered_code : (orderedNames true).map code =
  [113596245395274361, 3243120, 3356647, 3470574, 3209203, 3485934, 446199656, 406648046, 406386675, 406663406, 54198565236,
   887818809031141, 111894683997797488, 111894683997911015, 111894683998024942, 111894683997763571, 111894683998040302,
   14322519551749158760, 14322519551709607150, 14322519551709345779, 14322519551709622510, 1833282502620977330548,
   111894683997861750, 492118024567305099023063218548, 30036500522906805360293750, 253271459770080249412217, 7371169675239,
   7371169789166, 7371169527795, 943509695427822, 943509695443182, 120769243162376564, 1978683279801893829093,
   14540319410595118326, 415119478, 429650934, 444233590, 410778102, 446199670, 57113556086, 52050950006, 52017494518,
   52052916086, 6937416350326, 113640807555986166, 14322519551718078582, 14322519551732610038, 14322519551747192694,
   14322519551713737206, 14322519551749158774, 1833282502623892321398, 1833282502618829715318, 1833282502618796259830,
   1833282502618831681398, 234660160335485098310262, 14322519551726304118, 62991107144615052674952091974262,
   3844672066932071086117600118, 32418746850570271924763894, 943509718430710, 943509733013366, 943509699557878,
   120769241014761334, 120769241016727414, 15458463124784200310, 253271459814642410124022, 52052916018, 1833282502618831681330,
   6662773250422, 234660160335210455210358, 14540319410595118310, 415119462, 429650918, 444233574, 410778086, 446199654,
   57113556070, 52050949990, 52017494502, 52052916070, 6937416350310, 113640807555986150, 14322519551718078566,
   14322519551732610022, 14322519551747192678, 14322519551713737190, 14322519551749158758, 1833282502623892321382,
   1833282502618829715302, 1833282502618796259814, 1833282502618831681382, 234660160335485098310246, 14322519551726304102,
   62991107144615052674952091974246, 3844672066932071086117600102, 32418746850570271924763878, 943509718430694, 943509733013350,
   943509699557862, 120769241014761318, 120769241016727398, 15458463124784200294, 253271459814642410124006,
   1861160884556175143798, 53135291254, 54995317622, 56861897590, 52579595126, 57113555830, 7310535177078, 6662521598838,
   6658239296374, 6662773257078, 887989292839798, 14546023367166227318, 1833282502619914056566, 1833282502621774082934,
   1833282502623640662902, 1833282502619358360438, 1833282502623892321142, 234660160335858217137014, 234660160335210203558774,
   234660160335205921256310, 234660160335210455217014, 30036500522942092583711606, 1833282502620966925174,
   8062861714510726742393867772703606, 492118024567305099023052813174, 4149599596872994806369776502, 120769243959128950,
   120769245825708918, 120769241543406454, 15458462849889448822, 15458462850141107062, 1978683279972377637750,
   32418746856274228495872886, 6662773250406, 234660160335210455210342, 852834976052086, 30036500522906938266923894] := by
  simp only [orderedNames, List.flatMap_cons, List.flatMap_nil, baseNames, vcNames, pairNames, if_true, List.map_append, List.map_cons, List.map_nil,
      String.reduceToList, List.cons_append, List.nil_append, List.append_nil]
  decide +kernel

theorem ordered_nodup_vc : (orderedNames true).Nodup := by
  refine List.Nodup.of_map code ?_
  rw [ordered_code]
  decide +kernel

theorem ordered_sublist (vc : Bool) : (orderedNames vc).Sublist (orderedNames true) := by
  have h : (baseNames ++ (if vc then vcNames else [])).Sublist (baseNames ++ (if true then vcNames else [])) := by
    refine List.Sublist.append (List.Sublist.refl _) ?_
    cases vc
    · exact List.nil_sublist _
    · exact List.Sublist.refl _
  unfold orderedNames
  simp only [List.flatMap_cons, List.flatMap_nil]
  exact ((h.map _).append ((h.map _).append (List.Sublist.refl _))).append (List.Sublist.refl _) |>.append
    (((h.map _).append ((h.map _).append (List.Sublist.refl _))).append (List.Sublist.refl _))

theorem ordered_nodup (vc : Bool) : (orderedNames vc).Nodup := ordered_nodup_vc.sublist (ordered_sublist vc)

theorem ordered_mem (vc : Bool) (n : Text) : n ∈ orderedNames vc ↔ n ∈ runNames vc := by
  unfold orderedNames runNames
  simp only [List.flatMap_cons, List.flatMap_nil, List.mem_append, List.map_append, List.append_nil]
  tauto

/-- If a list of jobs runs through, every response was defined. -/
theorem runJobs_some (nick : Text) (js : List Job) (fs fs' : Fs) (h : js.foldlM (runJob nick) fs = some fs') :
    ∀ j ∈ js, j.content.isSome = true := by
  induction js generalizing fs with
  | nil => simp
  | cons a js ih =>
    rw [List.foldlM_cons] at h
    obtain ⟨g, h1, h2⟩ := Option.bind_eq_some_iff.1 h
    intro j hj
    rcases List.mem_cons.1 hj with rfl | hj
    · unfold runJob at h1
      cases hc : j.content with
      | none => rw [hc] at h1; cases h1
      | some t => rfl
    · exact ih g h2 j hj

theorem respScalar_name {f : Fmt} {name : Text} {input : List (FP f)} {fcn : Fcn f} {r : Resp1D f} (h : respScalar name input fcn = some r) :
    r.fcnName = name := by
  obtain ⟨_, -, h⟩ := Option.bind_eq_some_iff.1 h
  cases h; rfl

theorem respArray_name {f : Fmt} {g : Nat → FP f} {name : Text} {input : List (FP f)} {fcn : ArrayFcn f} {r : Resp1D f}
    (h : respArray g name input fcn = some r) : r.fcnName = name := by
  unfold respArray at h
  dsimp only at h
  split at h
  · cases h
  · obtain ⟨_, -, h⟩ := Option.bind_eq_some_iff.1 h
    obtain ⟨_, -, h⟩ := Option.bind_eq_some_iff.1 h
    cases h; rfl

theorem respScalar2_name {f : Fmt} {name : Text} {xs ys : List (FP f)} {fcn : Fcn2 f} {r : Resp2D f} (h : respScalar2 name xs ys fcn = some r) :
    r.fcnName = name := by
  obtain ⟨_, -, h⟩ := Option.bind_eq_some_iff.1 h
  cases h; rfl

theorem respArray2_name {f : Fmt} {g : Nat → FP f} {name : Text} {xs ys : List (FP f)} {fcn : ArrayFcn2 f} {r : Resp2D f}
    (h : respArray2 g name xs ys fcn = some r) : r.fcnName = name := by
  unfold respArray2 at h
  dsimp only at h
  split at h
  · cases h
  · obtain ⟨_, -, h⟩ := Option.bind_eq_some_iff.1 h
    obtain ⟨_, -, h⟩ := Option.bind_eq_some_iff.1 h
    cases h; rfl

/-- The file of a job begins with the header of its function. -/
def Headed (f : Fmt) (j : Job) : Prop := ∀ t, j.content = some t → ∃ rest, t = respHeader f j.name ++ rest

theorem headed1 {f : Fmt} {name : Text} {o : Option (Resp1D f)} (h : ∀ r, o = some r → r.fcnName = name) : Headed f ⟨name, o.map text1⟩ := by
  intro t ht
  obtain ⟨r, hr, rfl⟩ := Option.map_eq_some_iff.1 ht
  exact ⟨_, by unfold text1; rw [h r hr]⟩

theorem headed2 {f : Fmt} {name : Text} {o : Option (Resp2D f)} (h : ∀ r, o = some r → r.fcnName = name) : Headed f ⟨name, o.map text2⟩ := by
  intro t ht
  obtain ⟨r, hr, rfl⟩ := Option.map_eq_some_iff.1 ht
  exact ⟨_, by unfold text2; rw [h r hr]⟩

theorem headed64 (R : RefMath b64) (vc : Option (VcFns b64)) (garbage : Nat → F64) (eng : Engine) (SIZE : BitVec 32) :
    ∀ j ∈ jobs64 R vc garbage eng SIZE, Headed b64 j := by
  intro j hj
  unfold jobs64 at hj
  simp only [List.mem_append, List.mem_map, List.mem_cons, List.not_mem_nil, or_false] at hj
  rcases hj with (⟨e, -, rfl⟩ | ⟨e, -, rfl⟩) | rfl | rfl | rfl | rfl
  · exact headed1 fun r hr => respScalar_name hr
  · exact headed1 fun r hr => respArray_name hr
  · exact headed2 fun r hr => respScalar2_name hr
  · exact headed2 fun r hr => respScalar2_name hr
  · exact headed2 fun r hr => respArray2_name hr
  · exact headed2 fun r hr => respArray2_name hr

theorem headed32 (R : RefMath b32) (vc : Option (VcFns b32)) (garbage : Nat → F32) (eng : Engine) (SIZE : BitVec 32) :
    ∀ j ∈ jobs32 R vc garbage eng SIZE, Headed b32 j := by
  intro j hj
  unfold jobs32 at hj
  simp only [List.mem_append, List.mem_map, List.mem_cons, List.not_mem_nil, or_false] at hj
  rcases hj with (⟨e, -, rfl⟩ | ⟨e, -, rfl⟩) | rfl | rfl | rfl | rfl
  · exact headed1 fun r hr => respScalar_name hr
  · exact headed1 fun r hr => respArray_name hr
  · exact headed2 fun r hr => respScalar2_name hr
  · exact headed2 fun r hr => respScalar2_name hr
  · exact headed2 fun r hr => respArray2_name hr
  · exact headed2 fun r hr => respArray2_name hr

/-- **C62.** After a run there is one file for every function of the list, with the header of that
function (so none was overwritten by another one), and all other files are as before. -/
theorem C62_files (R : RefMath b64) (Rf : RefMath b32) (vc : Option (VcFns b64 × VcFns b32)) (garbage : Nat → F64) (garbagef : Nat → F32)
    (eng : Engine) (nick : Text) (SIZE : BitVec 32) (fs fs' : Fs) (h : main R Rf vc garbage garbagef eng nick SIZE fs = some fs') :
    (∀ n ∈ runNames vc.isSome, ∃ f rest, (f = b64 ∨ f = b32) ∧
      fs' (nick ++ ‹"__"› ++ n ++ ‹"__response.txt"›) = some (respHeader f n ++ rest)) ∧
    ∀ p, (∀ n ∈ runNames vc.isSome, p ≠ nick ++ ‹"__"› ++ n ++ ‹"__response.txt"›) → fs' p = fs p := by
  rw [main_eq] at h
  have hn := job_names R Rf vc garbage garbagef eng SIZE
  have hh : ∀ j ∈ jobs64 R (vc.map (·.1)) garbage eng SIZE ++ jobs32 Rf (vc.map (·.2)) garbagef eng SIZE,
      ∃ f, (f = b64 ∨ f = b32) ∧ Headed f j := by
    intro j hj
    rcases List.mem_append.1 hj with hj | hj
    · exact ⟨b64, Or.inl rfl, headed64 _ _ _ _ _ j hj⟩
    · exact ⟨b32, Or.inr rfl, headed32 _ _ _ _ _ j hj⟩
  generalize jobs64 R (vc.map (·.1)) garbage eng SIZE ++ jobs32 Rf (vc.map (·.2)) garbagef eng SIZE = js at *
  have hs := runJobs_some nick js fs fs' h
  obtain ⟨fs2, e1, e2, e3⟩ := runJobs nick js hs (by rw [hn]; exact ordered_nodup _) fs
  obtain rfl : fs2 = fs' := by rw [h] at e1; exact (Option.some.inj e1).symm
  refine ⟨fun n hm => ?_, fun p hp => e3 p fun j hj => ?_⟩
  · rw [← ordered_mem, ← hn] at hm
    obtain ⟨j, hj, rfl⟩ := List.mem_map.1 hm
    obtain ⟨f, hf, hd⟩ := hh j hj
    have hc := getD_of_isSome (d := []) (hs j hj)
    obtain ⟨rest, hr⟩ := hd _ hc
    exact ⟨f, rest, hf, by rw [← hr, ← hc]; exact e2 j hj⟩
  · refine hp j.name ?_
    rw [← ordered_mem, ← hn]
    exact List.mem_map.2 ⟨j, hj, rfl⟩

/-- Neither begins with an underscore nor contains two in a row. -/
def okName (t : Text) : Bool := t.head? != some '_' && !contains ‹"__"› t

theorem ordered_ok : ∀ n ∈ orderedNames true, okName n = true := by
  simp only [orderedNames, List.flatMap_cons, List.flatMap_nil, baseNames, vcNames, pairNames, if_true, List.map_append, List.map_cons, List.map_nil,
      String.reduceToList, List.cons_append, List.nil_append, List.append_nil, okName]
  decide +kernel

theorem contains_append (t a b : Text) : contains t (a ++ t ++ b) = true := by
  unfold contains
  rw [List.any_eq_true]
  refine ⟨t ++ b, ?_, ?_⟩
  · rw [List.mem_tails]; exact ⟨a, by simp⟩
  · simp

theorem join_inj {n1 n2 t1 t2 : Text} (h1 : okName t1 = true) (h2 : okName t2 = true) (hl : n1.length ≤ n2.length)
    (h : n1 ++ ('_' :: '_' :: t1) = n2 ++ ('_' :: '_' :: t2)) : n1 = n2 ∧ t1 = t2 := by
  obtain ⟨t, rfl⟩ : ∃ t, n2 = n1 ++ t := by
    have := List.prefix_of_prefix_length_le ⟨_, h⟩ ⟨_, rfl⟩ hl
    obtain ⟨t, ht⟩ := this
    exact ⟨t, ht.symm⟩
  rw [List.append_assoc, List.append_cancel_left_eq] at h
  match t, h with
  | [], h =>
    simp only [List.nil_append, List.cons.injEq, true_and] at h
    exact ⟨by simp, h⟩
  | [c], h =>
    exfalso
    simp only [List.cons_append, List.nil_append, List.cons.injEq] at h
    obtain ⟨-, -, rfl⟩ := h
    simp [okName] at h1
  | c :: d :: t, h =>
    exfalso
    simp only [List.cons_append, List.cons.injEq] at h
    obtain ⟨-, -, rfl⟩ := h
    have := contains_append ['_', '_'] t t2
    simp only [List.append_assoc, List.cons_append, List.nil_append] at this
    unfold okName at h1
    rw [show ‹"__"› = ['_', '_'] by simp only [String.reduceToList], this] at h1
    simp at h1

/-- **C62.** Runs with different nicknames never write the same file. -/
theorem C62_nicknames (nick1 nick2 : Text) (n1 n2 : Text) (h1 : n1 ∈ runNames true) (h2 : n2 ∈ runNames true)
    (h : fname nick1 n1 = fname nick2 n2) : nick1 = nick2 ∧ n1 = n2 := by
  rw [← ordered_mem] at h1 h2
  have k1 := ordered_ok n1 h1
  have k2 := ordered_ok n2 h2
  unfold fname at h
  rw [List.append_cancel_right_eq, show ‹"__"› = ['_', '_'] by simp only [String.reduceToList]] at h
  simp only [List.append_assoc, List.cons_append, List.nil_append] at h
  rcases le_total nick1.length nick2.length with hl | hl
  · exact join_inj k1 k2 hl h
  · obtain ⟨a, b⟩ := join_inj k2 k1 hl h.symm
    exact ⟨a.symm, b.symm⟩

/-- 108 files without Vc, 140 with it. -/
example : (runNames false).length = 108 ∧ (runNames true).length = 140 ∧ ‹"Fast_Apr_Isqrtfv"› ∈ runNames false := by decide +kernel

end Vdt.Bench
