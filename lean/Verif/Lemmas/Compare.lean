import Verif.Model.Compare
import Verif.Lemmas.Bench
import Verif.Props.Diffbit
import Verif.Props.Stats
import Verif.Props.Cmd

/-! # Lemmas on the comparison program -/

namespace Vdt.Compare
open FP Txt Cmd Diag
open Bench (text1 text2 mapM_some getD_of_isSome)

local notation "‹" s "›" => String.toList s

/-! ### Headers -/

/-- A function name without what precedes its first underscore. -/
def strip (name : Text) : Text :=
  match find '_' name with
  | some n => name.drop (n + 1)
  | none => name

theorem strip_plain {name : Text} (h : '_' ∉ name) : strip name = name := by
  unfold strip; rw [find_none.2 h]

theorem strip_prefix {p name : Text} (h : '_' ∉ p) : strip (p ++ '_' :: name) = name := by
  unfold strip; rw [find_append p name h]
  simp

theorem lineText_line (t r : Text) (h : '\n' ∉ t) : lineText ⟨t ++ '\n' :: r, false⟩ = t := by
  unfold lineText
  rw [if_neg (by simp)]
  show (t ++ '\n' :: r).takeWhile _ = t
  rw [List.takeWhile_append_of_pos]
  · simp
  · intro c hc
    have : c ≠ '\n' := fun e => h (e ▸ hc)
    simp [this]

theorem readHeader_resp (f : Fmt) (name r : Text) (hn : '\n' ∉ name) :
    readHeader ⟨respHeader f name ++ r, false⟩ = some (!decide (f.eb + f.mb + 1 = 64), strip name) := by
  unfold respHeader
  rw [precisionLine_eq,
    show respPreamble = "VDT function arithmetics performance 1 input file (the first 5 lines are the header)".toList ++ ['\n'] by decide]
  simp only [List.append_assoc, List.cons_append, List.nil_append]
  unfold readHeader
  dsimp only
  rw [getline_line _ _ (by decide), lineText_line _ _ (precWord_nl f), getline_line _ _ (precWord_nl f),
    ← List.append_assoc "Function Name = ".toList, lineText_line _ _ (by simp [hn])]
  have e0 : "Function Name = ".toList ++ name = "Function Name ".toList ++ '=' :: ' ' :: name := by
    simp only [String.reduceToList, List.cons_append, List.nil_append]
  have e1 : find '=' ("Function Name = ".toList ++ name) = some 14 := by
    rw [e0, find_append _ _ (by decide)]
    decide
  have e2 : substr 16 ("Function Name = ".toList ++ name) = some name := by
    unfold substr
    rw [if_pos (by rw [List.length_append]; have : "Function Name = ".toList.length = 16 := by decide
                   omega)]
    congr 1
  rw [e1]
  show (do
    let tmp ← substr 16 ("Function Name = ".toList ++ name)
    let fcname ← substr _ tmp
    return (_, fcname)) = _
  rw [e2]
  have e3 : substr (match find '_' name with | some n => n + 1 | none => 0) name = some (strip name) := by
    unfold substr strip
    cases h : find '_' name with
    | none => simp
    | some n =>
      have := (find_some h).1
      simp only
      rw [if_pos (by omega)]
  show (do
    let fcname ← substr (match find '_' name with | some n => n + 1 | none => 0) name
    return (_, fcname)) = _
  rw [e3]
  show some (_, strip name) = _
  congr 2
  unfold precWord
  split
  · rename_i h; simp [h]
  · rename_i h
    simp only [h, decide_false, Bool.not_false, String.reduceToList]
    decide

/-! ### Differences -/

/-- What is assumed of the conversion of a `double` to `uint16_t`: right where the standard defines it;
`-inf` becomes some number `z` up to 255. -/
structure CastOk (z : ℕ) (cast : F64 → Option ℕ) : Prop where
  exact : ∀ x n, toUInt 16 x = some n → cast x = some n
  ninf : cast (FP.inf true) = some z
  small : z ≤ 255

/-- The number in the difference column: the bit length of the distance of the patterns (at most one
too much for distances of `2^45` and more), `z` for equal patterns. -/
structure BitDiff {f : Fmt} (z : ℕ) (a b : FP f) (n : ℕ) : Prop where
  equal : a = b → n = z
  pos : a ≠ b → 0 < n
  near : a ≠ b → patDist a b < 2 ^ 45 → IsBitLength n (patDist a b)
  far : a ≠ b → IsBitLength n (patDist a b) ∨ IsBitLength (n - 1) (patDist a b)

theorem diffbitOn_eq {f : Fmt} (hf : f.eb + f.mb + 1 ≤ 64) (cast : F64 → Option ℕ) (L : F64 → F64) (a b : FP f) :
    diffbitOn cast L a b = cast (L (ofNat (patDist a b)) + lit 1) := by
  have ha := fp2uint64_toNat hf a
  have hb := fp2uint64_toNat hf b
  have h1 := (fp2uint64 a).isLt
  have h2 := (fp2uint64 b).isLt
  have : (if fp2uint64 a > fp2uint64 b then fp2uint64 a - fp2uint64 b else fp2uint64 b - fp2uint64 a).toNat = patDist a b := by
    unfold patDist
    split
    · rename_i h
      have h' : (fp2uint64 b).toNat < (fp2uint64 a).toNat := h
      rw [BitVec.toNat_sub_of_le (by exact BitVec.le_of_lt h)]
      omega
    · rename_i h
      have h' : ¬ (fp2uint64 b).toNat < (fp2uint64 a).toNat := h
      rw [BitVec.toNat_sub_of_le (show (fp2uint64 a).toNat ≤ (fp2uint64 b).toNat by omega)]
      omega
  unfold diffbitOn
  dsimp only
  rw [this]

theorem diffbitOn_spec {f : Fmt} (hf : f.eb + f.mb + 1 ≤ 64) {z : ℕ} {cast : F64 → Option ℕ} (hc : CastOk z cast) (L : F64 → F64)
    (hL : Log2Ok L) (a b : FP f) : ∃ n, diffbitOn cast L a b = some n ∧ n ≤ 255 ∧ BitDiff z a b n := by
  rw [diffbitOn_eq hf]
  by_cases h : a = b
  · have h0 : L (ofNat 0) + lit 1 = FP.inf true := by
      have : ofNat 0 = pzero := by decide +kernel
      rw [this, hL.zero]
      decide +kernel
    rw [patDist_zero.2 h, h0, hc.ninf]
    exact ⟨z, rfl, hc.small, fun _ => rfl, fun h' => absurd h h', fun h' => absurd h h', fun h' => absurd h h'⟩
  · have hpos : 0 < patDist a b := Nat.pos_of_ne_zero (fun e => h (patDist_zero.1 e))
    have hlt : patDist a b < 2 ^ 64 := lt_of_lt_of_le (patDist_lt a b) (Nat.pow_le_pow_right (by norm_num) hf)
    obtain ⟨n, h1, h2, h3, -⟩ := toUInt_log L hL (patDist a b) hpos hlt
    have hlog : Nat.log2 (patDist a b) < 64 := (Nat.log2_lt (by omega)).2 hlt
    refine ⟨n, hc.exact _ _ h1, by omega, fun h' => absurd h' h, fun _ => by omega, fun _ h45 => ?_, fun _ => ?_⟩
    · rw [h3 h45]; exact isBitLength_log2 hpos
    · rcases h2 with h2 | h2 <;> rw [h2]
      · exact Or.inl (isBitLength_log2 hpos)
      · exact Or.inr (isBitLength_log2 hpos)

/-- The four statistics of a list of differences. -/
structure StatsOk (l : List ℕ) (s : ℕ × ℕ × F64 × F64) : Prop where
  max_mem : s.1 ∈ l
  max_le : ∀ d ∈ l, d ≤ s.1
  min_mem : s.2.1 ∈ l
  min_le : ∀ d ∈ l, s.2.1 ≤ d
  mean : s.2.2.1 = ofRat b64 false ((l.sum : ℕ) / l.length)
  single : l.length = 1 → s.2.2.2 = lit (-1)
  spread : 2 ≤ l.length → s.2.2.2.isFinite = true ∧
    |s.2.2.2.val - variance l| ≤ 1 / 2 ^ 50 * (((l.map fun d => d * d).sum : ℕ) / (l.length - 1))

theorem diffs_eq {f : Fmt} (hf : f.eb + f.mb + 1 ≤ 64) {z : ℕ} {cast : F64 → Option ℕ} (hc : CastOk z cast) (L : F64 → F64)
    (hL : Log2Ok L) : ∃ D : FP f → FP f → ℕ, (∀ a b, D a b ≤ 255 ∧ BitDiff z a b (D a b)) ∧
      ∀ l : List (FP f × FP f), l.mapM (fun p => diffbitOn cast L p.1 p.2) = some (l.map fun p => D p.1 p.2) := by
  choose D hD using fun a b : FP f => diffbitOn_spec hf hc L hL a b
  exact ⟨D, fun a b => (hD a b).2, fun l => mapM_some l fun p _ => (hD p.1 p.2).1⟩

/-! ### One comparison -/

theorem mapM_range {α : Type} {n : ℕ} (l : List α) (g : ℕ → Option α) (hn : n = l.length) (H : ∀ i, i < n → g i = l[i]?) :
    (List.range n).mapM g = some l := by
  subst hn
  rcases l with _ | ⟨a, l⟩
  · rfl
  · rw [mapM_some (h := fun i => (a :: l)[i]?.getD a)]
    · congr 1
      refine List.ext_getElem (by simp) ?_
      intro i h1 h2
      simp only [List.getElem_map, List.getElem_range]
      rw [List.getElem?_eq_getElem h2]
      rfl
    · intro i hi
      have h2 := List.mem_range.1 hi
      rw [H i h2, List.getElem?_eq_getElem h2]
      rfl

theorem stats_ok (l : List ℕ) (hne : l ≠ []) (hlen : l.length < 2 ^ 32) (h : ∀ d ∈ l, d ≤ 255) :
    ∃ s, calcStats Stats.init l = some s ∧ StatsOk l (s.max, s.min, s.mean, s.rms) := by
  obtain ⟨s, h1, h2, h3, h4, h5, h6, -, h7, h8⟩ := C48_stats_partial l hne hlen h
  exact ⟨s, h1, h4, h5, h2, h3, h6, h7, h8⟩

/-- What is found in the file of a comparison: the inputs and outputs of the reference, the outputs of
the test, the differences and their statistics. -/
def Reads1 {f : Fmt} (z : ℕ) (ref test : List (FP f × FP f)) (t : Text) : Prop :=
  ∃ s rows, readCmp f 5 ⟨t, false⟩ = (some s, rows) ∧ rows.map (fun r => (r.input, r.out1)) = ref ∧
    rows.map (·.out2) = test.map (·.2) ∧ (∀ r ∈ rows, BitDiff z r.out1 r.out2 r.diff) ∧ StatsOk (rows.map (·.diff)) s

/-- As `Reads1` for functions of two variables. -/
def Reads2 {f : Fmt} (z : ℕ) (ref test : List (FP f × FP f × FP f)) (t : Text) : Prop :=
  ∃ s rows, readCmp2 f ⟨t, false⟩ = (some s, rows) ∧ rows.map (fun r => (r.input1, r.input2, r.out1)) = ref ∧
    rows.map (·.out2) = test.map (·.2.2) ∧ (∀ r ∈ rows, BitDiff z r.out1 r.out2 r.diff) ∧ StatsOk (rows.map (·.diff)) s

theorem makeCmp_ok {f : Fmt} [MaxNat f] (hf : f.eb + f.mb + 1 ≤ 64) {z : ℕ} {cast : F64 → Option ℕ} (hc : CastOk z cast)
    (L : F64 → F64) (hL : Log2Ok L) (name : Text) (hn : '\n' ∉ name) (ref test : List (FP f × FP f)) (hl : ref.length = test.length)
    (h0 : ref ≠ []) (h1 : ref.length < 2 ^ 32) (hfin : ∀ r ∈ ref, r.1.isFinite = true) :
    ∃ t c, makeCmp cast L name (ref.map (·.1)) (ref.map (·.2)) (test.map (·.2)) = some c ∧
      (∀ out fs, c.writeFile out fs = Function.update fs out (some t)) ∧ Reads1 z ref test t := by
  obtain ⟨D, hD, hm⟩ := diffs_eq hf hc L hL
  let rows : List (CmpRow f) := List.zipWith (fun p q => ⟨p.1, p.2, q.2, D p.2 q.2⟩) ref test
  have hrl : rows.length = ref.length := by simp [rows, hl]
  have hmem : ∀ r ∈ rows, ∃ p ∈ ref, ∃ q, r = ⟨p.1, p.2, q, D p.2 q⟩ := by
    intro r hr
    obtain ⟨i, hi, rfl⟩ := List.mem_iff_getElem.1 hr
    exact ⟨ref[i]'(by omega), by simp, (test[i]'(by omega)).2, by simp only [rows, List.getElem_zipWith]⟩
  have ed : ((ref.map (·.2)).zip (test.map (·.2))).map (fun p => D p.1 p.2) = rows.map (·.diff) := by
    refine List.ext_getElem (by simp [rows]) ?_
    intro i a b
    simp [rows]
  have hd : ∀ d ∈ rows.map (·.diff), d ≤ 255 := by
    intro d hd
    obtain ⟨r, hr, rfl⟩ := List.mem_map.1 hd
    obtain ⟨p, -, q, rfl⟩ := hmem r hr
    exact (hD _ _).1
  have hne : rows.map (·.diff) ≠ [] := by
    intro e
    have := congrArg List.length e
    rw [List.length_map, hrl] at this
    exact h0 (List.length_eq_zero_iff.1 this)
  obtain ⟨s, hs, hok⟩ := stats_ok (rows.map (·.diff)) hne (by rw [List.length_map, hrl]; exact h1) hd
  let c : Cmp1D f := ⟨false, name, ‹"From scratch"›, s.max, s.min, s.mean, s.rms, rows⟩
  have hmx : s.max ≤ 255 := hd _ hok.max_mem
  have hmn : s.min ≤ 255 := hd _ hok.min_mem
  refine ⟨cmpHeader c ++ rows.flatMap cmpRow, c, ?_, ?_, ?_⟩
  · unfold makeCmp
    rw [if_neg (by simp [hl]), hm, ed]
    show (calcStats Stats.init (rows.map (·.diff))).bind _ = _
    rw [hs]
    show Option.bind ((List.range (ref.map Prod.fst).length).mapM _) _ = _
    rw [mapM_range rows]
    · rfl
    · rw [List.length_map, hrl]
    · intro i hi
      have h2 : i < ref.length := by simpa using hi
      have h3 : i < test.length := by omega
      simp [rows, h2, h3]
  · intro out fs
    unfold Cmp1D.writeFile
    dsimp only
    rw [if_neg (by simp [c]), truncate_append]
  · refine ⟨_, rows, ?_, ?_, ?_, ?_, hok⟩
    · have := C45_comparison_partial hf c rfl hn (by show s.max < _; omega) (by show s.min < _; omega) (by
        intro r hr
        have := hd r.diff (List.mem_map.2 ⟨r, hr, rfl⟩)
        omega) (by
        intro r hr
        obtain ⟨p, hp, q, rfl⟩ := hmem r hr
        exact hfin p hp) [] (fun _ => none)
      rw [cmpWrite c rfl] at this
      exact this
    · refine List.ext_getElem (by simp [hrl]) ?_
      intro i a b
      simp [rows]
    · refine List.ext_getElem (by simp [hrl, hl]) ?_
      intro i a b
      simp [rows]
    · intro r hr
      obtain ⟨p, hp, q, rfl⟩ := hmem r hr
      exact (hD _ _).2

theorem makeCmp2_ok {f : Fmt} [MaxNat f] (hf : f.eb + f.mb + 1 ≤ 64) {z : ℕ} {cast : F64 → Option ℕ} (hc : CastOk z cast)
    (L : F64 → F64) (hL : Log2Ok L) (name : Text) (hn : '\n' ∉ name) (ref test : List (FP f × FP f × FP f)) (hl : ref.length = test.length)
    (h0 : ref ≠ []) (h1 : ref.length < 2 ^ 32) (hfin : ∀ r ∈ ref, r.1.isFinite = true ∧ r.2.1.isFinite = true) :
    ∃ t c, makeCmp2 cast L name (ref.map (·.1)) (ref.map (·.2.1)) (ref.map (·.2.2)) (test.map (·.2.2)) = some c ∧
      (∀ out fs, c.writeFile out fs = Function.update fs out (some t)) ∧ Reads2 z ref test t := by
  obtain ⟨D, hD, hm⟩ := diffs_eq hf hc L hL
  let rows : List (CmpRow2 f) := List.zipWith (fun p q => ⟨p.1, p.2.1, p.2.2, q.2.2, D p.2.2 q.2.2⟩) ref test
  have hrl : rows.length = ref.length := by simp [rows, hl]
  have hmem : ∀ r ∈ rows, ∃ p ∈ ref, ∃ q, r = ⟨p.1, p.2.1, p.2.2, q, D p.2.2 q⟩ := by
    intro r hr
    obtain ⟨i, hi, rfl⟩ := List.mem_iff_getElem.1 hr
    exact ⟨ref[i]'(by omega), by simp, (test[i]'(by omega)).2.2, by simp only [rows, List.getElem_zipWith]⟩
  have ed : ((ref.map (·.2.2)).zip (test.map (·.2.2))).map (fun p => D p.1 p.2) = rows.map (·.diff) := by
    refine List.ext_getElem (by simp [rows]) ?_
    intro i a b
    simp [rows]
  have hd : ∀ d ∈ rows.map (·.diff), d ≤ 255 := by
    intro d hd
    obtain ⟨r, hr, rfl⟩ := List.mem_map.1 hd
    obtain ⟨p, -, q, rfl⟩ := hmem r hr
    exact (hD _ _).1
  have hne : rows.map (·.diff) ≠ [] := by
    intro e
    have := congrArg List.length e
    rw [List.length_map, hrl] at this
    exact h0 (List.length_eq_zero_iff.1 this)
  obtain ⟨s, hs, hok⟩ := stats_ok (rows.map (·.diff)) hne (by rw [List.length_map, hrl]; exact h1) hd
  let c : Cmp2D f := ⟨false, name, ‹"From scratch"›, s.max, s.min, s.mean, s.rms, rows⟩
  have hmx : s.max ≤ 255 := hd _ hok.max_mem
  have hmn : s.min ≤ 255 := hd _ hok.min_mem
  have hw : ∀ out fs, c.writeFile out fs = Function.update fs out (some (cmpHeader2 c ++ rows.flatMap cmpRow2)) := by
    intro out fs
    unfold Cmp2D.writeFile
    dsimp only
    rw [if_neg (by simp [c]), truncate_append]
  refine ⟨cmpHeader2 c ++ rows.flatMap cmpRow2, c, ?_, hw, ?_⟩
  · unfold makeCmp2
    rw [if_neg (by simp [hl]), hm, ed]
    show (calcStats Stats.init (rows.map (·.diff))).bind _ = _
    rw [hs]
    show Option.bind ((List.range (ref.map Prod.fst).length).mapM _) _ = _
    rw [mapM_range rows]
    · rfl
    · rw [List.length_map, hrl]
    · intro i hi
      have h2 : i < ref.length := by simpa using hi
      have h3 : i < test.length := by omega
      simp [rows, h2, h3]
  · refine ⟨_, rows, ?_, ?_, ?_, ?_, hok⟩
    · have := C45_comparison2D_partial hf c rfl hn (by show s.max < _; omega) (by show s.min < _; omega) (by
        intro r hr
        have := hd r.diff (List.mem_map.2 ⟨r, hr, rfl⟩)
        omega) (by
        intro r hr
        obtain ⟨p, hp, q, rfl⟩ := hmem r hr
        exact hfin p hp) [] (fun _ => none)
      rw [hw, open_update] at this
      exact this
    · refine List.ext_getElem (by simp [hrl]) ?_
      intro i a b
      simp [rows]
    · refine List.ext_getElem (by simp [hrl, hl]) ?_
      intro i a b
      simp [rows]
    · intro r hr
      obtain ⟨p, hp, q, rfl⟩ := hmem r hr
      exact (hD _ _).2

theorem mem_before {c : Char} {pat t : Text} (h : c ∈ before pat t) : c ∈ t := by
  induction t with
  | nil => simp [before] at h
  | cons a t ih =>
    unfold before at h
    split at h
    · simp at h
    · rcases List.mem_cons.1 h with h | h
      · simp [h]
      · simp [ih h]

theorem mem_strip {c : Char} {t : Text} (h : c ∈ strip t) : c ∈ t := by
  unfold strip at h
  split at h
  · exact List.mem_of_mem_drop h
  · exact h

theorem label_nl {name ref test : Text} (h1 : '\n' ∉ name) (h2 : '\n' ∉ ref) (h3 : '\n' ∉ test) : '\n' ∉ label (strip name) ref test := by
  unfold label
  simp only [String.reduceToList, List.mem_append, List.mem_cons, List.not_mem_nil, or_false, not_or]
  exact ⟨⟨⟨⟨fun h => h1 (mem_strip h), by decide⟩, fun h => h2 (mem_before h)⟩, by decide⟩, fun h => h3 (mem_before h)⟩

/-- The header decides about the precision and the function name. -/
theorem compareFile_as {f : Fmt} (hf : f = b64 ∨ f = b32) (cast : F64 → Option ℕ) (L : F64 → F64) (nick ref test name r : Text)
    (hn : '\n' ∉ name) (fs : Fs) (e1 : fs ref = some (respHeader f name ++ r)) (e2 : fs test ≠ none) :
    compareFile cast L nick fs (ref, test) = compareAs f cast L nick (strip name) fs ref test := by
  unfold compareFile
  dsimp only
  rw [if_neg (by rw [e1]; simp)]
  have ho : fs.open ref = ⟨respHeader f name ++ r, false⟩ := by
    unfold Fs.open; rw [e1]
  rw [ho, readHeader_resp f _ _ hn]
  show (if fs test = none then _ else _) = _
  rw [if_neg e2]
  rcases hf with rfl | rfl <;> rfl

/-- A round of the loop over two files of a function of one variable. -/
theorem compareFile_ok1 {f : Fmt} [MaxNat f] (hf : f = b64 ∨ f = b32) {z : ℕ} {cast : F64 → Option ℕ} (hc : CastOk z cast)
    (L : F64 → F64) (hL : Log2Ok L) (nick ref test : Text) (rr rt : Resp1D f) (hl : rr.rows.length = rt.rows.length)
    (h0 : rr.rows ≠ []) (h1 : rr.rows.length < 2 ^ 32) (hfin : ∀ r ∈ rr.rows, r.1.isFinite = true)
    (hr : '\n' ∉ ref) (ht : '\n' ∉ test) (hnr : '\n' ∉ rr.fcnName) (hnt : '\n' ∉ rt.fcnName)
    (hA : contains ‹"Atan2"› ref = false) :
    ∃ t, (∀ fs, fs ref = some (text1 rr) → fs test = some (text1 rt) →
      compareFile cast L nick fs (ref, test) = some (Function.update fs (outName nick (strip rr.fcnName)) (some t))) ∧
      Reads1 z rr.rows rt.rows t := by
  have hw : f.eb + f.mb + 1 ≤ 64 := by rcases hf with rfl | rfl <;> decide
  obtain ⟨t, c, hc1, hc2, hc3⟩ := makeCmp_ok hw hc L hL (label (strip rr.fcnName) ref test) (label_nl hnr hr ht) rr.rows rt.rows hl h0 h1 hfin
  refine ⟨t, fun fs e1 e2 => ?_, hc3⟩
  have hca : compareAs f cast L nick (strip rr.fcnName) fs ref test =
      some (Function.update fs (outName nick (strip rr.fcnName)) (some t)) := by
    unfold compareAs
    rw [if_neg (by rw [hA]; simp)]
    dsimp only
    rw [Bench.ofFile_text1 hw fs ref rr hnr e1, Bench.ofFile_text1 hw fs test rt hnt e2, hc1]
    show some (c.writeFile _ fs) = _
    rw [hc2]
  rw [compareFile_as hf cast L nick ref test _ _ hnr fs e1 (by rw [e2]; simp), hca]

/-- A round of the loop over two files of a function of two variables. -/
theorem compareFile_ok2 {f : Fmt} [MaxNat f] (hf : f = b64 ∨ f = b32) {z : ℕ} {cast : F64 → Option ℕ} (hc : CastOk z cast)
    (L : F64 → F64) (hL : Log2Ok L) (nick ref test : Text) (rr rt : Resp2D f) (hl : rr.rows.length = rt.rows.length)
    (h0 : rr.rows ≠ []) (h1 : rr.rows.length < 2 ^ 32) (hfin : ∀ r ∈ rr.rows, r.1.isFinite = true ∧ r.2.1.isFinite = true)
    (hr : '\n' ∉ ref) (ht : '\n' ∉ test) (hnr : '\n' ∉ rr.fcnName) (hnt : '\n' ∉ rt.fcnName)
    (hA : contains ‹"Atan2"› ref = true) :
    ∃ t, (∀ fs, fs ref = some (text2 rr) → fs test = some (text2 rt) →
      compareFile cast L nick fs (ref, test) = some (Function.update fs (outName nick (strip rr.fcnName)) (some t))) ∧
      Reads2 z rr.rows rt.rows t := by
  have hw : f.eb + f.mb + 1 ≤ 64 := by rcases hf with rfl | rfl <;> decide
  obtain ⟨t, c, hc1, hc2, hc3⟩ := makeCmp2_ok hw hc L hL (label (strip rr.fcnName) ref test) (label_nl hnr hr ht) rr.rows rt.rows hl h0 h1 hfin
  refine ⟨t, fun fs e1 e2 => ?_, hc3⟩
  have hca : compareAs f cast L nick (strip rr.fcnName) fs ref test =
      some (Function.update fs (outName nick (strip rr.fcnName)) (some t)) := by
    unfold compareAs
    rw [if_pos hA]
    dsimp only
    rw [Bench.ofFile_text2 hw fs ref rr hnr e1, Bench.ofFile_text2 hw fs test rt hnt e2, hc1]
    show some (c.writeFile _ fs) = _
    rw [hc2]
  rw [compareFile_as hf cast L nick ref test _ _ hnr fs e1 (by rw [e2]; simp), hca]

end Vdt.Compare
