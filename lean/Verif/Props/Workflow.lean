import Verif.Props.Comparison
import Verif.Props.CheckAccuracy
import Verif.Props.BenchAccuracy

/-!
# C67: benchmark and comparison together
-/

namespace Vdt.Compare
open FP Txt Cmd Diag Rand
open Bench (text1 text2 Spec spec64 spec32 RefMath fname baseNames jobs64 jobs32 In poolPairs)

local notation "‹" s "›" => String.toList s

/-! ### The loop -/

theorem fold_rounds (step : Fs → Text × Text → Option Fs) (ref test out T : Text → Text) (fs1 : Fs) (l : List Text)
    (H : ∀ F ∈ l, ∀ fs, fs (ref F) = fs1 (ref F) → fs (test F) = fs1 (test F) →
      step fs (ref F, test F) = some (Function.update fs (out F) (some (T F))))
    (hd : ∀ F ∈ l, ∀ G ∈ l, out F ≠ ref G ∧ out F ≠ test G) (hn : (l.map out).Nodup) (fs : Fs)
    (h : ∀ F ∈ l, fs (ref F) = fs1 (ref F) ∧ fs (test F) = fs1 (test F)) :
    ∃ fs2, ((l.map ref).zip (l.map test)).foldlM step fs = some fs2 ∧ (∀ F ∈ l, fs2 (out F) = some (T F)) ∧
      ∀ n, (∀ F ∈ l, n ≠ out F) → fs2 n = fs n := by
  induction l generalizing fs with
  | nil => exact ⟨fs, rfl, by simp, by simp⟩
  | cons a l ih =>
    rw [List.map_cons, List.nodup_cons] at hn
    have hm : ∀ {F}, F ∈ l → F ∈ a :: l := fun h => List.mem_cons_of_mem _ h
    obtain ⟨fs2, e1, e2, e3⟩ := ih (fun F hF => H F (hm hF)) (fun F hF G hG => hd F (hm hF) G (hm hG)) hn.2
      (Function.update fs (out a) (some (T a))) (by
        intro F hF
        have := hd a (by simp) F (hm hF)
        rw [Function.update_of_ne this.1.symm, Function.update_of_ne this.2.symm]
        exact h F (hm hF))
    refine ⟨fs2, ?_, ?_, ?_⟩
    · rw [List.map_cons, List.map_cons, List.zip_cons_cons, List.foldlM_cons,
        H a (by simp) fs (h a (by simp)).1 (h a (by simp)).2]
      exact e1
    · intro F hF
      rcases List.mem_cons.1 hF with rfl | hF
      · rw [e3 _ (fun G hG e => hn.1 (List.mem_map.2 ⟨G, hG, e.symm⟩)), Function.update_self]
      · exact e2 F hF
    · intro n h
      rw [e3 n (fun F hF => h F (hm hF)), Function.update_of_ne (h a (by simp))]

/-! ### Names -/

theorem prefix_sep {c : Char} (pat a b : Text) (h : c ∉ pat) : pat.isPrefixOf (a ++ c :: b) = pat.isPrefixOf a := by
  induction pat generalizing a with
  | nil => simp
  | cons x pat ih =>
    rw [List.mem_cons, not_or] at h
    cases a with
    | nil => simp [List.isPrefixOf, Ne.symm h.1]
    | cons y a => simp [List.isPrefixOf, ih a h.2]

theorem contains_cons (pat : Text) (x : Char) (t : Text) : contains pat (x :: t) = (pat.isPrefixOf (x :: t) || contains pat t) := by
  unfold contains; simp

/-- A pattern does not reach across a character it does not contain. -/
theorem contains_sep {c : Char} (pat a b : Text) (h : c ∉ pat) (h0 : pat ≠ []) :
    contains pat (a ++ c :: b) = (contains pat a || contains pat b) := by
  induction a with
  | nil =>
    rw [List.nil_append, contains_cons]
    have h1 := prefix_sep pat [] b h
    rw [List.nil_append] at h1
    have h2 : contains pat [] = pat.isPrefixOf [] := by unfold contains; simp
    rw [h1, h2]
  | cons x a ih =>
    rw [List.cons_append, contains_cons, ih, ← List.cons_append, prefix_sep pat (x :: a) b h, contains_cons, Bool.or_assoc]

/-- The one-argument functions the script compares, without suffix. -/
def names10 : List Text :=
  [‹"Exp"›, ‹"Log"›, ‹"Sin"›, ‹"Cos"›, ‹"Tan"›, ‹"Tanh"›, ‹"Asin"›, ‹"Acos"›, ‹"Atan"›, ‹"Isqrt"›]

theorem names_fast : ∀ n ∈ baseNames, ‹"Fast_"› ++ n ∈ baseNames → n ∈ names10 := by
  simp only [baseNames, names10, String.reduceToList]
  decide +kernel

theorem names_base : ∀ n ∈ names10, n ∈ baseNames ∧ ‹"Fast_"› ++ n ∈ baseNames := by
  simp only [baseNames, names10, String.reduceToList]
  decide +kernel

theorem functions_split : ∀ F ∈ functions, ∃ n ∈ ‹"Atan2"› :: names10, ∃ v ∈ [‹""›, ‹"v"›, ‹"f"›, ‹"fv"›], F = n ++ v := by
  simp only [functions, names10, String.reduceToList]
  decide +kernel

theorem functions_all : ∀ n ∈ ‹"Atan2"› :: names10, ∀ v ∈ [‹""›, ‹"v"›, ‹"f"›, ‹"fv"›], n ++ v ∈ functions := by
  simp only [functions, names10, String.reduceToList]
  decide +kernel

theorem functions_chars : ∀ F ∈ functions, '_' ∉ F ∧ '\n' ∉ F ∧ F.reverse.head? ≠ some 'e' ∧ F ≠ [] := by
  simp only [functions, String.reduceToList]
  decide +kernel

theorem names_atan2 : ∀ n ∈ names10, ∀ v ∈ [‹""›, ‹"v"›, ‹"f"›, ‹"fv"›], contains ‹"Atan2"› (n ++ v) = false := by
  simp only [names10, String.reduceToList]
  decide +kernel

theorem contains_fname (nick F : Text) (h : contains ‹"Atan2"› nick = false) :
    contains ‹"Atan2"› (fname nick F) = contains ‹"Atan2"› F := by
  have e : fname nick F = nick ++ '_' :: ([] ++ '_' :: (F ++ '_' :: ‹"_response.txt"›)) := by
    unfold fname
    simp only [String.reduceToList, List.append_assoc, List.cons_append, List.nil_append]
  have h1 : '_' ∉ ‹"Atan2"› := by decide
  have h2 : ‹"Atan2"› ≠ [] := by decide
  rw [e, contains_sep _ _ _ h1 h2, contains_sep _ _ _ h1 h2, contains_sep _ _ _ h1 h2, h,
    show contains ‹"Atan2"› [] = false by simp only [String.reduceToList]; decide,
    show contains ‹"Atan2"› ‹"_response.txt"› = false by simp only [String.reduceToList]; decide]
  simp

theorem out_ne (nick n m F : Text) (hF : F ∈ functions) : outName nick F ≠ fname n m := by
  intro h
  obtain ⟨-, -, h3, h4⟩ := functions_chars F hF
  have h' := congrArg (fun t : Text => (t.reverse.drop 4).head?) h
  unfold outName fname at h'
  simp only [String.reduceToList, List.reverse_append, List.reverse_cons, List.reverse_nil, List.nil_append, List.cons_append,
    List.drop_succ_cons, List.drop_zero, List.head?_cons, List.head?_append] at h'
  cases hr : F.reverse with
  | nil => exact h4 (by simpa using hr)
  | cons a t =>
    rw [hr] at h' h3
    simp at h' h3
    exact h3 h'

theorem out_nodup (nick : Text) : (functions.map (outName nick)).Nodup := by
  refine List.Nodup.map ?_ C65_functions.2
  intro F G h
  unfold outName at h
  exact List.append_cancel_left (List.append_cancel_right h)

/-! ### Inputs -/

/-- Which of the four pools a function of the benchmark reads. -/
def poolIndex : List (Fin 4) := [0, 3, 1, 0, 0, 0, 0, 2, 2, 0, 1, 0, 3, 1, 0, 0, 0, 0, 2, 2, 0, 1, 0, 1, 0]

theorem index_fast : ∀ a ∈ baseNames.zip poolIndex, ∀ b ∈ baseNames.zip poolIndex, b.1 = ‹"Fast_"› ++ a.1 → a.2 = b.2 := by
  simp only [baseNames, poolIndex, String.reduceToList]
  decide +kernel

theorem same_input {f : Fmt} (l : List (Spec f)) (suffix : Text) (pool : Fin 4 → List (FP f))
    (h : l.map (fun s => (s.name, s.input)) = (baseNames.zip poolIndex).map fun p => (p.1 ++ suffix, pool p.2))
    {s t : Spec f} (hs : s ∈ l) (ht : t ∈ l) (hn : t.name = ‹"Fast_"› ++ s.name) :
    s.input = t.input ∧ ∃ n ∈ names10, s.name = n ++ suffix := by
  have h1 : (s.name, s.input) ∈ l.map (fun s => (s.name, s.input)) := List.mem_map.2 ⟨s, hs, rfl⟩
  have h2 : (t.name, t.input) ∈ l.map (fun s => (s.name, s.input)) := List.mem_map.2 ⟨t, ht, rfl⟩
  rw [h] at h1 h2
  obtain ⟨a, ha, ea⟩ := List.mem_map.1 h1
  obtain ⟨b, hb, eb⟩ := List.mem_map.1 h2
  rw [Prod.mk.injEq] at ea eb
  have e : b.1 = ‹"Fast_"› ++ a.1 := by
    have : b.1 ++ suffix = (‹"Fast_"› ++ a.1) ++ suffix := by rw [eb.1, hn, ← ea.1, List.append_assoc]
    exact List.append_cancel_right this
  refine ⟨by rw [← ea.2, ← eb.2, index_fast a ha b hb e], a.1, names_fast _ (List.of_mem_zip (a := a.1) (b := a.2) ha).1 ?_, ea.1.symm⟩
  rw [← e]; exact (List.of_mem_zip (a := b.1) (b := b.2) hb).1

theorem spec64_pools (R : RefMath b64) (eng : Engine) (n : BitVec 64) : ∃ pool : Fin 4 → List F64,
    (spec64 R eng n).map (fun s => (s.name, s.input)) = (baseNames.zip poolIndex).map fun p => (p.1 ++ [], pool p.2) := by
  refine ⟨![pool1D eng (lit (-5000)) (lit 5000) n, pool1D eng (lit 0.0001) (lit 5000) n, pool1D eng (lit (-1)) (lit 1) n,
    pool1D eng (lit (-705)) (lit 705) n], ?_⟩
  unfold spec64
  dsimp only
  generalize pool1D eng (lit (-5000) : F64) (lit 5000) n = sym
  generalize pool1D eng (lit 0.0001 : F64) (lit 5000) n = pos
  generalize pool1D eng (lit (-1) : F64) (lit 1) n = one
  generalize pool1D eng (lit (-705) : F64) (lit 705) n = exp
  simp only [List.append_nil]
  rfl

theorem spec32_pools (R : RefMath b32) (eng : Engine) (n : BitVec 64) : ∃ pool : Fin 4 → List F32,
    (spec32 R eng n).map (fun s => (s.name, s.input)) = (baseNames.zip poolIndex).map fun p => (p.1 ++ ‹"f"›, pool p.2) := by
  refine ⟨![pool1D eng (lit (-5000)) (lit 5000) n, pool1D eng (lit 0.0001) (lit 5000) n, pool1D eng (lit (-1)) (lit 1) n,
    pool1D eng (lit (-85)) (lit 85) n], ?_⟩
  unfold spec32
  dsimp only
  generalize pool1D eng (lit (-5000) : F32) (lit 5000) n = sym
  generalize pool1D eng (lit 0.0001 : F32) (lit 5000) n = pos
  generalize pool1D eng (lit (-1) : F32) (lit 1) n = one
  generalize pool1D eng (lit (-85) : F32) (lit 85) n = exp
  simp only [baseNames, poolIndex, String.reduceToList, List.zip_cons_cons, List.zip_nil_right, List.map_cons, List.map_nil, List.cons_append,
    List.nil_append]
  rfl

theorem spec64_fin (R : RefMath b64) (eng : Engine) (n : BitVec 64) : ∀ s ∈ spec64 R eng n, ∀ x y, s.rel x y → x.isFinite = true := by
  unfold spec64
  dsimp only
  simp only [List.forall_mem_cons, List.not_mem_nil, false_imp_iff, implies_true, and_true]
  refine ⟨?_, ?_, ?_, ?_, ?_, ?_, ?_, ?_, ?_, ?_, ?_, ?_, ?_, ?_, ?_, ?_, ?_, ?_, ?_, ?_, ?_, ?_, ?_, ?_, ?_⟩ <;> exact fun x y h => h.1.1

theorem spec32_fin (R : RefMath b32) (eng : Engine) (n : BitVec 64) : ∀ s ∈ spec32 R eng n, ∀ x y, s.rel x y → x.isFinite = true := by
  unfold spec32
  dsimp only
  simp only [List.forall_mem_cons, List.not_mem_nil, false_imp_iff, implies_true, and_true]
  refine ⟨?_, ?_, ?_, ?_, ?_, ?_, ?_, ?_, ?_, ?_, ?_, ?_, ?_, ?_, ?_, ?_, ?_, ?_, ?_, ?_, ?_, ?_, ?_, ?_, ?_⟩ <;> exact fun x y h => h.1.1

/-! ### What is claimed -/

/-- The file of a comparison of the functions of two lines of `spec64` (`spec32`): all inputs, for each
of them the two outputs as demanded there, their difference in bits, and the statistics. -/
def Agrees1 {f : Fmt} (z : ℕ) (s t : Spec f) (txt : Text) : Prop :=
  ∃ st rows, readCmp f 5 ⟨txt, false⟩ = (some st, rows) ∧ rows.map (·.input) = s.input ∧
    (∀ r ∈ rows, s.rel r.input r.out1 ∧ t.rel r.input r.out2 ∧ BitDiff z r.out1 r.out2 r.diff) ∧ StatsOk (rows.map (·.diff)) st

/-- The file of the comparison of the arctangents of two arguments. -/
def Agrees2 {f : Fmt} (z size : ℕ) (std fast : FP f → FP f → FP f) (ε : ℝ) (txt : Text) : Prop :=
  ∃ st rows, readCmp2 f ⟨txt, false⟩ = (some st, rows) ∧ rows.length = size ∧
    (∀ r ∈ rows, In (-1) 1 r.input1 ∧ In (-1) 1 r.input2 ∧ (r.input1 = zero false ∨ 2⁻¹ ^ 64 ≤ |r.input1.val|) ∧
      (r.input2 = zero false ∨ 2⁻¹ ^ 64 ≤ |r.input2.val|) ∧
      r.out1 = std r.input1 r.input2 ∧ r.out2 = fast r.input1 r.input2 ∧
      r.out2.CloseAbs (Complex.arg ⟨r.input2.real, r.input1.real⟩) ε ∧ BitDiff z r.out1 r.out2 r.diff) ∧ StatsOk (rows.map (·.diff)) st

theorem agrees1_of {f : Fmt} {z : ℕ} {s t : Spec f} {txt : Text} {a b : List (FP f × FP f)} (h : Reads1 z a b txt)
    (ha : a.map Prod.fst = s.input) (hb : b.map Prod.fst = s.input) (hs : ∀ p ∈ a, s.rel p.1 p.2) (ht : ∀ p ∈ b, t.rel p.1 p.2) :
    Agrees1 z s t txt := by
  obtain ⟨st, rows, h1, h2, h3, h4, h5⟩ := h
  have hi : rows.map (·.input) = s.input := by rw [← ha, ← h2, List.map_map]; rfl
  have hz : rows.map (fun r => (r.input, r.out2)) = b := by
    have l1 := congrArg List.length h3
    have l2 := congrArg List.length hb
    simp only [List.length_map] at l1 l2
    refine List.ext_getElem (by simpa using l1) ?_
    intro i h6 h7
    have h8 : i < rows.length := by simpa using h6
    have g1 : (rows.map (·.input))[i]'(by simpa using h8) = (b.map Prod.fst)[i]'(by simpa using h7) := by
      simp only [hi, hb]
    have g2 : (rows.map (·.out2))[i]'(by simpa using h8) = (b.map (·.2))[i]'(by simpa using h7) := by
      simp only [h3]
    simp only [List.getElem_map] at g1 g2 ⊢
    rw [g1, g2]
  refine ⟨st, rows, h1, hi, fun r hr => ⟨?_, ?_, h4 r hr⟩, h5⟩
  · exact hs (r.input, r.out1) (by rw [← h2]; exact List.mem_map.2 ⟨r, hr, rfl⟩)
  · exact ht (r.input, r.out2) (by rw [← hz]; exact List.mem_map.2 ⟨r, hr, rfl⟩)

theorem agrees2_of {f : Fmt} {z : ℕ} {std fast : FP f → FP f → FP f} {ε : ℝ} {txt : Text} {l : List (FP f × FP f)}
    (h : Reads2 z (l.map fun q => (q.1, q.2, std q.1 q.2)) (l.map fun q => (q.1, q.2, fast q.1 q.2)) txt)
    (hl : ∀ q ∈ l, In (-1) 1 q.1 ∧ In (-1) 1 q.2) (hg : ∀ q ∈ l, (q.1 = zero false ∨ 2⁻¹ ^ 64 ≤ |q.1.val|) ∧ (q.2 = zero false ∨ 2⁻¹ ^ 64 ≤ |q.2.val|))
    (hε : ∀ q ∈ l, (fast q.1 q.2).CloseAbs (Complex.arg ⟨q.2.real, q.1.real⟩) ε) : Agrees2 z l.length std fast ε txt := by
  obtain ⟨st, rows, h1, h2, h3, h4, h5⟩ := h
  have len := congrArg List.length h2
  simp only [List.length_map] at len
  refine ⟨st, rows, h1, len, fun r hr => ?_, h5⟩
  obtain ⟨i, hi, rfl⟩ := List.mem_iff_getElem.1 hr
  have hi' : i < l.length := by omega
  have g1 : (rows.map fun r => (r.input1, r.input2, r.out1))[i]'(by simpa using hi) =
      (l.map fun q => (q.1, q.2, std q.1 q.2))[i]'(by simpa using hi') := by simp only [h2]
  have g2 : (rows.map (·.out2))[i]'(by simpa using hi) = ((l.map fun q => (q.1, q.2, fast q.1 q.2)).map (·.2.2))[i]'(by simpa using hi') := by
    simp only [h3]
  simp only [List.getElem_map, Prod.mk.injEq] at g1 g2
  have hm := List.getElem_mem hi'
  have h6 := hl _ hm
  have h7 := hε _ hm
  refine ⟨?_, ?_, ?_, ?_, ?_, ?_, ?_, h4 _ hr⟩
  · rw [g1.1]; exact h6.1
  · rw [g1.2.1]; exact h6.2
  · rw [g1.1]; exact (hg _ hm).1
  · rw [g1.2.1]; exact (hg _ hm).2
  · rw [g1.2.2, g1.1, g1.2.1]
  · rw [g2, g1.1, g1.2.1]
  · rw [g2, g1.1, g1.2.1]; exact h7

/-- What the comparison program does with the words of the script. -/
theorem main_words (cast : F64 → Option ℕ) (L : F64 → F64) (nick : Text) (h0 : nick ≠ []) (hc : ',' ∉ nick) (fs : Fs) :
    main cast L (words nick) fs = (((functions.map (fname nick)).zip (functions.map fun F => fname nick (‹"Fast_"› ++ F))).foldlM
      (compareFile cast L nick) fs).map fun fs => (0, fs) := by
  have e0 : ∀ fast : Text, responseFilename nick fast = fun F => fname nick (fast ++ F) := by
    intro fast; funext F; unfold responseFilename fname; simp only [List.append_assoc]
  have s1 : list2vector (getRefs nick) = functions.map (fname nick) := by
    rw [split_refs nick [] (by simp) hc, e0]
    simp only [ne_eq, not_true_eq_false, if_false, List.nil_append]
  have s2 : list2vector (getTests nick) = functions.map fun F => fname nick (‹"Fast_"› ++ F) := by
    unfold getTests
    rw [split_refs nick ‹"Fast"› (by simp only [String.reduceToList]; decide) hc, e0]
    simp only [String.reduceToList, ne_eq, reduceCtorEq, not_false_eq_true, if_true, List.cons_append, List.nil_append]
  have hne : functions ≠ [] := by unfold functions; simp
  obtain ⟨a1, a2, a3, a4⟩ := args_words nick (getTests nick) (getRefs nick) options.allowed
  have hp := parse_words nick (getTests nick) (getRefs nick)
  unfold main words
  dsimp only
  unfold options at hp
  rw [hp]
  unfold options at a1 a2 a3 a4
  dsimp only
  rw [a1, a2, a3, a4, s1, s2, if_neg (by simp), if_neg (by simp), if_neg h0, if_neg (by simp [hne]), if_neg (by simp [hne]), if_neg (by simp)]

/-- A round of the loop, seen from the file system after the benchmark. -/
def Round (cast : F64 → Option ℕ) (L : F64 → F64) (nick : Text) (fs1 : Fs) (F txt : Text) : Prop :=
  ∀ fs, fs (fname nick F) = fs1 (fname nick F) → fs (fname nick (‹"Fast_"› ++ F)) = fs1 (fname nick (‹"Fast_"› ++ F)) →
    compareFile cast L nick fs (fname nick F, fname nick (‹"Fast_"› ++ F)) = some (Function.update fs (outName nick F) (some txt))

theorem Round.unique {cast : F64 → Option ℕ} {L : F64 → F64} {nick : Text} {fs1 : Fs} {F t t' : Text} (h : Round cast L nick fs1 F t)
    (h' : Round cast L nick fs1 F t') : t = t' := by
  have e := (h fs1 rfl rfl).symm.trans (h' fs1 rfl rfl)
  have := congrFun (Option.some.inj e) (outName nick F)
  rw [Function.update_self, Function.update_self] at this
  exact Option.some.inj this

theorem fname_nl {nick n : Text} (h1 : '\n' ∉ nick) (h2 : '\n' ∉ n) : '\n' ∉ fname nick n := by
  unfold fname
  simp only [String.reduceToList, List.mem_append, not_or]
  exact ⟨⟨⟨h1, by decide⟩, h2⟩, by decide⟩

theorem fast_nl {F : Text} (h : '\n' ∉ F) : '\n' ∉ ‹"Fast_"› ++ F := by
  simp only [String.reduceToList, List.mem_append, not_or]
  exact ⟨by decide, h⟩

/-- Comparing the files of two one-argument functions after the benchmark. -/
theorem round1 {f : Fmt} [MaxNat f] (hf : f = b64 ∨ f = b32) {z : ℕ} {cast : F64 → Option ℕ} (hc : CastOk z cast)
    (L : F64 → F64) (hL : Log2Ok L) (nick : Text) (hnl : '\n' ∉ nick) (hA : contains ‹"Atan2"› nick = false) (fs1 : Fs) (SIZE : ℕ)
    (h0 : 0 < SIZE) (h1 : SIZE < 2 ^ 32) (s t : Spec f) (hin : s.input = t.input) (F : Text) (hF : F ∈ functions)
    (hFA : contains ‹"Atan2"› F = false) (hfin : ∀ x y, s.rel x y → x.isFinite = true)
    (hs : ∃ r : Resp1D f, fs1 (fname nick F) = some (text1 r) ∧ r.fcnName = F ∧ r.rows.map Prod.fst = s.input ∧
      s.input.length = SIZE ∧ ∀ p ∈ r.rows, s.rel p.1 p.2)
    (ht : ∃ r : Resp1D f, fs1 (fname nick (‹"Fast_"› ++ F)) = some (text1 r) ∧ r.fcnName = ‹"Fast_"› ++ F ∧ r.rows.map Prod.fst = t.input ∧
      t.input.length = SIZE ∧ ∀ p ∈ r.rows, t.rel p.1 p.2) :
    ∃ txt, Round cast L nick fs1 F txt ∧ Agrees1 z s t txt := by
  obtain ⟨rr, a1, a2, a3, a4, a5⟩ := hs
  obtain ⟨rt, b1, b2, b3, b4, b5⟩ := ht
  obtain ⟨c1, c2, -, -⟩ := functions_chars F hF
  have l1 : rr.rows.length = SIZE := by rw [← a4, ← a3, List.length_map]
  have l2 : rt.rows.length = SIZE := by rw [← b4, ← b3, List.length_map]
  obtain ⟨txt, e, hR⟩ := compareFile_ok1 hf hc L hL nick (fname nick F) (fname nick (‹"Fast_"› ++ F)) rr rt (by rw [l1, l2])
    (by intro h; rw [h] at l1; simp at l1; omega) (by rw [l1]; exact h1) (fun p hp => hfin _ _ (a5 p hp)) (fname_nl hnl c2)
    (fname_nl hnl (fast_nl c2)) (by rw [a2]; exact c2) (by rw [b2]; exact fast_nl c2) (by rw [contains_fname nick F hA]; exact hFA)
  rw [a2, strip_plain c1] at e
  exact ⟨txt, fun fs g1 g2 => e fs (g1.trans a1) (g2.trans b1), agrees1_of hR a3 (b3.trans hin.symm) a5 b5⟩

/-- Comparing the files of the arctangents of two arguments after the benchmark. -/
theorem round2 {f : Fmt} [MaxNat f] (hf : f = b64 ∨ f = b32) {z : ℕ} {cast : F64 → Option ℕ} (hc : CastOk z cast)
    (L : F64 → F64) (hL : Log2Ok L) (nick : Text) (hnl : '\n' ∉ nick) (hA : contains ‹"Atan2"› nick = false) (fs1 : Fs) (SIZE : ℕ)
    (h0 : 0 < SIZE) (h1 : SIZE < 2 ^ 32) (l : List (FP f × FP f)) (hl : l.length = SIZE) (std fast : FP f → FP f → FP f) (ε : ℝ)
    (F : Text) (hF : F ∈ functions) (hFA : contains ‹"Atan2"› F = true) (hin : ∀ q ∈ l, In (-1) 1 q.1 ∧ In (-1) 1 q.2)
    (hg : ∀ q ∈ l, (q.1 = zero false ∨ 2⁻¹ ^ 64 ≤ |q.1.val|) ∧ (q.2 = zero false ∨ 2⁻¹ ^ 64 ≤ |q.2.val|))
    (hε : ∀ q ∈ l, (fast q.1 q.2).CloseAbs (Complex.arg ⟨q.2.real, q.1.real⟩) ε)
    (hs : ∃ r : Resp2D f, fs1 (fname nick F) = some (text2 r) ∧ r.fcnName = F ∧ r.rows = l.map fun q => (q.1, q.2, std q.1 q.2))
    (ht : ∃ r : Resp2D f, fs1 (fname nick (‹"Fast_"› ++ F)) = some (text2 r) ∧ r.fcnName = ‹"Fast_"› ++ F ∧
      r.rows = l.map fun q => (q.1, q.2, fast q.1 q.2)) :
    ∃ txt, Round cast L nick fs1 F txt ∧ Agrees2 z SIZE std fast ε txt := by
  obtain ⟨rr, a1, a2, a3⟩ := hs
  obtain ⟨rt, b1, b2, b3⟩ := ht
  obtain ⟨c1, c2, -, -⟩ := functions_chars F hF
  have l1 : rr.rows.length = SIZE := by rw [a3, List.length_map, hl]
  have l2 : rt.rows.length = SIZE := by rw [b3, List.length_map, hl]
  obtain ⟨txt, e, hR⟩ := compareFile_ok2 hf hc L hL nick (fname nick F) (fname nick (‹"Fast_"› ++ F)) rr rt (by rw [l1, l2])
    (by intro h; rw [h] at l1; simp at l1; omega) (by rw [l1]; exact h1) (by
      intro p hp
      rw [a3] at hp
      obtain ⟨q, hq, rfl⟩ := List.mem_map.1 hp
      exact ⟨(hin q hq).1.1, (hin q hq).2.1⟩) (fname_nl hnl c2)
    (fname_nl hnl (fast_nl c2)) (by rw [a2]; exact c2) (by rw [b2]; exact fast_nl c2) (by rw [contains_fname nick F hA]; exact hFA)
  rw [a2, strip_plain c1] at e
  rw [a3, b3] at hR
  refine ⟨txt, fun fs g1 g2 => e fs (g1.trans a1) (g2.trans b1), ?_⟩
  rw [← hl]; exact agrees2_of hR hin hg hε

/-- **C67** (partial: the standard leaves the conversion of `-inf` undefined, see `C67_strict_undefined`).
The workflow of the accuracy check, for every random engine, standard library and memory
content: the benchmark runs, the command line of `checkAccuracy.py` makes the comparison program exit
with 0, and 44 files are left.  The file of each one-argument function holds every input of the pool,
the value of the standard function, an accurate value of the fast function, their difference in bits
and the statistics of the differences.  Likewise for the arctangent of two arguments.  No other file
changes.  The nickname must not be empty and must not contain `Atan2`, blanks, quotes, commas or
newlines; the conversion of `-inf` is as in `CastOk`. -/
theorem C67_workflow_partial (R : RefMath b64) (Rf : RefMath b32) (garbage : Nat → F64) (garbagef : Nat → F32)
    (eng : Engine) (nick : Text) (SIZE : BitVec 32) (h0 : SIZE ≠ 0) (fs : Fs)
    {z : ℕ} {cast : F64 → Option ℕ} (hc : CastOk z cast) (L : F64 → F64) (hL : Log2Ok L)
    (hnick : nick ≠ []) (hch : ∀ c ∈ nick, c ≠ ' ' ∧ c ≠ '"' ∧ c ≠ ',' ∧ c ≠ '\n') (hA : contains ‹"Atan2"› nick = false) :
    ∃ fs1 fs2, Bench.main R Rf none garbage garbagef eng nick SIZE fs = some fs1 ∧
    main cast L (shellWords false none (command nick)).tail fs1 = some (0, fs2) ∧
    (∀ s ∈ spec64 R eng (SIZE.setWidth 64), ∀ t ∈ spec64 R eng (SIZE.setWidth 64), t.name = ‹"Fast_"› ++ s.name → ∀ v ∈ [‹""›, ‹"v"›],
      ∃ txt, fs2 (outName nick (s.name ++ v)) = some txt ∧ Agrees1 z s t txt) ∧
    (∀ s ∈ spec32 Rf eng (SIZE.setWidth 64), ∀ t ∈ spec32 Rf eng (SIZE.setWidth 64), t.name = ‹"Fast_"› ++ s.name → ∀ v ∈ [‹""›, ‹"v"›],
      ∃ txt, fs2 (outName nick (s.name ++ v)) = some txt ∧ Agrees1 z s t txt) ∧
    (∀ v ∈ [‹""›, ‹"v"›], ∃ txt, fs2 (outName nick (‹"Atan2"› ++ v)) = some txt ∧ Agrees2 z SIZE.toNat R.atan2 Vdt.fast_atan2 (2 ^ (-50 : ℤ)) txt) ∧
    (∀ v ∈ [‹"f"›, ‹"fv"›], ∃ txt, fs2 (outName nick (‹"Atan2"› ++ v)) = some txt ∧ Agrees2 z SIZE.toNat Rf.atan2 Vdt.fast_atan2f (2 ^ (-20 : ℤ)) txt) ∧
    ∀ n, (∀ F ∈ functions, n ≠ outName nick F) → fs2 n = fs1 n := by
  have hnl : '\n' ∉ nick := fun h => (hch _ h).2.2.2 rfl
  have hcm : ',' ∉ nick := fun h => (hch _ h).2.2.1 rfl
  have hs : 0 < SIZE.toNat ∧ SIZE.toNat < 2 ^ 32 := ⟨by
    rcases Nat.eq_zero_or_pos SIZE.toNat with h | h
    · exact absurd (BitVec.eq_of_toNat_eq (by simpa using h)) h0
    · exact h, SIZE.isLt⟩
  have hn := Bench.job_names R Rf none garbage garbagef eng SIZE
  obtain ⟨a1, a2, a3, a4⟩ := Bench.done64 R garbage eng SIZE h0
  obtain ⟨c1, c2, c3, c4⟩ := Bench.done32 Rf garbagef eng SIZE h0
  simp only [Option.map_none] at hn
  obtain ⟨fs1, e1, e2, -⟩ := Bench.runJobs nick (jobs64 R none garbage eng SIZE ++ jobs32 Rf none garbagef eng SIZE)
    (fun j hj => (List.mem_append.1 hj).elim (a1 j) (c1 j)) (by rw [hn]; exact Bench.ordered_nodup _) fs
  obtain ⟨pool, hp⟩ := spec64_pools R eng (SIZE.setWidth 64)
  obtain ⟨poolf, hpf⟩ := spec32_pools Rf eng (SIZE.setWidth 64)
  have hl : (poolPairs b64 eng SIZE).1.length = SIZE.toNat ∧ (poolPairs b64 eng SIZE).2.length = SIZE.toNat ∧
      (poolPairs b32 eng SIZE).1.length = SIZE.toNat ∧ (poolPairs b32 eng SIZE).2.length = SIZE.toNat := by
    have hz : (SIZE.setWidth 64).toNat = SIZE.toNat := by
      rw [BitVec.toNat_setWidth]; exact Nat.mod_eq_of_lt (by omega)
    unfold poolPairs pool2D fillVector; simp [hz]
  have vsub : ∀ v ∈ [‹""›, ‹"v"›], v ∈ [‹""›, ‹"v"›, ‹"f"›, ‹"fv"›] ∧ ‹"f"› ++ v ∈ [‹""›, ‹"v"›, ‹"f"›, ‹"fv"›] := by
    simp only [String.reduceToList]; decide
  have vsubf : ∀ v ∈ [‹"f"›, ‹"fv"›], v ∈ [‹""›, ‹"v"›, ‹"f"›, ‹"fv"›] := by
    simp only [String.reduceToList]; decide
  have hAv : ∀ v ∈ [‹""›, ‹"v"›, ‹"f"›, ‹"fv"›], contains ‹"Atan2"› (‹"Atan2"› ++ v) = true := by
    simp only [String.reduceToList]; decide
  -- the four kinds of rounds
  have K1 : ∀ s ∈ spec64 R eng (SIZE.setWidth 64), ∀ t ∈ spec64 R eng (SIZE.setWidth 64), t.name = ‹"Fast_"› ++ s.name → ∀ v ∈ [‹""›, ‹"v"›],
      s.name ++ v ∈ functions ∧ ∃ txt, Round cast L nick fs1 (s.name ++ v) txt ∧ Agrees1 z s t txt := by
    intro s hsm t htm hst v hv
    obtain ⟨hin, n, hn10, hsn⟩ := same_input _ _ pool hp hsm htm hst
    rw [List.append_nil] at hsn
    have hF : s.name ++ v ∈ functions := by rw [hsn]; exact functions_all n (List.mem_cons_of_mem _ hn10) v (vsub v hv).1
    refine ⟨hF, round1 (Or.inl rfl) hc L hL nick hnl hA fs1 SIZE.toNat hs.1 hs.2 s t hin _ hF
      (by rw [hsn]; exact names_atan2 n hn10 v (vsub v hv).1) (spec64_fin R eng _ s hsm) ?_ ?_⟩
    · obtain ⟨j, hj, n1, r, n2, n3, n4⟩ := a2 s hsm v hv
      exact ⟨r, by rw [← n1, e2 j (List.mem_append_left _ hj), n2], n3.trans n1, n4⟩
    · obtain ⟨j, hj, n1, r, n2, n3, n4⟩ := a2 t htm v hv
      rw [hst, List.append_assoc] at n1
      exact ⟨r, by rw [← n1, e2 j (List.mem_append_left _ hj), n2], n3.trans n1, n4⟩
  have K2 : ∀ s ∈ spec32 Rf eng (SIZE.setWidth 64), ∀ t ∈ spec32 Rf eng (SIZE.setWidth 64), t.name = ‹"Fast_"› ++ s.name → ∀ v ∈ [‹""›, ‹"v"›],
      s.name ++ v ∈ functions ∧ ∃ txt, Round cast L nick fs1 (s.name ++ v) txt ∧ Agrees1 z s t txt := by
    intro s hsm t htm hst v hv
    obtain ⟨hin, n, hn10, hsn⟩ := same_input _ _ poolf hpf hsm htm hst
    have hsv : s.name ++ v = n ++ (‹"f"› ++ v) := by rw [hsn, List.append_assoc]
    have hF : s.name ++ v ∈ functions := by rw [hsv]; exact functions_all n (List.mem_cons_of_mem _ hn10) _ (vsub v hv).2
    refine ⟨hF, round1 (Or.inr rfl) hc L hL nick hnl hA fs1 SIZE.toNat hs.1 hs.2 s t hin _ hF
      (by rw [hsv]; exact names_atan2 n hn10 _ (vsub v hv).2) (spec32_fin Rf eng _ s hsm) ?_ ?_⟩
    · obtain ⟨j, hj, n1, r, n2, n3, n4⟩ := c2 s hsm v hv
      exact ⟨r, by rw [← n1, e2 j (List.mem_append_right _ hj), n2], n3.trans n1, n4⟩
    · obtain ⟨j, hj, n1, r, n2, n3, n4⟩ := c2 t htm v hv
      rw [hst, List.append_assoc] at n1
      exact ⟨r, by rw [← n1, e2 j (List.mem_append_right _ hj), n2], n3.trans n1, n4⟩
  have hFA2 : ∀ v : Text, ‹"Fast_Atan2"› ++ v = ‹"Fast_"› ++ (‹"Atan2"› ++ v) := by
    intro v; simp only [String.reduceToList, List.cons_append, List.nil_append]
  have K3 : ∀ v ∈ [‹""›, ‹"v"›], ∃ txt, Round cast L nick fs1 (‹"Atan2"› ++ v) txt ∧ Agrees2 z SIZE.toNat R.atan2 Vdt.fast_atan2 (2 ^ (-50 : ℤ)) txt := by
    intro v hv
    have hi := Bench.pairs_in b64 (Or.inl rfl) (by decide +kernel) (by decide +kernel) eng SIZE
    refine round2 (Or.inl rfl) hc L hL nick hnl hA fs1 SIZE.toNat hs.1 hs.2 _ (by rw [List.length_zip, hl.1, hl.2.1, min_self]) R.atan2 Vdt.fast_atan2 _ _
      (functions_all _ (List.mem_cons_self ..) v (vsub v hv).1) (hAv v (vsub v hv).1) hi (Bench.pairs_gap b64 (Or.inl rfl) eng SIZE)
      (fun q hq => Bench.atan2_64_in (hi q hq).1 (hi q hq).2) ?_ ?_
    · obtain ⟨j, hj, n1, r, n2, n3, n4⟩ := a3 v hv
      exact ⟨r, by rw [← n1, e2 j (List.mem_append_left _ hj), n2], n3.trans n1, n4⟩
    · obtain ⟨j, hj, n1, r, n2, n3, n4⟩ := a4 v hv
      rw [hFA2] at n1
      exact ⟨r, by rw [← n1, e2 j (List.mem_append_left _ hj), n2], n3.trans n1, n4⟩
  have K4 : ∀ v ∈ [‹"f"›, ‹"fv"›], ∃ txt, Round cast L nick fs1 (‹"Atan2"› ++ v) txt ∧ Agrees2 z SIZE.toNat Rf.atan2 Vdt.fast_atan2f (2 ^ (-20 : ℤ)) txt := by
    intro v hv
    have hi := Bench.pairs_in b32 (Or.inr rfl) (by decide +kernel) (by decide +kernel) eng SIZE
    refine round2 (Or.inr rfl) hc L hL nick hnl hA fs1 SIZE.toNat hs.1 hs.2 _ (by rw [List.length_zip, hl.2.2.1, hl.2.2.2, min_self]) Rf.atan2 Vdt.fast_atan2f _ _
      (functions_all _ (List.mem_cons_self ..) v (vsubf v hv)) (hAv v (vsubf v hv)) hi (Bench.pairs_gap b32 (Or.inr rfl) eng SIZE)
      (fun q hq => Bench.atan2_32_in (hi q hq).1 (hi q hq).2) ?_ ?_
    · obtain ⟨j, hj, n1, r, n2, n3, n4⟩ := c3 v hv
      exact ⟨r, by rw [← n1, e2 j (List.mem_append_right _ hj), n2], n3.trans n1, n4⟩
    · obtain ⟨j, hj, n1, r, n2, n3, n4⟩ := c4 v hv
      rw [hFA2] at n1
      exact ⟨r, by rw [← n1, e2 j (List.mem_append_right _ hj), n2], n3.trans n1, n4⟩
  -- every function has a round
  have sname : ∀ n ∈ baseNames, ∃ s ∈ spec64 R eng (SIZE.setWidth 64), s.name = n := by
    intro n hb
    have : n ∈ (spec64 R eng (SIZE.setWidth 64)).map (·.name) := hb
    obtain ⟨s, h1, h2⟩ := List.mem_map.1 this
    exact ⟨s, h1, h2⟩
  have snamef : ∀ n ∈ baseNames, ∃ s ∈ spec32 Rf eng (SIZE.setWidth 64), s.name = n ++ ‹"f"› := by
    intro n hb
    have e : (spec32 Rf eng (SIZE.setWidth 64)).map (·.name) = baseNames.map (· ++ ‹"f"›) := by
      have h1 : (baseNames.zip poolIndex).map Prod.fst = baseNames := List.map_fst_zip (by simp [baseNames, poolIndex])
      have h2 := congrArg (List.map Prod.fst) hpf
      rw [List.map_map, List.map_map] at h2
      conv_rhs => rw [← h1]
      rw [List.map_map]
      exact h2
    have : n ++ ‹"f"› ∈ (spec32 Rf eng (SIZE.setWidth 64)).map (·.name) := by rw [e]; exact List.mem_map.2 ⟨n, hb, rfl⟩
    obtain ⟨s, h1, h2⟩ := List.mem_map.1 this
    exact ⟨s, h1, h2⟩
  have K : ∀ F : Text, ∃ txt, F ∈ functions → Round cast L nick fs1 F txt := by
    intro F
    by_cases hF : F ∈ functions
    swap
    · exact ⟨[], fun h => absurd h hF⟩
    obtain ⟨n, hn', v, hv, rfl⟩ := functions_split F hF
    simp only [List.mem_cons, List.not_mem_nil, or_false] at hv
    rcases List.mem_cons.1 hn' with rfl | hn10
    · rcases hv with rfl | rfl | rfl | rfl
      · obtain ⟨t, ht, -⟩ := K3 ‹""› (by simp); exact ⟨t, fun _ => ht⟩
      · obtain ⟨t, ht, -⟩ := K3 ‹"v"› (by simp); exact ⟨t, fun _ => ht⟩
      · obtain ⟨t, ht, -⟩ := K4 ‹"f"› (by simp); exact ⟨t, fun _ => ht⟩
      · obtain ⟨t, ht, -⟩ := K4 ‹"fv"› (by simp); exact ⟨t, fun _ => ht⟩
    · obtain ⟨b1, b2⟩ := names_base n hn10
      obtain ⟨s, hsm, hsn⟩ := sname n b1
      obtain ⟨t, htm, htn⟩ := sname _ b2
      obtain ⟨s', hsm', hsn'⟩ := snamef n b1
      obtain ⟨t', htm', htn'⟩ := snamef _ b2
      have k1 := K1 s hsm t htm (by rw [htn, hsn])
      have k2 := K2 s' hsm' t' htm' (by rw [htn', hsn', List.append_assoc])
      rw [hsn] at k1
      rw [hsn'] at k2
      rcases hv with rfl | rfl | rfl | rfl
      · obtain ⟨-, t, ht, -⟩ := k1 ‹""› (by simp); exact ⟨t, fun _ => ht⟩
      · obtain ⟨-, t, ht, -⟩ := k1 ‹"v"› (by simp); exact ⟨t, fun _ => ht⟩
      · obtain ⟨-, t, ht, -⟩ := k2 ‹""› (by simp); exact ⟨t, fun _ => by simpa using ht⟩
      · obtain ⟨-, t, ht, -⟩ := k2 ‹"v"› (by simp); exact ⟨t, fun _ => by simpa using ht⟩
  choose T hT using K
  obtain ⟨fs2, g1, g2, g3⟩ := fold_rounds (compareFile cast L nick) (fname nick) (fun F => fname nick (‹"Fast_"› ++ F)) (outName nick) T fs1
    functions (fun F hF => hT F hF) (fun F hF G hG => ⟨out_ne nick nick G F hF, out_ne nick nick _ F hF⟩) (out_nodup nick) fs1
    (fun _ _ => ⟨rfl, rfl⟩)
  refine ⟨fs1, fs2, by rw [Bench.main_eq]; exact e1, ?_, ?_, ?_, ?_, ?_, g3⟩
  · rw [shell_command nick (fun c hc => ⟨(hch c hc).1, (hch c hc).2.1⟩), List.tail_cons, main_words cast L nick hnick hcm, g1]
    rfl
  · intro s hsm t htm hst v hv
    obtain ⟨hF, txt, h1, h2⟩ := K1 s hsm t htm hst v hv
    exact ⟨txt, by rw [g2 _ hF, (hT _ hF).unique h1], h2⟩
  · intro s hsm t htm hst v hv
    obtain ⟨hF, txt, h1, h2⟩ := K2 s hsm t htm hst v hv
    exact ⟨txt, by rw [g2 _ hF, (hT _ hF).unique h1], h2⟩
  · intro v hv
    have hF := functions_all _ (List.mem_cons_self ..) v (vsub v hv).1
    obtain ⟨txt, h1, h2⟩ := K3 v hv
    exact ⟨txt, by rw [g2 _ hF, (hT _ hF).unique h1], h2⟩
  · intro v hv
    have hF := functions_all _ (List.mem_cons_self ..) v (vsubf v hv)
    obtain ⟨txt, h1, h2⟩ := K4 v hv
    exact ⟨txt, by rw [g2 _ hF, (hT _ hF).unique h1], h2⟩

/-- Each of the ten one-argument functions gives a pair, in both precisions. -/
theorem C67_pairs (R : RefMath b64) (Rf : RefMath b32) (eng : Engine) (m : BitVec 64) :
    ∀ n ∈ [‹"Exp"›, ‹"Log"›, ‹"Sin"›, ‹"Cos"›, ‹"Tan"›, ‹"Tanh"›, ‹"Asin"›, ‹"Acos"›, ‹"Atan"›, ‹"Isqrt"›],
      (∃ s ∈ spec64 R eng m, ∃ t ∈ spec64 R eng m, s.name = n ∧ t.name = ‹"Fast_"› ++ s.name) ∧
      ∃ s ∈ spec32 Rf eng m, ∃ t ∈ spec32 Rf eng m, s.name = n ++ ‹"f"› ∧ t.name = ‹"Fast_"› ++ s.name := by
  intro n hn
  obtain ⟨b1, b2⟩ := names_base n hn
  obtain ⟨poolf, hpf⟩ := spec32_pools Rf eng m
  have e : (spec32 Rf eng m).map (·.name) = baseNames.map (· ++ ‹"f"›) := by
    have h1 : (baseNames.zip poolIndex).map Prod.fst = baseNames := List.map_fst_zip (by simp [baseNames, poolIndex])
    have h2 := congrArg (List.map Prod.fst) hpf
    rw [List.map_map, List.map_map] at h2
    conv_rhs => rw [← h1]
    rw [List.map_map]
    exact h2
  have m1 : ∀ k ∈ baseNames, k ∈ (spec64 R eng m).map (·.name) := fun k hk => hk
  have m2 : ∀ k ∈ baseNames, k ++ ‹"f"› ∈ (spec32 Rf eng m).map (·.name) := fun k hk => by rw [e]; exact List.mem_map.2 ⟨k, hk, rfl⟩
  obtain ⟨s, hs, sn⟩ := List.mem_map.1 (m1 _ b1)
  obtain ⟨t, ht, tn⟩ := List.mem_map.1 (m1 _ b2)
  obtain ⟨s', hs', sn'⟩ := List.mem_map.1 (m2 _ b1)
  obtain ⟨t', ht', tn'⟩ := List.mem_map.1 (m2 _ b2)
  exact ⟨⟨s, hs, t, ht, sn, by rw [tn, sn]⟩, s', hs', t', ht', sn', by rw [tn', sn', List.append_assoc]⟩

/-- The hypotheses of `C67_workflow_partial` can be met. -/
example : ∃ (cast : F64 → Option ℕ) (L : F64 → F64), CastOk 0 cast ∧ Log2Ok L ∧ ‹"run1"› ≠ [] ∧
    (∀ c ∈ ‹"run1"›, c ≠ ' ' ∧ c ≠ '"' ∧ c ≠ ',' ∧ c ≠ '\n') ∧ contains ‹"Atan2"› ‹"run1"› = false ∧ (1000#32 : BitVec 32) ≠ 0 := by
  obtain ⟨L, hL⟩ := log2Ok_exists
  exact ⟨_, L, castOk_exists, hL, by decide, by decide, by simp only [String.reduceToList]; decide, by decide⟩

end Vdt.Compare
