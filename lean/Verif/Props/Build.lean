import Verif.Lemmas.Build
import Verif.Props.Generate
import Mathlib.Logic.Relation

/-!
# The build configuration (C99 to C103)

`configure` is the program of the CMake files up to the generation of the library source; `wants e v d` says that
the option `v`, whose default is `d`, is on; `Untouched e` that the variables the configuration uses for itself are
not defined beforehand; `wantedFlags e` is the list of flags in terms of the options alone.
-/

namespace Vdt.Build
open Vdt.Txt (Text printNat)

/-! ## C99 -/

/-- **C99.** The library is compiled with the flags that the options ask for and no others, followed by those of
`USERFLAGS`; likewise the diagnostic programs, if the system is not Apple's. -/
theorem C99_flags (ex : String → Bool) (e : Env) (t : State) (h : Untouched e) (hr : configure.run ex ⟨e, []⟩ = some t) :
    words (libFlags t.env).toList = (["-Winline", "-O3"] ++ wantedFlags e).map String.toList ++
      (if wants e "USERFLAGS" "OFF" then words ((e "USERFLAGS").getD "").toList else []) ∧
    ((e "APPLE" = none ∨ e "APPLE" = some "0") → words (progFlags t.env).toList = (["-O3"] ++ wantedFlags e).map String.toList ++
      (if wants e "USERFLAGS" "OFF" then words ((e "USERFLAGS").getD "").toList else [])) := by
  rcases configure_run ex e h with ⟨h1, _⟩ | ⟨t', r, _, h1, h2, _⟩
  · rw [h1] at hr; cases hr
  · rw [r] at hr; cases hr
    refine ⟨h1, fun ha => h2 ?_⟩
    unfold on
    rcases ha with ha | ha <;> rw [ha] <;> decide

/-- Without `USERFLAGS`, fused operations are allowed just if the option `FMA` is on and `NEON` is not; no other flag
is about the meaning of floating-point operations (all of those begin with `-f`, or are `-Ofast`), and at most one
instruction set is chosen. -/
theorem C99_meaning (ex : String → Bool) (e : Env) (t : State) (h : Untouched e) (hr : configure.run ex ⟨e, []⟩ = some t)
    (hu : wants e "USERFLAGS" "OFF" = false) :
    (("-mfma".toList ∈ words (libFlags t.env).toList) ↔ (wants e "FMA" "OFF" = true ∧ wants e "NEON" "OFF" = false)) ∧
    (∀ w ∈ words (libFlags t.env).toList, ¬ ("-f".toList <+: w) ∧ w ≠ "-Ofast".toList) ∧
    ((words (libFlags t.env).toList).filter fun w => w ∈ ["-mfpu=neon", "-mavx2", "-mavx", "-msse"].map String.toList).length ≤ 1 := by
  rw [(C99_flags ex e t h hr).1, hu]
  simp only [Bool.false_eq_true, if_false, List.append_nil]
  unfold wantedFlags
  cases wants e "NEON" "OFF" <;> cases wants e "AVX2" "OFF" <;> cases wants e "AVX" "OFF" <;> cases wants e "SSE" "ON" <;>
    cases wants e "FMA" "OFF" <;> cases wants e "DEBUG" "OFF" <;>
    by_cases hc : e "CMAKE_CXX_COMPILER_ID" = some "AppleClang" ∨ e "CMAKE_CXX_COMPILER_ID" = some "Clang" <;>
    simp only [hc, if_true, if_false, Bool.false_eq_true] <;> decide

/-- Vc is used just if it is asked for and both of its files exist. -/
theorem C99_vc (ex : String → Bool) (e : Env) (t : State) (dir : String) (h : Untouched e)
    (hd : e "CMAKE_SOURCE_DIR" = some dir) (hr : configure.run ex ⟨e, []⟩ = some t) :
    vcAvailable t.env = true ↔
      wants e "USE_VC" "OFF" = true ∧ ex (dir ++ "/Vc/libVc.a") = true ∧ ex (dir ++ "/Vc/include/Vc/Vc") = true := by
  rcases configure_run ex e h with ⟨h1, _⟩ | ⟨t', r, _, _, _, h1, _⟩
  · rw [h1] at hr; cases hr
  · rw [r] at hr; cases hr
    rw [h1, hd]
    simp [and_assoc]

theorem verNumbers_digits (ds r : Text) (hd : ∀ c ∈ ds, ∃ d < 10, c = Txt.digitChar d) (acc : Nat) :
    verNumbers acc (ds ++ r) = verNumbers (ds.foldl (fun a c => a * 10 + (Txt.digitVal c).getD 0) acc) r := by
  induction ds generalizing acc with
  | nil => rfl
  | cons c t ih =>
    obtain ⟨d, hd', rfl⟩ := hd c (List.mem_cons_self ..)
    have hv := Txt.digitVal_digitChar d (by omega)
    have hp : Txt.digitChar d ≠ '.' := by
      intro he
      rw [he] at hv
      have : Txt.digitVal '.' = none := by decide
      rw [this] at hv; cases hv
    rw [List.cons_append, verNumbers, if_neg hp, hv]
    simp only [hd', if_true]
    rw [ih (fun c hc => hd c (List.mem_cons_of_mem _ hc))]
    simp [hv]

theorem verNumbers_printNat (n : Nat) (r : Text) : verNumbers 0 (printNat 10 n ++ r) = verNumbers n r := by
  rw [verNumbers_digits _ _ (Txt.printNat_digits (by norm_num) (by norm_num) n)]
  have := Txt.digitsVal_printNat (base := 10) (by norm_num) (by norm_num) n
  unfold Txt.digitsVal at this
  rw [this]

/-- A version text: two numbers, perhaps more after a point. -/
def versionText (major minor : Nat) (rest : Option Text) : String :=
  String.ofList (printNat 10 major ++ '.' :: printNat 10 minor ++ (match rest with | none => [] | some r => '.' :: r))

theorem verNumbers_version (M N : Nat) (rest : Option Text) : ∃ l, verNumbers 0 (versionText M N rest).toList = M :: N :: l := by
  unfold versionText
  rw [String.toList_ofList, List.append_assoc, verNumbers_printNat, List.cons_append, verNumbers, if_pos rfl, verNumbers_printNat]
  cases rest with
  | none => exact ⟨[], rfl⟩
  | some r => exact ⟨verNumbers 0 r, by simp [verNumbers]⟩

/-- The configuration stops just for versions before 4.8 of GCC, 5.0 of Apple's Clang, 3.3 of Clang and 15.0 of the
Intel compiler. -/
theorem C99_versions (ex : String → Bool) (e : Env) (h : Untouched e) (id : String) (M N : Nat) (rest : Option Text)
    (hi : e "CMAKE_CXX_COMPILER_ID" = some id) (hv : e "CMAKE_CXX_COMPILER_VERSION" = some (versionText M N rest)) :
    configure.run ex ⟨e, []⟩ = none ↔
      (id = "GNU" ∧ (M < 4 ∨ M = 4 ∧ N < 8)) ∨ (id = "AppleClang" ∧ M < 5) ∨ (id = "Clang" ∧ (M < 3 ∨ M = 3 ∧ N < 3)) ∨
      (id = "Intel" ∧ M < 15) := by
  have key : configure.run ex ⟨e, []⟩ = none ↔ tooOld e = true := by
    rcases configure_run ex e h with ⟨h1, h2⟩ | ⟨t, r, h2, _⟩
    · simp [h1, h2]
    · simp [r, h2]
  rw [key]
  obtain ⟨l, hl⟩ := verNumbers_version M N rest
  have v1 : verNumbers 0 "4.8".toList = [4, 8] := by decide
  have v2 : verNumbers 0 "5.0".toList = [5, 0] := by decide
  have v3 : verNumbers 0 "3.3".toList = [3, 3] := by decide
  have v4 : verNumbers 0 "15.0".toList = [15, 0] := by decide
  unfold tooOld
  simp only [hi, hv, Option.getD_some, hl, v1, v2, v3, v4]
  simp [verBelow, or_assoc]

/-- An environment with some options. -/
def sample (id version : String) (l : List (String × String)) : Env := fun v =>
  if v = "CMAKE_CXX_COMPILER_ID" then some id else if v = "CMAKE_CXX_COMPILER_VERSION" then some version
  else if v = "CMAKE_SOURCE_DIR" then some "/home/vdt" else if v = "Python_EXECUTABLE" then some "/usr/bin/python3"
  else (l.find? fun p => p.1 = v).map Prod.snd

theorem sample_untouched : Untouched (sample "GNU" "13.2.0" [("AVX2", "1"), ("FMA", "ON")]) := by
  unfold Untouched; decide

example : ∃ t, configure.run (fun _ => false) ⟨sample "GNU" "13.2.0" [("AVX2", "1"), ("FMA", "ON")], []⟩ = some t ∧
    words (libFlags t.env).toList = ["-Winline", "-O3", "-std=c++11", "-mavx2", "-mfma", "-W", "-Wall", "-Werror",
      "-Wno-error=unused-parameter"].map String.toList := by
  rcases configure_run (fun _ => false) _ sample_untouched with ⟨_, h⟩ | ⟨t, r, _, h, _⟩
  · exact absurd h (by decide)
  · exact ⟨t, r, h.trans (by decide)⟩

example : versionText 4 7 (some "2".toList) = "4.7.2" := by
  unfold versionText
  rw [Txt.printNat_small (by norm_num), Txt.printNat_small (by norm_num)]
  decide

/-! ## C100 -/

/-- The full property: the settings that the file holds for a compiler are in effect for that compiler. -/
def C100_statement : Prop :=
  ∀ (ex : String → Bool) (e : Env) (t : State), Untouched e → configure.run ex ⟨e, []⟩ = some t →
    (e "CMAKE_CXX_COMPILER_ID" = some "GNU" → "inline-unit-growth=150".toList ∈ words (libFlags t.env).toList) ∧
    (e "CMAKE_CXX_COMPILER_ID" = some "Intel" → wants e "NEON" "OFF" = false → wants e "AVX2" "OFF" = true →
      "-xavx2".toList ∈ words (libFlags t.env).toList) ∧
    ((e "CMAKE_CXX_COMPILER_ID" = some "Clang" ∨ e "CMAKE_CXX_COMPILER_ID" = some "AppleClang") →
      "-D__extern_always_inline=inline".toList ∈ words (libFlags t.env).toList)

/-- **C100** (partial: only the setting for Clang takes effect). -/
theorem C100_clang_partial (ex : String → Bool) (e : Env) (t : State) (h : Untouched e)
    (hr : configure.run ex ⟨e, []⟩ = some t)
    (hc : e "CMAKE_CXX_COMPILER_ID" = some "Clang" ∨ e "CMAKE_CXX_COMPILER_ID" = some "AppleClang") :
    "-D__extern_always_inline=inline".toList ∈ words (libFlags t.env).toList := by
  rw [(C99_flags ex e t h hr).1]
  refine List.mem_append_left _ (List.mem_map_of_mem (List.mem_append_right _ ?_))
  unfold wantedFlags
  rw [if_pos (hc.symm)]
  simp

/-- The settings for GCC and for the Intel compiler never take effect: the variables that select them are set only
after a fatal error, or not at all. -/
theorem C100_never (ex : String → Bool) (e : Env) (t : State) (h : Untouched e)
    (hr : configure.run ex ⟨e, []⟩ = some t) (hu : wants e "USERFLAGS" "OFF" = false) :
    ∀ w ∈ ["--param", "inline-unit-growth=150", "vect-max-version-for-alias-checks=50", "-ftree-vectorizer-verbose=0", "-xavx",
      "-xavx2"].map String.toList, w ∉ words (libFlags t.env).toList := by
  rw [(C99_flags ex e t h hr).1, hu]
  simp only [Bool.false_eq_true, if_false, List.append_nil]
  unfold wantedFlags
  cases wants e "NEON" "OFF" <;> cases wants e "AVX2" "OFF" <;> cases wants e "AVX" "OFF" <;> cases wants e "SSE" "ON" <;>
    cases wants e "FMA" "OFF" <;> cases wants e "DEBUG" "OFF" <;>
    by_cases hc : e "CMAKE_CXX_COMPILER_ID" = some "AppleClang" ∨ e "CMAKE_CXX_COMPILER_ID" = some "Clang" <;>
    simp only [hc, if_true, if_false, Bool.false_eq_true] <;> decide

/-- GCC 13.2: the growth limit for inlining is not raised. -/
theorem C100_violated : ¬ C100_statement := by
  intro h
  rcases configure_run (fun _ => false) _ sample_untouched with ⟨_, h1⟩ | ⟨t, r, _⟩
  · exact absurd h1 (by decide)
  · exact C100_never _ _ t sample_untouched r (by decide) _ (by decide) ((h _ _ t sample_untouched r).1 rfl)

example : Untouched (sample "Clang" "17.0.6" []) ∧ wants (sample "Clang" "17.0.6" []) "SSE" "ON" = true := by
  unfold Untouched; decide

/-! ## C101 -/

/-- The full property: the configuration runs the generator so that it writes the source file of the library, with
the replacements of the mathematical functions just if the option `PRELOAD` is on. -/
def C101_statement : Prop :=
  ∀ (ex : String → Bool) (e : Env) (t : State) (dir py : String), Untouched e → e "CMAKE_SOURCE_DIR" = some dir →
    e "Python_EXECUTABLE" = some py → py ≠ "" → configure.run ex ⟨e, []⟩ = some t →
    ∃ line args, t.log.head? = some line ∧
      shell line.toList = [["cd", "src"].map String.toList, py.toList :: (dir ++ "/src/signatures_generator.py").toList :: args,
        ["cd", "-"].map String.toList] ∧
      generator args = some ((libSource t.env).toList, Gen.create_impl (wants e "PRELOAD" "OFF"))

/-- A path without characters that are special to the shell. -/
def PlainPath (s : String) : Prop := ∀ c ∈ s.toList, c.isAlphanum = true ∨ c ∈ ['/', '.', '_', '-', '+']

theorem splitAt_plain {sep : Char} {a : Text} (h : sep ∉ a) (acc : Text) : splitAt sep acc a = [acc.reverse ++ a] := by
  induction a generalizing acc with
  | nil => simp [splitAt]
  | cons c t ih =>
    simp only [List.mem_cons, not_or] at h
    rw [splitAt, if_neg (fun e => h.1 e.symm), ih h.2]
    simp

theorem words_plain {a : Text} (h : ' ' ∉ a) (h0 : a ≠ []) : words a = [a] := by
  unfold words
  rw [splitAt_plain h]
  simp [h0]

theorem PlainPath.not_mem {s : String} (h : PlainPath s) : ' ' ∉ s.toList ∧ ';' ∉ s.toList := by
  constructor <;> intro hc <;> rcases h _ hc with h | h <;> revert h <;> decide

/-- **C101** (partial: only if the paths have no characters that are special to the shell). -/
theorem C101_generator_partial (ex : String → Bool) (e : Env) (t : State) (dir py : String) (h : Untouched e)
    (hd : e "CMAKE_SOURCE_DIR" = some dir) (hp : e "Python_EXECUTABLE" = some py) (h0 : py ≠ "")
    (hd' : PlainPath dir) (hp' : PlainPath py) (hr : configure.run ex ⟨e, []⟩ = some t) :
    ∃ line args, t.log.head? = some line ∧
      shell line.toList = [["cd", "src"].map String.toList, py.toList :: (dir ++ "/src/signatures_generator.py").toList :: args,
        ["cd", "-"].map String.toList] ∧
      generator args = some ((libSource t.env).toList, Gen.create_impl (wants e "PRELOAD" "OFF")) := by
  rcases configure_run ex e h with ⟨h1, _⟩ | ⟨t', r, _, _, _, _, hs, hl⟩
  · rw [h1] at hr; cases hr
  rw [r] at hr; cases hr
  rw [hd, hp] at hl
  rw [hd] at hs
  simp only [Option.getD_some] at hl hs
  obtain ⟨d1, d2⟩ := hd'.not_mem
  obtain ⟨p1, p2⟩ := hp'.not_mem
  have p0 : py.toList ≠ [] := by
    intro h; apply h0; rw [← String.toList_inj]; simpa using h
  refine ⟨_, (if wants e "PRELOAD" "OFF" then ["-p".toList] else []) ++ ["-o".toList, (dir ++ "/src").toList], hl, ?_, ?_⟩
  · have line : (genLine py dir (wants e "PRELOAD" "OFF")).toList = "cd src".toList ++ ';' :: ((py.toList ++ ' ' ::
        ((dir.toList ++ "/src/signatures_generator.py".toList) ++ ' ' :: ((if wants e "PRELOAD" "OFF" then " -p".toList else [' ']) ++
          ' ' :: ("-o".toList ++ ' ' :: (dir.toList ++ "/src".toList))))) ++ ';' :: "cd -".toList) := by
      unfold genLine
      simp only [String.toList_append]
      cases wants e "PRELOAD" "OFF" <;> simp
    rw [line]
    unfold shell
    rw [splitAt_append, splitAt_append]
    have b1 : splitAt ';' [] "cd src".toList = ["cd src".toList] := by decide
    have b2 : splitAt ';' [] "cd -".toList = ["cd -".toList] := by decide
    have b3 : words "cd src".toList = ["cd", "src"].map String.toList := by decide
    have b4 : words "cd -".toList = ["cd", "-"].map String.toList := by decide
    have b5 : words "-o".toList = ["-o".toList] := by decide
    rw [splitAt_plain (a := py.toList ++ _)]
    · simp only [b1, b2, List.reverse_nil, List.nil_append, List.singleton_append, List.map_cons, List.map_nil, b3, b4, words_append,
        words_plain p1 p0, b5]
      rw [words_plain (a := dir.toList ++ "/src/signatures_generator.py".toList) (by simp [d1]) (by simp),
        words_plain (a := dir.toList ++ "/src".toList) (by simp [d1]) (by simp)]
      have b6 : words (if wants e "PRELOAD" "OFF" = true then " -p".toList else [' ']) =
          (if wants e "PRELOAD" "OFF" then ["-p".toList] else []) := by
        cases wants e "PRELOAD" "OFF" <;> decide
      rw [b6]
      simp only [String.toList_append, List.singleton_append, List.cons_append, List.nil_append]
    · cases wants e "PRELOAD" "OFF" <;> simp [p2, d2]
  · rw [hs]
    unfold generator
    have e1 : ∀ pre, parseArgs pre "./".toList ["-o".toList, (dir ++ "/src").toList] = some (pre, (dir ++ "/src").toList) := by
      intro pre; cases pre <;> rfl
    have e2 : parseArgs false "./".toList ((if wants e "PRELOAD" "OFF" then ["-p".toList] else []) ++ ["-o".toList, (dir ++ "/src").toList])
        = some (wants e "PRELOAD" "OFF", (dir ++ "/src").toList) := by
      cases wants e "PRELOAD" "OFF"
      · exact e1 false
      · exact e1 true
    rw [e2, Option.map_some]
    congr 2
    unfold joinPath
    have : (dir ++ "/src").toList.getLast? = some 'c' := by
      rw [String.toList_append, List.getLast?_append]; rfl
    rw [this]
    simp

/-- If the directory has a blank in its name, the generator is not found. -/
theorem C101_violated : ¬ C101_statement := by
  intro h
  let e : Env := fun v => if v = "CMAKE_SOURCE_DIR" then some "/my vdt" else if v = "Python_EXECUTABLE" then some "python" else none
  have hu : Untouched e := by unfold Untouched; decide
  rcases configure_run (fun _ => false) e hu with ⟨_, h1⟩ | ⟨t, r, _, _, _, _, _, hl⟩
  · exact absurd h1 (by decide)
  obtain ⟨line, args, h1, h2, _⟩ := h _ e t "/my vdt" "python" hu rfl rfl (by decide) r
  rw [hl] at h1
  cases h1
  have hs : shell (genLine ((e "Python_EXECUTABLE").getD "") ((e "CMAKE_SOURCE_DIR").getD "") (wants e "PRELOAD" "OFF")).toList =
    [["cd", "src"].map String.toList, ["python", "/my", "vdt/src/signatures_generator.py", "-o", "/my", "vdt/src"].map String.toList,
      ["cd", "-"].map String.toList] := by decide
  rw [hs] at h2
  simp at h2

example : PlainPath "/home/vdt-0.4" := by unfold PlainPath; decide
example : generator ["-p".toList, "-o".toList, "/home/vdt/src".toList] =
    some ("/home/vdt/src/vdtMath_signatures.cc".toList, Gen.create_impl true) := rfl
example : generator ["-x".toList] = none := rfl

/-! ## C102 -/

/-- `a` includes `b` in quotes. -/
def Includes (table : List (String × List String)) (a b : String) : Prop := ∃ l, (a, l) ∈ table ∧ b ∈ l

/-- The full property: whatever an installed header includes is installed as well or belongs to the system, and
whatever a program includes is found in the directories that are searched for it, `include` and `include/diagnostic`. -/
def C102_statement : Prop :=
  (∀ a ∈ installed, ∀ b, Relation.ReflTransGen (Includes library) a b → b ∈ installed ∨ b ∈ system) ∧
  ∀ vc : Bool, ∀ p ∈ programs, ∀ b, Relation.ReflTransGen (Includes (programs ++ diagnostic vc ++ library)) p.1 b → b ≠ p.1 →
    b ∈ (diagnostic vc).map Prod.fst ∨ b ∈ library.map Prod.fst ∨ b ∈ system

theorem closed_of_step {table : List (String × List String)} {good : String → Prop}
    (step : ∀ r ∈ table, good r.1 → ∀ b ∈ r.2, good b) {a b : String} (ha : good a)
    (h : Relation.ReflTransGen (Includes table) a b) : good b := by
  induction h with
  | refl => exact ha
  | tail _ hbc ih =>
    obtain ⟨l, hl, hb⟩ := hbc
    exact step _ hl ih _ hb

/-- **C102** (partial: for the programs only without Vc). -/
theorem C102_headers_partial :
    (∀ a ∈ installed, ∀ b, Relation.ReflTransGen (Includes library) a b → b ∈ installed ∨ b ∈ system) ∧
    ∀ p ∈ programs, ∀ b, Relation.ReflTransGen (Includes (programs ++ diagnostic false ++ library)) p.1 b → b ≠ p.1 →
      b ∈ (diagnostic false).map Prod.fst ∨ b ∈ library.map Prod.fst ∨ b ∈ system := by
  refine ⟨fun a ha b hb => closed_of_step (good := fun b => b ∈ installed ∨ b ∈ system) ?_ (Or.inl ha) hb, ?_⟩
  · decide +kernel
  · intro p hp b hb hne
    rcases Relation.ReflTransGen.cases_head hb with h | ⟨c, ⟨l, hl, hc⟩, hcb⟩
    · exact absurd h.symm hne
    have h1 : ∀ r ∈ programs ++ diagnostic false ++ library, ∀ b ∈ r.2,
        b ∈ (diagnostic false).map Prod.fst ∨ b ∈ library.map Prod.fst ∨ b ∈ system := by decide +kernel
    exact closed_of_step (fun r hr _ b hb => h1 r hr b hb) (h1 _ hl c hc) hcb

/-- Every installed header is reached from the one that includes them all. -/
theorem C102_all : ∀ b ∈ installed, Relation.ReflTransGen (Includes library) "vdtMath.h" b := by
  have step : ∀ {a b c}, Relation.ReflTransGen (Includes library) a b → (∃ l, (b, l) ∈ library ∧ c ∈ l) →
      Relation.ReflTransGen (Includes library) a c := fun h1 h2 => h1.tail h2
  have one : ∀ b ∈ ["sin.h", "asin.h", "cos.h", "tan.h", "tanh.h", "atan.h", "atan2.h", "exp.h", "log.h", "sqrt.h", "inv.h",
      "identity.h"], Relation.ReflTransGen (Includes library) "vdtMath.h" b := by
    intro b hb
    exact step .refl ⟨_, by decide +kernel, hb⟩
  have h1 : Relation.ReflTransGen (Includes library) "vdtMath.h" "sincos.h" :=
    step (one "sin.h" (by decide)) ⟨["sincos.h"], by decide +kernel, by decide⟩
  have h2 : Relation.ReflTransGen (Includes library) "vdtMath.h" "vdtcore_common.h" :=
    step (one "asin.h" (by decide)) ⟨["vdtcore_common.h"], by decide +kernel, by decide⟩
  intro b hb
  by_cases h : b ∈ ["sin.h", "asin.h", "cos.h", "tan.h", "tanh.h", "atan.h", "atan2.h", "exp.h", "log.h", "sqrt.h", "inv.h", "identity.h"]
  · exact one b h
  · have : ∀ b ∈ installed, b ∉ ["sin.h", "asin.h", "cos.h", "tan.h", "tanh.h", "atan.h", "atan2.h", "exp.h", "log.h", "sqrt.h", "inv.h",
        "identity.h"] → b = "sincos.h" ∨ b = "vdtcore_common.h" ∨ b = "vdtMath.h" := by decide +kernel
    rcases this b hb h with rfl | rfl | rfl
    · exact h1
    · exact h2
    · exact .refl

/-- With Vc the benchmark includes `vdtdiag_vcWrapper.h`, which is written to `src`. -/
theorem C102_violated : ¬ C102_statement := by
  intro h
  have h1 : Relation.ReflTransGen (Includes (programs ++ diagnostic true ++ library)) "vdtPerfBenchmark.cpp" "vdtdiag_vcWrapper.h" := by
    refine Relation.ReflTransGen.tail (b := "vdtdiag_fcnTuples.h") (Relation.ReflTransGen.single ?_) ?_
    · exact ⟨["vdtdiag_random.h", "vdtMath.h", "vdtdiag_helper.h", "vdtdiag_fcnPerformance.h", "vdtdiag_fcnTuples.h",
        "vdtdiag_simpleCmd.h"], by decide +kernel, by decide⟩
    · exact ⟨["vdtdiag_helper.h", "vdtdiag_random.h", "vdtMath.h", "externalLibcfg.h", "vdtdiag_vcWrapper.h"], by decide +kernel, by decide⟩
  have := h.2 true ("vdtPerfBenchmark.cpp", _) (List.mem_cons_self ..) _ h1 (by decide)
  revert this
  decide +kernel

example : "src/vdtdiag_vcWrapper.h" ∈ vcFiles := by decide
example : Relation.ReflTransGen (Includes library) "cos.h" "vdtcore_common.h" :=
  .tail (b := "sincos.h") (.single ⟨["sincos.h"], by decide +kernel, by decide⟩) ⟨["vdtcore_common.h"], by decide +kernel, by decide⟩

/-! ## C103 -/

/-- The full property: the table lists exactly the fast functions of the library. -/
def C103_statement : Prop :=
  ∀ d ∈ Gen.declared, "fast_".toList <+: d.name → ∃ r ∈ readme, d.name ∈ r.map String.toList

/-- **C103** (partial: all that are listed exist, but not all are listed).  For each line of the table of functions the
generated library source defines the two array functions, each applying the scalar function of the line that has the
same precision. -/
theorem C103_listed_partial (preload : Bool) : ∃ body, Gen.create_impl preload = Gen.preamble ++ body ∧
    ∀ r ∈ readme, ∃ a b c d, r = [a, b, c, d] ∧
      (∃ x ∈ Gen.declared, x.prec = .double ∧ x.scalar = a.toList ∧ x.name = c.toList ∧ x.definition ∈ Gen.voidDefs body) ∧
      (∃ x ∈ Gen.declared, x.prec = .float ∧ x.scalar = b.toList ∧ x.name = d.toList ∧ x.definition ∈ Gen.voidDefs body) := by
  obtain ⟨body, h1, h2, _⟩ := Gen.C41_array_functions preload
  refine ⟨body, h1, ?_⟩
  have key : ∀ r ∈ readme, (∃ x ∈ Gen.declared, x.prec = .double ∧ x.scalar = (r[0]!).toList ∧ x.name = (r[2]!).toList) ∧
      (∃ x ∈ Gen.declared, x.prec = .float ∧ x.scalar = (r[1]!).toList ∧ x.name = (r[3]!).toList) ∧ r.length = 4 := by
    decide +kernel
  intro r hr
  obtain ⟨⟨x, hx, k1, k2, k3⟩, ⟨y, hy, k4, k5, k6⟩, hlen⟩ := key r hr
  match r, hlen with
  | [a, b, c, d], _ =>
    exact ⟨a, b, c, d, rfl, ⟨x, hx, k1, k2, k3, h2.mem_iff.2 (List.mem_map_of_mem hx)⟩,
      ⟨y, hy, k4, k5, k6, h2.mem_iff.2 (List.mem_map_of_mem hy)⟩⟩

/-- The two-argument arctangent, the inverse and the approximate functions are not in the table; all others are. -/
theorem C103_missing : ∀ d ∈ Gen.declared, "fast_".toList <+: d.name →
    ((∃ r ∈ readme, d.name ∈ r.map String.toList) ↔
      d.scalar ∉ ["fast_atan2", "fast_atan2f", "fast_inv", "fast_invf", "fast_approx_inv", "fast_approx_invf",
        "fast_approx_isqrt", "fast_approx_isqrtf"].map String.toList) := by decide +kernel

theorem C103_violated : ¬ C103_statement := by
  intro h
  have := h ⟨"fast_atan2v".toList, .double, true, "fast_atan2".toList⟩ (by decide +kernel) (by decide)
  revert this
  decide +kernel

end Vdt.Build
