import Verif.Model.Build
import Verif.Lemmas.Streams

/-!
# Execution of the build configuration
-/

namespace Vdt.Build
open Vdt.Txt (Text)

theorem truth_name {e : Env} {v : String} (h0 : v ≠ "") (h1 : isOn v = false) (h2 : isOff v = false) :
    truth e v = !isOff ((e v).getD "") := by
  unfold truth
  rw [if_neg h0, if_neg (by simp [h1]), if_neg (by simp [h2])]
  cases e v <;> rfl

theorem name_eval (ex : String → Bool) (e : Env) {v : String} (h : (v == "" || isOn v || isOff v) = false) :
    (name v).eval ex e = !isOff ((e v).getD "") := by
  simp only [Bool.or_eq_false_iff, beq_eq_false_iff_ne] at h
  unfold name Cond.eval
  simp only [expand, String.append_empty]
  exact truth_name h.1.1 h.1.2 h.2

@[simp] theorem assign_same (e : Env) (v s : String) : assign e v s v = some s := by simp [assign]
theorem assign_ne (e : Env) {v w s : String} (h : w ≠ v) : assign e v s w = e w := by simp [assign, h]

theorem run_when (ex : String → Bool) (c : Cond) (a : Cmd) (s : State) :
    (when c a).run ex s = if c.eval ex s.env then a.run ex s else some s := by
  simp [when, Cmd.run]

theorem run_seq (ex : String → Bool) (a b : Cmd) (s : State) : (a ;; b).run ex s = (a.run ex s).bind (b.run ex) := rfl

theorem run_set (ex : String → Bool) (v : String) (t : List Piece) (s : State) :
    (Cmd.set v t).run ex s = some ⟨assign s.env v (expand s.env t), s.log⟩ := rfl

theorem run_set_lit (ex : String → Bool) (v x : String) (s : State) :
    (Cmd.set v [.lit x]).run ex s = some ⟨assign s.env v x, s.log⟩ := by
  simp [run_set, expand]

theorem run_set_nil (ex : String → Bool) (v : String) (s : State) :
    (Cmd.set v []).run ex s = some ⟨assign s.env v "", s.log⟩ := rfl

theorem arg_ref (ex : String → Bool) (e : Env) (v : String) : (Cond.arg [.ref v]).eval ex e = truth e ((e v).getD "") := by
  simp [Cond.eval, expand]

theorem truth_empty (e : Env) : truth e "" = false := by simp [truth]
theorem truth_TRUE (e : Env) : truth e "TRUE" = true := by
  unfold truth
  rw [if_neg (by decide), if_pos (by decide)]

/-- The truth of an option for `if`. -/
def on (e : Env) (v : String) : Bool := !isOff ((e v).getD "")

theorem on_eval (ex : String → Bool) (e : Env) (v : String) (h : (v == "" || isOn v || isOff v) = false) :
    (name v).eval ex e = on e v := name_eval ex e h

theorem on_assign_ne (e : Env) {v w x : String} (h : w ≠ v) : on (assign e v x) w = on e w := by simp [on, assign_ne e h]

def withOption (e : Env) (v d : String) : Env := fun w => if w = v then some ((e v).getD d) else e w

theorem run_option (ex : String → Bool) (v d : String) (s : State) :
    (Cmd.option v d).run ex s = some ⟨withOption s.env v d, s.log⟩ := by
  unfold Cmd.run withOption
  congr 1
  cases h : s.env v with
  | none => simp [assign]; rfl
  | some x =>
    simp only [reduceCtorEq, if_false, Option.getD_some]
    cases s with
    | mk env log =>
      congr 1
      funext w
      split
      · rename_i hw; rw [hw]; exact h
      · rfl

theorem withOption_same (e : Env) (v d : String) : withOption e v d v = some ((e v).getD d) := by simp [withOption]
theorem withOption_ne (e : Env) {v d w : String} (h : w ≠ v) : withOption e v d w = e w := by simp [withOption, h]

theorem options_run (ex : String → Bool) (s : State) : ∃ t, options.run ex s = some t ∧ t.log = s.log ∧
    (∀ p ∈ [("DIAG", "OFF"), ("AVX", "OFF"), ("AVX2", "OFF"), ("FMA", "OFF"), ("USERFLAGS", "OFF"), ("SSE", "ON"), ("NEON", "OFF"),
      ("BUILD_SHARED_LIBS", "ON"), ("PRELOAD", "OFF"), ("USE_VC", "OFF"), ("DEBUG", "OFF")],
      t.env p.1 = some ((s.env p.1).getD p.2)) ∧
    ∀ v, v ∉ ["DIAG", "AVX", "AVX2", "FMA", "USERFLAGS", "SSE", "NEON", "BUILD_SHARED_LIBS", "PRELOAD", "USE_VC", "DEBUG"] →
      t.env v = s.env v := by
  simp only [options, run_seq, run_option, Option.bind_some]
  refine ⟨_, rfl, rfl, ?_, ?_⟩
  · simp only [List.forall_mem_cons, List.not_mem_nil, false_imp_iff, implies_true, and_true]
    simp only [withOption_same, withOption_ne, ne_eq, String.reduceEq, not_false_eq_true, and_true]
  · intro v hv
    simp only [List.mem_cons, not_or, List.not_mem_nil, not_false_eq_true, and_true] at hv
    simp only [withOption_ne, ne_eq, hv, not_false_eq_true]

/-- Compilers for which the configuration stops. -/
def tooOld (e : Env) : Bool :=
  let id := (e "CMAKE_CXX_COMPILER_ID").getD ""
  let old (w : String) := verBelow (verNumbers 0 ((e "CMAKE_CXX_COMPILER_VERSION").getD "CMAKE_CXX_COMPILER_VERSION").toList)
    (verNumbers 0 w.toList)
  (id == "GNU" && old "4.8") || (id == "AppleClang" && old "5.0") || (id == "Clang" && old "3.3") || (id == "Intel" && old "15.0")

def isClang (e : Env) : Bool := (e "CMAKE_CXX_COMPILER_ID").getD "" == "AppleClang" || (e "CMAKE_CXX_COMPILER_ID").getD "" == "Clang"

theorem check_run (ex : String → Bool) (s : State) :
    check.run ex s = if tooOld s.env then none
      else some (if isClang s.env then ⟨assign s.env "COMP_IS_CLANG" "TRUE", s.log⟩ else s) := by
  unfold check tooOld isClang
  generalize hi : (s.env "CMAKE_CXX_COMPILER_ID").getD "" = id
  have hc : ∀ w, (compiler w).eval ex s.env = (id == w) := by
    intro w; simp [compiler, Cond.eval, expand, hi]
  have ho : ∀ w, (older w).eval ex s.env = verBelow (verNumbers 0 ((s.env "CMAKE_CXX_COMPILER_VERSION").getD
      "CMAKE_CXX_COMPILER_VERSION").toList) (verNumbers 0 w.toList) := by
    intro w; rfl
  simp only [Cmd.run, hc, run_when, ho]
  generalize (s.env "CMAKE_CXX_COMPILER_VERSION").getD "CMAKE_CXX_COMPILER_VERSION" = ver
  by_cases h1 : id = "GNU"
  · subst h1
    simp only [beq_self_eq_true, if_true, Bool.true_and, String.reduceBEq, Bool.false_and, Bool.or_false, Bool.false_eq_true, if_false]
    split <;> simp
  by_cases h2 : id = "AppleClang"
  · subst h2
    simp only [beq_self_eq_true, if_true, Bool.true_and, String.reduceBEq, Bool.false_and, Bool.or_false, Bool.false_eq_true, if_false,
      Bool.false_or, Bool.true_or]
    split <;> simp [expand]
  by_cases h3 : id = "Clang"
  · subst h3
    simp only [beq_self_eq_true, if_true, Bool.true_and, String.reduceBEq, Bool.false_and, Bool.or_false, Bool.false_eq_true, if_false,
      Bool.false_or, Bool.or_true]
    split <;> simp [expand]
  by_cases h4 : id = "Intel"
  · subst h4
    simp only [beq_self_eq_true, if_true, Bool.true_and, String.reduceBEq, Bool.false_and, Bool.or_false, Bool.false_eq_true, if_false,
      Bool.false_or, Bool.or_true]
    split <;> simp
  simp [h1, h2, h3, h4]

/-- The instruction set that the options ask for. -/
def packed (e : Env) : String :=
  if on e "NEON" then "-mfpu=neon " else if on e "AVX2" then "-mavx2" else if on e "AVX" then "-mavx"
  else if on e "SSE" then "-msse" else ""

theorem simd_run (ex : String → Bool) (s : State) (h1 : s.env "PACKED_INSTR" = none) (h2 : s.env "FMA_INSTR" = none)
    (h3 : s.env "CMAKE_COMPILER_IS_ICC" = none) : ∃ t, simd.run ex s = some t ∧ t.log = s.log ∧
    (t.env "PACKED_INSTR").getD "" = packed s.env ∧
    (t.env "FMA_INSTR").getD "" = (if on s.env "FMA" && !on s.env "NEON" then "-mfma" else "") ∧
    ∀ v, v ∉ ["PACKED_INSTR", "FMA_INSTR"] → t.env v = s.env v := by
  have e1 := fun e => on_eval ex e "NEON" (by decide)
  have e2 := fun e => on_eval ex e "SSE" (by decide)
  have e3 := fun e => on_eval ex e "AVX" (by decide)
  have e4 := fun e => on_eval ex e "AVX2" (by decide)
  have e5 := fun e => on_eval ex e "FMA" (by decide)
  have e6 := fun e => on_eval ex e "CMAKE_COMPILER_IS_ICC" (by decide)
  have h6 : on s.env "CMAKE_COMPILER_IS_ICC" = false := by unfold on; rw [h3]; decide
  unfold simd packed
  rw [Cmd.run, e1]
  cases n1 : on s.env "NEON"
  · cases n2 : on s.env "AVX2" <;> cases n3 : on s.env "AVX" <;> cases n4 : on s.env "SSE" <;> cases n5 : on s.env "FMA" <;>
    · simp only [run_seq, run_set_lit, run_when, Cond.eval, Option.bind_some, e2, e3, e4, e5, e6, on_assign_ne, ne_eq, String.reduceEq,
        not_false_eq_true, n2, n3, n4, n5, h6, Bool.false_eq_true, if_false, if_true, Bool.not_true, Bool.not_false, Bool.and_true,
        Bool.and_false, Bool.or_true, Bool.or_false]
      refine ⟨_, rfl, rfl, ?_⟩
      simp only [assign_ne, assign_same, ne_eq, String.reduceEq, not_false_eq_true, h1, h2, Option.getD_none, Option.getD_some, true_and]
      intro v hv
      simp only [List.mem_cons, not_or, List.not_mem_nil, not_false_eq_true, and_true] at hv
      simp only [assign_ne, ne_eq, hv, not_false_eq_true]
  · rw [if_pos rfl, run_set_lit]
    refine ⟨_, rfl, rfl, ?_⟩
    simp only [assign_ne, assign_same, ne_eq, String.reduceEq, not_false_eq_true, h2, Option.getD_none, Option.getD_some, true_and,
      if_true, Bool.not_true, Bool.and_false, Bool.false_eq_true, if_false]
    intro v hv
    simp only [List.mem_cons, not_or, List.not_mem_nil, not_false_eq_true, and_true] at hv
    simp only [assign_ne, ne_eq, hv, not_false_eq_true]

theorem svml_run (ex : String → Bool) (s : State) (h : s.env "SVML" = none) : ∃ t, svml.run ex s = some t ∧ t.log = s.log ∧
    t.env "INTEL_SVML_FLAGS" = some "" ∧ ∀ v, v ∉ ["INTEL_SVML_FLAGS"] → t.env v = s.env v := by
  unfold svml
  rw [run_seq, run_set, Option.bind_some, run_when, name_eval ex _ (by decide)]
  simp only [assign, String.reduceEq, if_false, h, Option.getD_none]
  rw [if_neg (by decide)]
  refine ⟨_, rfl, rfl, by simp [expand], ?_⟩
  intro v hv
  simp only [List.mem_singleton] at hv
  simp [assign, hv]

theorem vc_run (ex : String → Bool) (s : State) : ∃ t, vc.run ex s = some t ∧ t.log = s.log ∧
    on t.env "USE_VC" = (on s.env "USE_VC" && ex ((s.env "CMAKE_SOURCE_DIR").getD "" ++ "/Vc/libVc.a") &&
      ex ((s.env "CMAKE_SOURCE_DIR").getD "" ++ "/Vc/include/Vc/Vc")) ∧
    ∀ v, v ∉ ["VC_LIB_NAME", "VC_HEADER_NAME", "USE_VC"] → t.env v = s.env v := by
  unfold vc
  rw [run_when, name_eval ex _ (by decide)]
  have : (!isOff ((s.env "USE_VC").getD "")) = on s.env "USE_VC" := rfl
  rw [this]
  cases h0 : on s.env "USE_VC"
  · exact ⟨s, rfl, rfl, by simp [h0], fun _ _ => rfl⟩
  simp only [if_true, Bool.true_and, run_seq, run_set, Option.bind_some, run_when, Cond.eval, expand, assign, String.reduceEq, if_false,
    String.append_empty, Option.getD_some, reduceIte]
  generalize (s.env "CMAKE_SOURCE_DIR").getD "" = d
  have off0 : (!isOff "0") = false := by decide
  cases h1 : ex (d ++ "/Vc/libVc.a") <;> cases h2 : ex (d ++ "/Vc/include/Vc/Vc") <;>
  · simp only [Bool.not_false, Bool.not_true, Bool.false_eq_true, if_true, if_false, Option.bind_some, String.reduceEq, Option.getD_some,
      String.append_empty, reduceIte, h1, h2, assign]
    refine ⟨_, rfl, rfl, ?_, ?_⟩
    · simp only [on, assign, if_true, Option.getD_some, off0, Bool.and_false, Bool.false_and, Bool.and_self, String.reduceEq, if_false]
      try exact h0
    · intro v hv
      simp only [List.mem_cons, not_or, List.not_mem_nil, not_false_eq_true, and_true] at hv
      simp [assign, hv]

theorem diag_run (ex : String → Bool) (s : State) : ∃ t, diag.run ex s = some t ∧ t.log = s.log ∧
    (s.env "LIBTIMINGAPPLE" = none → on s.env "APPLE" = false → t.env "LIBTIMINGAPPLE" = none) ∧
    ∀ v, v ∉ ["LIBTIMING", "LIBTIMINGAPPLE"] → t.env v = s.env v := by
  unfold diag
  rw [run_when]
  split
  · rw [run_seq, run_set, Option.bind_some, run_when]
    split
    · rename_i h
      refine ⟨_, rfl, rfl, ?_, ?_⟩
      · intro _ h2
        exfalso
        simp only [Cond.eval, name_eval ex _ (show ("APPLE" == "" || isOn "APPLE" || isOff "APPLE") = false by decide)] at h
        simp only [on] at h2
        simp [assign, h2] at h
      · intro v hv
        simp only [List.mem_cons, not_or, List.not_mem_nil, not_false_eq_true, and_true] at hv
        simp [assign, hv]
    · refine ⟨_, rfl, rfl, ?_, ?_⟩
      · intro h1 _; simp [assign, h1]
      · intro v hv
        simp only [List.mem_cons, not_or, List.not_mem_nil, not_false_eq_true, and_true] at hv
        simp [assign, hv]
  · exact ⟨s, rfl, rfl, fun h _ => h, fun _ _ => rfl⟩

theorem opts_run (ex : String → Bool) (s : State) (h1 : s.env "CMAKE_COMPILER_IS_ICC" = none) (h2 : s.env "COMP_IS_GCC" = none)
    (h3 : s.env "COMP_IS_ICC" = none) (clang : Bool) (h4 : s.env "COMP_IS_CLANG" = if clang then some "TRUE" else none)
    (h5 : s.env "DEBUG_FLAGS" = none) :
    ∃ t, opts.run ex s = some t ∧ t.log = s.log ∧ t.env "VECT_OPT" = some "-O3" ∧ t.env "CPP11_OPT" = some "-std=c++11" ∧
    t.env "VERBOSITY_OPT" = some "-Winline" ∧
    t.env "CLANG_INLINE_DEFINE" = some (if clang then "-D__extern_always_inline=inline" else "") ∧
    t.env "WARNING_FLAGS" = some "-W -Wall -Werror -Wno-error=unused-parameter" ∧
    (t.env "DEBUG_FLAGS").getD "" = (if on s.env "DEBUG" then " -g" else "") ∧
    ∀ v, v ∉ ["VECT_OPT", "CPP11_OPT", "VERBOSITY_OPT", "CLANG_INLINE_DEFINE", "WARNING_FLAGS", "DEBUG_FLAGS"] → t.env v = s.env v := by
  have n0 : on s.env "CMAKE_COMPILER_IS_ICC" = false := by unfold on; rw [h1]; decide
  have e1 := fun e => on_eval ex e "CMAKE_COMPILER_IS_ICC" (by decide)
  have e2 := fun e => on_eval ex e "DEBUG" (by decide)
  unfold opts
  cases clang <;> simp only [Bool.false_eq_true, if_false, if_true] at h4 <;> cases n1 : on s.env "DEBUG" <;>
  · simp only [run_seq, run_set_lit, run_set_nil, run_when, Option.bind_some, arg_ref, e1, e2, on_assign_ne, assign_ne, assign_same, ne_eq,
      String.reduceEq, not_false_eq_true, h2, h3, h4, n0, n1, Option.getD_none, Option.getD_some, truth_empty, truth_TRUE,
      Bool.false_eq_true, if_false, if_true]
    refine ⟨_, rfl, rfl, ?_⟩
    simp only [assign_ne, assign_same, ne_eq, String.reduceEq, not_false_eq_true, h5, Option.getD_none, Option.getD_some, true_and]
    intro v hv
    simp only [List.mem_cons, not_or, List.not_mem_nil, not_false_eq_true, and_true] at hv
    simp only [assign_ne, ne_eq, hv, not_false_eq_true]

/-- The common flags. -/
def common (e : Env) : String :=
  (e "CPP11_OPT").getD "" ++ (" " ++ ((e "INTEL_SVML_FLAGS").getD "" ++ (" " ++ ((e "PACKED_INSTR").getD "" ++ (" " ++
    ((e "FMA_INSTR").getD "" ++ (" " ++ ((e "INLINE_OPT").getD "" ++ (" " ++ ((e "WARNING_FLAGS").getD "" ++ (" " ++
    ((e "DEBUG_FLAGS").getD "" ++ (" " ++ (e "CLANG_INLINE_DEFINE").getD "")))))))))))))

theorem flags_run (ex : String → Bool) (s : State) : ∃ t, flags.run ex s = some t ∧ t.log = s.log ∧
    (t.env "LIB_FLAGS").getD "" = (s.env "VERBOSITY_OPT").getD "" ++ (" " ++ ((s.env "VECT_OPT").getD "" ++ (" " ++
      ((s.env "VECTORIZER_VERBOSITY").getD "" ++ (" " ++ (common s.env ++ (if on s.env "USERFLAGS" then
        " " ++ (s.env "USERFLAGS").getD "" else ""))))))) ∧
    (t.env "DIAG_FLAGS").getD "" = (s.env "LIBTIMINGAPPLE").getD "" ++ (" " ++ ((s.env "VECT_OPT").getD "" ++ (" " ++
      (common s.env ++ (if on s.env "USERFLAGS" then " " ++ (s.env "USERFLAGS").getD "" else ""))))) ∧
    ∀ v, v ∉ ["COMMON_FLAGS", "LIB_FLAGS", "DIAG_FLAGS"] → t.env v = s.env v := by
  have e1 := fun e => on_eval ex e "USERFLAGS" (by decide)
  unfold flags
  rw [run_seq, run_set, Option.bind_some]
  have hc : expand s.env [.ref "CPP11_OPT", .lit " ", .ref "INTEL_SVML_FLAGS", .lit " ", .ref "PACKED_INSTR", .lit " ",
    .ref "FMA_INSTR", .lit " ", .ref "INLINE_OPT", .lit " ", .ref "WARNING_FLAGS", .lit " ", .ref "DEBUG_FLAGS", .lit " ",
    .ref "CLANG_INLINE_DEFINE"] = common s.env := by simp only [expand, common, String.append_empty]
  rw [hc]
  generalize common s.env = c
  cases n : on s.env "USERFLAGS" <;>
  · simp only [run_seq, run_set, run_when, Option.bind_some, e1, n, on_assign_ne, ne_eq, String.reduceEq, not_false_eq_true,
      Bool.false_eq_true, if_false, if_true]
    refine ⟨_, rfl, rfl, ?_⟩
    simp only [expand, assign_ne, assign_same, ne_eq, String.reduceEq, not_false_eq_true, Option.getD_some, String.append_empty, true_and]
    intro v hv
    simp only [List.mem_cons, not_or, List.not_mem_nil, not_false_eq_true, and_true] at hv
    simp only [assign_ne, ne_eq, hv, not_false_eq_true]

theorem splitAt_append (sep : Char) (a b acc : Text) :
    splitAt sep acc (a ++ sep :: b) = splitAt sep acc a ++ splitAt sep [] b := by
  induction a generalizing acc with
  | nil => simp [splitAt]
  | cons c t ih =>
    simp only [List.cons_append, splitAt]
    split
    · rw [ih]; rfl
    · exact ih _

theorem words_append (a b : Text) : words (a ++ ' ' :: b) = words a ++ words b := by
  unfold words
  rw [splitAt_append, List.filter_append]

/-- Words of a text. -/
def W (s : String) : List Text := words s.toList

theorem W_append (a b : String) : W (a ++ (" " ++ b)) = W a ++ W b := by
  unfold W
  rw [String.toList_append, String.toList_append]
  exact words_append _ _

/-- The option `v`, whose default is `d`, is on. -/
def wants (e : Env) (v d : String) : Bool := !isOff ((e v).getD d)

/-- The variables that the configuration uses for itself are not defined beforehand. -/
def Untouched (e : Env) : Prop :=
  ∀ v ∈ ["PACKED_INSTR", "FMA_INSTR", "INLINE_OPT", "VECTORIZER_VERBOSITY", "DEBUG_FLAGS", "LIBTIMINGAPPLE", "COMP_IS_GCC",
    "COMP_IS_CLANG", "COMP_IS_ICC", "CMAKE_COMPILER_IS_ICC", "SVML"], e v = none

/-- The flags common to the library and the programs. -/
def wantedFlags (e : Env) : List String :=
  ["-std=c++11"] ++
  (if wants e "NEON" "OFF" then ["-mfpu=neon"] else if wants e "AVX2" "OFF" then ["-mavx2"]
    else if wants e "AVX" "OFF" then ["-mavx"] else if wants e "SSE" "ON" then ["-msse"] else []) ++
  (if wants e "FMA" "OFF" && !wants e "NEON" "OFF" then ["-mfma"] else []) ++
  ["-W", "-Wall", "-Werror", "-Wno-error=unused-parameter"] ++
  (if wants e "DEBUG" "OFF" then ["-g"] else []) ++
  (if e "CMAKE_CXX_COMPILER_ID" = some "AppleClang" ∨ e "CMAKE_CXX_COMPILER_ID" = some "Clang"
    then ["-D__extern_always_inline=inline"] else [])

theorem before_flags (ex : String → Bool) (e : Env) (h : Untouched e) :
    (options ;; check ;; simd ;; svml ;; vc ;; diag ;; opts).run ex ⟨e, []⟩ = none ∧ tooOld e = true ∨
    ∃ t, (options ;; check ;; simd ;; svml ;; vc ;; diag ;; opts).run ex ⟨e, []⟩ = some t ∧ tooOld e = false ∧ t.log = [] ∧
      W (common t.env) = (wantedFlags e).map String.toList ∧ t.env "VERBOSITY_OPT" = some "-Winline" ∧
      t.env "VECT_OPT" = some "-O3" ∧ t.env "VECTORIZER_VERBOSITY" = none ∧
      (on e "APPLE" = false → t.env "LIBTIMINGAPPLE" = none) ∧
      (on t.env "USE_VC" = (wants e "USE_VC" "OFF" && ex ((e "CMAKE_SOURCE_DIR").getD "" ++ "/Vc/libVc.a") &&
        ex ((e "CMAKE_SOURCE_DIR").getD "" ++ "/Vc/include/Vc/Vc"))) ∧
      t.env "USERFLAGS" = some ((e "USERFLAGS").getD "OFF") ∧ t.env "PRELOAD" = some ((e "PRELOAD").getD "OFF") ∧
      t.env "CMAKE_SOURCE_DIR" = e "CMAKE_SOURCE_DIR" ∧ t.env "Python_EXECUTABLE" = e "Python_EXECUTABLE" := by
  unfold Untouched at h
  obtain ⟨t1, r1, l1, o1, u1⟩ := options_run ex ⟨e, []⟩
  simp only [List.forall_mem_cons, List.not_mem_nil, false_imp_iff, implies_true, and_true] at o1 h
  obtain ⟨oDIAG, oAVX, oAVX2, oFMA, oUSER, oSSE, oNEON, oSH, oPRE, oVC, oDEB⟩ := o1
  obtain ⟨hP, hF, hI, hV, hD, hL, hG, hC, hII, hCI, hS⟩ := h
  have ho : tooOld t1.env = tooOld e := by
    unfold tooOld; rw [u1 _ (by decide), u1 _ (by decide)]
  have hcl : isClang t1.env = isClang e := by
    unfold isClang; rw [u1 _ (by decide)]
  rw [run_seq, r1, Option.bind_some, run_seq, check_run, ho, hcl]
  cases hold : tooOld e
  · right
    simp only [Bool.false_eq_true, if_false, Option.bind_some, true_and]
    obtain ⟨t2, et2, l2, c2, u2⟩ : ∃ t2 : State, t2 = (if isClang e = true then ⟨assign t1.env "COMP_IS_CLANG" "TRUE", t1.log⟩ else t1) ∧
        t2.log = t1.log ∧ t2.env "COMP_IS_CLANG" = (if isClang e then some "TRUE" else none) ∧
        ∀ v, v ∉ ["COMP_IS_CLANG"] → t2.env v = t1.env v := by
      refine ⟨_, rfl, ?_, ?_, ?_⟩
      · split <;> rfl
      · split
        · simp
        · rw [u1 _ (by decide)]; exact hC
      · intro v hv
        simp only [List.mem_singleton] at hv
        split
        · simp [assign, hv]
        · rfl
    rw [← et2]
    obtain ⟨t3, r3, l3, p3, f3, u3⟩ := simd_run ex t2 (by rw [u2 _ (by decide), u1 _ (by decide)]; exact hP)
      (by rw [u2 _ (by decide), u1 _ (by decide)]; exact hF) (by rw [u2 _ (by decide), u1 _ (by decide)]; exact hCI)
    rw [run_seq, r3, Option.bind_some]
    obtain ⟨t4, r4, l4, s4, u4⟩ := svml_run ex t3 (by rw [u3 _ (by decide), u2 _ (by decide), u1 _ (by decide)]; exact hS)
    rw [run_seq, r4, Option.bind_some]
    obtain ⟨t5, r5, l5, v5, u5⟩ := vc_run ex t4
    rw [run_seq, r5, Option.bind_some]
    obtain ⟨t6, r6, l6, a6, u6⟩ := diag_run ex t5
    rw [run_seq, r6, Option.bind_some]
    have b6 : ∀ v, v ∉ ["LIBTIMING", "LIBTIMINGAPPLE", "VC_LIB_NAME", "VC_HEADER_NAME", "USE_VC", "INTEL_SVML_FLAGS"] →
        t6.env v = t3.env v := by
      intro v hv
      simp only [List.mem_cons, not_or, List.not_mem_nil, not_false_eq_true, and_true] at hv
      rw [u6 v (by simp [hv]), u5 v (by simp [hv]), u4 v (by simp [hv])]
    have b3 : ∀ v, v ∉ ["COMP_IS_CLANG", "PACKED_INSTR", "FMA_INSTR"] → t3.env v = t1.env v := by
      intro v hv
      simp only [List.mem_cons, not_or, List.not_mem_nil, not_false_eq_true, and_true] at hv
      rw [u3 v (by simp [hv]), u2 v (by simp [hv])]
    obtain ⟨t7, r7, l7, w1, w2, w3, w4, w5, w6, u7⟩ := opts_run ex t6
      (by rw [b6 _ (by decide), b3 _ (by decide), u1 _ (by decide)]; exact hCI)
      (by rw [b6 _ (by decide), b3 _ (by decide), u1 _ (by decide)]; exact hG)
      (by rw [b6 _ (by decide), b3 _ (by decide), u1 _ (by decide)]; exact hII) (isClang e)
      (by rw [b6 _ (by decide), u3 _ (by decide)]; exact c2)
      (by rw [b6 _ (by decide), b3 _ (by decide), u1 _ (by decide)]; exact hD)
    rw [r7]
    refine ⟨t7, rfl, ?_, ?_, w3, w1, ?_, ?_, ?_, ?_, ?_, ?_, ?_⟩
    · rw [l7, l6, l5, l4, l3, l2, l1]
    · have g1 : t7.env "INTEL_SVML_FLAGS" = some "" := by
        rw [u7 _ (by decide), u6 _ (by decide), u5 _ (by decide)]; exact s4
      have g2 : t7.env "INLINE_OPT" = none := by
        rw [u7 _ (by decide), b6 _ (by decide), b3 _ (by decide), u1 _ (by decide)]; exact hI
      have g3 : (t7.env "PACKED_INSTR").getD "" = packed t2.env := by rw [u7 _ (by decide), b6 _ (by decide)]; exact p3
      have g4 : (t7.env "FMA_INSTR").getD "" = (if on t2.env "FMA" && !on t2.env "NEON" then "-mfma" else "") := by
        rw [u7 _ (by decide), b6 _ (by decide)]; exact f3
      have k : ∀ v d, v ≠ "COMP_IS_CLANG" → t1.env v = some ((e v).getD d) → on t2.env v = wants e v d := by
        intro v d hv h1
        unfold on wants; rw [u2 v (by simpa using hv), h1]; rfl
      have k1 := k _ _ (by decide) oNEON
      have k2 := k _ _ (by decide) oAVX2
      have k3 := k _ _ (by decide) oAVX
      have k4 := k _ _ (by decide) oSSE
      have k5 := k _ _ (by decide) oFMA
      have k6 : on t6.env "DEBUG" = wants e "DEBUG" "OFF" := by
        unfold on wants; rw [b6 _ (by decide), b3 _ (by decide), oDEB]; rfl
      have k7 : (if isClang e = true then "-D__extern_always_inline=inline" else "") =
          (if e "CMAKE_CXX_COMPILER_ID" = some "AppleClang" ∨ e "CMAKE_CXX_COMPILER_ID" = some "Clang"
            then "-D__extern_always_inline=inline" else "") := by
        have : isClang e = true ↔ e "CMAKE_CXX_COMPILER_ID" = some "AppleClang" ∨ e "CMAKE_CXX_COMPILER_ID" = some "Clang" := by
          unfold isClang
          cases e "CMAKE_CXX_COMPILER_ID" <;> simp
        simp only [this]
      unfold common wantedFlags
      rw [w2, g1, g2, g3, g4, w5, w6, w4, k6, k5, k1, k7]
      simp only [W_append, Option.getD_some, Option.getD_none]
      unfold packed
      rw [k1, k2, k3, k4]
      have x0 : W "" = [] := by decide
      have x1 : W "-std=c++11" = ["-std=c++11"].map String.toList := by decide
      have x2 : W "-mfpu=neon " = ["-mfpu=neon"].map String.toList := by decide
      have x3 : W "-mavx2" = ["-mavx2"].map String.toList := by decide
      have x4 : W "-mavx" = ["-mavx"].map String.toList := by decide
      have x5 : W "-msse" = ["-msse"].map String.toList := by decide
      have x6 : W "-mfma" = ["-mfma"].map String.toList := by decide
      have x7 : W "-W -Wall -Werror -Wno-error=unused-parameter" =
        ["-W", "-Wall", "-Werror", "-Wno-error=unused-parameter"].map String.toList := by decide
      have x8 : W " -g" = ["-g"].map String.toList := by decide
      have x9 : W "-D__extern_always_inline=inline" = ["-D__extern_always_inline=inline"].map String.toList := by decide
      have xe : ([] : List Text) = ([] : List String).map String.toList := rfl
      simp only [apply_ite W, x0, x1, x2, x3, x4, x5, x6, x7, x8, x9]
      rw [xe]
      simp only [← apply_ite (List.map String.toList), ← List.map_append, List.nil_append, List.append_nil, List.append_assoc]
    · rw [u7 _ (by decide), b6 _ (by decide), b3 _ (by decide), u1 _ (by decide)]; exact hV
    · intro ha
      rw [u7 _ (by decide)]
      refine a6 ?_ ?_
      · rw [u5 _ (by decide), u4 _ (by decide), b3 _ (by decide), u1 _ (by decide)]; exact hL
      · unfold on; rw [u5 _ (by decide), u4 _ (by decide), b3 _ (by decide), u1 _ (by decide)]; exact ha
    · have : on t7.env "USE_VC" = on t5.env "USE_VC" := by unfold on; rw [u7 _ (by decide), u6 _ (by decide)]
      rw [this, v5]
      have c : t4.env "CMAKE_SOURCE_DIR" = e "CMAKE_SOURCE_DIR" := by
        rw [u4 _ (by decide), b3 _ (by decide), u1 _ (by decide)]
      have d : on t4.env "USE_VC" = wants e "USE_VC" "OFF" := by
        unfold on wants; rw [u4 _ (by decide), b3 _ (by decide), oVC]; rfl
      rw [c, d]
    · rw [u7 _ (by decide), b6 _ (by decide), b3 _ (by decide)]; exact oUSER
    · rw [u7 _ (by decide), b6 _ (by decide), b3 _ (by decide)]; exact oPRE
    · rw [u7 _ (by decide), b6 _ (by decide), b3 _ (by decide), u1 _ (by decide)]
    · rw [u7 _ (by decide), b6 _ (by decide), b3 _ (by decide), u1 _ (by decide)]
  · left
    simp

theorem dirs_run (ex : String → Bool) (s : State) : ∃ t, dirs.run ex s = some t ∧ t.log = s.log ∧
    t.env "SRC_DIR" = some ((s.env "CMAKE_SOURCE_DIR").getD "" ++ "/src") ∧
    ∀ v, v ∉ ["SRC_DIR", "LIB_DIR", "INC_DIR"] → t.env v = s.env v := by
  unfold dirs
  simp only [run_seq, run_set, Option.bind_some]
  refine ⟨_, rfl, rfl, ?_⟩
  simp only [expand, assign_ne, assign_same, ne_eq, String.reduceEq, not_false_eq_true, String.append_empty, true_and]
  intro v hv
  simp only [List.mem_cons, not_or, List.not_mem_nil, not_false_eq_true, and_true] at hv
  simp only [assign_ne, ne_eq, hv, not_false_eq_true]

/-- The line that runs the generator. -/
def genLine (py dir : String) (preload : Bool) : String :=
  "cd src;" ++ (py ++ (" " ++ (dir ++ ("/src/signatures_generator.py " ++ ((if preload then " -p" else " ") ++ (" -o " ++
    (dir ++ "/src;cd -")))))))

theorem src_run (ex : String → Bool) (s : State) : ∃ t, src.run ex s = some t ∧
    t.log = s.log ++ genLine ((s.env "Python_EXECUTABLE").getD "") ((s.env "CMAKE_SOURCE_DIR").getD "") (on s.env "PRELOAD") ::
      (if on s.env "USE_VC" then ["cd src;" ++ ((s.env "Python_EXECUTABLE").getD "" ++ " vc_wrapper_generator.py;cd -")] else []) ∧
    ∀ v, v ∉ ["SIGGENOPTS"] → t.env v = s.env v := by
  have e1 := fun e => on_eval ex e "PRELOAD" (by decide)
  have e2 := fun e => on_eval ex e "USE_VC" (by decide)
  have re : ∀ (t : List Piece) (s : State), (Cmd.exec t).run ex s = some ⟨s.env, s.log ++ [expand s.env t]⟩ := fun _ _ => rfl
  have ri : ∀ (c : Cond) (a b : Cmd) (s : State), (Cmd.ite c a b).run ex s = if c.eval ex s.env then a.run ex s else b.run ex s :=
    fun _ _ _ _ => rfl
  unfold src genLine
  cases n1 : on s.env "PRELOAD" <;> cases n2 : on s.env "USE_VC" <;>
  · simp only [run_seq, run_set_lit, ri, re, run_when, e1, e2, n1, n2, on_assign_ne, ne_eq, String.reduceEq, not_false_eq_true,
      Bool.false_eq_true, if_false, if_true, Option.bind_some]
    refine ⟨_, rfl, ?_⟩
    simp only [expand, assign_ne, assign_same, ne_eq, String.reduceEq, not_false_eq_true, String.append_empty, Option.getD_some,
      List.append_assoc, List.cons_append, List.nil_append, true_and]
    intro v hv
    simp only [List.mem_singleton] at hv
    simp only [assign_ne, ne_eq, hv, not_false_eq_true]

theorem configure_run (ex : String → Bool) (e : Env) (h : Untouched e) :
    configure.run ex ⟨e, []⟩ = none ∧ tooOld e = true ∨
    ∃ t, configure.run ex ⟨e, []⟩ = some t ∧ tooOld e = false ∧
      words (libFlags t.env).toList = (["-Winline", "-O3"] ++ wantedFlags e).map String.toList ++
        (if wants e "USERFLAGS" "OFF" then words ((e "USERFLAGS").getD "").toList else []) ∧
      (on e "APPLE" = false → words (progFlags t.env).toList = (["-O3"] ++ wantedFlags e).map String.toList ++
        (if wants e "USERFLAGS" "OFF" then words ((e "USERFLAGS").getD "").toList else [])) ∧
      vcAvailable t.env = (wants e "USE_VC" "OFF" && ex ((e "CMAKE_SOURCE_DIR").getD "" ++ "/Vc/libVc.a") &&
        ex ((e "CMAKE_SOURCE_DIR").getD "" ++ "/Vc/include/Vc/Vc")) ∧
      libSource t.env = (e "CMAKE_SOURCE_DIR").getD "" ++ "/src/vdtMath_signatures.cc" ∧
      t.log.head? = some (genLine ((e "Python_EXECUTABLE").getD "") ((e "CMAKE_SOURCE_DIR").getD "") (wants e "PRELOAD" "OFF")) := by
  have hc : configure.run ex ⟨e, []⟩ =
      ((options ;; check ;; simd ;; svml ;; vc ;; diag ;; opts).run ex ⟨e, []⟩).bind ((flags ;; dirs ;; src).run ex) := by
    have r : ∀ a b, (fun s => (a ;; b).run ex s) = fun s => (a.run ex s).bind (b.run ex) := fun _ _ => rfl
    simp only [configure, run_seq, Option.bind_assoc]
    rfl
  rw [hc]
  rcases before_flags ex e h with ⟨h1, h2⟩ | ⟨t, r, ho, hl, hw, v1, v2, v3, v4, v5, v6, v7, v8, v9⟩
  · left; rw [h1]; exact ⟨rfl, h2⟩
  right
  rw [r, Option.bind_some, run_seq]
  obtain ⟨t1, r1, l1, f1, d1, u1⟩ := flags_run ex t
  obtain ⟨t2, r2, l2, s2, u2⟩ := dirs_run ex t1
  obtain ⟨t3, r3, l3, u3⟩ := src_run ex t2
  rw [r1, Option.bind_some, run_seq, r2, Option.bind_some, r3]
  have huser : on t.env "USERFLAGS" = wants e "USERFLAGS" "OFF" := by unfold on wants; rw [v6]; rfl
  have hoff : wants e "USERFLAGS" "OFF" = true → (e "USERFLAGS").getD "OFF" = (e "USERFLAGS").getD "" := by
    intro hw
    cases hu : e "USERFLAGS" with
    | some x => rfl
    | none => exfalso; unfold wants at hw; rw [hu] at hw; revert hw; decide
  have x1 : W "-Winline" = ["-Winline"].map String.toList := by decide
  have x2 : W "-O3" = ["-O3"].map String.toList := by decide
  have x0 : W "" = [] := by decide
  have tail : W (common t.env ++ (if on t.env "USERFLAGS" then " " ++ (t.env "USERFLAGS").getD "" else "")) =
      (wantedFlags e).map String.toList ++ (if wants e "USERFLAGS" "OFF" then words ((e "USERFLAGS").getD "").toList else []) := by
    rw [huser]
    split
    · rename_i hu
      rw [W_append, hw, v6, Option.getD_some, hoff hu]; rfl
    · rw [String.append_empty, hw, List.append_nil]
  refine ⟨t3, rfl, ho, ?_, ?_, ?_, ?_, ?_⟩
  · unfold libFlags
    have : expand t3.env [Piece.ref "LIB_FLAGS"] = (t1.env "LIB_FLAGS").getD "" := by
      rw [expand, expand, String.append_empty, u3 _ (by decide), u2 _ (by decide)]
    rw [this, f1, v1, v2, v3]
    change W _ = _
    simp only [Option.getD_some, Option.getD_none]
    rw [W_append, W_append, W_append, tail, x1, x2, x0]
    simp
  · intro ha
    unfold progFlags
    have : expand t3.env [Piece.ref "DIAG_FLAGS"] = (t1.env "DIAG_FLAGS").getD "" := by
      rw [expand, expand, String.append_empty, u3 _ (by decide), u2 _ (by decide)]
    rw [this, d1, v2, v4 ha]
    change W _ = _
    simp only [Option.getD_some, Option.getD_none]
    rw [W_append, W_append, tail, x2, x0]
    simp
  · unfold vcAvailable
    rw [u3 _ (by decide), u2 _ (by decide), u1 _ (by decide)]
    exact v5
  · unfold libSource
    rw [expand, expand, expand, String.append_empty, u3 _ (by decide), s2, u1 _ (by decide), v8]
    simp only [Option.getD_some, String.append_assoc]
    rfl
  · have hp : on t2.env "PRELOAD" = wants e "PRELOAD" "OFF" := by
      unfold on wants; rw [u2 _ (by decide), u1 _ (by decide), v7]; rfl
    rw [l3, l2, l1, hl, hp, u2 "Python_EXECUTABLE" (by decide), u1 "Python_EXECUTABLE" (by decide), v9,
      u2 "CMAKE_SOURCE_DIR" (by decide), u1 "CMAKE_SOURCE_DIR" (by decide), v8]
    rfl

end Vdt.Build
