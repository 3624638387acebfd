import Verif.Model.Generate
import Mathlib.Data.List.Perm.Basic
import Mathlib.Data.List.Nodup

/-!
# The generated sources (C41, C53)

The statements read the generated text: small readers take the definitions apart into name, parameters and body,
and the result is compared with tables written down from the headers and from the documentation.
-/

namespace Vdt.Gen
open Vdt.Txt (Text)

/-! ## Reading C text -/

/-- The text behind each occurrence of `pat`. -/
def behindAll (pat : Text) : Text → List Text
  | [] => []
  | c :: t => if pat.isPrefixOf (c :: t) then (c :: t).drop pat.length :: behindAll pat t else behindAll pat t

/-- The text before the first `c`. -/
def upTo (c : Char) (t : Text) : Text := t.takeWhile (· != c)

/-- The text behind the first `c`. -/
def behind (c : Char) (t : Text) : Text := (t.dropWhile (· != c)).drop 1

/-- The lines of a text. -/
def linesOf (t : Text) : List Text :=
  t.foldr (fun c ls => if c == '\n' then [] :: ls else match ls with | [] => [[c]] | l :: r => (c :: l) :: r) [[]]

inductive Prec
  | double | float
  deriving DecidableEq

def Prec.text : Prec → Text
  | .double => "double".toList
  | .float => "float".toList

/-- A function definition found in a C text. -/
structure CDef where
  result : Text
  name : Text
  params : Text
  body : Text
  deriving DecidableEq

/-- Reads `result name(params){body}`, where the body contains no closing brace. -/
def readDef (t : Text) : CDef :=
  ⟨upTo ' ' t, upTo '(' (behind ' ' t), upTo ')' (behind '(' t), upTo '}' (behind '{' t)⟩

/-! ## C41 -/

/-- An array function declared in a header: its name, its precision, whether it takes two arrays, and the
scalar function it applies. -/
structure Declared where
  name : Text
  prec : Prec
  two : Bool
  scalar : Text
  deriving DecidableEq

/-- The declarations of the headers. -/
def declared : List Declared := [
  -- include/asin.h:217-225
  ⟨"asinv".toList, .double, false, "asin".toList⟩,
  ⟨"fast_asinv".toList, .double, false, "fast_asin".toList⟩,
  ⟨"asinfv".toList, .float, false, "asinf".toList⟩,
  ⟨"fast_asinfv".toList, .float, false, "fast_asinf".toList⟩,
  ⟨"acosv".toList, .double, false, "acos".toList⟩,
  ⟨"fast_acosv".toList, .double, false, "fast_acos".toList⟩,
  ⟨"acosfv".toList, .float, false, "acosf".toList⟩,
  ⟨"fast_acosfv".toList, .float, false, "fast_acosf".toList⟩,
  -- include/atan.h:162-165
  ⟨"atanv".toList, .double, false, "atan".toList⟩,
  ⟨"fast_atanv".toList, .double, false, "fast_atan".toList⟩,
  ⟨"atanfv".toList, .float, false, "atanf".toList⟩,
  ⟨"fast_atanfv".toList, .float, false, "fast_atanf".toList⟩,
  -- include/atan2.h:141-144
  ⟨"atan2v".toList, .double, true, "atan2".toList⟩,
  ⟨"fast_atan2v".toList, .double, true, "fast_atan2".toList⟩,
  ⟨"atan2fv".toList, .float, true, "atan2f".toList⟩,
  ⟨"fast_atan2fv".toList, .float, true, "fast_atan2f".toList⟩,
  -- include/cos.h:29-32
  ⟨"cosv".toList, .double, false, "cos".toList⟩,
  ⟨"fast_cosv".toList, .double, false, "fast_cos".toList⟩,
  ⟨"cosfv".toList, .float, false, "cosf".toList⟩,
  ⟨"fast_cosfv".toList, .float, false, "fast_cosf".toList⟩,
  -- include/exp.h:155-158
  ⟨"expv".toList, .double, false, "exp".toList⟩,
  ⟨"fast_expv".toList, .double, false, "fast_exp".toList⟩,
  ⟨"expfv".toList, .float, false, "expf".toList⟩,
  ⟨"fast_expfv".toList, .float, false, "fast_expf".toList⟩,
  -- include/identity.h:41-44
  ⟨"identityv".toList, .double, false, "identity".toList⟩,
  ⟨"identityfv".toList, .float, false, "identityf".toList⟩,
  ⟨"identity2Dv".toList, .double, true, "identity2D".toList⟩,
  ⟨"identity2Dfv".toList, .float, true, "identity2Df".toList⟩,
  -- include/inv.h:90-95
  ⟨"invv".toList, .double, false, "inv".toList⟩,
  ⟨"fast_invv".toList, .double, false, "fast_inv".toList⟩,
  ⟨"fast_approx_invv".toList, .double, false, "fast_approx_inv".toList⟩,
  ⟨"invfv".toList, .float, false, "invf".toList⟩,
  ⟨"fast_invfv".toList, .float, false, "fast_invf".toList⟩,
  ⟨"fast_approx_invfv".toList, .float, false, "fast_approx_invf".toList⟩,
  -- include/log.h:205-208
  ⟨"logv".toList, .double, false, "log".toList⟩,
  ⟨"fast_logv".toList, .double, false, "fast_log".toList⟩,
  ⟨"logfv".toList, .float, false, "logf".toList⟩,
  ⟨"fast_logfv".toList, .float, false, "fast_logf".toList⟩,
  -- include/sin.h:44-47
  ⟨"sinv".toList, .double, false, "sin".toList⟩,
  ⟨"fast_sinv".toList, .double, false, "fast_sin".toList⟩,
  ⟨"sinfv".toList, .float, false, "sinf".toList⟩,
  ⟨"fast_sinfv".toList, .float, false, "fast_sinf".toList⟩,
  -- include/sqrt.h:97-102
  ⟨"isqrtv".toList, .double, false, "isqrt".toList⟩,
  ⟨"fast_isqrtv".toList, .double, false, "fast_isqrt".toList⟩,
  ⟨"fast_approx_isqrtv".toList, .double, false, "fast_approx_isqrt".toList⟩,
  ⟨"isqrtfv".toList, .float, false, "isqrtf".toList⟩,
  ⟨"fast_isqrtfv".toList, .float, false, "fast_isqrtf".toList⟩,
  ⟨"fast_approx_isqrtfv".toList, .float, false, "fast_approx_isqrtf".toList⟩,
  -- include/tan.h:166-169
  ⟨"tanv".toList, .double, false, "tan".toList⟩,
  ⟨"fast_tanv".toList, .double, false, "fast_tan".toList⟩,
  ⟨"tanfv".toList, .float, false, "tanf".toList⟩,
  ⟨"fast_tanfv".toList, .float, false, "fast_tanf".toList⟩,
  -- include/tanh.h:75-78
  ⟨"tanhv".toList, .double, false, "tanh".toList⟩,
  ⟨"fast_tanhv".toList, .double, false, "fast_tanh".toList⟩,
  ⟨"tanhfv".toList, .float, false, "tanhf".toList⟩,
  ⟨"fast_tanhfv".toList, .float, false, "fast_tanhf".toList⟩]

/-- The definition that belongs to a declaration. -/
def Declared.definition (d : Declared) : CDef where
  result := "void".toList
  name := d.name
  params :=
    if d.two then
      match d.prec with
      | .double => "const uint32_t size, double const * __restrict__ iarray1, double const * __restrict__ iarray2, double* __restrict__ oarray".toList
      | .float => "const uint32_t size, float const * __restrict__ iarray1, float const * __restrict__ iarray2, float* __restrict__ oarray".toList
    else
      match d.prec with
      | .double => "const uint32_t size, double const * __restrict__ iarray, double* __restrict__ oarray".toList
      | .float => "const uint32_t size, float const * __restrict__ iarray, float* __restrict__ oarray".toList
  body := "\n  for (uint32_t i=0;i<size;++i)\n    oarray[i]=".toList ++ d.scalar ++
    (if d.two then "(iarray1[i],iarray2[i]);\n".toList else "(iarray[i]);\n".toList)

/-- The pieces of a text that end with a closing brace, and what remains behind the last one. -/
def chunks : Text → List Text
  | [] => [[]]
  | c :: t => if c = '}' then [] :: chunks t else match chunks t with | [] => [[c]] | l :: r => (c :: l) :: r

/-- A piece that is the definition of a function without result. -/
def readVoid (c : Text) : Option CDef :=
  if "void ".toList.isPrefixOf (c.dropWhile (· == '\n')) then some (readDef (c.dropWhile (· == '\n'))) else none

/-- All definitions of functions without result in a text. -/
def voidDefs (t : Text) : List CDef := (chunks t).filterMap readVoid

theorem chunks_ne (t : Text) : chunks t ≠ [] := by
  cases t with
  | nil => simp [chunks]
  | cons c t => unfold chunks; split <;> [simp; (split <;> simp)]

theorem chunks_append {a : Text} (h : '}' ∉ a) (b : Text) : chunks (a ++ '}' :: b) = a :: chunks b := by
  induction a with
  | nil => simp [chunks]
  | cons c a ih =>
    rw [List.mem_cons, not_or] at h
    rw [List.cons_append, chunks, if_neg (fun e => h.1 e.symm), ih h.2]

theorem voidDefs_append {a : Text} (h : '}' ∉ a) (b : Text) :
    voidDefs (a ++ '}' :: b) = (readVoid a).toList ++ voidDefs b := by
  unfold voidDefs
  rw [chunks_append h, List.filterMap_cons]
  cases readVoid a <;> rfl

theorem readVoid_newlines (c : Text) : readVoid ('\n' :: '\n' :: c) = readVoid c := by
  simp [readVoid, List.dropWhile]

/-- Definitions that follow each other, separated by blank lines, are all found. -/
theorem voidDefs_pieces {α : Type} (piece : α → Text) (D : α → CDef) (l : List α)
    (h : ∀ a ∈ l, piece a = upTo '}' (piece a) ++ "}\n\n".toList ∧ readVoid (upTo '}' (piece a)) = some (D a))
    (tail : Text) : 
    voidDefs (l.flatMap piece ++ '}' :: tail) = l.map D ++ voidDefs tail ∧
    voidDefs ('\n' :: '\n' :: (l.flatMap piece ++ '}' :: tail)) = l.map D ++ voidDefs tail := by
  induction l with
  | nil =>
    have e : readVoid ['\n', '\n'] = none := by decide
    refine ⟨?_, ?_⟩
    · have := voidDefs_append (a := []) (by simp) tail
      simpa [show readVoid [] = none by decide] using this
    · have := voidDefs_append (a := ['\n', '\n']) (by decide) tail
      simpa [e] using this
  | cons x l ih =>
    obtain ⟨h1, h2⟩ := h x (by simp)
    have ih := (ih fun a ha => h a (by simp [ha])).2
    have hn : '}' ∉ upTo '}' (piece x) := by
      unfold upTo
      induction piece x with
      | nil => simp
      | cons c t ih =>
        rw [List.takeWhile_cons]
        split
        · rename_i hc
          rw [List.mem_cons, not_or]
          exact ⟨fun e => by simp [← e] at hc, ih⟩
        · simp
    have e : (x :: l).flatMap piece ++ '}' :: tail
        = upTo '}' (piece x) ++ '}' :: '\n' :: '\n' :: (l.flatMap piece ++ '}' :: tail) := by
      generalize upTo '}' (piece x) = c at h1
      rw [List.flatMap_cons, h1]
      simp
    refine ⟨?_, ?_⟩
    · rw [e, voidDefs_append hn, ih, h2]; rfl
    · rw [e]
      have := voidDefs_append (a := '\n' :: '\n' :: upTo '}' (piece x)) (by simp [hn])
        ('\n' :: '\n' :: (l.flatMap piece ++ '}' :: tail))
      rw [List.cons_append, List.cons_append] at this
      rw [this, ih, readVoid_newlines, h2]; rfl

/-- Name and precision of the array functions in the order of the generator. -/
def pairs : List (Bool × Text) := [true, false].flatMap fun d => (sorted FUNCTIONS_LIST).map fun n => (d, n)

def declOf (p : Bool × Text) : Declared :=
  (declared.find? fun d => d.name = p.2 ++ (if p.1 then "v".toList else "fv".toList)).getD ⟨[], .double, false, []⟩

theorem pieces_ok : ∀ p ∈ pairs,
    create_vector_signature p.2 p.1 true = upTo '}' (create_vector_signature p.2 p.1 true) ++ "}\n\n".toList ∧
    readVoid (upTo '}' (create_vector_signature p.2 p.1 true)) = some (declOf p).definition := by
  decide +kernel

theorem pairs_perm : (pairs.map declOf).Perm declared := by decide +kernel

theorem names_nodup : (declared.map Declared.name).Nodup := by decide +kernel

theorem preload_no_void : voidDefs (" // end of vdt namespace\n".toList ++ create_preload_signatures) = [] := by
  decide +kernel

theorem signatures_eq : create_vector_signatures true
    = "namespace vdt{\n".toList ++ (pairs.flatMap (fun p => create_vector_signature p.2 p.1 true) ++ '}' :: " // end of vdt namespace".toList) := by
  unfold create_vector_signatures pairs
  simp [List.flatMap_map, List.flatMap_cons]

/-- The text in front of the first definition. -/
def preamble : Text := "// Automatically generated\n#include \"vdtMath.h\"\nnamespace vdt{\n".toList

/-- The definitions in the order of the generator. -/
def allPieces : Text := pairs.flatMap fun p => create_vector_signature p.2 p.1 true

theorem no_preload_no_void : voidDefs (" // end of vdt namespace\n".toList ++ []) = [] := by decide +kernel

theorem preamble_eq : preamble = "// Automatically generated\n".toList ++ ("#include \"vdtMath.h\"\n".toList ++ "namespace vdt{\n".toList) := by
  decide

theorem end_eq : " // end of vdt namespace\n".toList = " // end of vdt namespace".toList ++ "\n".toList := by decide

theorem rearrange (a b c d e x y : Text) :
    (a ++ b ++ (c ++ (x ++ '}' :: d)) ++ e) ++ y = (a ++ (b ++ c)) ++ (x ++ '}' :: ((d ++ e) ++ y)) := by
  simp

theorem impl_eq (y : Text) : get_impl_file ++ y
    = preamble ++ (allPieces ++ '}' :: (" // end of vdt namespace\n".toList ++ y)) := by
  rw [preamble_eq, end_eq]
  refine Eq.trans ?_ (rearrange _ _ _ _ _ _ _)
  exact congrArg (fun z => ("// Automatically generated\n".toList ++ "#include \"vdtMath.h\"\n".toList ++ z ++ "\n".toList) ++ y)
    signatures_eq

theorem impl_eq_false : create_impl false = preamble ++ (allPieces ++ '}' :: (" // end of vdt namespace\n".toList ++ [])) :=
  impl_eq []

theorem impl_eq_true : create_impl true
    = preamble ++ (allPieces ++ '}' :: (" // end of vdt namespace\n".toList ++ create_preload_signatures)) :=
  impl_eq _

/-- **C41.** The generated library source consists of a preamble that opens the namespace, and then defines
every array function declared in the headers, each exactly once, as the loop that applies the scalar function of the
same name and precision to every element; it defines no other function without result. -/
theorem C41_array_functions (preload : Bool) :
    ∃ body, create_impl preload = preamble ++ body ∧
    (voidDefs body).Perm (declared.map Declared.definition) ∧
    (declared.map Declared.name).Nodup ∧
    (∀ d ∈ declared, d.name = d.scalar ++ ['v']) := by
  obtain ⟨tail, h1, h2⟩ : ∃ tail, create_impl preload = preamble ++ (allPieces ++ '}' :: tail) ∧ voidDefs tail = [] := by
    cases preload
    · exact ⟨_, impl_eq_false, no_preload_no_void⟩
    · exact ⟨_, impl_eq_true, preload_no_void⟩
  refine ⟨_, h1, ?_, names_nodup, by decide +kernel⟩
  rw [allPieces, (voidDefs_pieces _ (fun p => (declOf p).definition) pairs pieces_ok tail).1, h2, List.append_nil]
  have := pairs_perm.map Declared.definition
  rwa [List.map_map] at this

example : (⟨"fast_atan2fv".toList, .float, true, "fast_atan2f".toList⟩ : Declared) ∈ declared := by decide +kernel
example : declared.length = 56 := by decide +kernel

/-! ## C53 -/

/-- A function of the C library that the preload library replaces. -/
structure Replaced where
  prec : Prec
  name : Text
  two : Bool
  callee : Text
  deriving DecidableEq

/-- The replaced functions: `f(double)`, `ff(float)` and the C++ overload `f(float)`. -/
def replaced : List Replaced := [
  ⟨.double, "asin".toList, false, "vdt::fast_asin".toList⟩, ⟨.float, "asinf".toList, false, "vdt::fast_asinf".toList⟩,
  ⟨.float, "asin".toList, false, "vdt::fast_asinf".toList⟩,
  ⟨.double, "acos".toList, false, "vdt::fast_acos".toList⟩, ⟨.float, "acosf".toList, false, "vdt::fast_acosf".toList⟩,
  ⟨.float, "acos".toList, false, "vdt::fast_acosf".toList⟩,
  ⟨.double, "atan".toList, false, "vdt::fast_atan".toList⟩, ⟨.float, "atanf".toList, false, "vdt::fast_atanf".toList⟩,
  ⟨.float, "atan".toList, false, "vdt::fast_atanf".toList⟩,
  ⟨.double, "atan2".toList, true, "vdt::fast_atan2".toList⟩, ⟨.float, "atan2f".toList, true, "vdt::fast_atan2f".toList⟩,
  ⟨.float, "atan2".toList, true, "vdt::fast_atan2f".toList⟩,
  ⟨.double, "cos".toList, false, "vdt::fast_cos".toList⟩, ⟨.float, "cosf".toList, false, "vdt::fast_cosf".toList⟩,
  ⟨.float, "cos".toList, false, "vdt::fast_cosf".toList⟩,
  ⟨.double, "exp".toList, false, "vdt::fast_exp".toList⟩, ⟨.float, "expf".toList, false, "vdt::fast_expf".toList⟩,
  ⟨.float, "exp".toList, false, "vdt::fast_expf".toList⟩,
  ⟨.double, "log".toList, false, "vdt::fast_log".toList⟩, ⟨.float, "logf".toList, false, "vdt::fast_logf".toList⟩,
  ⟨.float, "log".toList, false, "vdt::fast_logf".toList⟩,
  ⟨.double, "sin".toList, false, "vdt::fast_sin".toList⟩, ⟨.float, "sinf".toList, false, "vdt::fast_sinf".toList⟩,
  ⟨.float, "sin".toList, false, "vdt::fast_sinf".toList⟩,
  ⟨.double, "tan".toList, false, "vdt::fast_tan".toList⟩, ⟨.float, "tanf".toList, false, "vdt::fast_tanf".toList⟩,
  ⟨.float, "tan".toList, false, "vdt::fast_tanf".toList⟩,
  ⟨.double, "tanh".toList, false, "vdt::fast_tanh".toList⟩, ⟨.float, "tanhf".toList, false, "vdt::fast_tanhf".toList⟩,
  ⟨.float, "tanh".toList, false, "vdt::fast_tanhf".toList⟩]

def Replaced.definition (r : Replaced) : CDef where
  result := r.prec.text
  name := r.name
  params := match r.prec, r.two with
    | .double, true => "double x, double y".toList
    | .double, false => "double x".toList
    | .float, true => "float x, float y".toList
    | .float, false => "float x".toList
  body := "return ".toList ++ r.callee ++ (if r.two then "(x,y);".toList else "(x);".toList)

/-- The definitions in the preload part: every line but comments and blank lines. -/
def preloadDefs : List CDef :=
  ((linesOf create_preload_signatures).filter fun l => !(l.isEmpty || "//".toList.isPrefixOf l)).map readDef

theorem preload_perm : preloadDefs.Perm (replaced.map Replaced.definition) := by decide +kernel

/-- **C53.** With the preload option the library source ends with exactly one replacement of each of the ten libm
functions for each overload, and it calls the fast function of the matching precision; without the option
nothing is added. -/
theorem C53_preload :
    create_impl true = create_impl false ++ create_preload_signatures ∧
    preloadDefs.Perm (replaced.map Replaced.definition) ∧
    (replaced.map fun r => (r.prec, r.name)).Nodup ∧
    replaced.length = 30 := by
  refine ⟨by simp [create_impl], preload_perm, by decide +kernel, by decide +kernel⟩

example : (⟨.float, "sin".toList, false, "vdt::fast_sinf".toList⟩ : Replaced) ∈ replaced := by decide +kernel

end Vdt.Gen
