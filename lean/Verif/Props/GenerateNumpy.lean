import Verif.Props.Generate

/-!
# The generated numpy and Vc wrappers (C54–C57)
-/

namespace Vdt.Gen
open Vdt.Txt (Text)

/-! ## C54 -/

/-- A function of the numpy library: its name, the number of inputs and outputs, and whether its scalar function is
a template (`include/stdwrap.h:9-20`), so that its name is the same in both precisions. -/
structure NpFun where
  base : Text
  ins : Nat
  outs : Nat
  template : Bool
  deriving DecidableEq

/-- The functions of the library: the headers' one-argument functions, `atan2`, `sincos`, and those of `stdwrap.h`. -/
def npFuns : List NpFun := [
  ⟨"asin".toList, 1, 1, false⟩, ⟨"atan".toList, 1, 1, false⟩, ⟨"atan2".toList, 2, 1, false⟩,
  ⟨"cos".toList, 1, 1, false⟩, ⟨"div".toList, 2, 1, true⟩, ⟨"exp".toList, 1, 1, false⟩,
  ⟨"fma".toList, 3, 1, true⟩, ⟨"fmac".toList, 3, 1, true⟩, ⟨"identity".toList, 1, 1, false⟩,
  ⟨"inv".toList, 1, 1, false⟩, ⟨"isqrt".toList, 1, 1, false⟩, ⟨"log".toList, 1, 1, false⟩,
  ⟨"sin".toList, 1, 1, false⟩, ⟨"sincos".toList, 1, 2, false⟩, ⟨"sqrt".toList, 1, 1, true⟩]

def joined (sep : Text) (l : List Text) : Text := (l.intersperse sep).flatten

/-- The names of parameters: the last word of each field between commas. -/
def paramNames (params : Text) : List Text :=
  let fields := params.foldr (fun c ls => if c == ',' then [] :: ls else match ls with | [] => [[c]] | l :: r => (c :: l) :: r) [[]]
  fields.map fun f => (f.reverse.takeWhile (· != ' ')).reverse

/-- Inputs and outputs of a wrapper on numbers and on arrays. -/
def NpFun.inNames (f : NpFun) (vec : Bool) : List Text :=
  if vec then
    (if f.ins = 1 then ["iarray".toList] else (["iarray1".toList, "iarray2".toList, "iarray3".toList].take f.ins))
  else ["x".toList, "y".toList, "z".toList].take f.ins

def NpFun.outNames (f : NpFun) (vec : Bool) : List Text :=
  if f.outs = 2 then (if vec then ["oarray1".toList, "oarray2".toList] else ["o1".toList, "o2".toList])
  else if vec then ["oarray".toList] else []

/-- What a wrapper should be: it passes its parameters on unchanged to the multi-target function of the same
name, which applies the fast function of the right precision, to every element in the array case. -/
structure Wraps (f : NpFun) (prec : Prec) (vec : Bool) (mac : Text) (fat outer : CDef) : Prop where
  name : outer.name = "vdt_".toList ++ f.base ++ (if prec = .float then "f".toList else []) ++ (if vec then "v".toList else [])
  result : outer.result = if vec || f.outs = 2 then "void".toList else prec.text
  params : paramNames outer.params = f.inNames vec ++ f.outNames vec ++ (if vec then ["size".toList] else [])
  types : (behindAll prec.text outer.params).length = f.ins + (if vec || f.outs = 2 then f.outs else 0)
  same_name : fat.name = "fat_".toList ++ outer.name
  same_params : fat.params = outer.params
  macro_used : mac = "FAT".toList ++ outer.name.drop 4
  passes : outer.body = (if vec || f.outs = 2 then [] else "return ".toList) ++ fat.name ++ "(".toList ++
    joined ",".toList (paramNames outer.params) ++ ");".toList
  applies : fat.body =
    let callee := "vdt::fast_".toList ++ f.base ++ (if prec = .float && !f.template then "f".toList else [])
    if vec then
      "for (long i=0;i<size;++i) {".toList ++ (if f.outs = 2 then [] else "oarray[i]=".toList) ++ callee ++ "(".toList ++
        joined ",".toList ((f.inNames true ++ (if f.outs = 2 then f.outNames true else [])).map (· ++ "[i]".toList)) ++ ");".toList
    else
      (if f.outs = 2 then [] else "return ".toList) ++ callee ++ "(".toList ++
        joined ",".toList (f.inNames false ++ (f.outNames false).map ("*".toList ++ ·)) ++ ");".toList

instance (f : NpFun) (p : Prec) (v : Bool) (m : Text) (a b : CDef) : Decidable (Wraps f p v m a b) :=
  decidable_of_iff (_ ∧ _ ∧ _ ∧ _ ∧ _ ∧ _ ∧ _ ∧ _ ∧ _)
    ⟨fun ⟨a, b, c, d, e, f, g, h, i⟩ => ⟨a, b, c, d, e, f, g, h, i⟩,
     fun h => ⟨h.1, h.2, h.3, h.4, h.5, h.6, h.7, h.8, h.9⟩⟩

/-- The definitions in the text of one wrapper: `#define macro fat…{…}`, `FATLIB(result,macro)` and
`extern "C"{…}`. -/
def readWrapper (t : Text) : Text × CDef × Text × CDef :=
  let d := behind ' ' t
  let lib := behind '(' ((behindAll "FATLIB".toList t).headD [])
  (upTo ' ' d, readDef (behind ' ' d |> ("? ".toList ++ ·)), upTo ')' lib,
    readDef ((behindAll "extern \"C\"{".toList t).headD []))

/-- The wrappers in the order of the generator. -/
def npOrder : List (Bool × Bool × Text) :=
  [false, true].flatMap fun v => [true, false].flatMap fun d => (sorted Numpy.FUNCTIONS_LIST).map fun n => (v, d, n)

def precOf (d : Bool) : Prec := if d then .double else .float

theorem wrappers_ok : ∀ f ∈ npFuns, ∀ v ∈ [true, false], ∀ d ∈ [true, false],
    let w := readWrapper (Numpy.create_Wrapper_signature f.base d v true)
    Wraps f (precOf d) v w.1 w.2.1 w.2.2.2 ∧ w.2.2.1 = w.2.2.2.result ++ ",".toList ++ w.1 := by
  decide +kernel

theorem np_perm : (sorted Numpy.FUNCTIONS_LIST).Perm (npFuns.map NpFun.base) := by decide +kernel

/-- **C54.** The generated multi-target library is a sequence of wrappers, one for each of the fifteen functions, each
precision, and numbers and arrays; each passes its parameters on in order and calls the fast function of the
right precision with the right number of arguments. -/
theorem C54_fat_wrappers :
    (∃ l : List (Bool × Bool × Text), Numpy.create_Wrapper_signatures true
        = l.flatMap (fun p => Numpy.create_Wrapper_signature p.2.2 p.2.1 p.1 true) ∧
      l.Perm ([false, true].flatMap fun v => [true, false].flatMap fun d => npFuns.map fun f => (v, d, f.base)) ∧ l.Nodup) ∧
    ∀ f ∈ npFuns, ∀ v d : Bool,
      let w := readWrapper (Numpy.create_Wrapper_signature f.base d v true)
      Wraps f (precOf d) v w.1 w.2.1 w.2.2.2 ∧ w.2.2.1 = w.2.2.2.result ++ ",".toList ++ w.1 := by
  refine ⟨⟨npOrder, ?_, by decide +kernel, by decide +kernel⟩, fun f hf v d => wrappers_ok f hf v (by cases v <;> simp) d (by cases d <;> simp)⟩
  simp [Numpy.create_Wrapper_signatures, npOrder, List.flatMap_map, List.flatMap_cons]

example : (⟨"fma".toList, 3, 1, true⟩ : NpFun) ∈ npFuns := by decide +kernel

/-! ## C55 -/

/-- A Python function `def name(params): return …`. -/
def readPy (line : Text) : Text × List Text := (upTo '(' (line.drop 4), paramNames (upTo ')' (behind '(' line)))

/-- The functions of the generated Python module. -/
def pyDefs : List (Text × List Text) :=
  ((linesOf Numpy.create_python).filter fun l => "def ".toList.isPrefixOf l).map readPy

/-- The property: every array function of the library has exactly one Python function, with one parameter per input. -/
def PyComplete (fs : List NpFun) : Prop :=
  ∀ f ∈ fs, ∀ d : Bool, (pyDefs.filter fun p => p.1 = "vdt_".toList ++ f.base ++ (if d then [] else "f".toList)).map (fun p => p.2.length) = [f.ins]

theorem py_ok : ∀ f ∈ npFuns.filter (fun f => !["div".toList, "fma".toList, "fmac".toList].contains f.base), ∀ d ∈ [true, false],
    (pyDefs.filter fun p => p.1 = "vdt_".toList ++ f.base ++ (if d then [] else "f".toList)).map (fun p => p.2.length) = [f.ins] := by
  decide +kernel

/-- **C55**, the part that holds: all functions but `div`, `fma` and `fmac`.  What is missing is these three, for which the
property is false (`C55_violated`). -/
theorem C55_python_partial :
    PyComplete (npFuns.filter fun f => !["div".toList, "fma".toList, "fmac".toList].contains f.base) :=
  fun f hf d => py_ok f hf d (by cases d <;> simp)

example : (⟨"atan2".toList, 2, 1, false⟩ : NpFun) ∈ npFuns.filter (fun f => !["div".toList, "fma".toList, "fmac".toList].contains f.base) := by
  decide +kernel

/-- `div`, `fma` and `fmac` get a function of one argument. -/
theorem C55_unary : ("vdt_div".toList, ["vi".toList]) ∈ pyDefs ∧ ("vdt_fma".toList, ["vi".toList]) ∈ pyDefs ∧
    ("vdt_fmac".toList, ["vi".toList]) ∈ pyDefs := by decide +kernel

/-- **C55** is false. -/
theorem C55_violated : ¬ PyComplete npFuns := by
  intro h
  have := h ⟨"div".toList, 2, 1, true⟩ (by decide +kernel) true
  revert this
  decide +kernel

/-! ## C56 -/

/-- The property: the module offers every function of the library under its name. -/
def Registers (names : List Text) : Prop := ∀ f ∈ npFuns, "vdt_".toList ++ f.base ∈ names

/-- **C56**, the part that holds: the Python 2 module offers exactly the fifteen functions, and the tables the loop runs
over pair each name with the float and the double array function of that name.  What is missing is Python 3. -/
theorem C56_python2_partial :
    Registers Numpy.py2Module ∧ Numpy.py2Module.Perm (npFuns.map fun f => "vdt_".toList ++ f.base) ∧
    Numpy.dataTable.length = 2 * Numpy.fnameTable.length ∧
    ∀ i < Numpy.fnameTable.length,
      Numpy.dataTable[2 * i]? = Numpy.fnameTable[i]?.map (· ++ "fv".toList) ∧
      Numpy.dataTable[2 * i + 1]? = Numpy.fnameTable[i]?.map (· ++ "v".toList) := by
  unfold Registers
  decide +kernel

/-- **C56** is false for Python 3: whatever bytes are found at `fname+i`, `div`, `fma` and `fmac` are missing unless these bytes
happen to spell them, ... -/
theorem C56_missing (bytes : Nat → Text) (h : ∀ i, bytes i ≠ "vdt_div".toList) : ¬ Registers (Numpy.py3Module bytes) := by
  intro hr
  have := hr ⟨"div".toList, 2, 1, true⟩ (by decide +kernel)
  simp only [Numpy.py3Module, List.mem_append, List.mem_map] at this
  rcases this with ⟨i, _, e⟩ | e
  · exact h i e
  · revert e; decide

/-- ... even if `fname+i` is read as the name it was meant to be, ... -/
theorem C56_violated : ¬ Registers (Numpy.py3Module fun i => Numpy.fnameTable.getD i []) := by
  intro hr
  have := hr ⟨"div".toList, 2, 1, true⟩ (by decide +kernel)
  revert this
  decide +kernel

/-- ... and it is not read so: with other bytes there no one-argument function is registered under its name. -/
theorem C56_wrong_names : ∃ bytes : Nat → Text, ∀ f ∈ npFuns, f.ins = 1 → f.outs = 1 →
    "vdt_".toList ++ f.base ∉ Numpy.py3Module bytes := by
  refine ⟨fun _ => [], ?_⟩
  decide +kernel

/-! ## C57 -/

/-- The functions wrapped for the diagnostics and the function of the Vc library each stands for. -/
def vcFuns : List (Text × Text) := [("asin".toList, "asin".toList), ("atan".toList, "atan".toList), ("cos".toList, "cos".toList),
  ("inv".toList, "reciprocal".toList), ("log".toList, "log".toList), ("sin".toList, "sin".toList), ("isqrt".toList, "rsqrt".toList)]

def count (pat t : Text) : Nat := (behindAll pat t).length

/-- What a Vc wrapper should be: its name and parameters, the vector type of its precision, and the calls it makes. -/
structure VcWraps (name callee : Text) (prec : Prec) (vec : Bool) (t : Text) : Prop where
  name : (readDef t).name = "vc_".toList ++ name ++ (if prec = .float then "f".toList else []) ++ (if vec then "v".toList else [])
  result : (readDef t).result = if vec then "void".toList else prec.text
  params : paramNames (readDef t).params = if vec then ["size".toList, "iarray".toList, "oarray".toList] else ["x".toList]
  types : count prec.text (readDef t).params = if vec then 2 else 1
  vtype : count ("Vc::".toList ++ prec.text ++ "_v ".toList) t = 1 ∧ count "_v".toList t = if vec then 2 else 1
  calls : count ("Vc::".toList ++ callee ++ "(in)".toList) t = (if vec then 2 else 1) ∧ count "(in)".toList t = if vec then 2 else 1

instance (n c : Text) (p : Prec) (v : Bool) (t : Text) : Decidable (VcWraps n c p v t) :=
  decidable_of_iff (_ ∧ _ ∧ _ ∧ _ ∧ _ ∧ _) ⟨fun ⟨a, b, c, d, e, f⟩ => ⟨a, b, c, d, e, f⟩, fun h => ⟨h.1, h.2, h.3, h.4, h.5, h.6⟩⟩

theorem vc_ok : ∀ f ∈ vcFuns, ∀ v ∈ [true, false], ∀ d ∈ [true, false],
    VcWraps f.1 f.2 (precOf d) v (VcGen.create_vcWrapper_signature f.1 d v true) := by
  decide +kernel

/-- **C57.** The generated Vc wrappers are one definition for each of the eight functions, each precision, and numbers and
arrays; all but `identity` call the Vc function they stand for, in the vector type of their precision, once on numbers
and twice (full vectors and tail) on arrays; `identity` calls none. -/
theorem C57_vc_wrappers :
    (∃ l : List (Bool × Bool × Text), VcGen.create_vcWrapper_signatures true
        = l.flatMap (fun p => VcGen.create_vcWrapper_signature p.2.2 p.2.1 p.1 true) ∧
      l.Perm ([false, true].flatMap fun v => [true, false].flatMap fun d =>
        (vcFuns.map Prod.fst ++ ["identity".toList]).map fun n => (v, d, n)) ∧ l.Nodup) ∧
    (∀ f ∈ vcFuns, ∀ v d : Bool, VcWraps f.1 f.2 (precOf d) v (VcGen.create_vcWrapper_signature f.1 d v true)) ∧
    (∀ v ∈ [true, false], ∀ d ∈ [true, false],
      count "(in)".toList (VcGen.create_vcWrapper_signature "identity".toList d v true) = 0 ∧
      count "out = in;".toList (VcGen.create_vcWrapper_signature "identity".toList d v true) = 1) := by
  refine ⟨⟨[false, true].flatMap fun v => [true, false].flatMap fun d => (sorted VcGen.FUNCTIONS_LIST).map fun n => (v, d, n),
    ?_, by decide +kernel, by decide +kernel⟩,
    fun f hf v d => vc_ok f hf v (by cases v <;> simp) d (by cases d <;> simp), by decide +kernel⟩
  simp [VcGen.create_vcWrapper_signatures, List.flatMap_map, List.flatMap_cons]

example : ("isqrt".toList, "rsqrt".toList) ∈ vcFuns := by decide +kernel

end Vdt.Gen
