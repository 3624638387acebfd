import Verif.Model.Ufunc

/-!
# The Python test and timing scripts

Model of `progs/vdtCtypesTest.py`, `progs/vdtNumpytest.py`, `progs/vdtNumpyTime.py`, `progs/testExp.py`, of the code cells of
`progs/vdtTest.ipynb` and `progs/vdtTiming.ipynb`, and of the module `src/vdt.py`: an interpreter for the part of Python 2
they use, and the scripts as its programs.

An array is represented by its element type and its number of elements; the values of the elements are those of the
functions in `Model/PyCall.lean` and `Model/Ufunc.lean`, the interpreter only records which function is applied.

Outside the repository, and therefore assumptions of the model:
* The scripts are run by Python 2 in the directory that holds `vdt.py`, `vdtBase.py`, `invokeVDT.py`, `vdt_ctypes.py`,
  `libvdtFatLibWrapper.so` and `vdtnpfun_directory/vdtnpfun.so`.
* `numpy`: `asanyarray`, `require`, `empty_like` as in `Model/PyCall.lean`; an elementary function, `copy`, `abs`, `*`
  and `+` work in single precision if all operands are of type `single`, otherwise in double precision; `linspace` gives a
  `double` array.
* `timeit.timeit(code, setup, number)` runs `setup` and then `code` again and again.  The interpreter runs it once.
* Keyword arguments, `number` and the argument `['CONTIGUOUS', 'ALIGNED']` of `require` are left out, and so are `global`
  statements (a function that does not assign to a name reads the global variable anyway).
-/

namespace Vdt.Py
open Vdt.Txt (Text)

/-- A text as the list of its characters. -/
local macro "‹" s:str "›" : term => do
  let cs := s.getString.toList.toArray.map fun c => Lean.Syntax.mkCharLit c
  `([$cs,*])

/-! ## Programs -/

inductive Ex where
  | var (n : Text)
  /-- A list of `n` whole numbers. -/
  | ints (n : Nat)
  | int (n : Nat)
  /-- A number that is not an integer. -/
  | num
  | txt (t : Text)
  | dict
  | attr (e : Ex) (a : Text)
  | item (e : Ex) (k : Ex)
  | call (f : Ex) (args : List Ex)
  | tup (es : List Ex)
  | mul (a b : Ex)
  | add (a b : Ex)

inductive Stm where
  | set (n : Text) (e : Ex)
  | setTup (ns : List Text) (e : Ex)
  /-- `e.a = v` -/
  | setAttr (e : Ex) (a : Text) (v : Ex)
  | expr (e : Ex)
  | print (e : Ex)
  /-- `import m as n` -/
  | imp (m n : Text)
  /-- `from m import *` -/
  | star (m : Text)
  /-- `from m import n` -/
  | frm (m n : Text)
  | defn (n : Text) (params : List Text) (body : List Stm) (ret : Option Ex)

/-! ## Values and the state -/

inductive Val where
  /-- An array: element type (`none` for whole numbers) and number of elements. -/
  | arr (single : Option Bool) (n : Nat)
  | ints (n : Nat)
  | int (n : Nat)
  | num
  | txt (t : Text)
  /-- `numpy.single` or `numpy.double` -/
  | type (single : Bool)
  | tup (vs : List Val)
  | mod (m : Text)
  /-- A function or class of a module that is not written in Python. -/
  | builtin (m n : Text)
  /-- A function written in Python, with the module that holds its global variables. -/
  | clo (m : Text) (params : List Text) (body : List Stm) (ret : Option Ex)
  /-- `VDTFunMap` -/
  | funMap
  /-- A loaded library. -/
  | dll
  /-- An array function of the library, as `load` returns it. -/
  | cfn (fn : Text)
  /-- `vdt_arch` of the library. -/
  | carch
  | none

/-- What is applied to arrays: a function of numpy in one of the precisions, or an array function of the library. -/
inductive Op where
  | np (name : Text) (single : Bool)
  | vdt (symbol : Text)
  deriving DecidableEq

inductive Event where
  /-- The text is printed. -/
  | said (t : Text)
  /-- A result is printed, computed by these operations. -/
  | shown (ops : List Op)
  /-- The time of the function is printed; its operations. -/
  | timed (f : Text) (ops : List Op)
  deriving DecidableEq

inductive PyErr where
  | name (n : Text)
  | attribute (n : Text)
  | key (n : Text)
  | import (n : Text)
  | type
  /-- Undefined behaviour in the library. -/
  | undefined
  | fuel
  deriving DecidableEq

abbrev Env := List (Text × Val)

structure PySt where
  /-- The global variables of the modules that have been imported. -/
  mods : List (Text × Env) := []
  funMap : FunMap := []
  /-- The operations since the last event, the last one first. -/
  ops : List Op := []
  /-- The events, the last one first. -/
  log : List Event := []

abbrev PyM := StateT PySt (Except PyErr)

def raise {α : Type} (e : PyErr) : PyM α := fun _ => .error e

/-- The new value of a variable; the first entry of a name counts. -/
def Env.put (n : Text) (v : Val) (e : Env) : Env := (n, v) :: e

def setGlobal (m n : Text) (v : Val) : PyM Unit := fun st =>
  .ok ((), { st with mods :=
    match st.mods.lookup m with
    | some e => (m, e.put n v) :: st.mods.filter (fun p => p.1 ≠ m)
    | none => (m, [(n, v)]) :: st.mods })

def getGlobal (m n : Text) : PyM (Option Val) := fun st => .ok ((st.mods.lookup m).bind fun e => e.lookup n, st)

def opDone (o : Op) : PyM Unit := fun st => .ok ((), { st with ops := o :: st.ops })

/-- The event gets the operations done so far. -/
def event (f : List Op → Event) : PyM Unit := fun st =>
  .ok ((), { st with ops := [], log := f st.ops.reverse :: st.log })

/-! ## Modules that are not written in Python -/

/-- The elementary functions of numpy the scripts use. -/
def npFuns : List Text := [‹"sin"›, ‹"cos"›, ‹"exp"›, ‹"sqrt"›, ‹"abs"›, ‹"copy"›]

/-- The attributes of the modules; `ufs` are the functions of `vdtnpfun`. -/
def builtinAttr (ufs : List Ufunc) (m a : Text) : Option Val :=
  if m = ‹"numpy"› then
    if a = ‹"pi"› then some .num
    else if a = ‹"single"› then some (.type true)
    else if a = ‹"double"› then some (.type false)
    else if a = ‹"ctypeslib"› then some (.mod ‹"numpy.ctypeslib"›)
    else if a ∈ npFuns ∨ a ∈ [‹"linspace"›, ‹"asanyarray"›, ‹"require"›, ‹"empty_like"›] then some (.builtin m a)
    else none
  else if m = ‹"numpy.ctypeslib"› then if a = ‹"load_library"› then some (.builtin m a) else none
  else if m = ‹"os"› then if a = ‹"path"› then some (.mod ‹"os.path"›) else none
  else if m = ‹"os.path"› then if a = ‹"dirname"› then some (.builtin m a) else none
  else if m = ‹"imp"› then if a = ‹"load_dynamic"› then some (.builtin m a) else none
  else if m = ‹"timeit"› then if a = ‹"timeit"› then some (.builtin m a) else none
  else if m = ‹"ctypes"› then if a = ‹"c_char_p"› then some (.builtin m a) else none
  else if m = ‹"vdtnpfun"› then if (ufs.any fun u => u.name == a) then some (.builtin m a) else none
  else none

/-- The element type of the result of an operation with operands of these types. -/
def common (ks : List (Option Bool)) : Bool := ks.all fun k => k == some true

def arrKind : Val → Option (Option Bool × Nat)
  | .arr k n => some (k, n)
  | _ => none

/-- An operation of numpy on arrays with the same number of elements. -/
def npOp (name : Text) (vs : List Val) : PyM Val :=
  match vs.mapM arrKind with
  | some ((k, n) :: r) =>
    if r.all fun p => p.2 == n then do
      let s := common (k :: r.map Prod.fst)
      opDone (.np name s)
      return .arr (some s) n
    else raise .type
  | _ => raise .type

/-- The part of a path before the last slash, `os.path.dirname`. -/
def dirname (t : Text) : Text := (t.reverse.dropWhile (· ≠ '/')).reverse.dropLast

/-- One result, or a tuple of several. -/
def results : List Val → Val
  | [v] => v
  | vs => .tup vs

/-- The call of a universal function of `vdtnpfun` (src/vdtNumpyWrapper.c:217-249). -/
def callUfunc (ufs : List Ufunc) (name : Text) (vs : List Val) : PyM Val :=
  match ufs.find? (fun u => u.name == name), vs.mapM arrKind with
  | some u, some ks =>
    if ks.length = u.nin ∧ ks.all (fun p => p.2 == (ks.headD (none, 0)).2) then
      match u.pick (ks.map fun p => p.1 == some true) with
      | some t =>
        match u.data[t]? with
        | some d => do
          opDone (.vdt d)
          return results (((u.row t).drop u.nin).map fun s => .arr (some s) (ks.headD (none, 0)).2)
        | none => raise .undefined
      | none => raise .type
    else raise .type
  | _, _ => raise .type

/-- The element type and the number of elements of `numpy.asanyarray(v)`. -/
def asArray : Val → Option (Option Bool × Nat)
  | .arr k n => some (k, n)
  | .ints n => some (none, n)
  | _ => none

/-- scripts/vdtBase.py:14-17 -/
def doLoad (fn : Text) (nin nout : Nat) : PyM Unit := fun st =>
  match loadit fn nin nout st.funMap with
  | .ok fm => .ok ((), { st with funMap := fm })
  | .error _ => .error (.attribute fn)

def getFn (fn : Text) : PyM (Option Fn) := fun st => .ok (st.funMap.lookup fn, st)

/-- The call of an array function: the types and sizes of the arguments have to be those of the function. -/
def callC (fn : Text) (vs : List Val) : PyM Val := do
  match ← getFn fn, vs.getLast?, vs.dropLast.mapM arrKind with
  | some f, some (.int n), some ks =>
    if ks.length + 1 = f.argtypes.length ∧ ks.all (fun p => p.1 == some f.single) then
      if ks.length = f.sym.ins + f.sym.outs ∧ f.sym.single = f.single ∧ ks.all (fun p => n ≤ p.2) then do
        opDone (.vdt (fn ++ ‹"v"›))
        return .none
      else raise .undefined
    else raise .type
  | _, _, _ => raise .type

/-- The call of a function of the generated module `vdt_ctypes` (src/numpy_wrapper_generator.py:235-249), with
scripts/vdtBase.py:19-32 and scripts/invokeVDT.py:6-31. -/
def callCtypes (defs : List PyDef) (name : Text) (vs : List Val) : PyM Val :=
  match defs.reverse.find? (fun d => d.name == name), vs.mapM asArray with
  | some d, some ks =>
    if ks.length = d.params.length then
      let io : Option (Nat × Nat) :=
        if d.callee = ‹"vdt_invoke"› then some (1, 1)
        else if d.callee = ‹"vdt_invoke2to1"› then some (2, 1)
        else if d.callee = ‹"vdt_invoke1to2"› then some (1, 2) else none
      match io with
      | some (nin, nout) => do
        if d.args.length = nin then pure () else raise .type
        doLoad d.fn nin nout
        match ← getFn d.fn with
        | some f => do
          let n := (ks.headD (none, 0)).2
          let args := (ks.map fun p => Val.arr (some f.single) p.2) ++ List.replicate nout (.arr (some f.single) n) ++ [.int n]
          let _ ← callC d.fn args
          return results (List.replicate nout (.arr (some f.single) n))
        | none => raise (.key d.fn)
      | none => raise .type
    else raise .type
  | _, _ => raise .type

/-- The call of a function of a module that is not written in Python, except `timeit`. -/
def callBuiltin (defs : List PyDef) (ufs : List Ufunc) (m n : Text) (vs : List Val) : PyM Val :=
  if m = ‹"numpy"› then
    if n ∈ npFuns then npOp n vs
    else if n = ‹"linspace"› then
      match vs with
      | [.num, .num, .int k] => return .arr (some false) k
      | _ => raise .type
    else if n = ‹"asanyarray"› then
      match vs with
      | [v] => match asArray v with
        | some (k, n) => return .arr k n
        | none => raise .type
      | _ => raise .type
    else if n = ‹"require"› then
      match vs with
      | [v, .type s, _] => match asArray v with
        | some (_, n) => return .arr (some s) n
        | none => raise .type
      | _ => raise .type
    else if n = ‹"empty_like"› then
      match vs with
      | [.arr k n] => return .arr k n
      | _ => raise .type
    else raise .type
  else if m = ‹"os.path"› then
    match vs with
    | [.txt t] => return .txt (dirname t)
    | _ => raise .type
  else if m = ‹"numpy.ctypeslib"› then
    match vs with
    | [.txt l, .txt p] => if l = ‹"libvdtFatLibWrapper"› ∧ p = [] then return .dll else raise (.import l)
    | _ => raise .type
  else if m = ‹"imp"› then
    match vs with
    | [.txt l, .txt p] =>
      if l = ‹"vdtnpfun"› ∧ p = ‹"vdtnpfun_directory/vdtnpfun.so"› then do
        modify fun st => { st with mods := (l, []) :: st.mods }
        return .mod l
      else raise (.import l)
    | _ => raise .type
  else if m = ‹"builtins"› ∧ n = ‹"dir"› then
    match vs with
    | [.mod _] => return .none
    | _ => raise .type
  else if m = ‹"vdtnpfun"› then callUfunc ufs n vs
  else if m = ‹"vdtBase"› ∧ n = ‹"loadit"› then
    match vs with
    | [.txt t] => do doLoad t 1 1; return .none
    | _ => raise .type
  else if m = ‹"vdt_ctypes"› then callCtypes defs n vs
  else raise .type

/-- The modules of the Python distribution and of numpy. -/
def stdModules : List Text := [‹"numpy"›, ‹"os"›, ‹"imp"›, ‹"timeit"›, ‹"ctypes"›]

/-! ## Modules of the repository -/

section
local macro "V" s:str : term => `(Ex.var ‹$s›)

/-- src/vdt.py:7-12 and scripts/vdtBase.py:5-10 -/
def archDef : Stm :=
  .defn ‹"vdt_arch"› [] [
    .set ‹"_path"› (.call (.attr (.attr (V "os") ‹"path"›) ‹"dirname"›) [.txt ‹"__file__"›]),
    .set ‹"lib"› (.call (.attr (.attr (V "numpy") ‹"ctypeslib"›) ‹"load_library"›) [.txt ‹"libvdtFatLibWrapper"›, V "_path"]),
    .set ‹"f"› (.item (V "lib") (.txt ‹"vdt_arch"›)),
    .setAttr (V "f") ‹"restype"› (V "c_char_p")]
    (some (.call (V "f") []))

/-- src/vdt.py -/
def vdtPy : List Stm := [
  .imp ‹"os"› ‹"os"›,
  .imp ‹"imp"› ‹"imp"›,
  .set ‹"vdtnpfun"› (.call (.attr (V "imp") ‹"load_dynamic"›) [.txt ‹"vdtnpfun"›, .txt ‹"vdtnpfun_directory/vdtnpfun.so"›]),
  .star ‹"vdtnpfun"›,
  .imp ‹"numpy"› ‹"numpy"›,
  .frm ‹"ctypes"› ‹"c_char_p"›,
  archDef]

/-- scripts/vdtBase.py:1-12; the four functions behind are `callCtypes` and `doLoad`. -/
def vdtBasePy : List Stm := [
  .imp ‹"numpy"› ‹"numpy"›,
  .imp ‹"os"› ‹"os"›,
  .frm ‹"ctypes"› ‹"c_char_p"›,
  archDef,
  .set ‹"VDTFunMap"› .dict]

/-- src/numpy_wrapper_generator.py:252-261; the functions of the module are `callCtypes`. -/
def vdtCtypesPy : List Stm := [.star ‹"vdtBase"›]
end

/-- The modules written in Python. -/
def pyModules : List (Text × List Stm) :=
  [(‹"vdt"›, vdtPy), (‹"vdtBase"›, vdtBasePy), (‹"vdt_ctypes"›, vdtCtypesPy)]

/-- What a module has besides what its statements define. -/
def moduleExtra (defs : List PyDef) (m : Text) : List (Text × Val) :=
  if m = ‹"vdtBase"› then [(‹"loadit"›, .builtin m ‹"loadit"›)]
  else if m = ‹"vdt_ctypes"› then defs.map fun d => (d.name, .builtin m d.name)
  else []

/-! ## The interpreter -/

/-- `code` of `timeit` is the call of a function of the script which `setup` imports. -/
def timedName (code setup : Text) : Option Text :=
  let n := code.dropLast.dropLast
  if code = n ++ ‹"()"› ∧ setup = ‹"from __main__ import "› ++ n then some n else none

mutual

/-- The value of an expression in module `m` with the local variables `loc`. -/
def evalE (defs : List PyDef) (ufs : List Ufunc) (m : Text) (loc : Env) : Nat → Ex → PyM Val
  | 0, _ => raise .fuel
  | k + 1, e =>
    match e with
    | .var n => do
      match loc.lookup n with
      | some v => return v
      | none =>
        match ← getGlobal m n with
        | some v => return v
        | none => if n = ‹"dir"› then return .builtin ‹"builtins"› n else raise (.name n)
    | .ints n => return .ints n
    | .int n => return .int n
    | .num => return .num
    | .txt t => return .txt t
    | .dict => return .funMap
    | .attr e a => do
      match ← evalE defs ufs m loc k e with
      | .mod l =>
        match ← getGlobal l a with
        | some v => return v
        | none =>
          match builtinAttr ufs l a with
          | some v => return v
          | none => raise (.attribute a)
      | .arr _ n => if a = ‹"size"› then return .int n else raise (.attribute a)
      | _ => raise (.attribute a)
    | .item e i => do
      match ← evalE defs ufs m loc k e, ← evalE defs ufs m loc k i with
      | .funMap, .txt t =>
        match ← getFn t with
        | some f => return .tup [.cfn t, .type f.single]
        | none => raise (.key t)
      | .dll, .txt t => if t = ‹"vdt_arch"› then return .carch else raise (.attribute t)
      | _, _ => raise .type
    | .call f args => do
      let fv ← evalE defs ufs m loc k f
      let vs ← evalL defs ufs m loc k args
      callV defs ufs k fv vs
    | .tup es => do return .tup (← evalL defs ufs m loc k es)
    | .mul a b => do npOp ‹"multiply"› (← evalL defs ufs m loc k [a, b])
    | .add a b => do npOp ‹"add"› (← evalL defs ufs m loc k [a, b])

def evalL (defs : List PyDef) (ufs : List Ufunc) (m : Text) (loc : Env) : Nat → List Ex → PyM (List Val)
  | 0, _ => raise .fuel
  | k + 1, es =>
    match es with
    | [] => return []
    | e :: r => do
      let v ← evalE defs ufs m loc k e
      let vs ← evalL defs ufs m loc k r
      return v :: vs

/-- The call of a value. -/
def callV (defs : List PyDef) (ufs : List Ufunc) : Nat → Val → List Val → PyM Val
  | 0, _, _ => raise .fuel
  | k + 1, f, vs =>
    match f with
    | .builtin m n =>
      if m = ‹"timeit"› then
        match vs with
        | [.txt code, .txt setup] =>
          match timedName code setup with
          | some g => do
            match ← getGlobal ‹"__main__"› g with
            | some v => do
              let _ ← callV defs ufs k v []
              event (.timed g)
              return .none
            | none => raise (.import g)
          | none => raise .type
        | _ => raise .type
      else callBuiltin defs ufs m n vs
    | .clo m params body ret =>
      if params.length = vs.length then do
        let loc ← execL defs ufs m (some (params.zip vs)) k body
        match ret with
        | some e => evalE defs ufs m (loc.getD []) k e
        | none => return .none
      else raise .type
    | .cfn fn => callC fn vs
    | .carch => return .none
    | _ => raise .type

/-- Statements, in a function (with its local variables) or in the module `m` itself. -/
def execL (defs : List PyDef) (ufs : List Ufunc) (m : Text) : Option Env → Nat → List Stm → PyM (Option Env)
  | _, 0, _ => raise .fuel
  | loc, k + 1, ss =>
    match ss with
    | [] => return loc
    | s :: r => do
      let put (n : Text) (v : Val) (loc : Option Env) : PyM (Option Env) :=
        match loc with
        | some e => return some (e.put n v)
        | none => do setGlobal m n v; return none
      match s with
      | .set n e => do
        let v ← evalE defs ufs m (loc.getD []) k e
        let loc ← put n v loc
        execL defs ufs m loc k r
      | .setTup ns e => do
        match ← evalE defs ufs m (loc.getD []) k e with
        | .tup vs =>
          if vs.length = ns.length then do
            let loc ← (ns.zip vs).foldlM (fun loc p => put p.1 p.2 loc) loc
            execL defs ufs m loc k r
          else raise .type
        | _ => raise .type
      | .setAttr e _ v => do
        let _ ← evalE defs ufs m (loc.getD []) k e
        let _ ← evalE defs ufs m (loc.getD []) k v
        execL defs ufs m loc k r
      | .expr e => do
        let _ ← evalE defs ufs m (loc.getD []) k e
        execL defs ufs m loc k r
      | .print e => do
        match e with
        | .txt t => event fun _ => .said t
        | _ => do
          let before ← get
          let _ ← evalE defs ufs m (loc.getD []) k e
          let after ← get
          if before.log.length = after.log.length then event .shown
        execL defs ufs m loc k r
      | .imp l n => do
        importM defs ufs k l
        let loc ← put n (.mod l) loc
        execL defs ufs m loc k r
      | .frm l n => do
        importM defs ufs k l
        match ← getGlobal l n with
        | some v => do
          let loc ← put n v loc
          execL defs ufs m loc k r
        | none =>
          match builtinAttr ufs l n with
          | some v => do
            let loc ← put n v loc
            execL defs ufs m loc k r
          | none => raise (.import n)
      | .star l => do
        importM defs ufs k l
        let st ← get
        let vars := (st.mods.lookup l).getD []
        let more := if l = ‹"vdtnpfun"› then ufs.map fun u => (u.name, Val.builtin l u.name) else []
        let loc ← ((vars ++ more).reverse.filter fun p => p.1.head? ≠ some '_').foldlM (fun loc p => put p.1 p.2 loc) loc
        execL defs ufs m loc k r
      | .defn n params body ret => do
        let loc ← put n (.clo m params body ret) loc
        execL defs ufs m loc k r

/-- The first `import` of a module runs its statements. -/
def importM (defs : List PyDef) (ufs : List Ufunc) : Nat → Text → PyM Unit
  | 0, _ => raise .fuel
  | k + 1, l => do
    let st ← get
    if (st.mods.lookup l).isSome ∨ l ∈ stdModules then pure ()
    else
      match pyModules.lookup l with
      | some body => do
        modify fun st => { st with mods := (l, []) :: st.mods }
        let _ ← execL defs ufs l none k body
        (moduleExtra defs l).forM fun p => setGlobal l p.1 p.2
      | none => raise (.import l)

end

/-- A run of a script: the events, or the first error. -/
def runPy (defs : List PyDef) (ufs : List Ufunc) (prog : List Stm) : Except PyErr (List Event) :=
  match execL defs ufs ‹"__main__"› none 200 prog { } with
  | .ok (_, st) => .ok st.log.reverse
  | .error e => .error e

/-! ## The scripts -/

namespace Scripts

local macro "V" s:str : term => `(Ex.var ‹$s›)

/-- `np.f(x)` -/
def np (f : Text) (args : List Ex) : Ex := .call (.attr (V "np") f) args
/-- `numpy.f(x)` -/
def numpy (f : Text) (args : List Ex) : Ex := .call (.attr (V "numpy") f) args
/-- `np.linspace(-np.pi, np.pi, N)` -/
def linspace (n : Ex) : Ex := np ‹"linspace"› [.num, .attr (V "np") ‹"pi"›, n]
/-- `f(args)` -/
def call (f : Text) (args : List Ex) : Ex := .call (.var f) args
/-- `print(timeit.timeit("f()", setup="from __main__ import g",number=100000))` -/
def time (f g : Text) : Stm :=
  .print (.call (.attr (V "timeit") ‹"timeit"›) [.txt (f ++ ‹"()"›), .txt (‹"from __main__ import "› ++ g)])
/-- `def f(): s = np.sin(x); c = np.cos(x); return (s,c)` -/
def sinCos (f x : Text) : Stm :=
  .defn f [] [.set ‹"s"› (np ‹"sin"› [.var x]), .set ‹"c"› (np ‹"cos"› [.var x])] (some (.tup [V "s", V "c"]))
/-- `def f(): return e` -/
def fn0 (f : Text) (e : Ex) : Stm := .defn f [] [] (some e)

/-- progs/vdtCtypesTest.py -/
def vdtCtypesTest : List Stm := [
  .star ‹"vdt_ctypes"›,
  .imp ‹"numpy"› ‹"np"›,
  .imp ‹"timeit"› ‹"timeit"›,
  .print (call ‹"vdt_arch"› []),
  .print (call ‹"vdt_sin"› [.ints 4]),
  .print (call ‹"vdt_sinf"› [.ints 4]),
  .print (call ‹"vdt_atan2"› [.ints 4, .ints 4]),
  .print (call ‹"vdt_sincosf"› [.ints 4]),
  .print (call ‹"vdt_expf"› [.ints 4]),
  .set ‹"xx"› (linspace (.int 2001)),
  .set ‹"xf"› (linspace (.int 2001)),
  .set ‹"x"› (linspace (.int 2001)),
  sinCos ‹"nsc"› ‹"xx"›,
  sinCos ‹"nscf"› ‹"xf"›,
  fn0 ‹"vsc"› (call ‹"vdt_sincos"› [V "x"]),
  fn0 ‹"vscf"› (call ‹"vdt_sincosf"› [V "x"]),
  fn0 ‹"nex"› (np ‹"exp"› [V "xx"]),
  fn0 ‹"nexf"› (np ‹"sin"› [V "xf"]),
  fn0 ‹"vex"› (call ‹"vdt_exp"› [V "x"]),
  fn0 ‹"vexf"› (call ‹"vdt_expf"› [V "x"]),
  .setTup [‹"fscf"›, ‹"ftype"›] (.item (V "VDTFunMap") (.txt ‹"vdt_sincosf"›)),
  .setTup [‹"fexf"›, ‹"ftype"›] (.item (V "VDTFunMap") (.txt ‹"vdt_expf"›)),
  .set ‹"requires"› (.tup []),
  .set ‹"x"› (numpy ‹"asanyarray"› [V "x"]),
  .set ‹"x"› (numpy ‹"require"› [V "x", V "ftype", V "requires"]),
  .set ‹"vo1"› (numpy ‹"empty_like"› [V "x"]),
  .set ‹"vo2"› (numpy ‹"empty_like"› [V "x"]),
  .set ‹"xf"› (numpy ‹"asanyarray"› [V "xf"]),
  .set ‹"xf"› (numpy ‹"require"› [V "xf", V "ftype", V "requires"]),
  .defn ‹"vscff"› [] [.expr (call ‹"fscf"› [V "x", V "vo1", V "vo2", .attr (V "x") ‹"size"›])] none,
  .defn ‹"vexff"› [] [.expr (call ‹"fexf"› [V "x", V "vo1", .attr (V "x") ‹"size"›])] none,
  .print (.txt ‹"timing exp"›),
  time ‹"nex"› ‹"nex"›,
  time ‹"nexf"› ‹"nexf"›,
  time ‹"vex"› ‹"vex"›,
  time ‹"vexf"› ‹"vexf"›,
  time ‹"vexff"› ‹"vexff"›,
  .print (.txt ‹"timing sincos"›),
  time ‹"nsc"› ‹"nsc"›,
  time ‹"nscf"› ‹"nscf"›,
  time ‹"vsc"› ‹"vsc"›,
  time ‹"vscf"› ‹"vscf"›,
  time ‹"vscff"› ‹"vscff"›]

/-- progs/vdtNumpytest.py:13-23 and progs/vdtTiming.ipynb: `norf` and `nord` -/
def nor (f type : Text) : Stm :=
  .defn f [‹"vi"›] [
    .set ‹"requires"› (.tup []),
    .set ‹"vi"› (np ‹"asanyarray"› [V "vi"]),
    .set ‹"vi"› (np ‹"require"› [V "vi", .attr (V "np") type, V "requires"])]
    (some (V "vi"))

/-- progs/vdtNumpytest.py:1-37, also at the beginning of progs/vdtTiming.ipynb -/
def numpyHead : List Stm := [
  .imp ‹"imp"› ‹"imp"›,
  .imp ‹"timeit"› ‹"timeit"›,
  .imp ‹"numpy"› ‹"np"›,
  .imp ‹"vdt"› ‹"vdt"›,
  .star ‹"vdt"›,
  .print (call ‹"dir"› [V "vdt"]),
  nor ‹"norf"› ‹"single"›,
  nor ‹"nord"› ‹"double"›,
  .print (call ‹"vdt_arch"› []),
  .print (call ‹"vdt_sin"› [call ‹"nord"› [.ints 4]]),
  .print (call ‹"vdt_sin"› [call ‹"norf"› [.ints 4]]),
  .print (call ‹"vdt_atan2"› [call ‹"norf"› [.ints 4], call ‹"norf"› [.ints 4]]),
  .print (call ‹"vdt_sincos"› [call ‹"norf"› [.ints 4]]),
  .print (call ‹"vdt_exp"› [call ‹"norf"› [.ints 4]]),
  .set ‹"xx"› (call ‹"nord"› [linspace (.int 2001)]),
  .set ‹"xf"› (call ‹"norf"› [linspace (.int 2001)]),
  .set ‹"yf"› (call ‹"norf"› [linspace (.int 2001)]),
  .set ‹"zf"› (call ‹"norf"› [linspace (.int 2001)])]

/-- progs/vdtNumpytest.py:40-85, also in progs/vdtTiming.ipynb -/
def numpyFuns : List Stm := [
  fn0 ‹"nfma"› (.add (.mul (V "xf") (V "yf")) (V "zf")),
  sinCos ‹"nsc"› ‹"xx"›,
  sinCos ‹"nscf"› ‹"xf"›,
  fn0 ‹"vfma"› (call ‹"vdt_fma"› [V "xf", V "yf", V "zf"]),
  fn0 ‹"vsc"› (call ‹"vdt_sincos"› [V "xx"]),
  fn0 ‹"vscf"› (call ‹"vdt_sincos"› [V "xf"]),
  fn0 ‹"nex"› (np ‹"exp"› [V "xx"]),
  fn0 ‹"nexf"› (np ‹"exp"› [V "xf"]),
  fn0 ‹"vex"› (call ‹"vdt_exp"› [V "xx"]),
  fn0 ‹"vexf"› (call ‹"vdt_exp"› [V "xf"])]

/-- progs/vdtNumpytest.py:93-105, also in progs/vdtTiming.ipynb -/
def numpyTimes : List Stm := [
  .print (.txt ‹"timing exp"›),
  time ‹"nex"› ‹"nex"›,
  time ‹"nexf"› ‹"nexf"›,
  time ‹"vex"› ‹"vex"›,
  time ‹"vexf"› ‹"vexf"›,
  .print (.txt ‹"timing sincos"›),
  time ‹"nsc"› ‹"nsc"›,
  time ‹"nscf"› ‹"nscf"›,
  time ‹"vsc"› ‹"vsc"›,
  time ‹"vscf"› ‹"vscf"›]

/-- progs/vdtNumpytest.py:88-90, also in progs/vdtTiming.ipynb -/
def fmaTimes : List Stm := [
  .print (.txt ‹"timing fma"›),
  time ‹"nfma"› ‹"nfma"›,
  time ‹"vfma"› ‹"vfma"›]

/-- progs/vdtNumpytest.py -/
def vdtNumpytest : List Stm := numpyHead ++ numpyFuns ++ fmaTimes ++ numpyTimes

/-- progs/vdtTiming.ipynb, the code cell -/
def vdtTiming : List Stm := numpyHead ++ [
  .set ‹"xl"› (call ‹"norf"› [np ‹"linspace"› [.num, .num, .int 20001]]),
  .set ‹"xo"› (numpy ‹"empty_like"› [V "xf"]),
  fn0 ‹"nid"› (np ‹"copy"› [V "xf"]),
  fn0 ‹"nsqrt"› (np ‹"sqrt"› [np ‹"abs"› [V "xf"]]),
  fn0 ‹"nsqrtl"› (np ‹"sqrt"› [V "xl"]),
  fn0 ‹"vid"› (call ‹"vdt_identity"› [V "xf"]),
  fn0 ‹"vidl"› (call ‹"vdt_identity"› [V "xl"]),
  fn0 ‹"vsqrt"› (call ‹"vdt_sqrt"› [np ‹"abs"› [V "xf"]]),
  fn0 ‹"vsqrtl"› (call ‹"vdt_sqrt"› [V "xl"])] ++ numpyFuns ++ [
  .set ‹"bha"› (.call (.attr (V "timeit") ‹"timeit"›) [.txt ‹"vfma()"›, .txt ‹"from __main__ import vfma"›]),
  .set ‹"bha"› (.call (.attr (V "timeit") ‹"timeit"›) [.txt ‹"vsqrtl()"›, .txt ‹"from __main__ import vsqrtl"›]),
  .print (.txt ‹"timing identity"›),
  time ‹"nid"› ‹"nid"›,
  time ‹"vid"› ‹"vid"›,
  time ‹"vidl"› ‹"vidl"›] ++ fmaTimes ++ [
  .print (.txt ‹"timing sqrt"›),
  time ‹"nsqrt"› ‹"nsqrt"›,
  time ‹"nsqrtl"› ‹"nsqrtl"›,
  time ‹"vsqrt"› ‹"vsqrt"›,
  time ‹"vsqrtl"› ‹"vsqrtl"›] ++ numpyTimes

/-- `vdtnpfun= imp.load_dynamic('vdtnpfun','vdtnpfun_directory/vdtnpfun.so')` -/
def loadModule : Stm :=
  .set ‹"vdtnpfun"› (.call (.attr (V "imp") ‹"load_dynamic"›) [.txt ‹"vdtnpfun"›, .txt ‹"vdtnpfun_directory/vdtnpfun.so"›])

/-- progs/vdtNumpyTime.py -/
def vdtNumpyTime : List Stm := [
  .imp ‹"imp"› ‹"imp"›,
  loadModule,
  .imp ‹"vdtnpfun"› ‹"vdtnpfun"›,
  .print (call ‹"dir"› [V "vdtnpfun"]),
  .star ‹"vdt_ctypes"›,
  .imp ‹"numpy"› ‹"np"›,
  .imp ‹"timeit"› ‹"timeit"›,
  .expr (call ‹"loadit"› [.txt ‹"vdt_expf"›]),
  .set ‹"N"› (.int 2001),
  .set ‹"xx"› (linspace (V "N")),
  .set ‹"xf"› (linspace (V "N")),
  .set ‹"x"› (linspace (V "N")),
  sinCos ‹"nsc"› ‹"xx"›,
  sinCos ‹"nscf"› ‹"xf"›,
  fn0 ‹"vsc"› (call ‹"vdt_sincos"› [V "x"]),
  fn0 ‹"vscf"› (call ‹"vdt_sincosf"› [V "x"]),
  fn0 ‹"nex"› (np ‹"exp"› [V "xx"]),
  fn0 ‹"nexf"› (np ‹"exp"› [V "xf"]),
  fn0 ‹"vex"› (call ‹"vdt_exp"› [V "x"]),
  fn0 ‹"vexf"› (call ‹"vdt_expf"› [V "x"]),
  .setTup [‹"fexf"›, ‹"ftype"›] (.item (V "VDTFunMap") (.txt ‹"vdt_expf"›)),
  .set ‹"requires"› (.tup []),
  .set ‹"x"› (numpy ‹"asanyarray"› [V "x"]),
  .set ‹"x"› (numpy ‹"require"› [V "x", V "ftype", V "requires"]),
  .set ‹"vo1"› (numpy ‹"empty_like"› [V "x"]),
  .set ‹"vo2"› (numpy ‹"empty_like"› [V "x"]),
  .set ‹"xf"› (numpy ‹"asanyarray"› [V "xf"]),
  .set ‹"xf"› (numpy ‹"require"› [V "xf", V "ftype", V "requires"]),
  .defn ‹"vscff"› [] [.expr (call ‹"fscf"› [V "x", V "vo1", V "vo2", .attr (V "x") ‹"size"›])] none,
  .defn ‹"vexff"› [] [.expr (call ‹"fexf"› [V "x", V "vo1", .attr (V "x") ‹"size"›])] none,
  fn0 ‹"vexfm"› (.call (.attr (V "vdtnpfun") ‹"vdt_exp"›) [V "x"]),
  fn0 ‹"vexm"› (.call (.attr (V "vdtnpfun") ‹"vdt_exp"›) [V "xx"]),
  .print (.txt ‹"timing exp"›),
  time ‹"nex"› ‹"nex"›,
  time ‹"nexf"› ‹"nexf"›,
  time ‹"vexff"› ‹"vexff"›,
  time ‹"vexfm"› ‹"vexfm"›,
  time ‹"vexm"› ‹"vexm"›]

/-- progs/testExp.py -/
def testExp : List Stm := [
  .imp ‹"imp"› ‹"imp"›,
  .imp ‹"numpy"› ‹"numpy"›,
  loadModule,
  .imp ‹"vdtnpfun"› ‹"vdtnpfun"›,
  .print (call ‹"dir"› [V "vdtnpfun"]),
  .set ‹"vi"› (.ints 4),
  .set ‹"requires"› (.tup []),
  .set ‹"vi"› (numpy ‹"asanyarray"› [V "vi"]),
  .set ‹"vi"› (numpy ‹"require"› [V "vi", .attr (V "numpy") ‹"single"›, V "requires"]),
  .set ‹"vo"› (numpy ‹"empty_like"› [V "vi"]),
  .print (.call (.attr (V "vdtnpfun") ‹"vdt_exp"›) [V "vi"]),
  .set ‹"vd"› (.ints 4),
  .set ‹"requires"› (.tup []),
  .set ‹"vd"› (numpy ‹"asanyarray"› [V "vi"]),
  .set ‹"vd"› (numpy ‹"require"› [V "vi", .attr (V "numpy") ‹"double"›, V "requires"]),
  .set ‹"vo"› (numpy ‹"empty_like"› [V "vi"]),
  .print (.call (.attr (V "vdtnpfun") ‹"vdt_exp"›) [V "vd"])]

/-- progs/vdtTest.ipynb, the code cells -/
def vdtTest : List Stm := [
  .imp ‹"imp"› ‹"imp"›,
  .imp ‹"numpy"› ‹"numpy"›,
  loadModule,
  .imp ‹"vdtnpfun"› ‹"vdtnpfun"›,
  .print (call ‹"dir"› [V "vdtnpfun"]),
  .set ‹"vi"› (.ints 4),
  .set ‹"requires"› (.tup []),
  .set ‹"vi"› (numpy ‹"asanyarray"› [V "vi"]),
  .set ‹"vi"› (numpy ‹"require"› [V "vi", .attr (V "numpy") ‹"single"›, V "requires"]),
  .set ‹"vo"› (numpy ‹"empty_like"› [V "vi"]),
  .print (.call (.attr (V "vdtnpfun") ‹"vdt_exp"›) [V "vi"]),
  .set ‹"requires"› (.tup []),
  .set ‹"vd"› (numpy ‹"asanyarray"› [V "vi"]),
  .set ‹"vd"› (numpy ‹"require"› [V "vi", .attr (V "numpy") ‹"double"›, V "requires"]),
  .set ‹"vo"› (numpy ‹"empty_like"› [V "vd"]),
  .print (.call (.attr (V "vdtnpfun") ‹"vdt_exp"›) [V "vd"]),
  .imp ‹"os"› ‹"os"›,
  .frm ‹"ctypes"› ‹"c_char_p"›,
  archDef,
  .expr (call ‹"vdt_arch"› [])]

end Scripts

end Vdt.Py
