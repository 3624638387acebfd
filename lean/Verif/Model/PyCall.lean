import Verif.Model.Generate
import Verif.Model.Exp
import Verif.Model.Log
import Verif.Model.Sincos
import Verif.Model.Asin
import Verif.Model.Atan
import Verif.Model.Sqrt

/-!
# Calling the library from Python

Model of `scripts/vdtBase.py`, of `scripts/invokeVDT.py` and of the calls in the generated module `vdt_ctypes.py`
(`src/numpy_wrapper_generator.py:235-261`).

Outside the repository, and therefore assumptions of the model:
* `numpy.require(v, type, ['CONTIGUOUS', 'ALIGNED'])` gives an array of the wanted type whose elements lie one after the
  other in the order of the indices, each the conversion of the element of `v`; `numpy.empty_like` gives a new
  array of the same type and shape with arbitrary elements.  `numpy.float` is the type `double` (numpy before 1.24).
* `ctypes` rejects a call (an exception) with fewer arguments than `argtypes`, or with an array where a number is
  declared or the other way round.
* A buffer is a block of its own; an access outside it is undefined behaviour, as is the call of a C function with
  arguments other than its parameters.
Simplification: subclasses of `ndarray` are not distinguished.
-/

namespace Vdt.Py
open Vdt.Txt (Text)

local notation "‹" s "›" => String.toList s

/-- The format of an element type: `numpy.single` or `numpy.float`. -/
abbrev fmt : (single : Bool) → Fmt
  | true => b32
  | false => b64

/-- The elements of an array in the order of the indices. -/
inductive Dat where
  | f64 (l : List F64)
  | f32 (l : List F32)
  | i64 (l : List Int)

/-- A numpy array. -/
structure Nd where
  shape : List Nat
  data : Dat

/-- `v.size` -/
def Nd.size (v : Nd) : Nat := v.shape.prod

def Dat.length : Dat → Nat
  | .f64 l => l.length
  | .f32 l => l.length
  | .i64 l => l.length

/-- Conversion of the elements to `numpy.single` or `numpy.float`. -/
def Dat.to : Dat → (single : Bool) → List (FP (fmt single))
  | .f64 l, false => l
  | .f64 l, true => l.map (FP.convert b32)
  | .f32 l, false => l.map (FP.convert b64)
  | .f32 l, true => l
  | .i64 l, false => l.map FP.ofInt
  | .i64 l, true => l.map FP.ofInt

def mk : (single : Bool) → List (FP (fmt single)) → Dat
  | true, l => .f32 l
  | false, l => .f64 l

/-- What can go wrong: a Python exception, or undefined behaviour in the C library. -/
inductive Err where
  | exception
  | undefined
  deriving DecidableEq

/-! ## The C library -/

/-- An array function of `libvdtFatLibWrapper`: element type, number of input and of output arrays, the function applied
to the elements. -/
structure Sym where
  single : Bool
  ins : Nat
  outs : Nat
  fn : List (FP (fmt single)) → Option (List (FP (fmt single)))

def sym11 (single : Bool) (f : FP (fmt single) → Option (FP (fmt single))) : Sym :=
  ⟨single, 1, 1, fun xs => match xs with | [x] => (f x).map ([·]) | _ => none⟩
def sym21 (single : Bool) (f : FP (fmt single) → FP (fmt single) → Option (FP (fmt single))) : Sym :=
  ⟨single, 2, 1, fun xs => match xs with | [x, y] => (f x y).map ([·]) | _ => none⟩
def sym31 (single : Bool) (f : FP (fmt single) → FP (fmt single) → FP (fmt single) → Option (FP (fmt single))) : Sym :=
  ⟨single, 3, 1, fun xs => match xs with | [x, y, z] => (f x y z).map ([·]) | _ => none⟩
def sym12 (single : Bool) (f : FP (fmt single) → Option (FP (fmt single) × FP (fmt single))) : Sym :=
  ⟨single, 1, 2, fun xs => match xs with | [x] => (f x).map fun p => [p.1, p.2] | _ => none⟩

/-- The array functions in the library, src/numpy_wrapper_generator.py:13-27, 115-154 and 224-230, with the functions
they call. -/
def lib : List (Text × Sym) := [
  (‹"vdt_asinv"›, sym11 false fun x => some (fast_asin x)), (‹"vdt_asinfv"›, sym11 true fun x => some (fast_asinf x)),
  (‹"vdt_atanv"›, sym11 false fun x => some (fast_atan x)), (‹"vdt_atanfv"›, sym11 true fun x => some (fast_atanf x)),
  (‹"vdt_atan2v"›, sym21 false fun x y => some (fast_atan2 x y)),
  (‹"vdt_atan2fv"›, sym21 true fun x y => some (fast_atan2f x y)),
  (‹"vdt_cosv"›, sym11 false fast_cos), (‹"vdt_cosfv"›, sym11 true fast_cosf),
  (‹"vdt_expv"›, sym11 false fast_exp), (‹"vdt_expfv"›, sym11 true fast_expf),
  (‹"vdt_invv"›, sym11 false fun x => some (fast_inv x)), (‹"vdt_invfv"›, sym11 true fun x => some (fast_invf x)),
  (‹"vdt_logv"›, sym11 false fun x => some (fast_log x)), (‹"vdt_logfv"›, sym11 true fun x => some (fast_logf x)),
  (‹"vdt_sinv"›, sym11 false fast_sin), (‹"vdt_sinfv"›, sym11 true fast_sinf),
  (‹"vdt_sincosv"›, sym12 false fast_sincos), (‹"vdt_sincosfv"›, sym12 true fast_sincosf),
  (‹"vdt_isqrtv"›, sym11 false fun x => some (fast_isqrt x)),
  (‹"vdt_isqrtfv"›, sym11 true fun x => some (fast_isqrtf x)),
  (‹"vdt_identityv"›, sym11 false fun x => some (fast_identity x)),
  (‹"vdt_identityfv"›, sym11 true fun x => some (fast_identity x)),
  (‹"vdt_sqrtv"›, sym11 false fun x => some (fast_sqrt x)), (‹"vdt_sqrtfv"›, sym11 true fun x => some (fast_sqrt x)),
  (‹"vdt_divv"›, sym21 false fun x y => some (fast_div x y)), (‹"vdt_divfv"›, sym21 true fun x y => some (fast_div x y)),
  (‹"vdt_fmav"›, sym31 false fun x y z => some (fast_fma x y z)),
  (‹"vdt_fmafv"›, sym31 true fun x y z => some (fast_fma x y z)),
  (‹"vdt_fmacv"›, sym31 false fun x y z => some (fast_fmac x y z)),
  (‹"vdt_fmacfv"›, sym31 true fun x y z => some (fast_fmac x y z))]

/-- The buffers of the arrays of one call. -/
abbrev Heap (single : Bool) := List (List (FP (fmt single)))

/-- `b[i]` -/
def load {s : Bool} (h : Heap s) (b i : Nat) : Option (FP (fmt s)) := (h[b]?).bind (·[i]?)

/-- `b[i] = y` -/
def store {s : Bool} (h : Heap s) (b i : Nat) (y : FP (fmt s)) : Option (Heap s) :=
  (h[b]?).bind fun l => if i < l.length then some (h.set b (l.set i y)) else none

/-- The assignments of one iteration to the output arrays `outs`. -/
def storeAll {s : Bool} (i : Nat) : (outs : List Nat) → List (FP (fmt s)) → Heap s → Option (Heap s)
  | o :: outs, y :: ys, h => (store h o i y).bind (storeAll i outs ys)
  | [], [], h => some h
  | _, _, _ => none

/-- src/numpy_wrapper_generator.py:115-154, `for (long i=0;i<size;++i) {oarray[i]=f(iarray[i]);}` and its variants with more
arrays, from iteration `i` on, with `k` iterations left. -/
def fatLoop (S : Sym) (ins outs : List Nat) : (k i : Nat) → Heap S.single → Option (Heap S.single)
  | 0, _, h => some h
  | k + 1, i, h => do
    let xs ← ins.mapM (load h · i)
    let ys ← S.fn xs
    let h ← storeAll i outs ys h
    fatLoop S ins outs k (i + 1) h

/-! ## `ctypes` -/

/-- An entry of `argtypes`: `ndpointer(type, …)` or `c_intp`. -/
inductive AT where
  | ptr
  | intp
  deriving DecidableEq

/-- A function as `load` returns it, with its `type`. -/
structure Fn where
  sym : Sym
  single : Bool
  argtypes : List AT

/-- An argument of a call: an array (the number of its buffer) or an integer. -/
inductive Arg where
  | arr (b : Nat)
  | int (n : Nat)

def Arg.at : Arg → AT
  | .arr _ => .ptr
  | .int _ => .intp

def Arg.block : Arg → Nat
  | .arr b => b
  | .int _ => 0

/-- `f(args)`.  Arguments behind the declared ones are passed if they are numbers.  All arrays have the element type of
`f`. -/
def call (f : Fn) (args : List Arg) (h : Heap f.single) : Except Err (Heap f.single) :=
  if (args.map Arg.at).take f.argtypes.length = f.argtypes ∧ ∀ a ∈ (args.map Arg.at).drop f.argtypes.length, a = .intp then
    if hs : f.sym.single = f.single then
      if args.map Arg.at = List.replicate (f.sym.ins + f.sym.outs) .ptr ++ [.intp] then
        match args.getLast? with
        | some (.int n) =>
          match fatLoop f.sym ((args.take f.sym.ins).map Arg.block) (((args.drop f.sym.ins).take f.sym.outs).map Arg.block) n 0
            (hs ▸ h) with
          | some h' => .ok (hs ▸ h')
          | none => .error .undefined
        | _ => .error .undefined
      else .error .undefined
    else .error .undefined
  else .error .exception

/-! ## `scripts/invokeVDT.py` -/

/-- The result array of a buffer. -/
def ofBlock {s : Bool} (shape : List Nat) (h : Heap s) (b : Nat) : Nd := ⟨shape, mk s (h.getD b [])⟩

/-- `numpy.empty_like`: what the memory holds is `junk`. -/
def empty (s : Bool) (junk : Nat → FP (fmt s)) (size : Nat) : List (FP (fmt s)) := (List.range size).map junk

/-- What uninitialised memory holds, for both element types. -/
abbrev Junk := (s : Bool) → (call : Nat) → Nat → FP (fmt s)

/-- scripts/invokeVDT.py:6-12 -/
def invoke (junk : Junk) (vi : Nd) (f : Fn) : Except Err (List Nd) := do
  let h ← call f [.arr 0, .arr 1, .int vi.size] [vi.data.to f.single, empty f.single (junk _ 0) vi.size]
  return [ofBlock vi.shape h 1]

/-- scripts/invokeVDT.py:14-22 -/
def invoke2to1 (junk : Junk) (vi1 vi2 : Nd) (f : Fn) : Except Err (List Nd) := do
  let h ← call f [.arr 0, .arr 1, .arr 2, .int vi1.size]
    [vi1.data.to f.single, vi2.data.to f.single, empty f.single (junk _ 0) vi1.size]
  return [ofBlock vi1.shape h 2]

/-- scripts/invokeVDT.py:24-31 -/
def invoke1to2 (junk : Junk) (vi : Nd) (f : Fn) : Except Err (List Nd) := do
  let h ← call f [.arr 0, .arr 1, .arr 2, .int vi.size]
    [vi.data.to f.single, empty f.single (junk _ 0) vi.size, empty f.single (junk _ 1) vi.size]
  return [ofBlock vi.shape h 1, ofBlock vi.shape h 2]

/-- scripts/invokeVDT.py:35-49; a name the library does not have raises an exception. -/
def loadFn (fn : Text) (is_single : Bool) (nin nout : Nat) : Except Err Fn :=
  match lib.lookup fn with
  | some sym => .ok ⟨sym, is_single, List.replicate nin .ptr ++ List.replicate nout .ptr ++ [.intp]⟩
  | none => .error .exception

/-! ## `scripts/vdtBase.py` -/

/-- scripts/vdtBase.py:12, `VDTFunMap` -/
abbrev FunMap := List (Text × Fn)

/-- scripts/vdtBase.py:14-17 -/
def loadit (fn : Text) (nin nout : Nat) (st : FunMap) : Except Err FunMap :=
  match st.lookup fn with
  | some _ => .ok st
  | none => do
    let is_single := fn.getLast? == some 'f'
    let f ← loadFn (fn ++ ‹"v"›) is_single nin nout
    return (fn, f) :: st

/-- scripts/vdtBase.py:19-32, the three functions: load, look up, call. -/
def withFn (fn : Text) (nin nout : Nat) (st : FunMap) (k : Fn → Except Err (List Nd)) : Except Err (List Nd) × FunMap :=
  match loadit fn nin nout st with
  | .error e => (.error e, st)
  | .ok st =>
    match st.lookup fn with
    | some f => (k f, st)
    | none => (.error .exception, st)

/-- scripts/vdtBase.py:19-22 -/
def vdt_invoke (junk : Junk) (fn : Text) (vi : Nd) (st : FunMap) : Except Err (List Nd) × FunMap :=
  withFn fn 1 1 st (invoke junk vi)

/-- scripts/vdtBase.py:24-27 -/
def vdt_invoke2to1 (junk : Junk) (fn : Text) (vi1 vi2 : Nd) (st : FunMap) : Except Err (List Nd) × FunMap :=
  withFn fn 2 1 st (invoke2to1 junk vi1 vi2)

/-- scripts/vdtBase.py:29-32 -/
def vdt_invoke1to2 (junk : Junk) (fn : Text) (vi : Nd) (st : FunMap) : Except Err (List Nd) × FunMap :=
  withFn fn 1 2 st (invoke1to2 junk vi)

/-! ## The generated module

The interpreter is that of the one form of statement the module has,
`def name(params): return callee("fn",args)`. -/

/-- `t.split(c)` -/
def splitAt (c : Char) (t : Text) : List Text :=
  t.foldr (fun a ls => if a == c then [] :: ls else match ls with | [] => [[a]] | l :: r => (a :: l) :: r) [[]]

structure PyDef where
  name : Text
  params : List Text
  callee : Text
  fn : Text
  args : List Text
  deriving DecidableEq

/-- Reads a line `def name(params): return callee("fn",args)`. -/
def readPyDef (line : Text) : PyDef :=
  let name := (line.drop 4).takeWhile (· != '(')
  let t := (line.dropWhile (· != '(')).drop 1
  let params := splitAt ',' (t.takeWhile (· != ')'))
  let body := (t.dropWhile (· != ')')).drop 10
  let callee := body.takeWhile (· != '(')
  let args := splitAt ',' (((body.dropWhile (· != '(')).drop 1).takeWhile (· != ')'))
  ⟨name, params, callee, (args.headD []).tail.dropLast, args.tail⟩

/-- The functions of the module `vdt_ctypes`. -/
def moduleDefs : List PyDef :=
  ((splitAt '\n' Gen.Numpy.create_python).filter fun l => ‹"def "›.isPrefixOf l).map readPyDef

/-- The call of a function of the module: with a wrong number of arguments, an exception. -/
def PyDef.run (junk : Junk) (d : PyDef) (vals : List Nd) (st : FunMap) : Except Err (List Nd) × FunMap :=
  if vals.length = d.params.length then
    match d.args.mapM fun a => (d.params.zip vals).lookup a with
    | some [v] =>
      if d.callee = ‹"vdt_invoke"› then vdt_invoke junk d.fn v st
      else if d.callee = ‹"vdt_invoke1to2"› then vdt_invoke1to2 junk d.fn v st
      else (.error .exception, st)
    | some [v, w] =>
      if d.callee = ‹"vdt_invoke2to1"› then vdt_invoke2to1 junk d.fn v w st
      else (.error .exception, st)
    | _ => (.error .exception, st)
  else (.error .exception, st)

/-- `vdt_ctypes.name(vals)`; of several definitions of a name the last one counts. -/
def pyCall (junk : Junk) (name : Text) (vals : List Nd) (st : FunMap) : Except Err (List Nd) × FunMap :=
  match moduleDefs.reverse.find? (fun d => d.name == name) with
  | some d => d.run junk vals st
  | none => (.error .exception, st)

end Vdt.Py
