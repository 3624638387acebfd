import Verif.Model.Arrays
import Verif.Model.PyCall

/-!
# The functions of the numpy module

Model of `src/vdtNumpyWrapper.c`: the inner loops and the calls of `PyUFunc_FromFuncAndData` that make them universal
functions.

Outside the repository, and therefore assumptions of the model:
* numpy chooses the first row of `types` to which the inputs can be cast safely (a `double` not to `float`), casts them,
  and calls the loop and the entry of `data` of this row with the base addresses of the operands, the number of elements
  and the distances in bytes between neighbouring elements of each operand.
* The call of a C function through a pointer of another type, and an access outside the arrays, are undefined behaviour.
Simplification: an address refers to the whole element that starts there.
-/

namespace Vdt.Py
open Vdt.Txt (Text)
open Vdt.Arr (BMem)

local notation "‹" s "›" => String.toList s

/-- The type of the pointer through which an inner loop calls the library: element type, number of input and of output
arrays. -/
structure LoopT where
  single : Bool
  ins : Nat
  outs : Nat
  deriving DecidableEq

/-- src/vdtNumpyWrapper.c:29-40 -/
def vdt_vf : LoopT := ⟨true, 1, 1⟩
/-- src/vdtNumpyWrapper.c:42-53 -/
def vdt_vd : LoopT := ⟨false, 1, 1⟩
/-- src/vdtNumpyWrapper.c:57-68 -/
def vdt_vf21 : LoopT := ⟨true, 2, 1⟩
/-- src/vdtNumpyWrapper.c:70-81 -/
def vdt_vf12 : LoopT := ⟨true, 1, 2⟩
/-- src/vdtNumpyWrapper.c:83-94 -/
def vdt_vf31 : LoopT := ⟨true, 3, 1⟩
/-- src/vdtNumpyWrapper.c:97-108 -/
def vdt_vd21 : LoopT := ⟨false, 2, 1⟩
/-- src/vdtNumpyWrapper.c:110-121 -/
def vdt_vd12 : LoopT := ⟨false, 1, 2⟩
/-- src/vdtNumpyWrapper.c:123-134 -/
def vdt_vd31 : LoopT := ⟨false, 3, 1⟩

/-- `sizeof` of an element. -/
def esz (single : Bool) : Int := if single then 4 else 8

/-- The assignments of one iteration. -/
def writes {α : Type} : List Int → List α → BMem α → Option (BMem α)
  | a :: as, y :: ys, m => if (m a).isSome then writes as ys (Function.update m a (some y)) else none
  | [], [], m => some m
  | _, _, _ => none

/-- src/numpy_wrapper_generator.py:115-154, `for (long i=0;i<size;++i) {oarray[i]=f(iarray[i]);}` and its variants with more
arrays, on addresses, from iteration `i` on, with `k` iterations left. -/
def ptrLoop {s : Bool} (f : List (FP (fmt s)) → Option (List (FP (fmt s)))) (ins outs : List Int) :
    (k i : Nat) → BMem (FP (fmt s)) → Option (BMem (FP (fmt s)))
  | 0, _, m => some m
  | k + 1, i, m => do
    let xs ← ins.mapM fun p => m (p + esz s * i)
    let ys ← f xs
    let m ← writes (outs.map fun p => p + esz s * i) ys m
    ptrLoop f ins outs k (i + 1) m

/-- src/vdtNumpyWrapper.c:29-134, the inner loops: call of `data` with the addresses in `args` and with `dimensions[0]`.
The argument `steps` is not used. -/
def inner (L : LoopT) (data : Text) (s : Bool) (args : List Int) (n : Nat) (_steps : List Int) (m : BMem (FP (fmt s))) :
    Option (BMem (FP (fmt s))) :=
  match lib.lookup data with
  | none => none
  | some S =>
    if h : S.single = s then
      if L = ⟨S.single, S.ins, S.outs⟩ ∧ args.length = L.ins + L.outs then
        ptrLoop (s := s) (h ▸ S.fn) (args.take L.ins) (args.drop L.ins) n 0 m
      else none
    else none

/-- `PyUFunc_FromFuncAndData(funcs, data, types, ntypes, nin, nout, PyUFunc_None, name, …)`; a type is given by whether it
is `NPY_FLOAT` (otherwise it is `NPY_DOUBLE`). -/
structure Ufunc where
  funcs : List LoopT
  data : List Text
  types : List Bool
  ntypes : Nat
  nin : Nat
  nout : Nat
  name : Text

/-- src/vdtNumpyWrapper.c:138-141 -/
def funcs : List LoopT := [vdt_vf, vdt_vd]
def funcs21 : List LoopT := [vdt_vf21, vdt_vd21]
def funcs12 : List LoopT := [vdt_vf12, vdt_vd12]
def funcs31 : List LoopT := [vdt_vf31, vdt_vd31]

/-- src/vdtNumpyWrapper.c:144-148 -/
def types : List Bool := [true, true, false, false]
def types12 : List Bool := [true, true, true, false, false, false]
def types31 : List Bool := [true, true, true, true, false, false, false, false]

/-- src/vdtNumpyWrapper.c:217-249 with the tables of src/numpy_wrapper_generator.py:272-289 -/
def ufuncs : List Ufunc :=
  (List.range Gen.Numpy.fnameTable.length).map (fun i =>
    ⟨funcs, Gen.Numpy.dataTable.drop (2 * i), types, 2, 1, 1, Gen.Numpy.fnameTable.getD i []⟩) ++
  [⟨funcs12, [‹"vdt_sincosfv"›, ‹"vdt_sincosv"›], types12, 2, 1, 2, ‹"vdt_sincos"›⟩,
   ⟨funcs21, [‹"vdt_atan2fv"›, ‹"vdt_atan2v"›], types12, 2, 2, 1, ‹"vdt_atan2"›⟩,
   ⟨funcs21, [‹"vdt_divfv"›, ‹"vdt_divv"›], types12, 2, 2, 1, ‹"vdt_div"›⟩,
   ⟨funcs31, [‹"vdt_fmafv"›, ‹"vdt_fmav"›], types31, 2, 3, 1, ‹"vdt_fma"›⟩,
   ⟨funcs31, [‹"vdt_fmacfv"›, ‹"vdt_fmacv"›], types31, 2, 3, 1, ‹"vdt_fmac"›⟩]

/-- The types of the operands in row `t` of `types`. -/
def Ufunc.row (u : Ufunc) (t : Nat) : List Bool := (u.types.drop (t * (u.nin + u.nout))).take (u.nin + u.nout)

/-- The row numpy chooses for inputs of these types (`true` for `float`, `false` for `double`). -/
def Ufunc.pick (u : Ufunc) (kinds : List Bool) : Option Nat :=
  (List.range u.ntypes).find? fun t => (kinds.zip (u.row t)).all fun p => p.1 || !p.2

/-- The call of the loop of row `t` for operands with these base addresses and distances, all of the type `s`. -/
def Ufunc.run (u : Ufunc) (t : Nat) (s : Bool) (ops : List (Int × Int)) (n : Nat) (m : BMem (FP (fmt s))) :
    Option (BMem (FP (fmt s))) :=
  match u.funcs[t]?, u.data[t]? with
  | some L, some d => inner L d s (ops.map Prod.fst) n (ops.map Prod.snd) m
  | _, _ => none

end Vdt.Py
