import Verif.Model.Random
import Verif.Model.Persist
import Verif.Model.Arrays
import Verif.Model.Exp
import Verif.Model.Log
import Verif.Model.Sincos
import Verif.Model.Tan
import Verif.Model.Tanh
import Verif.Model.Asin
import Verif.Model.Atan
import Verif.Model.Sqrt

/-!
# The accuracy benchmark

Model of the function tables (`include/diagnostic/vdtdiag_fcnTuples.h`), of the constructors of
`fcnResponse1D/2D` from a function (`include/diagnostic/vdtdiag_fcnResponse.h`) and of the program
`progs/vdtArithmBenchmark.cpp` behind the command line: nickname and size are parameters.

The functions of the standard library (`refMath`) and of Vc are parameters; that Vc is compiled in is
a parameter as well (`include/externalLibcfg.h` of the repository switches it off).  A scalar function
that may be undefined on some arguments has an optional result.  Output to the screen is left out.
-/

namespace Vdt.Bench
open FP Txt Arr Rand

local notation "‹" s "›" => String.toList s

/-- `vdth::genfpfunction<T>` -/
abbrev Fcn (f : Fmt) := FP f → Option (FP f)
/-- `vdth::genfpfunctionv<T>`: size, address of the input, address of the output. -/
abbrev ArrayFcn (f : Fmt) := BitVec 32 → Nat → Nat → Mem (FP f) → Option (Mem (FP f))
/-- `vdth::genfp2function<T>` -/
abbrev Fcn2 (f : Fmt) := FP f → FP f → Option (FP f)
/-- `vdth::genfp2functionv<T>` -/
abbrev ArrayFcn2 (f : Fmt) := BitVec 32 → Nat → Nat → Nat → Mem (FP f) → Option (Mem (FP f))

/-- The functions of namespace `refMath` for one precision (include/diagnostic/vdtdiag_helper.h:45-66). -/
structure RefMath (f : Fmt) where
  exp : FP f → FP f
  log : FP f → FP f
  sin : FP f → FP f
  cos : FP f → FP f
  tan : FP f → FP f
  tanh : FP f → FP f
  asin : FP f → FP f
  acos : FP f → FP f
  atan : FP f → FP f
  atan2 : FP f → FP f → FP f

/-- The functions the Vc wrapper declares for one precision. -/
structure VcFns (f : Fmt) where
  identity : Fcn f
  log : Fcn f
  sin : Fcn f
  cos : Fcn f
  asin : Fcn f
  atan : Fcn f
  isqrt : Fcn f
  inv : Fcn f
  identityv : ArrayFcn f
  logv : ArrayFcn f
  sinv : ArrayFcn f
  cosv : ArrayFcn f
  asinv : ArrayFcn f
  atanv : ArrayFcn f
  isqrtv : ArrayFcn f
  invv : ArrayFcn f

/-- `genfpfcn_tuple<T>`, `genfpfcnv_tuple<T>` (vdtdiag_fcnTuples.h:49-50) -/
structure Entry (f : Fmt) (φ : Type) where
  name : Text
  fcn : φ
  input : List (FP f)

/-- The numbers of the four pools handed to `getFunctionTuples`. -/
structure Pools (f : Fmt) where
  sym : List (FP f)
  pos : List (FP f)
  one : List (FP f)
  exp : List (FP f)

/-- include/diagnostic/vdtdiag_fcnTuples.h:104-148 -/
def tuples64 (R : RefMath b64) (vc : Option (VcFns b64)) (P : Pools b64) : List (Entry b64 (Fcn b64)) :=
  [⟨‹"Identity"›, (some <| identity ·), P.sym⟩,
   ⟨‹"Exp"›, (some <| R.exp ·), P.exp⟩,
   ⟨‹"Log"›, (some <| R.log ·), P.pos⟩,
   ⟨‹"Sin"›, (some <| R.sin ·), P.sym⟩,
   ⟨‹"Cos"›, (some <| R.cos ·), P.sym⟩,
   ⟨‹"Tan"›, (some <| R.tan ·), P.sym⟩,
   ⟨‹"Tanh"›, (some <| R.tanh ·), P.sym⟩,
   ⟨‹"Asin"›, (some <| R.asin ·), P.one⟩,
   ⟨‹"Acos"›, (some <| R.acos ·), P.one⟩,
   ⟨‹"Atan"›, (some <| R.atan ·), P.sym⟩,
   ⟨‹"Isqrt"›, (some <| Vdt.isqrt ·), P.pos⟩,
   ⟨‹"Inverse"›, (some <| Vdt.inv ·), P.sym⟩,
   ⟨‹"Fast_Exp"›, Vdt.fast_exp, P.exp⟩,
   ⟨‹"Fast_Log"›, (some <| Vdt.fast_log ·), P.pos⟩,
   ⟨‹"Fast_Sin"›, Vdt.fast_sin, P.sym⟩,
   ⟨‹"Fast_Cos"›, Vdt.fast_cos, P.sym⟩,
   ⟨‹"Fast_Tan"›, Vdt.fast_tan, P.sym⟩,
   ⟨‹"Fast_Tanh"›, (some <| Vdt.fast_tanh ·), P.sym⟩,
   ⟨‹"Fast_Asin"›, (some <| Vdt.fast_asin ·), P.one⟩,
   ⟨‹"Fast_Acos"›, (some <| Vdt.fast_acos ·), P.one⟩,
   ⟨‹"Fast_Atan"›, (some <| Vdt.fast_atan ·), P.sym⟩,
   ⟨‹"Fast_Isqrt"›, (some <| Vdt.fast_isqrt ·), P.pos⟩,
   ⟨‹"Fast_Inv"›, (some <| Vdt.fast_inv ·), P.sym⟩,
   ⟨‹"Fast_Apr_Isqrt"›, (some <| Vdt.fast_approx_isqrt ·), P.pos⟩,
   ⟨‹"Fast_Apr_Inv"›, (some <| Vdt.fast_approx_inv ·), P.sym⟩] ++
  match vc with
  | none => []
  | some V =>
  [⟨‹"VC_Identity"›, (V.identity ·), P.sym⟩,
   ⟨‹"VC_Log"›, (V.log ·), P.pos⟩,
   ⟨‹"VC_Sin"›, (V.sin ·), P.sym⟩,
   ⟨‹"VC_Cos"›, (V.cos ·), P.sym⟩,
   ⟨‹"VC_Asin"›, (V.asin ·), P.one⟩,
   ⟨‹"VC_Atan"›, (V.atan ·), P.sym⟩,
   ⟨‹"VC_Isqrt"›, (V.isqrt ·), P.pos⟩,
   ⟨‹"VC_Inverse"›, (V.inv ·), P.sym⟩]

/-- include/diagnostic/vdtdiag_fcnTuples.h:150-194 -/
def tuples32 (R : RefMath b32) (vc : Option (VcFns b32)) (P : Pools b32) : List (Entry b32 (Fcn b32)) :=
  [⟨‹"Identityf"›, (some <| identity ·), P.sym⟩,
   ⟨‹"Expf"›, (some <| R.exp ·), P.exp⟩,
   ⟨‹"Logf"›, (some <| R.log ·), P.pos⟩,
   ⟨‹"Sinf"›, (some <| R.sin ·), P.sym⟩,
   ⟨‹"Cosf"›, (some <| R.cos ·), P.sym⟩,
   ⟨‹"Tanf"›, (some <| R.tan ·), P.sym⟩,
   ⟨‹"Tanhf"›, (some <| R.tanh ·), P.sym⟩,
   ⟨‹"Asinf"›, (some <| R.asin ·), P.one⟩,
   ⟨‹"Acosf"›, (some <| R.acos ·), P.one⟩,
   ⟨‹"Atanf"›, (some <| R.atan ·), P.sym⟩,
   ⟨‹"Isqrtf"›, (some <| Vdt.isqrtf ·), P.pos⟩,
   ⟨‹"Inversef"›, (some <| Vdt.invf ·), P.sym⟩,
   ⟨‹"Fast_Expf"›, Vdt.fast_expf, P.exp⟩,
   ⟨‹"Fast_Logf"›, (some <| Vdt.fast_logf ·), P.pos⟩,
   ⟨‹"Fast_Sinf"›, Vdt.fast_sinf, P.sym⟩,
   ⟨‹"Fast_Cosf"›, Vdt.fast_cosf, P.sym⟩,
   ⟨‹"Fast_Tanf"›, Vdt.fast_tanf, P.sym⟩,
   ⟨‹"Fast_Tanhf"›, (some <| Vdt.fast_tanhf ·), P.sym⟩,
   ⟨‹"Fast_Asinf"›, (some <| Vdt.fast_asinf ·), P.one⟩,
   ⟨‹"Fast_Acosf"›, (some <| Vdt.fast_acosf ·), P.one⟩,
   ⟨‹"Fast_Atanf"›, (some <| Vdt.fast_atanf ·), P.sym⟩,
   ⟨‹"Fast_Isqrtf"›, (some <| Vdt.fast_isqrtf ·), P.pos⟩,
   ⟨‹"Fast_Invf"›, (some <| Vdt.fast_invf ·), P.sym⟩,
   ⟨‹"Fast_Apr_Isqrtf"›, (some <| Vdt.fast_approx_isqrtf ·), P.pos⟩,
   ⟨‹"Fast_Apr_Invf"›, (some <| Vdt.fast_approx_invf ·), P.sym⟩] ++
  match vc with
  | none => []
  | some V =>
  [⟨‹"VC_Identityf"›, (V.identity ·), P.sym⟩,
   ⟨‹"VC_Logf"›, (V.log ·), P.pos⟩,
   ⟨‹"VC_Sinf"›, (V.sin ·), P.sym⟩,
   ⟨‹"VC_Cosf"›, (V.cos ·), P.sym⟩,
   ⟨‹"VC_Asinf"›, (V.asin ·), P.one⟩,
   ⟨‹"VC_Atanf"›, (V.atan ·), P.sym⟩,
   ⟨‹"VC_Isqrtf"›, (V.isqrt ·), P.pos⟩,
   ⟨‹"VC_Inversef"›, (V.inv ·), P.sym⟩]

/-- include/diagnostic/vdtdiag_fcnTuples.h:197-241 -/
def tuplesv64 (R : RefMath b64) (vc : Option (VcFns b64)) (P : Pools b64) : List (Entry b64 (ArrayFcn b64)) :=
  [⟨‹"Identityv"›, (arrayFn (some <| identity ·)), P.sym⟩,
   ⟨‹"Expv"›, (arrayFn (some <| R.exp ·)), P.exp⟩,
   ⟨‹"Logv"›, (arrayFn (some <| R.log ·)), P.pos⟩,
   ⟨‹"Sinv"›, (arrayFn (some <| R.sin ·)), P.sym⟩,
   ⟨‹"Cosv"›, (arrayFn (some <| R.cos ·)), P.sym⟩,
   ⟨‹"Tanv"›, (arrayFn (some <| R.tan ·)), P.sym⟩,
   ⟨‹"Tanhv"›, (arrayFn (some <| R.tanh ·)), P.sym⟩,
   ⟨‹"Asinv"›, (arrayFn (some <| R.asin ·)), P.one⟩,
   ⟨‹"Acosv"›, (arrayFn (some <| R.acos ·)), P.one⟩,
   ⟨‹"Atanv"›, (arrayFn (some <| R.atan ·)), P.sym⟩,
   ⟨‹"Isqrtv"›, (arrayFn (some <| Vdt.isqrt ·)), P.pos⟩,
   ⟨‹"Inversev"›, (arrayFn (some <| Vdt.inv ·)), P.sym⟩,
   ⟨‹"Fast_Expv"›, (arrayFn Vdt.fast_exp), P.exp⟩,
   ⟨‹"Fast_Logv"›, (arrayFn (some <| Vdt.fast_log ·)), P.pos⟩,
   ⟨‹"Fast_Sinv"›, (arrayFn Vdt.fast_sin), P.sym⟩,
   ⟨‹"Fast_Cosv"›, (arrayFn Vdt.fast_cos), P.sym⟩,
   ⟨‹"Fast_Tanv"›, (arrayFn Vdt.fast_tan), P.sym⟩,
   ⟨‹"Fast_Tanhv"›, (arrayFn (some <| Vdt.fast_tanh ·)), P.sym⟩,
   ⟨‹"Fast_Asinv"›, (arrayFn (some <| Vdt.fast_asin ·)), P.one⟩,
   ⟨‹"Fast_Acosv"›, (arrayFn (some <| Vdt.fast_acos ·)), P.one⟩,
   ⟨‹"Fast_Atanv"›, (arrayFn (some <| Vdt.fast_atan ·)), P.sym⟩,
   ⟨‹"Fast_Isqrtv"›, (arrayFn (some <| Vdt.fast_isqrt ·)), P.pos⟩,
   ⟨‹"Fast_Invv"›, (arrayFn (some <| Vdt.fast_inv ·)), P.sym⟩,
   ⟨‹"Fast_Apr_Isqrtv"›, (arrayFn (some <| Vdt.fast_approx_isqrt ·)), P.pos⟩,
   ⟨‹"Fast_Apr_Invv"›, (arrayFn (some <| Vdt.fast_approx_inv ·)), P.sym⟩] ++
  match vc with
  | none => []
  | some V =>
  [⟨‹"VC_Identityv"›, V.identityv, P.sym⟩,
   ⟨‹"VC_Logv"›, V.logv, P.pos⟩,
   ⟨‹"VC_Sinv"›, V.sinv, P.sym⟩,
   ⟨‹"VC_Cosv"›, V.cosv, P.sym⟩,
   ⟨‹"VC_Asinv"›, V.asinv, P.one⟩,
   ⟨‹"VC_Atanv"›, V.atanv, P.sym⟩,
   ⟨‹"VC_Isqrtv"›, V.isqrtv, P.pos⟩,
   ⟨‹"VC_Inversev"›, V.invv, P.sym⟩]

/-- include/diagnostic/vdtdiag_fcnTuples.h:243-287 -/
def tuplesv32 (R : RefMath b32) (vc : Option (VcFns b32)) (P : Pools b32) : List (Entry b32 (ArrayFcn b32)) :=
  [⟨‹"Identityfv"›, (arrayFn (some <| identity ·)), P.sym⟩,
   ⟨‹"Expfv"›, (arrayFn (some <| R.exp ·)), P.exp⟩,
   ⟨‹"Logfv"›, (arrayFn (some <| R.log ·)), P.pos⟩,
   ⟨‹"Sinfv"›, (arrayFn (some <| R.sin ·)), P.sym⟩,
   ⟨‹"Cosfv"›, (arrayFn (some <| R.cos ·)), P.sym⟩,
   ⟨‹"Tanfv"›, (arrayFn (some <| R.tan ·)), P.sym⟩,
   ⟨‹"Tanhfv"›, (arrayFn (some <| R.tanh ·)), P.sym⟩,
   ⟨‹"Asinfv"›, (arrayFn (some <| R.asin ·)), P.one⟩,
   ⟨‹"Acosfv"›, (arrayFn (some <| R.acos ·)), P.one⟩,
   ⟨‹"Atanfv"›, (arrayFn (some <| R.atan ·)), P.sym⟩,
   ⟨‹"Isqrtfv"›, (arrayFn (some <| Vdt.isqrtf ·)), P.pos⟩,
   ⟨‹"Inversefv"›, (arrayFn (some <| Vdt.invf ·)), P.sym⟩,
   ⟨‹"Fast_Expfv"›, (arrayFn Vdt.fast_expf), P.exp⟩,
   ⟨‹"Fast_Logfv"›, (arrayFn (some <| Vdt.fast_logf ·)), P.pos⟩,
   ⟨‹"Fast_Sinfv"›, (arrayFn Vdt.fast_sinf), P.sym⟩,
   ⟨‹"Fast_Cosfv"›, (arrayFn Vdt.fast_cosf), P.sym⟩,
   ⟨‹"Fast_Tanfv"›, (arrayFn Vdt.fast_tanf), P.sym⟩,
   ⟨‹"Fast_Tanhfv"›, (arrayFn (some <| Vdt.fast_tanhf ·)), P.sym⟩,
   ⟨‹"Fast_Asinfv"›, (arrayFn (some <| Vdt.fast_asinf ·)), P.one⟩,
   ⟨‹"Fast_Acosfv"›, (arrayFn (some <| Vdt.fast_acosf ·)), P.one⟩,
   ⟨‹"Fast_Atanfv"›, (arrayFn (some <| Vdt.fast_atanf ·)), P.sym⟩,
   ⟨‹"Fast_Isqrtfv"›, (arrayFn (some <| Vdt.fast_isqrtf ·)), P.pos⟩,
   ⟨‹"Fast_Invfv"›, (arrayFn (some <| Vdt.fast_invf ·)), P.sym⟩,
   ⟨‹"Fast_Apr_Isqrtfv"›, (arrayFn (some <| Vdt.fast_approx_isqrtf ·)), P.pos⟩,
   ⟨‹"Fast_Apr_Invfv"›, (arrayFn (some <| Vdt.fast_approx_invf ·)), P.sym⟩] ++
  match vc with
  | none => []
  | some V =>
  [⟨‹"VC_Identityfv"›, V.identityv, P.sym⟩,
   ⟨‹"VC_Logfv"›, V.logv, P.pos⟩,
   ⟨‹"VC_Sinfv"›, V.sinv, P.sym⟩,
   ⟨‹"VC_Cosfv"›, V.cosv, P.sym⟩,
   ⟨‹"VC_Asinfv"›, V.asinv, P.one⟩,
   ⟨‹"VC_Atanfv"›, V.atanv, P.sym⟩,
   ⟨‹"VC_Isqrtfv"›, V.isqrtv, P.pos⟩,
   ⟨‹"VC_Inversefv"›, V.invv, P.sym⟩]

/-- `s.find(t) != npos` -/
def contains (t s : Text) : Bool := s.tails.any (t.isPrefixOf ·)

/-- include/diagnostic/vdtdiag_fcnTuples.h:290-310.  (The pools handed over are irrelevant, only the
names of the tuples are used.) -/
def getFunctionBasicNames (R : RefMath b64) (vc : Option (VcFns b64)) (dummy : Pools b64) : List Text :=
  ((tuples64 R vc dummy).map (·.name)).filter fun name => !contains ‹"Fast"› name && !contains ‹"Identity"› name

/-! ### Responses -/

/-- include/diagnostic/vdtdiag_fcnResponse.h:42-47 -/
def respScalar {f : Fmt} (name : Text) (input : List (FP f)) (fcn : Fcn f) : Option (Resp1D f) := do
  let rows ← input.mapM fun x => do return (x, ← fcn x)
  return ⟨false, name, ‹"From scratch"›, rows⟩

/-- The memory the array constructor hands to the function: the input vector, behind it the freshly
allocated output array with whatever it happens to contain. -/
def respMem {f : Fmt} (garbage : Nat → FP f) (input : List (FP f)) : Mem (FP f) := fun p =>
  if p < input.length then input[p]?
  else if p < 2 * input.length then some (garbage p) else none

/-- include/diagnostic/vdtdiag_fcnResponse.h:51-63.  `fcnv` takes a 32-bit size, the loop that reads
the results has a 32-bit counter: from `2^32` numbers on it would not end (`none`); the address of
element zero of an empty vector is undefined. -/
def respArray {f : Fmt} (garbage : Nat → FP f) (name : Text) (input : List (FP f)) (fcnv : ArrayFcn f) : Option (Resp1D f) := do
  let size := input.length
  if size = 0 ∨ 2 ^ 32 ≤ size then none else
  let m ← fcnv (BitVec.ofNat 32 size) 0 size (respMem garbage input)
  let outs ← (List.range size).mapM fun i => load m (size + i)
  return ⟨false, name, ‹"From scratch"›, input.zip outs⟩

/-- include/diagnostic/vdtdiag_fcnResponse.h:148-158: `input2[i]` for all `i` below the length of
`input1`. -/
def respScalar2 {f : Fmt} (name : Text) (input1 input2 : List (FP f)) (fcn : Fcn2 f) : Option (Resp2D f) := do
  let rows ← (List.range input1.length).mapM fun i => do
    let x ← input1[i]?
    let y ← input2[i]?
    return (x, y, ← fcn x y)
  return ⟨false, name, ‹"From scratch"›, rows⟩

/-- As `respMem` with two input vectors of the same length. -/
def respMem2 {f : Fmt} (garbage : Nat → FP f) (input1 input2 : List (FP f)) : Mem (FP f) := fun p =>
  if p < input1.length then input1[p]?
  else if p < 2 * input1.length then input2[p - input1.length]?
  else if p < 3 * input1.length then some (garbage p) else none

/-- include/diagnostic/vdtdiag_fcnResponse.h:162-178 -/
def respArray2 {f : Fmt} (garbage : Nat → FP f) (name : Text) (input1 input2 : List (FP f)) (fcnv : ArrayFcn2 f) :
    Option (Resp2D f) := do
  let size := input1.length
  if size = 0 ∨ 2 ^ 32 ≤ size then none else
  let m ← fcnv (BitVec.ofNat 32 size) 0 size (2 * size) (respMem2 garbage input1 input2)
  let outs ← (List.range size).mapM fun i => load m (2 * size + i)
  return ⟨false, name, ‹"From scratch"›, input1.zip (input2.zip outs)⟩

/-! ### `progs/vdtArithmBenchmark.cpp` -/

/-- vdtArithmBenchmark.cpp:33-38,51-56 -/
def fname (nickname name : Text) : Text := nickname ++ ‹"__"› ++ name ++ ‹"__response.txt"›

/-- vdtArithmBenchmark.cpp:30-41 with a scalar tuple. -/
def saveScalar {f : Fmt} (nickname : Text) (fs : Fs) (e : Entry f (Fcn f)) : Option Fs := do
  let response ← respScalar e.name e.input e.fcn
  return response.writeFile (fname nickname e.name) fs

/-- vdtArithmBenchmark.cpp:30-41 with an array tuple. -/
def saveArray {f : Fmt} (garbage : Nat → FP f) (nickname : Text) (fs : Fs) (e : Entry f (ArrayFcn f)) : Option Fs := do
  let response ← respArray garbage e.name e.input e.fcn
  return response.writeFile (fname nickname e.name) fs

/-- vdtArithmBenchmark.cpp:43-59 with a scalar function. -/
def saveScalar2 {f : Fmt} (name : Text) (fcn : Fcn2 f) (xs ys : List (FP f)) (nickname : Text) (fs : Fs) : Option Fs := do
  let response ← respScalar2 name xs ys fcn
  return response.writeFile (fname nickname name) fs

/-- vdtArithmBenchmark.cpp:43-59 with an array function. -/
def saveArray2 {f : Fmt} (garbage : Nat → FP f) (name : Text) (fcn : ArrayFcn2 f) (xs ys : List (FP f)) (nickname : Text)
    (fs : Fs) : Option Fs := do
  let response ← respArray2 garbage name xs ys fcn
  return response.writeFile (fname nickname name) fs

/-- vdtArithmBenchmark.cpp:21-23,99,101-103: the limits of the double precision pools.  Every pool is
made with the default seed, hence from the same stream of engine outputs. -/
def pools64 (eng : Engine) (SIZE : BitVec 32) : Pools b64 :=
  let spool_max : F64 := lit 5000
  let spool_min : F64 := neg spool_max
  let ppool_min : F64 := lit 0.0001
  ⟨pool1D eng spool_min spool_max (SIZE.setWidth 64), pool1D eng ppool_min spool_max (SIZE.setWidth 64),
   pool1D eng (lit (-1)) (lit 1) (SIZE.setWidth 64), pool1D eng (lit (-705)) (lit 705) (SIZE.setWidth 64)⟩

/-- vdtArithmBenchmark.cpp:25-27,160-163 -/
def pools32 (eng : Engine) (SIZE : BitVec 32) : Pools b32 :=
  let spool_maxf : F32 := lit 5000
  let spool_minf : F32 := neg spool_maxf
  let ppool_minf : F32 := lit 0.0001
  ⟨pool1D eng spool_minf spool_maxf (SIZE.setWidth 64), pool1D eng ppool_minf spool_maxf (SIZE.setWidth 64),
   pool1D eng (lit (-1)) (lit 1) (SIZE.setWidth 64), pool1D eng (lit (-85)) (lit 85) (SIZE.setWidth 64)⟩

/-- vdtArithmBenchmark.cpp:100,164 -/
def poolPairs (f : Fmt) (eng : Engine) (SIZE : BitVec 32) : List (FP f) × List (FP f) :=
  pool2D eng (lit (-1)) (lit (-1)) (lit 1) (lit 1) (SIZE.setWidth 64)

/-- vdtArithmBenchmark.cpp:97-149, the double precision half. -/
def main64 (R : RefMath b64) (vc : Option (VcFns b64)) (garbage : Nat → F64) (eng : Engine) (nick : Text) (SIZE : BitVec 32)
    (fs : Fs) : Option Fs := do
  let P := pools64 eng SIZE
  let spool2D := poolPairs b64 eng SIZE
  let fs ← (tuples64 R vc P).foldlM (saveScalar nick) fs
  let fs ← (tuplesv64 R vc P).foldlM (saveArray garbage nick) fs
  let fs ← saveScalar2 ‹"Atan2"› (some <| R.atan2 · ·) spool2D.1 spool2D.2 nick fs
  let fs ← saveScalar2 ‹"Fast_Atan2"› (some <| Vdt.fast_atan2 · ·) spool2D.1 spool2D.2 nick fs
  let fs ← saveArray2 garbage ‹"Atan2v"› (arrayFn2 (some <| R.atan2 · ·)) spool2D.1 spool2D.2 nick fs
  saveArray2 garbage ‹"Fast_Atan2v"› (arrayFn2 (some <| Vdt.fast_atan2 · ·)) spool2D.1 spool2D.2 nick fs

/-- vdtArithmBenchmark.cpp:158-209, the single precision half. -/
def main32 (R : RefMath b32) (vc : Option (VcFns b32)) (garbage : Nat → F32) (eng : Engine) (nick : Text) (SIZE : BitVec 32)
    (fs : Fs) : Option Fs := do
  let P := pools32 eng SIZE
  let fspool2D := poolPairs b32 eng SIZE
  let fs ← (tuples32 R vc P).foldlM (saveScalar nick) fs
  let fs ← (tuplesv32 R vc P).foldlM (saveArray garbage nick) fs
  let fs ← saveScalar2 ‹"Atan2f"› (some <| R.atan2 · ·) fspool2D.1 fspool2D.2 nick fs
  let fs ← saveScalar2 ‹"Fast_Atan2f"› (some <| Vdt.fast_atan2f · ·) fspool2D.1 fspool2D.2 nick fs
  let fs ← saveArray2 garbage ‹"Atan2fv"› (arrayFn2 (some <| R.atan2 · ·)) fspool2D.1 fspool2D.2 nick fs
  saveArray2 garbage ‹"Fast_Atan2fv"› (arrayFn2 (some <| Vdt.fast_atan2f · ·)) fspool2D.1 fspool2D.2 nick fs

/-- vdtArithmBenchmark.cpp:97-219, a whole run. -/
def main (R : RefMath b64) (Rf : RefMath b32) (vc : Option (VcFns b64 × VcFns b32)) (garbage : Nat → F64) (garbagef : Nat → F32)
    (eng : Engine) (nick : Text) (SIZE : BitVec 32) (fs : Fs) : Option Fs := do
  let fs ← main64 R (vc.map (·.1)) garbage eng nick SIZE fs
  main32 Rf (vc.map (·.2)) garbagef eng nick SIZE fs

end Vdt.Bench
