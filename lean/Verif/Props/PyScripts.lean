import Verif.Model.PyScripts
import Verif.Props.PyCall

/-!
# C107: the Python test and timing scripts

Every script runs to its end, and each function whose time is printed computes the function of the heading, in the
precision of its name, with the library its name stands for.
-/

namespace Vdt.Props.PyScripts
open Vdt.Txt (Text)
open Vdt.Py

local notation "‹" s "›" => String.toList s

/-- The functions whose time is printed below a heading `timing h`: the heading, the name and the operations.  `h` is the
heading so far. -/
def timings : Option Text → List Event → List (Text × Text × List Op)
  | _, [] => []
  | _, .said t :: r => timings (if ‹"timing "›.isPrefixOf t then some (t.drop 7) else none) r
  | some h, .timed f ops :: r => (h, f, ops) :: timings (some h) r
  | none, .timed _ _ :: r => timings none r
  | h, .shown _ :: r => timings h r

/-- What numpy does for the function of a heading. -/
def npWork (single : Bool) : List (Text × List Op) :=
  [(‹"exp"›, [.np ‹"exp"› single]), (‹"sincos"›, [.np ‹"sin"› single, .np ‹"cos"› single]),
   (‹"fma"›, [.np ‹"multiply"› single, .np ‹"add"› single]), (‹"identity"›, [.np ‹"copy"› single]),
   (‹"sqrt"›, [.np ‹"sqrt"› single])]

/-- What the library does for the function of a heading. -/
def vdtWork : (single : Bool) → List (Text × List Op)
  | false => [(‹"exp"›, [.vdt ‹"vdt_expv"›]), (‹"sincos"›, [.vdt ‹"vdt_sincosv"›]), (‹"fma"›, [.vdt ‹"vdt_fmav"›]),
      (‹"identity"›, [.vdt ‹"vdt_identityv"›]), (‹"sqrt"›, [.vdt ‹"vdt_sqrtv"›])]
  | true => [(‹"exp"›, [.vdt ‹"vdt_expfv"›]), (‹"sincos"›, [.vdt ‹"vdt_sincosfv"›]), (‹"fma"›, [.vdt ‹"vdt_fmafv"›]),
      (‹"identity"›, [.vdt ‹"vdt_identityfv"›]), (‹"sqrt"›, [.vdt ‹"vdt_sqrtfv"›])]

/-- The operations `ops` are those of the function `h` in this precision, of numpy if the name begins with `n`, of the
library if it begins with `v`.  Absolute values of the argument do not count. -/
def Fits (h f : Text) (single : Bool) (ops : List Op) : Prop :=
  (f.head? = some 'n' ∧ (npWork single).lookup h = some (ops.filter fun o => o ≠ .np ‹"abs"› single)) ∨
  (f.head? = some 'v' ∧ (vdtWork single).lookup h = some (ops.filter fun o => o ≠ .np ‹"abs"› single))

instance (h f : Text) (single : Bool) (ops : List Op) : Decidable (Fits h f single ops) := by unfold Fits; infer_instance

/-- The functions `n…` and `v…` below the same heading compute the function of the heading in the same precision; the names
`…ex…` and `…sc…` have an `f` behind these letters if and only if the precision is single. -/
def Comparable (ts : List (Text × Text × List Op)) : Prop :=
  ∃ prec : Text → Text → Bool,
    (∀ r, prec ‹"exp"› r = ((‹"exf"› : Text).isPrefixOf r) ∧ prec ‹"sincos"› r = ((‹"scf"› : Text).isPrefixOf r)) ∧
    ∀ t ∈ ts, Fits t.1 t.2.1 (prec t.1 (t.2.1.drop 1)) t.2.2

/-- The precisions in the scripts: for the other headings always single. -/
def precOf (h r : Text) : Bool :=
  if h = ‹"exp"› then (‹"exf"› : Text).isPrefixOf r else if h = ‹"sincos"› then (‹"scf"› : Text).isPrefixOf r else true

theorem comparable_of {ts : List (Text × Text × List Op)}
    (h : ∀ t ∈ ts, Fits t.1 t.2.1 (precOf t.1 (t.2.1.drop 1)) t.2.2) : Comparable ts := by
  refine ⟨precOf, fun r => ⟨?_, ?_⟩, h⟩
  · unfold precOf; rw [if_pos rfl]
  · unfold precOf; rw [if_neg (by decide), if_pos rfl]

/-- The events of a run. -/
abbrev run (prog : List Stm) : Except PyErr (List Event) := runPy moduleDefs ufuncs prog

theorem run_eq (prog : List Stm) : run prog = runPy defsList ufuncs prog := by
  unfold run; rw [defs_eq]

/-- **C107** (the scripts that time nothing): `testExp.py` and the notebook `vdtTest` run to the end and show the exponential in
single and then in double precision. -/
theorem C107_tests : run Scripts.testExp = .ok [.shown [], .shown [.vdt ‹"vdt_expfv"›], .shown [.vdt ‹"vdt_expv"›]] ∧
    run Scripts.vdtTest = .ok [.shown [], .shown [.vdt ‹"vdt_expfv"›], .shown [.vdt ‹"vdt_expv"›]] := by
  rw [run_eq, run_eq]
  decide +kernel

/-- No function is timed twice below a heading, and below each heading a function of numpy and one of the library are
timed. -/
def Complete (ts : List (Text × Text × List Op)) : Prop :=
  (ts.map fun t => (t.1, t.2.1)).Nodup ∧ ∀ t ∈ ts, ∀ c ∈ ['n', 'v'], ∃ u ∈ ts, u.1 = t.1 ∧ u.2.1.head? = some c

instance (ts : List (Text × Text × List Op)) : Decidable (Complete ts) := by unfold Complete; infer_instance

/-- What is asked of a script that prints times: it runs to the end, prints `n` times below headings, and these are
comparable. -/
def Good (prog : List Stm) (n : Nat) : Prop :=
  ∃ log, run prog = .ok log ∧ (timings none log).length = n ∧ Complete (timings none log) ∧ Comparable (timings none log)

/-- The decidable form of `Good`, with the functions of the module one by one. -/
def check (prog : List Stm) (n : Nat) : Bool :=
  match runPy defsList ufuncs prog with
  | .ok log => ((timings none log).length == n && decide (Complete (timings none log))) &&
      (timings none log).all fun t => decide (Fits t.1 t.2.1 (precOf t.1 (t.2.1.drop 1)) t.2.2)
  | .error _ => false

theorem good_of {prog : List Stm} {n : Nat} (h : check prog n = true) : Good prog n := by
  unfold check at h
  unfold Good
  rw [run_eq]
  split at h
  · next log he =>
    rw [Bool.and_eq_true, Bool.and_eq_true, beq_iff_eq, decide_eq_true_eq, List.all_eq_true] at h
    exact ⟨log, he, h.1.1, h.1.2, comparable_of fun t ht => of_decide_eq_true (h.2 t ht)⟩
  · exact absurd h (by decide)

/-- **C107** (`vdtNumpytest.py`): ten times. -/
theorem C107_numpytest : Good Scripts.vdtNumpytest 10 := good_of (by decide +kernel)

/-- **C107** (`vdtNumpyTime.py`): five times. -/
theorem C107_numpytime : Good Scripts.vdtNumpyTime 5 := good_of (by decide +kernel)

/-- **C107** (the notebook `vdtTiming`): seventeen times. -/
theorem C107_timing : Good Scripts.vdtTiming 17 := good_of (by decide +kernel)

/-- Statement for `vdtCtypesTest.py`: ten times that are comparable. -/
def CtypesTest : Prop := Good Scripts.vdtCtypesTest 10

/-- The run of `vdtCtypesTest.py`. -/
theorem ctypes_run : ∃ log, run Scripts.vdtCtypesTest = .ok log ∧ (timings none log).length = 10 ∧
    Complete (timings none log) ∧ (‹"exp"›, ‹"nexf"›, [Op.np ‹"sin"› true]) ∈ timings none log ∧
    Comparable ((timings none log).filter fun t => t.2.1 ≠ ‹"nexf"›) := by
  have hb : (match runPy defsList ufuncs Scripts.vdtCtypesTest with
      | .ok log => ((timings none log).length == 10 && decide (Complete (timings none log))) && (decide ((‹"exp"›, ‹"nexf"›, [Op.np ‹"sin"› true]) ∈ timings none log) &&
          ((timings none log).filter fun t => t.2.1 ≠ ‹"nexf"›).all fun t =>
            decide (Fits t.1 t.2.1 (precOf t.1 (t.2.1.drop 1)) t.2.2))
      | .error _ => false) = true := by decide +kernel
  rw [run_eq]
  split at hb
  · next log he =>
    rw [Bool.and_eq_true, Bool.and_eq_true, Bool.and_eq_true, beq_iff_eq, decide_eq_true_eq, decide_eq_true_eq,
      List.all_eq_true] at hb
    exact ⟨log, he, hb.1.1, hb.1.2, hb.2.1, comparable_of fun t ht => of_decide_eq_true (hb.2.2 t ht)⟩
  · exact absurd hb (by decide)

/-- **C107** is violated: `nexf`, timed below the heading `timing exp` beside `vexf`, computes sines. -/
theorem C107_violated : ¬ CtypesTest := by
  obtain ⟨log, hr, -, -, hm, -⟩ := ctypes_run
  rintro ⟨log', h, -, -, prec, hp, hf⟩
  rw [hr] at h
  cases h
  have := hf _ hm
  rw [(hp _).1] at this
  exact absurd this (by decide)

/-- **C107** (`vdtCtypesTest.py`, partial): the script runs to the end, and all of its ten times but that of `nexf` are
comparable.  Missing: `nexf`, see `C107_violated`. -/
theorem C107_partial : ∃ log, run Scripts.vdtCtypesTest = .ok log ∧ (timings none log).length = 10 ∧
    Complete (timings none log) ∧ Comparable ((timings none log).filter fun t => t.2.1 ≠ ‹"nexf"›) := by
  obtain ⟨log, hr, h1, h2, -, h3⟩ := ctypes_run
  exact ⟨log, hr, h1, h2, h3⟩

/-- The repaired function makes the script meet the property. -/
theorem C107_repaired : Good (Scripts.vdtCtypesTest.map fun s =>
    match s with
    | .defn n ps body ret =>
      if n = ‹"nexf"› then .defn n ps body (some (Scripts.np ‹"exp"› [.var ‹"xf"›])) else .defn n ps body ret
    | s => s) 10 := good_of (by decide +kernel)

/-- The direct use of `VDTFunMap` needs a call of the function before: without the line that prints `vdt_expf([1,2,3,4])`,
`vdtCtypesTest.py` ends with a `KeyError`. -/
theorem C107_order : run (Scripts.vdtCtypesTest.eraseIdx 8) = .error (.key ‹"vdt_expf"›) := by
  rw [run_eq]
  have hb : (match runPy defsList ufuncs (Scripts.vdtCtypesTest.eraseIdx 8) with
      | .ok _ => false
      | .error e => decide (e = .key ‹"vdt_expf"›)) = true := by decide +kernel
  split at hb
  · exact absurd hb (by decide)
  · next e he => rw [he, of_decide_eq_true hb]

/-- The functions that `vdtNumpyTime.py` defines and does not time include one that cannot be called: with the time of `vscff`
the script ends with a `NameError`. -/
theorem C107_untimed : run (Scripts.vdtNumpyTime ++ [Scripts.time ‹"vscff"› ‹"vscff"›]) = .error (.name ‹"fscf"›) := by
  rw [run_eq]
  have hb : (match runPy defsList ufuncs (Scripts.vdtNumpyTime ++ [Scripts.time ‹"vscff"› ‹"vscff"›]) with
      | .ok _ => false
      | .error e => decide (e = .name ‹"fscf"›)) = true := by decide +kernel
  split at hb
  · exact absurd hb (by decide)
  · next e he => rw [he, of_decide_eq_true hb]

/-- The property tells scripts apart: a time of the wrong function, of the wrong precision or of the wrong library is not
comparable. -/
example : ¬ Fits ‹"exp"› ‹"nexf"› true [.np ‹"sin"› true] ∧ ¬ Fits ‹"exp"› ‹"vex"› false [.vdt ‹"vdt_expfv"›] ∧
    ¬ Fits ‹"exp"› ‹"vexf"› true [.np ‹"exp"› true] ∧ Fits ‹"exp"› ‹"vexf"› true [.vdt ‹"vdt_expfv"›] := by decide

/-- The error of a run, if there is one. -/
def errorOf (prog : List Stm) : Option PyErr :=
  match run prog with
  | .ok _ => none
  | .error e => some e

theorem errorOf_eq (prog : List Stm) : errorOf prog =
    match runPy defsList ufuncs prog with
    | .ok _ => none
    | .error e => some e := by
  unfold errorOf; rw [run_eq]

/-- The interpreter does not accept everything: an output array that is too small or an argument too few is undefined
behaviour or an exception, and so is an array of the wrong type; a name, an attribute or a module that does not exist is
reported. -/
example :
    let head : List Stm := [.star ‹"vdt_ctypes"›, .expr (Scripts.call ‹"loadit"› [.txt ‹"vdt_expf"›]),
      .setTup [‹"f"›, ‹"t"›] (.item (.var ‹"VDTFunMap"›) (.txt ‹"vdt_expf"›)),
      .set ‹"x"› (Scripts.numpy ‹"require"› [.ints 4, .var ‹"t"›, .num]),
      .set ‹"y"› (Scripts.numpy ‹"require"› [.ints 3, .var ‹"t"›, .num]),
      .set ‹"z"› (Scripts.numpy ‹"asanyarray"› [.ints 4])]
    errorOf head = none ∧
    errorOf (head ++ [.expr (Scripts.call ‹"f"› [.var ‹"x"›, .var ‹"x"›, .int 4])]) = none ∧
    errorOf (head ++ [.expr (Scripts.call ‹"f"› [.var ‹"x"›, .var ‹"y"›, .int 4])]) = some .undefined ∧
    errorOf (head ++ [.expr (Scripts.call ‹"f"› [.var ‹"x"›, .var ‹"z"›, .int 4])]) = some .type ∧
    errorOf (head ++ [.expr (Scripts.call ‹"f"› [.var ‹"x"›, .int 4])]) = some .type := by
  intro head
  iterate 5 rw [errorOf_eq]
  decide +kernel

example : errorOf [.print (.var ‹"x"›)] = some (.name ‹"x"›) ∧
    errorOf [.imp ‹"numpy"› ‹"np"›, .print (Scripts.np ‹"log"› [.ints 4])] = some (.attribute ‹"log"›) ∧
    errorOf [.imp ‹"vdtnpfun"› ‹"vdtnpfun"›] = some (.import ‹"vdtnpfun"›) ∧
    errorOf [.star ‹"vdt_ctypes"›, .print (Scripts.call ‹"vdt_sin"› [])] = some .type ∧
    errorOf [.star ‹"vdt_ctypes"›, .print (Scripts.call ‹"vdt_tan"› [.ints 4])] = some (.name ‹"vdt_tan"›) ∧
    errorOf [.defn ‹"f"› [‹"a"›] [] none, .expr (Scripts.call ‹"f"› [])] = some .type := by
  iterate 6 rw [errorOf_eq]
  decide +kernel

/-- Whole numbers are converted to double precision by the numpy module, `setup` has to import the function that is timed, and
a second import of a module leaves the map of the loaded functions and the variables as they are. -/
example : run [.imp ‹"numpy"› ‹"numpy"›, .imp ‹"imp"› ‹"imp"›, Scripts.loadModule, .print (.call (.attr (.var ‹"vdtnpfun"›) ‹"vdt_exp"›)
      [Scripts.numpy ‹"asanyarray"› [.ints 4]])] = .ok [.shown [.vdt ‹"vdt_expv"›]] ∧
    errorOf [.imp ‹"timeit"› ‹"timeit"›, .defn ‹"f"› [] [] none, .defn ‹"g"› [] [] none, Scripts.time ‹"f"› ‹"g"›] = some .type ∧
    errorOf [.star ‹"vdt_ctypes"›, .imp ‹"vdt_ctypes"› ‹"v"›, .set ‹"vdt_sin"› (.int 0), .imp ‹"vdt_ctypes"› ‹"v"›,
      .print (.call (.attr (.var ‹"v"›) ‹"vdt_sin"›) [.ints 4])] = none := by
  rw [run_eq, errorOf_eq, errorOf_eq]
  decide +kernel

end Vdt.Props.PyScripts
