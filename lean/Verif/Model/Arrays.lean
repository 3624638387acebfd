import Verif.Model.Common
import Mathlib.Logic.Function.Basic

/-!
# Array functions

`src/signatures_generator.py` writes the array functions `f_v(size, iarray, oarray)`,
`src/vc_wrapper_generator.py` their variants on top of the Vc library and
`src/numpy_wrapper_generator.py` the ones the numpy extension `src/vdtNumpyWrapper.c` calls.  The
models below are of the *generated* C++ loops.

Memory is a partial map from addresses to values: an address that is not mapped may be neither read
nor written, the attempt is undefined behaviour (`none`).  All buffers live in one address space, so
that they may overlap.  One cell holds one element; simplification: partial overlap of elements
(misaligned aliasing) does not exist in `Mem`.
-/

namespace Vdt.Arr

/-- Memory: which cells exist and what they hold. -/
abbrev Mem (α : Type) := Nat → Option α

variable {α : Type}

/-- `*p` -/
def load (m : Mem α) (p : Nat) : Option α := m p

/-- `*p = v` -/
def store (m : Mem α) (p : Nat) (v : α) : Option (Mem α) :=
  if (m p).isSome then some (Function.update m p (some v)) else none

/-- src/signatures_generator.py:87-90, the generated loop
`for (uint32_t i=0;i<size;++i) oarray[i]=f(iarray[i]);` from iteration `i` on.  The scalar function
may itself be undefined. -/
def vloop (f : α → Option α) (size : BitVec 32) (iarray oarray : Nat) (i : BitVec 32) (m : Mem α) :
    Option (Mem α) :=
  if h : i < size then do
    let x ← load m (iarray + i.toNat)
    let y ← f x
    let m ← store m (oarray + i.toNat) y
    vloop f size iarray oarray (i + 1) m
  else some m
termination_by size.toNat - i.toNat
decreasing_by
  have h1 : i.toNat < size.toNat := h
  have h2 : size.toNat < 2 ^ 32 := size.isLt
  have : (i + 1).toNat = i.toNat + 1 := by
    rw [BitVec.toNat_add]; simp; omega
  omega

/-- src/signatures_generator.py:80,87-90: the array function belonging to the scalar `f`. -/
def arrayFn (f : α → Option α) (size : BitVec 32) (iarray oarray : Nat) (m : Mem α) : Option (Mem α) :=
  vloop f size iarray oarray 0 m

/-- src/signatures_generator.py:91-95, the loop of the two-argument functions. -/
def vloop2 (f : α → α → Option α) (size : BitVec 32) (iarray1 iarray2 oarray : Nat) (i : BitVec 32)
    (m : Mem α) : Option (Mem α) :=
  if h : i < size then do
    let x ← load m (iarray1 + i.toNat)
    let y ← load m (iarray2 + i.toNat)
    let z ← f x y
    let m ← store m (oarray + i.toNat) z
    vloop2 f size iarray1 iarray2 oarray (i + 1) m
  else some m
termination_by size.toNat - i.toNat
decreasing_by
  have h1 : i.toNat < size.toNat := h
  have h2 : size.toNat < 2 ^ 32 := size.isLt
  have : (i + 1).toNat = i.toNat + 1 := by
    rw [BitVec.toNat_add]; simp; omega
  omega

/-- src/signatures_generator.py:84,91-95 -/
def arrayFn2 (f : α → α → Option α) (size : BitVec 32) (iarray1 iarray2 oarray : Nat) (m : Mem α) :
    Option (Mem α) :=
  vloop2 f size iarray1 iarray2 oarray 0 m

/-! ### Iterations in another order

What a vectorising compiler is allowed to make of the loop: for each `i` a load, a computation and a
store, in any interleaving in which the load of `i` comes before the store of `i`. -/

/-- One step of a schedule. -/
inductive Step where
  | read (i : Nat)
  | write (i : Nat)
deriving DecidableEq

/-- Registers: the values loaded and not yet stored. -/
abbrev Regs (α : Type) := Nat → Option α

/-- Execute one step. -/
def step (f : α → Option α) (iarray oarray : Nat) (s : Mem α × Regs α) : Step → Option (Mem α × Regs α)
  | .read i => do
    let x ← load s.1 (iarray + i)
    return (s.1, Function.update s.2 i (some x))
  | .write i => do
    let x ← s.2 i
    let y ← f x
    let m ← store s.1 (oarray + i) y
    return (m, s.2)

/-- Execute a schedule. -/
def runSchedule (f : α → Option α) (iarray oarray : Nat) (l : List Step) (m : Mem α) :
    Option (Mem α) :=
  (l.foldlM (step f iarray oarray) (m, fun _ => none)).map Prod.fst

/-- The schedule of the loop as written. -/
def sequential (n : Nat) : List Step := (List.range n).flatMap fun i => [.read i, .write i]

/-! ### Vc wrappers -/

/-- `in.load(p, Vc::Unaligned)`: read `W` consecutive cells, lane by lane from lane `j` on. -/
def vcLoad (m : Mem α) (p : Nat) : (W : Nat) → Option (List α)
  | 0 => some []
  | W + 1 => do
    let x ← load m p
    let r ← vcLoad m (p + 1) W
    return x :: r

/-- `v.store(p, Vc::Unaligned)` -/
def vcStore (m : Mem α) (p : Nat) : List α → Option (Mem α)
  | [] => some m
  | x :: r => do
    let m ← store m p x
    vcStore m (p + 1) r

/-- src/vc_wrapper_generator.py:72-78 (as generated for a function that Vc applies lane by lane):
`for(step=0;step < size-(size%vcSize); step += vcSize)`.  Returns the memory, the last register
contents and the final `step`.  (`step += vcSize` cannot wrap around before the loop ends; the model
returns `none` if it did, which the theorems exclude.) -/
def vcMain (f : α → α) (W : BitVec 32) (hW : 0 < W.toNat) (size : BitVec 32) (iarray oarray : Nat)
    (st : BitVec 32) (inReg : List α) (m : Mem α) : Option (Mem α × List α × BitVec 32) :=
  if h : st < size - size % W ∧ st.toNat + W.toNat < 2 ^ 32 then do
    let inReg ← vcLoad m (iarray + st.toNat) W.toNat
    let m ← vcStore m (oarray + st.toNat) (inReg.map f)
    vcMain f W hW size iarray oarray (st + W) inReg m
  else if st < size - size % W then none
  else some (m, inReg, st)
termination_by size.toNat - st.toNat
decreasing_by
  have h1 : st.toNat < (size - size % W).toNat := h.1
  have h2 : (size - size % W).toNat ≤ size.toNat := by
    have : (size % W).toNat ≤ size.toNat := by
      rw [BitVec.toNat_umod]; exact Nat.mod_le _ _
    rw [BitVec.toNat_sub_of_le this]; omega
  have : (st + W).toNat = st.toNat + W.toNat := by
    rw [BitVec.toNat_add]; exact Nat.mod_eq_of_lt h.2
  omega

/-- src/vc_wrapper_generator.py:79-81: `for(i=0;i<tail;i++) in[i]=iarray[step+i];` -/
def vcTailIn (m : Mem α) (p : Nat) : (tail : Nat) → (i : Nat) → List α → Option (List α)
  | 0, _, r => some r
  | t + 1, i, r => do
    let x ← load m (p + i)
    if i < r.length then vcTailIn m p t (i + 1) (r.set i x) else none

/-- src/vc_wrapper_generator.py:86-87: `for(i=0;i<tail;i++) oarray[step+i]=out[i];` -/
def vcTailOut (p : Nat) (out : List α) : (tail : Nat) → (i : Nat) → Mem α → Option (Mem α)
  | 0, _, m => some m
  | t + 1, i, m => do
    let x ← out[i]?
    let m ← store m (p + i) x
    vcTailOut p out t (i + 1) m

/-- src/vc_wrapper_generator.py:66-88.  `inReg` is the (indeterminate) initial content of the vector
register. -/
def vcFn (f : α → α) (W : BitVec 32) (hW : 0 < W.toNat) (inReg : List α) (size : BitVec 32)
    (iarray oarray : Nat) (m : Mem α) : Option (Mem α) := do
  let (m, inReg, st) ← vcMain f W hW size iarray oarray 0 inReg m
  let tail := size - st
  let inReg ← vcTailIn m (iarray + st.toNat) tail.toNat 0 inReg
  let out := inReg.map f
  vcTailOut (oarray + st.toNat) out tail.toNat 0 m

/-! ### The numpy extension

Addresses are byte addresses here, a cell is the whole element that starts at the address. -/

/-- Byte addressed memory of elements, with integer addresses (numpy strides may be negative). -/
abbrev BMem (α : Type) := Int → Option α

/-- src/numpy_wrapper_generator.py:148-151, `for (long i=0;i<size;++i) {oarray[i]=f(iarray[i]);}`
with elements of `esz` bytes, `k` iterations left. -/
def npLoop (f : α → Option α) (esz : Int) (iarray oarray : Int) : (k : Nat) → (i : Nat) → BMem α → Option (BMem α)
  | 0, _, m => some m
  | k + 1, i, m => do
    let x ← m (iarray + esz * i)
    let y ← f x
    let m' ← if (m (oarray + esz * i)).isSome then some (Function.update m (oarray + esz * i) (some y)) else none
    npLoop f esz iarray oarray k (i + 1) m'

/-- src/vdtNumpyWrapper.c:29-53 (`vdt_vf` with `esz = 4`, `vdt_vd` with `esz = 8`): the inner loop
numpy calls with the two base addresses, the element count and the two strides. -/
def npInner (f : α → Option α) (esz : Int) (args : Int × Int) (n : Nat) (_steps : Int × Int) (m : BMem α) :
    Option (BMem α) :=
  npLoop f esz args.1 args.2 n 0 m

end Vdt.Arr
