import Verif.Model.Random
import Verif.Model.Persist

/-!
# The random engine and the deprecated pool

`IrandomPool` (`include/diagnostic/vdtdiag_interfaces.h:201-234`) owns a `std::mt19937_64` that is
constructed from a 32-bit signed seed; `randomPool_old` (`include/diagnostic/vdtdiag_random.h:240-348`)
constructs one from a 32-bit unsigned seed.

The engine itself belongs to the standard library.  It is modelled after the C++ standard
([rand.eng.mers] and the parameters of `mt19937_64` in [rand.predef]), which fixes every bit of it: a
window of 312 words, of which one is replaced at each call.
-/

namespace Vdt.Mt

abbrev Word := BitVec 64

/-- The multiplier `f` of the initialisation. -/
def initMul : Word := 6364136223846793005

/-- [rand.eng.mers]/6: `X_i` from `X_{i-1}`, `f * (X ^ (X >> (w-2))) + i`. -/
def initNext (i : Nat) (x : Word) : Word := initMul * (x ^^^ (x >>> 62)) + BitVec.ofNat 64 i

/-- `n` words of the initial state, the first being `x`, of index `i`. -/
def initFrom : Nat → Nat → Word → List Word
  | 0, _, _ => []
  | n + 1, i, x => x :: initFrom n (i + 1) (initNext (i + 1) x)

/-- The state after construction from a seed. -/
def init (seed : Word) : List Word := initFrom 312 0 seed

/-- [rand.eng.mers]/2: the lower `r = 31` bits of the second word below the upper 33 of the first. -/
def join (x y : Word) : Word := (x &&& 0xFFFFFFFF80000000) ||| (y &&& 0x7FFFFFFF)

/-- Multiplication by the matrix `a`. -/
def matA (y : Word) : Word := (y >>> 1) ^^^ (if y.getLsbD 0 then 0xB5026F5AA96619E9 else 0)

/-- The state transition: the oldest word leaves, `X_{i-156} ^ (join X_{i-312} X_{i-311}) a` enters. -/
def step (s : List Word) : List Word :=
  s.tail ++ [s.getD 156 0 ^^^ matA (join (s.getD 0 0) (s.getD 1 0))]

/-- [rand.eng.mers]/2: the tempering of the word that has entered. -/
def temper (z : Word) : Word :=
  let z := z ^^^ ((z >>> 29) &&& 0x5555555555555555)
  let z := z ^^^ ((z <<< 17) &&& 0x71D67FFFEDA60000)
  let z := z ^^^ ((z <<< 37) &&& 0xFFF7EEE000000000)
  z ^^^ (z >>> 43)

/-- The outputs of an engine constructed from a seed. -/
def engine (seed : Word) : Rand.Engine := fun k => temper ((step^[k + 1] (init seed)).getD 311 0)

/-- The engine of `randomPool1D` and `randomPool2D`, include/diagnostic/vdtdiag_interfaces.h:203-205: the `int32_t` seed is
converted to the `uint64_t` argument of the engine. -/
def ofInt32 (seed : BitVec 32) : Rand.Engine := engine (seed.signExtend 64)

/-- The engine of `randomPool_old`, include/diagnostic/vdtdiag_random.h:246-252: the seed is a `uint32_t`. -/
def ofUInt32 (seed : BitVec 32) : Rand.Engine := engine (seed.setWidth 64)

/-- include/diagnostic/vdtdiag_random.h:47-53: `randomPool1D(min, max, size, seed)`. -/
def pool1D {f : Fmt} (min max : FP f) (size : BitVec 64) (seed : BitVec 32) : Txt.Pool1D f :=
  ⟨size, [], min, max, Rand.pool1D (ofInt32 seed) min max size⟩

/-- include/diagnostic/vdtdiag_random.h:343-347: the members of `randomPool_old`. -/
structure PoolOld (f : Fmt) where
  min : FP f
  max : FP f
  size : BitVec 64
  fileName : Txt.Text
  numbers : List (FP f)

/-- include/diagnostic/vdtdiag_random.h:246-266 -/
def PoolOld.make {f : Fmt} (min max : FP f) (size : BitVec 64) (seed : BitVec 32) : PoolOld f :=
  ⟨min, max, size, [], (List.range size.toNat).map fun i => FP.convert f (Rand.uniform min max (ofUInt32 seed i))⟩

/-- include/diagnostic/vdtdiag_random.h:271-285 -/
def PoolOld.ofFile (f : Fmt) (fs : Txt.Fs) (name : Txt.Text) : PoolOld f :=
  ⟨FP.zero false, FP.zero false, 0, name, (Txt.hexR f).all (Txt.skipLines 5 (fs.open name))⟩

/-- include/diagnostic/vdtdiag_random.h:295-321 -/
def PoolOld.writeFile {f : Fmt} (dec : FP f → Txt.Text) (p : PoolOld f) (out : Txt.Text) (fs : Txt.Fs) : Txt.Fs :=
  let preamble : Txt.Text := "VDT Random numbers file (the first 5 lines are the header)\n".toList
  let fs := fs.truncate out
  if p.size = 0 then Txt.copyFile preamble p.fileName out fs
  else fs.append out (preamble ++ Txt.precisionLine f ++
    "Minimum Number = ".toList ++ dec p.min ++ ['\n'] ++
    "Maximum Number = ".toList ++ dec p.max ++ ['\n'] ++
    "Total numbers = ".toList ++ Txt.printNat 10 p.size.toNat ++ ['\n'] ++
    p.numbers.flatMap Txt.fpToHex)

end Vdt.Mt
