import Verif.Model.Arrays
import Verif.Model.Exp
import Verif.Model.Log

/-!
# Some generated array functions

The functions `src/signatures_generator.py` writes into `vdtMath_signatures.cc` for the names
`fast_exp`, `fast_log` (declared in `include/exp.h:156,158`, `include/log.h:206,208`).
-/

namespace Vdt.Arr

def fast_expv (size : BitVec 32) (iarray oarray : Nat) (m : Mem F64) : Option (Mem F64) :=
  arrayFn Vdt.fast_exp size iarray oarray m

def fast_expfv (size : BitVec 32) (iarray oarray : Nat) (m : Mem F32) : Option (Mem F32) :=
  arrayFn Vdt.fast_expf size iarray oarray m

def fast_logv (size : BitVec 32) (iarray oarray : Nat) (m : Mem F64) : Option (Mem F64) :=
  arrayFn (fun x => some (Vdt.fast_log x)) size iarray oarray m

def fast_logfv (size : BitVec 32) (iarray oarray : Nat) (m : Mem F32) : Option (Mem F32) :=
  arrayFn (fun x => some (Vdt.fast_logf x)) size iarray oarray m

end Vdt.Arr
