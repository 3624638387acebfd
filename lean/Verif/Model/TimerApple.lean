import Mathlib.Data.Nat.Basic

/-!
# The timer on Apple's systems

`mach_absolute_time` counts ticks in 64 bits; a tick lasts `numer / denom` nanoseconds, two numbers of 32 bits that
`mach_timebase_info` fills in.
-/

namespace Vdt.Diag

/-- include/diagnostic/vdtdiag_helper.h:346-364; `numer` and `denom` are converted to `uint64_t`.  A division by zero, which
happens if `mach_timebase_info` fails, is undefined behaviour. -/
def elapsedApple (numer denom : BitVec 32) (time1 time2 : BitVec 64) : Option (BitVec 64) :=
  let elapsed := time2 - time1
  if denom = 0 then none else some (elapsed * numer.setWidth 64 / denom.setWidth 64)

end Vdt.Diag
