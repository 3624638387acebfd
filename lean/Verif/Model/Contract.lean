import Verif.Float.Fused
import Verif.Model.Exp
import Verif.Model.Log
import Verif.Model.Tan
import Verif.Model.Asin
import Verif.Model.Atan
import Verif.Model.Tanh
import Verif.Model.Sqrt

/-!
# The functions as compiled with fused multiply-add instructions

CMakeLists.txt:77-79 adds `-mfma` on request; GCC then replaces `a*b + c` by one fused operation
wherever it likes (`-ffp-contract=fast`, its default).  Which sums are fused is not specified, so
every function below takes the choice as a parameter: a policy says for each numbered sum of the
function whether it is fused.  With the policy `fun _ => false` the definitions are those of the other
model files (`fast_exp_plain` and so on).  Each definition copies the statements cited there; the same
value may be recomputed, fused at one use and not at another, which is more than a compiler does.

A sum is eligible if one of its operands is the value of a product in the source.  The product
`ret *= 1. - oneIfXXZero` (atan2.h:81, 123), which reaches a sum only through an `if`, is left as it
is: its second factor is 0 or 1, so that it is exact and fusing it changes nothing.
-/

namespace Vdt
open FP details

/-- rewrites the sums that are not fused -/
macro "plain" "[" ts:Lean.Parser.Tactic.simpLemma,* "]" : tactic =>
  `(tactic| simp only [$ts,*, mad_false, madR_false, msub_false, nmad_false, mad2_false, msub2_false])

namespace details

/-! ## include/exp.h -/

/-- include/exp.h:77-78 -/
def expReduceC (p : Policy) (x px : F64) : F64 :=
  let x := nmad (p 1) px (lit 6.93145751953125E-1) x
  nmad (p 2) px (lit 1.42860682030941723212E-6) x

/-- include/exp.h:80-101 -/
def expCoreC (p : Policy) (x : F64) : F64 :=
  let xx := x * x
  let px := mad (p 3) PX1exp xx PX2exp
  let px := mad (p 4) px xx PX3exp
  let qx := mad (p 5) QX1exp xx QX2exp
  let qx := mad (p 6) qx xx QX3exp
  let qx := mad (p 7) qx xx QX4exp
  let den := nmad (p 8) px x qx
  let x := px * x / den
  madR (p 9) (lit 2.0) x (lit 1.0)

/-- include/exp.h:124-125 -/
def expfReduceC (p : Policy) (x z : F32) : F32 :=
  let x := nmad (p 1) z C1F x
  nmad (p 2) z C2F x

/-- include/exp.h:128-141 -/
def expfCoreC (p : Policy) (x : F32) : F32 :=
  let x2 := x * x
  let z := mad (p 3) x PX1expf PX2expf
  let z := mad (p 4) z x PX3expf
  let z := mad (p 5) z x PX4expf
  let z := mad (p 6) z x PX5expf
  let z := mad (p 7) z x PX6expf
  mad (p 8) z x2 (x + lit 1.0)
end details

/-- include/exp.h:70-113 -/
def fast_expCM {m : Type → Type} [Monad m] (M : Machine m) (p : Policy) (initial_x : F64) : m F64 := do
  let x := initial_x
  let px ← fpfloor M (mad (p 0) LOG2E x (lit 0.5))
  let n ← M.f2i px
  let x := expReduceC p x px
  let x := expCoreC p x
  let x := x * pow2n n
  let x := if FP.gt initial_x EXP_LIMIT then inf false else x
  let x := if FP.lt initial_x (-EXP_LIMIT) then lit 0 else x
  return x

/-- include/exp.h:118-151 -/
def fast_expfCM {m : Type → Type} [Monad m] (M : Machine m) (p : Policy) (initial_x : F32) : m F32 := do
  let x := initial_x
  let z ← fpfloorf M (mad (p 0) LOG2EF x (lit 0.5))
  let x := expfReduceC p x z
  let n ← M.f2i z
  let z := expfCoreC p x
  let n127 ← M.i32 (n + 0x7f)
  let sh ← M.shl n127 23
  let z := z * uint322sp (BitVec.ofInt 32 sh)
  let z := if FP.gt initial_x MAXLOGF then inf false else z
  let z := if FP.lt initial_x MINLOGF then lit 0 else z
  return z

def fast_expC (p : Policy) (x : F64) : Option F64 := fast_expCM strict p x
def fast_expfC (p : Policy) (x : F32) : Option F32 := fast_expfCM strict p x

theorem fast_exp_plain (x : F64) : fast_expC (fun _ => false) x = fast_exp x := by
  plain [fast_expC, fast_expCM, expReduceC, expCoreC, fast_exp, fast_expM, expReduce, expCore]
theorem fast_expf_plain (x : F32) : fast_expfC (fun _ => false) x = fast_expf x := by
  plain [fast_expfC, fast_expfCM, expfReduceC, expfCoreC, fast_expf, fast_expfM, expfReduce, expfCore]

namespace details

/-! ## include/log.h -/

/-- include/log.h:43-64 -/
def get_log_pxC (p : Policy) (x : F64) : F64 :=
  let px := mad (p 0) (lit 1.01875663804580931796E-4) x (lit 4.97494994976747001425E-1)
  let px := mad (p 1) px x (lit 4.70579119878881725854E0)
  let px := mad (p 2) px x (lit 1.44989225341610930846E1)
  let px := mad (p 3) px x (lit 1.79368678507819816313E1)
  mad (p 4) px x (lit 7.70838733755885391666E0)

/-- include/log.h:66-84 -/
def get_log_qxC (p : Policy) (x : F64) : F64 :=
  let qx := x + lit 1.12873587189167450590E1
  let qx := mad (p 5) qx x (lit 4.52279145837532221105E1)
  let qx := mad (p 6) qx x (lit 8.29875266912776603211E1)
  let qx := mad (p 7) qx x (lit 7.11544750618563894466E1)
  mad (p 8) qx x (lit 2.31251620126765340583E1)

/-- include/log.h:102-117 -/
def logCoreC (p : Policy) (x fe : F64) : F64 :=
  let px := get_log_pxC p x
  let x2 := x * x
  let px := px * x
  let px := px * x2
  let qx := get_log_qxC p x
  let res := px / qx
  let res := nmad (p 9) fe (lit 2.121944400546905827679e-4) res
  let res := nmad (p 10) (lit 0.5) x2 res
  let res := x + res
  madR (p 11) fe (lit 0.693359375) res

/-- include/log.h:147-165 -/
def get_log_polyC (p : Policy) (x : F32) : F32 :=
  let y := mad (p 0) x PX1logf PX2logf
  let y := mad (p 1) y x PX3logf
  let y := mad (p 2) y x PX4logf
  let y := mad (p 3) y x PX5logf
  let y := mad (p 4) y x PX6logf
  let y := mad (p 5) y x PX7logf
  let y := mad (p 6) y x PX8logf
  mad (p 7) y x PX9logf

/-- include/log.h:182-192; the product of line 185 may be fused into the sum of line 187. -/
def logfCoreC (p : Policy) (x fe : F32) : F32 :=
  let x2 := x * x
  let y := get_log_polyC p x
  let res := mad2 (p 8) (p 9) y (x2 * x) (-lit 2.12194440e-4) fe
  let res := madR (p 10) (-lit 0.5) x2 res
  let res := x + res
  madR (p 11) (lit 0.693359375) fe res
end details

/-- include/log.h:89-126 -/
def fast_logC (p : Policy) (x : F64) : F64 :=
  let original_x := x
  let me := getMantExponent x
  let b := logBlend me.1 me.2
  let res := logCoreC p b.1 b.2
  let res := if FP.gt original_x LOG_UPPER_LIMIT then inf false else res
  if FP.lt original_x LOG_LOWER_LIMIT then -nan else res

/-- include/log.h:172-200 -/
def fast_logfC (p : Policy) (x : F32) : F32 :=
  let original_x := x
  let me := getMantExponentf x
  let b := logfBlend me.1 me.2
  let res := logfCoreC p b.1 b.2
  let res := if FP.gt original_x LOGF_UPPER_LIMIT then inf false else res
  if FP.lt original_x LOGF_LOWER_LIMIT then -nan else res

theorem fast_log_plain (x : F64) : fast_logC (fun _ => false) x = fast_log x := by
  plain [fast_logC, logCoreC, get_log_pxC, get_log_qxC, fast_log, logCore, get_log_px, get_log_qx]
theorem fast_logf_plain (x : F32) : fast_logfC (fun _ => false) x = fast_logf x := by
  plain [fast_logfC, logfCoreC, get_log_polyC, fast_logf, logfCore, get_log_poly]

namespace details

/-! ## include/sincos.h -/

/-- include/sincos.h:114, include/tan.h:65 -/
def reduceC {f : Fmt} (p : Policy) (x y c1 c2 c3 : FP f) : FP f :=
  nmad (p 2) y c3 (nmad (p 1) y c2 (nmad (p 0) y c1 x))

/-- include/sincos.h:72-85 -/
def get_sin_pxC (p : Policy) (x : F64) : F64 :=
  let px := mad (p 3) C1sin x C2sin
  let px := mad (p 4) px x C3sin
  let px := mad (p 5) px x C4sin
  let px := mad (p 6) px x C5sin
  mad (p 7) px x C6sin

/-- include/sincos.h:89-102 -/
def get_cos_pxC (p : Policy) (x : F64) : F64 :=
  let px := mad (p 8) C1cos x C2cos
  let px := mad (p 9) px x C3cos
  let px := mad (p 10) px x C4cos
  let px := mad (p 11) px x C5cos
  mad (p 12) px x C6cos

/-- include/sincos.h:119-124 -/
def sincosCoreC (p : Policy) (z : F64) : F64 × F64 :=
  let zz := z * z
  let s := madR (p 13) (z * zz) (get_sin_pxC p zz) z
  let c := madR (p 15) (zz * zz) (get_cos_pxC p zz) (nmad (p 14) zz (lit 0.5) (lit 1.0))
  (s, c)

/-- include/sincos.h:187-200 -/
def sincosfCoreC (p : Policy) (x : F32) : F32 × F32 :=
  let z := x * x
  let s := mad (p 3) (-lit 1.9515295891E-4) z (lit 8.3321608736E-3)
  let s := msub (p 4) s z (lit 1.6666654611E-1)
  let s := mad (p 5) (s * z) x x
  let c := msub (p 6) (lit 2.443315711809948E-005) z (lit 1.388731625493765E-003)
  let c := mad (p 7) c z (lit 4.166664568298827E-002)
  let c := msub2 (p 8) (p 9) (c * z) z (lit 0.5) z + lit 1.0
  (s, c)
end details

/-- include/sincos.h:107-160 -/
def fast_sincosCM {m : Type → Type} [Monad m] (M : Machine m) (p : Policy) (xx : F64) : m (F64 × F64) := do
  let a := FP.abs xx
  let quad ← quadrant M a
  let x := reduceC p a (ofInt quad) DP1 DP2 DP3
  let j := quad
  let signS := andI j 4
  let j := j - 2
  let signC := andI j 4
  let poly := andI j 2
  let sc := sincosCoreC p x
  let s := if poly = 0 then sc.2 else sc.1
  let c := if poly = 0 then sc.1 else sc.2
  let c := if signC = 0 then -c else c
  let s := if signS ≠ 0 then -s else s
  let s := if FP.lt xx (lit 0) then -s else s
  return (s, c)

/-- include/sincos.h:168-233 -/
def fast_sincosfCM {m : Type → Type} [Monad m] (M : Machine m) (p : Policy) (xx : F32) : m (F32 × F32) := do
  let a := FP.abs xx
  let quad ← quadrantf M a
  let x := reduceC p a (ofInt quad) DP1F DP2F DP3F
  let j := quad
  let signS := andI j 4
  let j := j - 2
  let signC := andI j 4
  let poly := andI j 2
  let sc := sincosfCoreC p x
  let ls := if poly = 0 then sc.2 else sc.1
  let lc := if poly = 0 then sc.1 else sc.2
  let lc := if signC = 0 then -lc else lc
  let ls := if signS ≠ 0 then -ls else ls
  let ls := if FP.lt xx (ofInt 0) then -ls else ls
  return (ls, lc)

def fast_sincosC (p : Policy) (x : F64) : Option (F64 × F64) := fast_sincosCM strict p x
def fast_sincosfC (p : Policy) (x : F32) : Option (F32 × F32) := fast_sincosfCM strict p x

theorem fast_sincos_plain (x : F64) : fast_sincosC (fun _ => false) x = fast_sincos x := by
  plain [fast_sincosC, fast_sincosCM, reduceC, sincosCoreC, get_sin_pxC, get_cos_pxC, fast_sincos, fast_sincosM, reduce2quadrant, reduceWith, fast_sincos_m45_45, get_sin_px, get_cos_px, bind_assoc, pure_bind]
theorem fast_sincosf_plain (x : F32) : fast_sincosfC (fun _ => false) x = fast_sincosf x := by
  plain [fast_sincosfC, fast_sincosfCM, reduceC, sincosfCoreC, fast_sincosf, fast_sincosfM, reduce2quadrantf, reduceWithf, fast_sincosf_m45_45, bind_assoc, pure_bind]

namespace details

/-! ## include/tan.h -/

/-- include/tan.h:91-112; the start `qx = zz` of line 101 makes the first sum eligible. -/
def tanCoreC (p : Policy) (z : F64) : F64 :=
  let zz := z * z
  let res := z
  if FP.gt zz (lit 1.0e-14) then
    let px := mad (p 3) PX1tan zz PX2tan
    let px := mad (p 4) px zz PX3tan
    let qx := mad (p 5) z z QX1tan
    let qx := mad (p 6) qx zz QX2tan
    let qx := mad (p 7) qx zz QX3tan
    let qx := mad (p 8) qx zz QX4tan
    z + z * zz * px / qx
  else res

/-- include/tan.h:136-149 -/
def tanfCoreC (p : Policy) (z : F32) : F32 :=
  let zz := z * z
  let res := z
  if FP.gt zz (lit 1.0e-14) then
    let r := mad (p 3) (lit 9.38540185543E-3) zz (lit 3.11992232697E-3)
    let r := mad (p 4) r zz (lit 2.44301354525E-2)
    let r := mad (p 5) r zz (lit 5.34112807005E-2)
    let r := mad (p 6) r zz (lit 1.33387994085E-1)
    let r := mad (p 7) r zz (lit 3.33331568548E-1)
    mad (p 8) (r * zz) z z
  else res

/-- include/tan.h:115-124 and 152-160 -/
def tanFinishC {f : Fmt} (p : Policy) (xor : FP f → FP f) (x res : FP f) (quad : Int) : FP f :=
  let quad := andI quad 2 / 2
  let alt : Int := ((BitVec.ofInt 32 quad) ^^^ 1#32).toInt
  let zeroIfXNonZero : FP f := ofBool (FP.eq x (lit 0))
  let res := res + zeroIfXNonZero
  let res := mad2 (p 9) (p 10) (ofInt quad) (-lit 1 / res) (ofInt alt) res
  xor res * (lit 1 - zeroIfXNonZero)
end details

/-- include/tan.h:84-126 -/
def fast_tanCM {m : Type → Type} [Monad m] (M : Machine m) (p : Policy) (x : F64) : m F64 := do
  let sign_mask := getSignMask x
  let a := FP.abs x
  let quad ← M.f2i (ONEOPIO4 * a)
  let q1 ← M.i32 (quad + 1)
  let quad := clearLow q1
  let z := reduceC p a (ofInt quad) DP1tan DP2tan DP3tan
  let res := tanCoreC p z
  return tanFinishC p (fun r => dpXORuint64 r sign_mask) x res quad

/-- include/tan.h:130-162 -/
def fast_tanfCM {m : Type → Type} [Monad m] (M : Machine m) (p : Policy) (x : F32) : m F32 := do
  let sign_mask := getSignMaskf x
  let a := FP.abs x
  let quad ← M.f2i (ONEOPIO4F * a)
  let q1 ← M.i32 (quad + 1)
  let quad := clearLow q1
  let z := reduceC p a (ofInt quad) DP1Ftan DP2Ftan DP3Ftan
  let res := tanfCoreC p z
  return tanFinishC p (fun r => spXORuint32 r sign_mask) x res quad

def fast_tanC (p : Policy) (x : F64) : Option F64 := fast_tanCM strict p x
def fast_tanfC (p : Policy) (x : F32) : Option F32 := fast_tanfCM strict p x

theorem fast_tan_plain (x : F64) : fast_tanC (fun _ => false) x = fast_tan x := by
  plain [fast_tanC, fast_tanCM, reduceC, tanCoreC, tanFinishC, fast_tan, fast_tanM, reduce2quadranttan, reduceWithTan, tanCore, tanFinish, bind_assoc, pure_bind]
theorem fast_tanf_plain (x : F32) : fast_tanfC (fun _ => false) x = fast_tanf x := by
  plain [fast_tanfC, fast_tanfCM, reduceC, tanfCoreC, tanFinishC, fast_tanf, fast_tanfM, reduce2quadranttanf, reduceWithTanf, tanfCore, tanFinish, bind_assoc, pure_bind]

namespace details

/-! ## include/asin.h -/

/-- include/asin.h:60-71 -/
def getRXC (p : Policy) (x : F64) : F64 :=
  let rx := mad (p 0) RX1asin x RX2asin
  let rx := mad (p 1) rx x RX3asin
  let rx := mad (p 2) rx x RX4asin
  mad (p 3) rx x RX5asin

/-- include/asin.h:72-82 -/
def getSXC (p : Policy) (x : F64) : F64 :=
  let sx := x + SX1asin
  let sx := mad (p 4) sx x SX2asin
  let sx := mad (p 5) sx x SX3asin
  mad (p 6) sx x SX4asin

/-- include/asin.h:84-97 -/
def getPXC (p : Policy) (x : F64) : F64 :=
  let px := mad (p 8) PX1asin x PX2asin
  let px := mad (p 9) px x PX3asin
  let px := mad (p 10) px x PX4asin
  let px := mad (p 11) px x PX5asin
  mad (p 12) px x PX6asin

/-- include/asin.h:99-111 at `x = a*a` (line 140) -/
def getQXC (p : Policy) (a x : F64) : F64 :=
  let qx := mad (p 13) a a QX1asin
  let qx := mad (p 14) qx x QX2asin
  let qx := mad (p 15) qx x QX3asin
  let qx := mad (p 16) qx x QX4asin
  mad (p 17) qx x QX5asin

/-- include/asin.h:127-137 -/
def asinLargeC (p : Policy) (a : F64) : F64 :=
  let zz := lit 1.0 - a
  let px := getRXC p zz
  let qx := getSXC p zz
  let q := zz * px / qx
  let zz := FP.sqrt (zz + zz)
  let z := PIO4 - zz
  let zz := msub (p 7) zz q MOREBITS
  let z := z - zz
  z + PIO4

/-- include/asin.h:140-144 -/
def asinSmallC (p : Policy) (a : F64) : F64 :=
  let zz := a * a
  let px := getPXC p zz
  let qx := getQXC p a zz
  let z := zz * px / qx
  mad (p 18) a z a

/-- include/asin.h:127-149 -/
def asinPosC (p : Policy) (a : F64) : F64 :=
  let z := if FP.lt a (lit 0.625) then asinSmallC p a else asinLargeC p a
  if FP.lt a (lit 1e-8) then a else z

/-- include/asin.h:178-183 -/
def asinfPolyC (p : Policy) (z x : F32) : F32 :=
  let r := mad (p 0) (lit 4.2163199048E-2) z (lit 2.4181311049E-2)
  let r := mad (p 1) r z (lit 4.5470025998E-2)
  let r := mad (p 2) r z (lit 7.4953002686E-2)
  let r := mad (p 3) r z (lit 1.6666752422E-1)
  mad (p 4) (r * z) x x

/-- include/asin.h:160-197 -/
def asinfPosC (p : Policy) (a : F32) : F32 :=
  let big := FP.gt a (lit 0.5)
  let flag : BitVec 32 := if big then 1#32 else 0#32
  let z := if big then lit 0.5 * (lit 1 - a) else a * a
  let x := if big then FP.sqrt z else a
  let z := asinfPolyC p z x
  let tmp := z + z
  let tmp := PIO2F - tmp
  if FP.lt a (lit 1e-4) then a
  else mad2 (p 5) (p 6) tmp (ofInt flag.toNat) (ofInt (1#32 - flag).toNat) z
end details

/-- include/asin.h:120-153 -/
def fast_asinC (p : Policy) (x : F64) : F64 :=
  let sign_mask := getSignMask x
  let a := FP.abs x
  dpORuint64 (asinPosC p a) sign_mask

/-- include/asin.h:157-202 -/
def fast_asinfC (p : Policy) (x : F32) : F32 :=
  let sign_mask := getSignMaskf x
  let a := FP.abs x
  spORuint32 (asinfPosC p a) sign_mask

/-- include/asin.h:207 and 211 -/
def fast_acosC (p : Policy) (x : F64) : F64 := PIO2 - fast_asinC p x
def fast_acosfC (p : Policy) (x : F32) : F32 := PIO2F - fast_asinfC p x

theorem fast_asin_plain (x : F64) : fast_asinC (fun _ => false) x = fast_asin x := by
  plain [fast_asinC, asinPosC, asinSmallC, asinLargeC, getRXC, getSXC, getPXC, getQXC, fast_asin, asinPos, asinSmall, asinLarge, getRX, getSX, getPX, getQX]
theorem fast_asinf_plain (x : F32) : fast_asinfC (fun _ => false) x = fast_asinf x := by
  plain [fast_asinfC, asinfPosC, asinfPolyC, fast_asinf, asinfPos, asinfPoly]
theorem fast_acos_plain (x : F64) : fast_acosC (fun _ => false) x = fast_acos x := by
  plain [fast_acosC, fast_acos, fast_asin_plain]
theorem fast_acosf_plain (x : F32) : fast_acosfC (fun _ => false) x = fast_acosf x := by
  plain [fast_acosfC, fast_acosf, fast_asinf_plain]

namespace details

/-! ## include/atan.h and include/atan2.h -/

/-- include/atan.h:38-57 -/
def get_atan_pxC (p : Policy) (x2 : F64) : F64 :=
  let px := mad (p 0) (-lit 8.750608600031904122785E-1) x2 (-lit 1.615753718733365076637E1)
  let px := mad (p 1) px x2 (-lit 7.500855792314704667340E1)
  let px := mad (p 2) px x2 (-lit 1.228866684490136173410E2)
  mad (p 3) px x2 (-lit 6.485021904942025371773E1)

/-- include/atan.h:60-79 at `x2 = x*x` (line 110) -/
def get_atan_qxC (p : Policy) (x x2 : F64) : F64 :=
  let qx := mad (p 4) x x (lit 2.485846490142306297962E1)
  let qx := mad (p 5) qx x2 (lit 1.650270098316988542046E2)
  let qx := mad (p 6) qx x2 (lit 4.328810604912902668951E2)
  let qx := mad (p 7) qx x2 (lit 4.853903996359136964868E2)
  mad (p 8) qx x2 (lit 1.945506571482613964425E2)

/-- include/atan.h:110-119 (= atan2.h:66-75) -/
def atanCoreC (p : Policy) (x : F64) : F64 :=
  let x2 := x * x
  let px := get_atan_pxC p x2
  let qx := get_atan_qxC p x x2
  let poq := px / qx
  mad (p 9) (x * x2) poq x

/-- include/atan.h:93-122 -/
def atanPosC (p : Policy) (x : F64) : F64 :=
  let r := atanReduce x
  let res := atanCoreC p r.2.2
  let res := res + r.1
  res + r.2.1

/-- include/atan.h:150-154 (= atan2.h:116-120), with the final `+ x` -/
def atanfCoreC (p : Policy) (x : F32) : F32 :=
  let x2 := x * x
  let r := msub (p 0) (lit 8.05374449538e-2) x2 (lit 1.38776856032E-1)
  let r := mad (p 1) r x2 (lit 1.99777106478E-1)
  let r := msub (p 2) r x2 (lit 3.33329491539E-1)
  mad (p 3) (r * x2) x x

/-- include/atan.h:134-154 -/
def atanfPosC (p : Policy) (x0 : F32) : F32 :=
  let r := atanfReduce x0
  r.1 + atanfCoreC p r.2
end details

/-- include/atan.h:86-125 -/
def fast_atanC (p : Policy) (x : F64) : F64 :=
  let sign_mask := getSignMask x
  let x := FP.abs x
  dpORuint64 (atanPosC p x) sign_mask

/-- include/atan.h:129-157 -/
def fast_atanfC (p : Policy) (xx : F32) : F32 :=
  let sign_mask := getSignMaskf xx
  let x := FP.abs xx
  spORuint32 (atanfPosC p x) sign_mask

/-- include/atan2.h:35-91 -/
def fast_atan2C (p : Policy) (y x : F64) : F64 :=
  let xx := FP.abs x
  let yy := FP.abs y
  let tmp : F64 := lit 0.0
  let swap := FP.gt yy xx
  let tmp := if swap then lit 1 else tmp
  let yx := if swap then (xx, yy) else (yy, xx)
  let yy := yx.1
  let xx := yx.2
  let oneIfXXZero : F64 := ofBool (FP.eq xx (lit 0))
  let t := yy / (xx + oneIfXXZero)
  let r := atanReduce t
  let ret := atanCoreC p r.2.2
  let ret := ret + r.1
  let ret := ret + r.2.1
  let ret := ret * (lit 1 - oneIfXXZero)
  let ret := if FP.eq y (ofInt 0) then lit 0.0 else ret
  let ret := if FP.ne tmp (ofInt 0) then PIO2 - ret else ret
  let ret := if FP.lt x (ofInt 0) then PI - ret else ret
  if FP.lt y (ofInt 0) then -ret else ret

/-- include/atan2.h:93-134 -/
def fast_atan2fC (p : Policy) (y x : F32) : F32 :=
  let xx := FP.abs x
  let yy := FP.abs y
  let tmp : F32 := lit 0.0
  let swap := FP.gt yy xx
  let tmp := if swap then lit 1 else tmp
  let yx := if swap then (xx, yy) else (yy, xx)
  let yy := yx.1
  let xx := yx.2
  let oneIfXXZero : F32 := ofBool (FP.eq xx (lit 0))
  let t := yy / xx
  let z := t
  let big := FP.gt t (lit 0.4142135623730950)
  let z := if big then (t - lit 1) / (t + lit 1) else z
  let ret := atanfCoreC p z
  let ret := ret * (lit 1 - oneIfXXZero)
  let ret := if FP.eq y (lit 0) then lit 0 else ret
  let ret := if big then ret + PIO4F else ret
  let ret := if FP.ne tmp (ofInt 0) then PIO2F - ret else ret
  let ret := if FP.lt x (lit 0) then PIF - ret else ret
  if FP.lt y (lit 0) then -ret else ret

theorem fast_atan_plain (x : F64) : fast_atanC (fun _ => false) x = fast_atan x := by
  plain [fast_atanC, atanPosC, fast_atan, atanPos, atanCoreC, get_atan_pxC, get_atan_qxC, atanCore, get_atan_px, get_atan_qx]
theorem fast_atanf_plain (x : F32) : fast_atanfC (fun _ => false) x = fast_atanf x := by
  plain [fast_atanfC, atanfPosC, atanfCoreC, fast_atanf, atanfPos, atanfPoly]
theorem fast_atan2_plain (y x : F64) : fast_atan2C (fun _ => false) y x = fast_atan2 y x := by
  plain [fast_atan2C, fast_atan2, atanCoreC, get_atan_pxC, get_atan_qxC, atanCore, get_atan_px, get_atan_qx]
theorem fast_atan2f_plain (y x : F32) : fast_atan2fC (fun _ => false) y x = fast_atan2f y x := by
  plain [fast_atan2fC, atanfCoreC, fast_atan2f, atanfPoly]

namespace details

/-! ## include/tanh.h -/

/-- include/tanh.h:45-50 -/
def tanhPadeC (p : Policy) (x : F64) : F64 :=
  let xx := x * lit 0.125
  let xx2 := xx * xx
  let numer := madR (p 0) xx2 (madR (p 1) xx2 (madR (p 2) xx2 (ofInt 1) (ofInt 378)) (ofInt 17325)) (ofInt 135135)
  let denom := madR (p 3) xx2 (madR (p 4) xx2 (madR (p 5) xx2 (ofInt 28) (ofInt 3150)) (ofInt 62370)) (ofInt 135135)
  xx * numer / denom

/-- include/tanh.h:51-53 -/
def tanhDoubleC {f : Fmt} (b : Bool) (t : FP f) : FP f := ofInt 2 * t / mad b t t (ofInt 1)

/-- include/tanh.h:64-66 -/
def tanhPadefC (p : Policy) (x : F32) : F32 :=
  let xx := x * lit 0.125
  let xx2 := xx * xx
  xx * mad (p 0) xx xx (ofInt 15) / mad (p 1) (ofInt 6) xx2 (ofInt 15)
end details

/-- include/tanh.h:36-54 -/
def fast_tanhC (p : Policy) (x : F64) : F64 :=
  if FP.gt (FP.abs x) (lit 20) then FP.copysign (lit 1) x
  else
    let tanh := tanhPadeC p x
    let tanh := tanhDoubleC (p 6) tanh
    let tanh := tanhDoubleC (p 7) tanh
    tanhDoubleC (p 8) tanh

/-- include/tanh.h:58-70 -/
def fast_tanhfC (p : Policy) (x : F32) : F32 :=
  if FP.gt (FP.abs x) (lit 9.1) then FP.copysign (lit 1) x
  else
    let tanh := tanhPadefC p x
    let tanh := tanhDoubleC (p 2) tanh
    let tanh := tanhDoubleC (p 3) tanh
    tanhDoubleC (p 4) tanh

theorem fast_tanh_plain (x : F64) : fast_tanhC (fun _ => false) x = fast_tanh x := by
  plain [fast_tanhC, tanhPadeC, tanhDoubleC, fast_tanh, tanhPade, tanhDouble]
theorem fast_tanhf_plain (x : F32) : fast_tanhfC (fun _ => false) x = fast_tanhf x := by
  plain [fast_tanhfC, tanhPadefC, tanhDoubleC, fast_tanhf, tanhPadef, tanhDouble]

namespace details

/-! ## include/sqrt.h and include/inv.h -/

/-- include/sqrt.h:46-47; the policy is asked for every pass through the loop. -/
def isqrtLoopC {f : Fmt} (p : Policy) (x2 : FP f) : Nat → FP f → FP f
  | 0, y => y
  | n + 1, y => isqrtLoopC p x2 n (y * nmad (p n) (x2 * y) y (lit 1.5))
end details

/-- include/sqrt.h:37-50 -/
def fast_isqrt_generalC (p : Policy) (x : F64) (ISQRT_ITERATIONS : Nat) : F64 :=
  let x2 := x * lit 0.5
  let y := x
  let i := dp2uint64 y
  let i := 0x5fe6eb50c7aa19f9#64 - (i >>> 1)
  let y := uint642dp i
  isqrtLoopC p x2 ISQRT_ITERATIONS y

/-- include/sqrt.h:68-80 -/
def fast_isqrtf_generalC (p : Policy) (x : F32) (ISQRT_ITERATIONS : Nat) : F32 :=
  let x2 := x * lit 0.5
  let y := x
  let i := sp2uint32 y
  let i := 0x5f3759df#32 - (i >>> 1)
  let y := uint322sp i
  isqrtLoopC p x2 ISQRT_ITERATIONS y

/-- include/inv.h:38-43 -/
def fast_inv_generalC (p : Policy) (x : F64) (isqrt_iterations : Nat) : F64 :=
  let sign_mask := getSignMask x
  let sqrt_one_over_x := fast_isqrt_generalC p (FP.abs x) isqrt_iterations
  sqrt_one_over_x * dpORuint64 sqrt_one_over_x sign_mask

/-- include/inv.h:66-71 -/
def fast_invf_generalC (p : Policy) (x : F32) (isqrt_iterations : Nat) : F32 :=
  let sign_mask := getSignMaskf x
  let sqrt_one_over_x := fast_isqrtf_generalC p (FP.abs x) isqrt_iterations
  sqrt_one_over_x * spORuint32 sqrt_one_over_x sign_mask

theorem isqrtLoop_plain {f : Fmt} (x2 : FP f) (n : ℕ) (y : FP f) :
    isqrtLoopC (fun _ => false) x2 n y = isqrtLoop x2 n y := by
  induction n generalizing y with
  | zero => rfl
  | succ n ih => simp only [isqrtLoopC, isqrtLoop, nmad_false, ih]

theorem fast_isqrt_plain (x : F64) (n : ℕ) : fast_isqrt_generalC (fun _ => false) x n = fast_isqrt_general x n :=
  isqrtLoop_plain _ _ _
theorem fast_isqrtf_plain (x : F32) (n : ℕ) : fast_isqrtf_generalC (fun _ => false) x n = fast_isqrtf_general x n :=
  isqrtLoop_plain _ _ _
theorem fast_inv_plain (x : F64) (n : ℕ) : fast_inv_generalC (fun _ => false) x n = fast_inv_general x n := by
  unfold fast_inv_generalC fast_inv_general
  simp only [fast_isqrt_plain]
theorem fast_invf_plain (x : F32) (n : ℕ) : fast_invf_generalC (fun _ => false) x n = fast_invf_general x n := by
  unfold fast_invf_generalC fast_invf_general
  simp only [fast_isqrtf_plain]

end Vdt
