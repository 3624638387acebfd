import Verif.Props.ExpAcc
import Verif.Props.LogAcc
import Verif.Props.SincosRel
import Verif.Props.Tan
import Verif.Props.Asin
import Verif.Props.Atan2
import Verif.Props.Tanh
import Verif.Props.Isqrt

/-!
# The accuracy statements hold however the compiler fuses products and sums (C75-C79)

The functions of Model/Contract.lean carry a policy that says which sums are fused with a product.
With the policy that fuses nothing they are the functions of the other model files; the error bounds
below hold for every policy.
-/

namespace Vdt
open FP details

/-! ## C75: exponential and logarithm -/

/-- Whatever is fused, `fast_exp` is within relative error `2^-51`. -/
theorem C75_exp (p : Policy) (x : F64) (hx : x.isFinite = true) (h : |x.val| ≤ 708) :
    ∃ y, fast_expC p x = some y ∧ 0 < y.val ∧ CloseRel y (Real.exp x.real) (2 ^ (-51 : ℤ)) := by
  obtain ⟨y, e, f, g, b⟩ := expC_acc p hx h
  exact ⟨y, e, g, f, by rw [abs_of_pos (Real.exp_pos _)]; exact b⟩

/-- Whatever is fused, `fast_expf` is within relative error `2^-22`. -/
theorem C75_expf (p : Policy) (x : F32) (hx : x.isFinite = true) (h1 : -87.25 ≤ x.val) (h2 : x.val ≤ 88.35) :
    ∃ y, fast_expfC p x = some y ∧ 0 < y.val ∧ CloseRel y (Real.exp x.real) (2 ^ (-22 : ℤ)) :=
  expfC_acc p x hx h1 h2

/-- Whatever is fused, `fast_log` is within relative error `2^-51`, and zero at 1. -/
theorem C75_log (p : Policy) (x : F64) (hn : x.Normal) (h0 : 0 < x.val) (h1 : x.val ≤ 10 ^ 307) :
    CloseRel (fast_logC p x) (Real.log x.real) (2 ^ (-51 : ℤ)) ∧ fast_logC p (lit 1) = pzero :=
  ⟨logC_accurate p x hn h0 h1, logC_one p⟩

/-- Whatever is fused, `fast_logf` is within relative error `2^-22`, and zero at 1. -/
theorem C75_logf (p : Policy) (x : F32) (hn : x.Normal) (h0 : 0 < x.val) :
    CloseRel (fast_logfC p x) (Real.log x.real) (2 ^ (-22 : ℤ)) ∧ fast_logfC p (lit 1) = pzero :=
  ⟨logfC_accurate p x hn h0, logfC_one p⟩

/-- With nothing fused the functions are those of include/exp.h and include/log.h. -/
theorem C75_plain (x : F64) (y : F32) :
    fast_expC (fun _ => false) x = fast_exp x ∧ fast_expfC (fun _ => false) y = fast_expf y ∧
    fast_logC (fun _ => false) x = fast_log x ∧ fast_logfC (fun _ => false) y = fast_logf y :=
  ⟨fast_exp_plain x, fast_expf_plain y, fast_log_plain x, fast_logf_plain y⟩

/-- Fusing everything changes the last bit of these results. -/
example : (fast_exp (lit (382 / 3))).map toBits = some 5434169755951049743#64 ∧
    (fast_expC (fun _ => true) (lit (382 / 3))).map toBits = some 5434169755951049744#64 ∧
    (fast_expf (lit (157 / 3))).map toBits = some 1697982034#32 ∧
    (fast_expfC (fun _ => true) (lit (157 / 3))).map toBits = some 1697982035#32 ∧
    (fast_log (lit (62 / 91))).toBits = 13823956234028973367#64 ∧
    (fast_logC (fun _ => true) (lit (62 / 91))).toBits = 13823956234028973366#64 ∧
    (fast_logf (lit (223 / 77))).toBits = 1065884772#32 ∧
    (fast_logfC (fun _ => true) (lit (223 / 77))).toBits = 1065884771#32 ∧
    |(lit (382 / 3) : F64).val| ≤ 708 ∧ (lit (157 / 3) : F32).val ≤ 88.35 := by decide +kernel

/-! ## C76: sine, cosine and tangent -/

/-- Whatever is fused, sine and cosine are within `2^-51`, also within relative error `2^-23`, and lie within `2^-50` of the unit circle. -/
theorem C76_sincos (p : Policy) (x : F64) (hx : x.isFinite = true) (h : |x.val| ≤ 2 ^ 27) :
    ∃ s c, fast_sincosC p x = some (s, c) ∧
      CloseAbs s (Real.sin x.real) (2 ^ (-51 : ℤ)) ∧ CloseAbs c (Real.cos x.real) (2 ^ (-51 : ℤ)) ∧
      CloseRel s (Real.sin x.real) (2 ^ (-23 : ℤ)) ∧ CloseRel c (Real.cos x.real) (2 ^ (-23 : ℤ)) ∧
      |s.real ^ 2 + c.real ^ 2 - 1| ≤ 2 ^ (-50 : ℤ) := by
  obtain ⟨s, c, e, f1, f2, h1, h2, h3⟩ := sincosC_acc p hx h
  obtain ⟨s', c', e', g1, g2⟩ := sincosC_rel_of p hx h (by norm_num) (by norm_num) distCover64_27 (by decide +kernel)
    (ε := 2 ^ (-23 : ℤ)) (by push_cast; norm_num)
  rw [e] at e'
  obtain ⟨rfl, rfl⟩ := Prod.mk.inj (Option.some.inj e')
  exact ⟨s, c, e, ⟨f1, h1⟩, ⟨f2, h2⟩, g1, g2, h3⟩

/-- Relative error `2^-48` up to 32. -/
theorem C76_sincos_to_32 (p : Policy) (x : F64) (hx : x.isFinite = true) (h : |x.val| ≤ 32) :
    ∃ s c, fast_sincosC p x = some (s, c) ∧
      CloseRel s (Real.sin x.real) (2 ^ (-48 : ℤ)) ∧ CloseRel c (Real.cos x.real) (2 ^ (-48 : ℤ)) :=
  sincosC_rel_of p hx h (by norm_num) (by norm_num) distCover64_5 (by decide +kernel) (by push_cast; norm_num)

/-- Single precision: `2^-22`, relative error `2^-10`. -/
theorem C76_sincosf (p : Policy) (x : F32) (hx : x.isFinite = true) (h : |x.val| ≤ 8192) :
    ∃ s c, fast_sincosfC p x = some (s, c) ∧
      CloseAbs s (Real.sin x.real) (2 ^ (-22 : ℤ)) ∧ CloseAbs c (Real.cos x.real) (2 ^ (-22 : ℤ)) ∧
      CloseRel s (Real.sin x.real) (2 ^ (-10 : ℤ)) ∧ CloseRel c (Real.cos x.real) (2 ^ (-10 : ℤ)) ∧
      |s.real ^ 2 + c.real ^ 2 - 1| ≤ 2 ^ (-21 : ℤ) := by
  obtain ⟨s, c, e, f1, f2, h1, h2, h3⟩ := sincosfC_acc p hx h
  obtain ⟨s', c', e', g1, g2⟩ := sincosfC_rel_of p hx h (by norm_num) (by norm_num) distCover32_13 (by decide +kernel)
    (ε := 2 ^ (-10 : ℤ)) (by push_cast; norm_num)
  rw [e] at e'
  obtain ⟨rfl, rfl⟩ := Prod.mk.inj (Option.some.inj e')
  exact ⟨s, c, e, ⟨f1, h1⟩, ⟨f2, h2⟩, g1, g2, h3⟩

/-- Whatever is fused, the tangent has the accuracy of C13. -/
theorem C76_tan (p : Policy) (x : F64) (hx : x.isFinite = true) (h0 : 2 ^ (-1024 : ℤ) < |x.val|) (h : |x.val| ≤ 2 ^ 27) :
    ∃ y, fast_tanC p x = some y ∧ y.isFinite = true ∧
      |y.real - Real.tan x.real| ≤ 2 ^ (-47 : ℤ) * |Real.tan x.real| + 2 ^ (-78 : ℤ) * (1 + Real.tan x.real ^ 2) ∧
      |y.real - Real.tan x.real| ≤ 2 ^ (-22 : ℤ) * |Real.tan x.real| :=
  tanC_accurate p x hx h0 h

/-- Up to `2^20`: `2^-50` wherever the tangent is between `2^-20` and `2^20`. -/
theorem C76_tan_to_2_20 (p : Policy) (x : F64) (hx : x.isFinite = true) (h0 : 2 ^ (-1024 : ℤ) < |x.val|) (h : |x.val| ≤ 2 ^ 20) :
    ∃ y, fast_tanC p x = some y ∧ y.isFinite = true ∧
      |y.real - Real.tan x.real| ≤ 2 ^ (-47 : ℤ) * |Real.tan x.real| + 2 ^ (-85 : ℤ) * (1 + Real.tan x.real ^ 2) ∧
      |y.real - Real.tan x.real| ≤ 2 ^ (-31 : ℤ) * |Real.tan x.real| ∧
      (2 ^ (-20 : ℤ) ≤ |Real.tan x.real| → |Real.tan x.real| ≤ 2 ^ 20 →
        |y.real - Real.tan x.real| ≤ 2 ^ (-50 : ℤ) * |Real.tan x.real|) :=
  tanC_accurate_to_2_20 p x hx h0 h

/-- Up to 8192 the relative error is at most `2^-37`, up to 32 at most `2^-46`. -/
theorem C76_tan_relative (p : Policy) (x : F64) (hx : x.isFinite = true) (h0 : 2 ^ (-1024 : ℤ) < |x.val|) (h : |x.val| ≤ 8192) :
    ∃ y, fast_tanC p x = some y ∧ CloseRel y (Real.tan x.real) (2 ^ (-37 : ℤ)) ∧
      (|x.val| ≤ 32 → CloseRel y (Real.tan x.real) (2 ^ (-46 : ℤ))) := by
  obtain ⟨y, e, b⟩ := tanC_relative_to_8192 p x hx h0 h
  refine ⟨y, e, b, fun g => ?_⟩
  obtain ⟨y', e', b'⟩ := tanC_relative_to_32 p x hx h0 g
  rw [e] at e'
  rw [Option.some.inj e']
  exact b'

/-- Whatever is fused, the single precision tangent has the accuracy of C15. -/
theorem C76_tanf (p : Policy) (x : F32) (hx : x.isFinite = true) (h0 : 2 ^ (-128 : ℤ) < |x.val|) (h : |x.val| ≤ 8192) :
    ∃ y, fast_tanfC p x = some y ∧ y.isFinite = true ∧
      |y.real - Real.tan x.real| ≤ 2 ^ (-21 : ℤ) * |Real.tan x.real| + 2 ^ (-33 : ℤ) * (1 + Real.tan x.real ^ 2) ∧
      |y.real - Real.tan x.real| ≤ 2 ^ (-9 : ℤ) * |Real.tan x.real| ∧
      (|x.val| ≤ 128 → CloseRel y (Real.tan x.real) (2 ^ (-14 : ℤ))) := by
  obtain ⟨y, e, f, b, c⟩ := tanfC_accurate p x hx h0 h
  refine ⟨y, e, f, b, c, fun g => ?_⟩
  obtain ⟨y', e', b'⟩ := tanfC_relative_to_128 p x hx h0 g
  rw [e] at e'
  rw [Option.some.inj e']
  exact b'

/-- With nothing fused the functions are those of include/sincos.h and include/tan.h. -/
theorem C76_plain (x : F64) (y : F32) :
    fast_sincosC (fun _ => false) x = fast_sincos x ∧ fast_sincosfC (fun _ => false) y = fast_sincosf y ∧
    fast_tanC (fun _ => false) x = fast_tan x ∧ fast_tanfC (fun _ => false) y = fast_tanf y :=
  ⟨fast_sincos_plain x, fast_sincosf_plain y, fast_tan_plain x, fast_tanf_plain y⟩

example : (fast_sincos (lit (427 / 3))).map (·.1.toBits) = some 13828934463367045522#64 ∧
    (fast_sincosC (fun _ => true) (lit (427 / 3))).map (·.1.toBits) = some 13828934463367045523#64 ∧
    (fast_sincosf (lit (25 / 3))).map (·.1.toBits) = some 1063462328#32 ∧
    (fast_sincosfC (fun _ => true) (lit (25 / 3))).map (·.1.toBits) = some 1063462327#32 ∧
    (fast_tan (lit (130 / 3))).map toBits = some 13828379853673109635#64 ∧
    (fast_tanC (fun _ => true) (lit (130 / 3))).map toBits = some 13828379853673109636#64 ∧
    (fast_tanf (lit (106 / 3))).map toBits = some 1065034630#32 ∧
    (fast_tanfC (fun _ => true) (lit (106 / 3))).map toBits = some 1065034631#32 ∧
    2 ^ (-1024 : ℤ) < |(lit (130 / 3) : F64).val| ∧ |(lit (130 / 3) : F64).val| ≤ 8192 ∧ |(lit (25 / 3) : F64).val| ≤ 32 := by
  decide +kernel

/-! ## C77: inverse trigonometric functions -/

/-- Whatever is fused, `fast_asin` is within relative error `3.6·2^-53` and within `2.8·2^-53`, and never above `π/2`. -/
theorem C77_asin (p : Policy) (x : F64) (hx : x.isFinite = true) (h : |x.val| ≤ 1) :
    (fast_asinC p x).isFinite = true ∧ |(fast_asinC p x).val| ≤ 884279719003555 / 562949953421312 ∧
    |(fast_asinC p x).real - Real.arcsin x.real| ≤ 3.6 * 2 ^ (-53 : ℤ) * |Real.arcsin x.real| ∧
    |(fast_asinC p x).real - Real.arcsin x.real| ≤ 2.8 * 2 ^ (-53 : ℤ) := by
  have e : PIO2.val = 884279719003555 / 562949953421312 := by decide +kernel
  rw [← e]
  exact fast_asinC_acc p hx h

theorem C77_asinf (p : Policy) (x : F32) (hx : x.isFinite = true) (h : |x.val| ≤ 1) :
    (fast_asinfC p x).isFinite = true ∧ |(fast_asinfC p x).val| ≤ 13176795 / 8388608 ∧
    |(fast_asinfC p x).real - Real.arcsin x.real| ≤ 9.1 * 2 ^ (-24 : ℤ) * |Real.arcsin x.real| ∧
    |(fast_asinfC p x).real - Real.arcsin x.real| ≤ 4.8 * 2 ^ (-24 : ℤ) := by
  have e : PIO2F.val = 13176795 / 8388608 := by decide +kernel
  rw [← e]
  exact fast_asinfC_acc p hx h

/-- Whatever is fused, `fast_acos` is within `2^-50` and lies between 0 and `π`. -/
theorem C77_acos (p : Policy) (x : F64) (hx : x.isFinite = true) (h : |x.val| ≤ 1) :
    CloseAbs (fast_acosC p x) (Real.arccos x.real) (2 ^ (-50 : ℤ)) ∧ 0 ≤ (fast_acosC p x).real ∧
    (fast_acosC p x).real ≤ Real.pi :=
  fast_acosC_acc p x hx h

theorem C77_acosf (p : Policy) (x : F32) (hx : x.isFinite = true) (h : |x.val| ≤ 1) :
    CloseAbs (fast_acosfC p x) (Real.arccos x.real) (2 ^ (-20 : ℤ)) ∧ 0 ≤ (fast_acosfC p x).val ∧
    (fast_acosfC p x).val ≤ 13176795 / 4194304 :=
  fast_acosfC_acc p x hx h

/-- Whatever is fused, `fast_atan` has the accuracy of C19. -/
theorem C77_atan (p : Policy) (x : F64) (hx : x.isFinite = true) :
    (fast_atanC p x).isFinite = true ∧ |(fast_atanC p x).val| ≤ 884279719003555 / 562949953421312 ∧
    |(fast_atanC p x).real - Real.arctan x.real| ≤ 2 ^ (-51 : ℤ) * |Real.arctan x.real| + 2 ^ (-1073 : ℤ) :=
  atanC_acc p x hx

theorem C77_atanf (p : Policy) (x : F32) (hx : x.isFinite = true) :
    (fast_atanfC p x).isFinite = true ∧ |(fast_atanfC p x).val| ≤ 13176795 / 8388608 ∧
    |(fast_atanfC p x).real - Real.arctan x.real| ≤ 2 ^ (-21 : ℤ) * |Real.arctan x.real| + 2 ^ (-148 : ℤ) :=
  atanfC_acc p x hx

/-- Whatever is fused, `fast_atan2` has the accuracy, range and signs of C22. -/
theorem C77_atan2 (p : Policy) (y x : F64) (hy : y.isFinite = true) (hx : x.isFinite = true) (h : x.val ≠ 0 ∨ y.val ≠ 0) :
    (fast_atan2C p y x).isFinite = true ∧
    |(fast_atan2C p y x).real - Complex.arg ⟨x.real, y.real⟩| ≤ 2 ^ (-50 : ℤ) ∧
    |(fast_atan2C p y x).real - Complex.arg ⟨x.real, y.real⟩| ≤ 2 ^ (-50 : ℤ) * |Complex.arg ⟨x.real, y.real⟩| + 2 ^ (-1072 : ℤ) ∧
    |(fast_atan2C p y x).real| ≤ Real.pi ∧ (fast_atan2C p y x).sign = decide (y.val < 0) ∧
    (0 ≤ x.val → |(fast_atan2C p y x).val| ≤ 884279719003555 / 562949953421312) ∧
    (x.val < 0 → 884279719003555 / 562949953421312 ≤ |(fast_atan2C p y x).val|) :=
  atan2C_acc p y x hy hx h

theorem C77_atan2f (p : Policy) (y x : F32) (hy : y.isFinite = true) (hx : x.isFinite = true) (h : x.val ≠ 0 ∨ y.val ≠ 0) :
    (fast_atan2fC p y x).isFinite = true ∧
    |(fast_atan2fC p y x).real - Complex.arg ⟨x.real, y.real⟩| ≤ 2 ^ (-20 : ℤ) ∧
    |(fast_atan2fC p y x).real - Complex.arg ⟨x.real, y.real⟩| ≤ 2 ^ (-20 : ℤ) * |Complex.arg ⟨x.real, y.real⟩| + 2 ^ (-147 : ℤ) ∧
    |(fast_atan2fC p y x).val| ≤ 13176795 / 4194304 ∧ (fast_atan2fC p y x).sign = decide (y.val < 0) ∧
    (0 ≤ x.val → |(fast_atan2fC p y x).val| ≤ 13176795 / 8388608) ∧
    (x.val < 0 → 13176795 / 8388608 ≤ |(fast_atan2fC p y x).val|) :=
  atan2fC_acc p y x hy hx h

/-- With nothing fused the functions are those of the headers. -/
theorem C77_plain (x y : F64) (u v : F32) :
    fast_asinC (fun _ => false) x = fast_asin x ∧ fast_asinfC (fun _ => false) u = fast_asinf u ∧
    fast_acosC (fun _ => false) x = fast_acos x ∧ fast_acosfC (fun _ => false) u = fast_acosf u ∧
    fast_atanC (fun _ => false) x = fast_atan x ∧ fast_atanfC (fun _ => false) u = fast_atanf u ∧
    fast_atan2C (fun _ => false) y x = fast_atan2 y x ∧ fast_atan2fC (fun _ => false) v u = fast_atan2f v u :=
  ⟨fast_asin_plain x, fast_asinf_plain u, fast_acos_plain x, fast_acosf_plain u, fast_atan_plain x, fast_atanf_plain u,
    fast_atan2_plain y x, fast_atan2f_plain v u⟩

example : (fast_asin (lit (547 / 3701))).toBits = 4594512580312926364#64 ∧
    (fast_asinC (fun _ => true) (lit (547 / 3701))).toBits = 4594512580312926365#64 ∧
    (fast_asinf (lit (763 / 3701))).toBits = 1045733908#32 ∧
    (fast_asinfC (fun _ => true) (lit (763 / 3701))).toBits = 1045733909#32 ∧
    (fast_acos (lit (1129 / 3701))).toBits = 4608356969168252410#64 ∧
    (fast_acosC (fun _ => true) (lit (1129 / 3701))).toBits = 4608356969168252411#64 ∧
    (fast_acosf (lit (1699 / 3701))).toBits = 1066140518#32 ∧
    (fast_acosfC (fun _ => true) (lit (1699 / 3701))).toBits = 1066140519#32 ∧
    (fast_atan (lit (118 / 1001))).toBits = 4593119701139060224#64 ∧
    (fast_atanC (fun _ => true) (lit (118 / 1001))).toBits = 4593119701139060223#64 ∧
    (fast_atanf (lit (397 / 1001))).toBits = 1052856702#32 ∧
    (fast_atanfC (fun _ => true) (lit (397 / 1001))).toBits = 1052856701#32 ∧
    (fast_atan2 (lit 3) (lit (151 / 143))).toBits = 4608228863836886670#64 ∧
    (fast_atan2C (fun _ => true) (lit 3) (lit (151 / 143))).toBits = 4608228863836886671#64 ∧
    (fast_atan2f (lit 3) (lit (37 / 3))).toBits = 1047811584#32 ∧
    (fast_atan2fC (fun _ => true) (lit 3) (lit (37 / 3))).toBits = 1047811585#32 := by decide +kernel

/-! ## C78: hyperbolic tangent -/

/-- Whatever is fused, `fast_tanh` stays within `[-1, 1]`, is odd, saturates beyond 20, keeps NaN and has the accuracy of C17. -/
theorem C78_tanh (p : Policy) (x : F64) :
    (x.isNaN = true → (fast_tanhC p x).isNaN = true) ∧
    (x.isNaN = false → (fast_tanhC p x).isFinite = true ∧ |(fast_tanhC p x).val| ≤ 1 ∧ (fast_tanhC p x).sign = x.sign ∧
      fast_tanhC p (FP.neg x) = FP.neg (fast_tanhC p x) ∧
      (x.isInf = true ∨ 20 < |x.val| → (fast_tanhC p x).val = if x.sign then -1 else 1)) ∧
    (x.isFinite = true →
      |(fast_tanhC p x).real - Real.tanh x.real| ≤ 2 ^ (-49 : ℤ) * |Real.tanh x.real| + 2 ^ (-1070 : ℤ) ∧
      (2 ^ (-1000 : ℤ) ≤ |x.val| → CloseRel (fast_tanhC p x) (Real.tanh x.real) (15.7 * 2 ^ (-53 : ℤ)))) :=
  ⟨tanhC_nan p x, fun h => ⟨(tanhC_range p x h).1, (tanhC_range p x h).2.1, (tanhC_range p x h).2.2, tanhC_odd p x h,
    tanhC_saturates p x h⟩, fun h => ⟨tanhC_accurate p x h, tanhC_accurate_relative p x h⟩⟩

theorem C78_tanhf (p : Policy) (x : F32) :
    (x.isNaN = true → (fast_tanhfC p x).isNaN = true) ∧
    (x.isNaN = false → (fast_tanhfC p x).isFinite = true ∧ |(fast_tanhfC p x).val| ≤ 1 ∧ (fast_tanhfC p x).sign = x.sign ∧
      fast_tanhfC p (FP.neg x) = FP.neg (fast_tanhfC p x) ∧
      (x.isInf = true ∨ 9542042 / 2 ^ 20 < |x.val| → (fast_tanhfC p x).val = if x.sign then -1 else 1)) ∧
    (x.isFinite = true →
      |(fast_tanhfC p x).real - Real.tanh x.real| ≤ 2 ^ (-20 : ℤ) * |Real.tanh x.real| + 2 ^ (-145 : ℤ)) :=
  ⟨tanhfC_nan p x, fun h => ⟨(tanhfC_range p x h).1, (tanhfC_range p x h).2.1, (tanhfC_range p x h).2.2, tanhfC_odd p x h,
    tanhfC_saturates p x h⟩, tanhfC_accurate p x⟩

/-- With nothing fused the functions are those of include/tanh.h. -/
theorem C78_plain (x : F64) (y : F32) :
    fast_tanhC (fun _ => false) x = fast_tanh x ∧ fast_tanhfC (fun _ => false) y = fast_tanhf y :=
  ⟨fast_tanh_plain x, fast_tanhf_plain y⟩

example : (lit (31 / 37) : F64).isFinite = true ∧ 2 ^ (-1000 : ℤ) ≤ |(lit (31 / 37) : F64).val| ∧
    (fast_tanh (lit (31 / 37))).toBits = 4604342107859659235#64 ∧
    (fast_tanhC (fun _ => true) (lit (31 / 37))).toBits = 4604342107859659234#64 ∧
    (fast_tanhf (lit (22 / 37))).toBits = 1057521478#32 ∧
    (fast_tanhfC (fun _ => true) (lit (22 / 37))).toBits = 1057521479#32 := by decide +kernel

/-! ## C79: inverse square root and reciprocal -/

/-- Whatever is fused, the inverse square roots (four and three steps) are as accurate as in C29. -/
theorem C79_isqrt (p : Policy) (x : F64) (hx : x.Normal) (hpos : 0 < x.val) :
    CloseRel (fast_isqrt_generalC p x 4) (1 / Real.sqrt x.real) ((2 : ℝ)⁻¹ ^ 50) ∧
    CloseRel (fast_isqrt_generalC p x 3) (1 / Real.sqrt x.real) ((2 : ℝ)⁻¹ ^ 34) :=
  isqrtC_accurate p hx hpos

theorem C79_isqrtf (p : Policy) (x : F32) (hx : x.Normal) (hpos : 0 < x.val) :
    CloseRel (fast_isqrtf_generalC p x 2) (1 / Real.sqrt x.real) ((2 : ℝ)⁻¹ ^ 17) ∧
    CloseRel (fast_isqrtf_generalC p x 1) (1 / Real.sqrt x.real) ((2 : ℝ)⁻¹ ^ 9) :=
  isqrtfC_accurate p hx hpos

/-- Whatever is fused, the reciprocals are as accurate as in C31 and keep the sign. -/
theorem C79_inv (p : Policy) (x : F64) (hx : x.Normal) (hr : (2 : ℚ) ^ (-1022 : ℤ) ≤ |x.val|⁻¹) :
    (CloseRel (fast_inv_generalC p x 4) (1 / x.real) ((2 : ℝ)⁻¹ ^ 49) ∧ (fast_inv_generalC p x 4).sign = x.sign) ∧
    (CloseRel (fast_inv_generalC p x 3) (1 / x.real) ((2 : ℝ)⁻¹ ^ 33) ∧ (fast_inv_generalC p x 3).sign = x.sign) :=
  invC_accurate p hx hr

theorem C79_invf (p : Policy) (x : F32) (hx : x.Normal) (hr : (2 : ℚ) ^ (-126 : ℤ) ≤ |x.val|⁻¹) :
    (CloseRel (fast_invf_generalC p x 2) (1 / x.real) ((2 : ℝ)⁻¹ ^ 16) ∧ (fast_invf_generalC p x 2).sign = x.sign) ∧
    (CloseRel (fast_invf_generalC p x 1) (1 / x.real) ((2 : ℝ)⁻¹ ^ 8) ∧ (fast_invf_generalC p x 1).sign = x.sign) :=
  invfC_accurate p hx hr

/-- Whatever is fused, the inverse square root of a non-negative number is a positive number. -/
theorem C79_isqrt_positive (p : Policy) (x : F64) (y : F32) (hx : x.isFinite = true) (hsx : x.sign = false)
    (hy : y.isFinite = true) (hsy : y.sign = false) :
    ((fast_isqrt_generalC p x 4).isFinite = true ∧ 0 < (fast_isqrt_generalC p x 4).val) ∧
    ((fast_isqrt_generalC p x 3).isFinite = true ∧ 0 < (fast_isqrt_generalC p x 3).val) ∧
    ((fast_isqrtf_generalC p y 2).isFinite = true ∧ 0 < (fast_isqrtf_generalC p y 2).val) ∧
    ((fast_isqrtf_generalC p y 1).isFinite = true ∧ 0 < (fast_isqrtf_generalC p y 1).val) :=
  isqrtC_positive p hx hsx hy hsy

/-- With nothing fused the functions are those of include/sqrt.h and include/inv.h. -/
theorem C79_plain (x : F64) (y : F32) (n : ℕ) :
    fast_isqrt_generalC (fun _ => false) x n = fast_isqrt_general x n ∧
    fast_isqrtf_generalC (fun _ => false) y n = fast_isqrtf_general y n ∧
    fast_inv_generalC (fun _ => false) x n = fast_inv_general x n ∧
    fast_invf_generalC (fun _ => false) y n = fast_invf_general y n :=
  ⟨fast_isqrt_plain x n, fast_isqrtf_plain y n, fast_inv_plain x n, fast_invf_plain y n⟩

example : (lit (58 / 3) : F64).Normal ∧ (2 : ℚ) ^ (-1022 : ℤ) ≤ |(lit (58 / 3) : F64).val|⁻¹ ∧
    (fast_isqrt_general (lit (58 / 3)) 4).toBits = 4597362028450308828#64 ∧
    (fast_isqrt_generalC (fun _ => true) (lit (58 / 3)) 4).toBits = 4597362028450308827#64 ∧
    (fast_isqrtf_general (lit (1 / 3)) 2).toBits = 1071494095#32 ∧
    (fast_isqrtf_generalC (fun _ => true) (lit (1 / 3)) 2).toBits = 1071494097#32 ∧
    (fast_inv_general (lit (58 / 3)) 4).toBits = 4587615054901786978#64 ∧
    (fast_inv_generalC (fun _ => true) (lit (58 / 3)) 4).toBits = 4587615054901786976#64 ∧
    (fast_invf_general (lit (1 / 3)) 2).toBits = 1077936114#32 ∧
    (fast_invf_generalC (fun _ => true) (lit (1 / 3)) 2).toBits = 1077936117#32 := by
  rw [normal_iff64]; decide +kernel

end Vdt
