import Verif.Lemmas.FlushSource
import Verif.Lemmas.FlushNewton
import Verif.Lemmas.FlushTrig
import Verif.Lemmas.FlushLog
import Verif.Lemmas.FlushAsin
import Verif.Lemmas.FlushTan
import Verif.Lemmas.FlushAtan2

/-!
# C114: subnormal numbers flushed to zero

Full statement: where an argument and the result are normal numbers (or zero), a processor that flushes subnormal numbers to
zero computes the same result, bit for bit, as one that does not.  `isqrt`, `inv` and `tanh` violate it; the other functions are
proved equal under the conditions stated with each theorem.
-/

namespace Vdt
open FP details Flush

/-- Every subnormal operand and result becomes zero, as with the bits "denormals are zero" and "flush to zero". -/
def ftz : Mode where
  arg {f} x := if x.mag < 2 ^ f.mb then zero x.sign else x
  res {f} _ _ _ r := if r.mag < 2 ^ f.mb then zero r.sign else r
  cvt _ r := if r.mag < 2 ^ b32.mb then zero r.sign else r

theorem ftz_full : ftz.Full where
  arg x := by
    show (if _ then _ else _) = x ∨ _ ∧ (if _ then _ else _) = _
    split_ifs with h
    · exact Or.inr ⟨h, rfl⟩
    · exact Or.inl rfl
  res o x y r := by
    show (if _ then _ else _) = r ∨ _ ∧ (if _ then _ else _) = _
    split_ifs with h
    · exact Or.inr ⟨h.le, rfl⟩
    · exact Or.inl rfl
  cvt x r := by
    show (if _ then _ else _) = r ∨ _ ∧ (if _ then _ else _) = _
    split_ifs with h
    · exact Or.inr ⟨h.le, rfl⟩
    · exact Or.inl rfl
  arg_sub x h := if_pos h
  res_sub o x y r h := if_pos h
  cvt_sub x r h := if_pos h

/-- Without flushing every function is the one of the other properties. -/
theorem C114_plain : (∀ x, Flush.fast_exp plain x = fast_exp x) ∧ (∀ x, Flush.fast_expf plain x = fast_expf x) ∧
    (∀ x, Flush.fast_log plain x = fast_log x) ∧ (∀ x, Flush.fast_logf plain x = fast_logf x) ∧
    (∀ x, Flush.fast_sincos plain x = fast_sincos x) ∧ (∀ x, Flush.fast_sincosf plain x = fast_sincosf x) ∧
    (∀ x, Flush.fast_tan plain x = fast_tan x) ∧ (∀ x, Flush.fast_tanf plain x = fast_tanf x) ∧
    (∀ x, Flush.fast_tanh plain x = fast_tanh x) ∧ (∀ x, Flush.fast_tanhf plain x = fast_tanhf x) ∧
    (∀ x, Flush.fast_asin plain x = fast_asin x) ∧ (∀ x, Flush.fast_asinf plain x = fast_asinf x) ∧
    (∀ x, Flush.fast_acos plain x = fast_acos x) ∧ (∀ x, Flush.fast_acosf plain x = fast_acosf x) ∧
    (∀ x, Flush.fast_atan plain x = fast_atan x) ∧ (∀ x, Flush.fast_atanf plain x = fast_atanf x) ∧
    (∀ y x, Flush.fast_atan2 plain y x = fast_atan2 y x) ∧ (∀ y x, Flush.fast_atan2f plain y x = fast_atan2f y x) ∧
    (∀ x n, (Flush.fast_isqrt_general plain x n).v = fast_isqrt_general x n) ∧
    (∀ x n, (Flush.fast_isqrtf_general plain x n).v = fast_isqrtf_general x n) ∧
    (∀ x n, (Flush.fast_inv_general plain x n).v = fast_inv_general x n) ∧
    (∀ x n, (Flush.fast_invf_general plain x n).v = fast_invf_general x n) :=
  ⟨v_exp, v_expf, v_log, v_logf, v_sincos, v_sincosf, v_tan, v_tanf, v_tanh, v_tanhf, v_asin, v_asinf, v_acos, v_acosf, v_atan,
    v_atanf, v_atan2, v_atan2f, v_isqrt, v_isqrtf, v_inv, v_invf⟩

example : plain.Ok ∧ ftz.Full := ⟨plain_ok, ftz_full⟩

variable {m : Mode}

/-! ## exp and log -/

/-- The exponential for all arguments that it does not answer with zero or infinity, subnormal ones included. -/
theorem C114_exp (hm : m.Ok) (x : F64) (hx : x.isFinite = true) (h : |x.val| ≤ 708) : Flush.fast_exp m x = fast_exp x :=
  exp_same hm hx h

example : ftz.Ok ∧ (lit (-707.5) : F64).isFinite = true ∧ |(lit (-707.5) : F64).val| ≤ 708 :=
  ⟨ftz_full.toOk, by decide +kernel, by decide +kernel⟩

/-- The exponential in single precision where its value is a normal number. -/
theorem C114_expf_partial (hm : m.Ok) (x : F32) (hx : x.isFinite = true) (h1 : -87.25 ≤ x.val) (h2 : x.val ≤ 88.35) :
    Flush.fast_expf m x = fast_expf x := expf_same hm hx h1 h2

example : ftz.Ok ∧ (lit (-87) : F32).isFinite = true ∧ -87.25 ≤ (lit (-87) : F32).val ∧ (lit (-87) : F32).val ≤ 88.35 :=
  ⟨ftz_full.toOk, by decide +kernel, by decide +kernel, by decide +kernel⟩

/-- A smaller value becomes zero. -/
theorem C114_expf_violated : (fast_expf (lit (-87.5))).map (fun y => decide ((2 : ℚ) ^ (-127 : ℤ) < y.val)) = some true ∧
    Flush.fast_expf ftz (lit (-87.5)) = some (zero false) := by
  constructor <;> decide +kernel

/-- The logarithm of every normal number. -/
theorem C114_log (hm : m.Ok) (x : F64) (hx : x.Normal) : Flush.fast_log m x = fast_log x := log_same hm hx

example : ftz.Ok ∧ (lit 3 : F64).Normal := ⟨ftz_full.toOk, by unfold FP.Normal; constructor <;> decide +kernel⟩

/-- The logarithm of every normal number, single precision. -/
theorem C114_logf (hm : m.Ok) (x : F32) (hx : x.Normal) : Flush.fast_logf m x = fast_logf x := logf_same hm hx

example : ftz.Ok ∧ (lit 3 : F32).Normal := ⟨ftz_full.toOk, by unfold FP.Normal; constructor <;> decide +kernel⟩

/-- The logarithm of a negative number is not a number; of a negative subnormal number that the test for the domain sees as
zero it is a number. -/
theorem C114_log_violated : (fast_log (lit (-1e-310))).isNaN = true ∧ (Flush.fast_log ftz (lit (-1e-310))).isFinite = true ∧
    (fast_logf (lit (-1e-40))).isNaN = true ∧ (Flush.fast_logf ftz (lit (-1e-40))).isFinite = true := by
  refine ⟨?_, ?_, ?_, ?_⟩ <;> decide +kernel

/-! ## Sine and cosine -/

/-- Sine and cosine of all numbers up to `2^27` but the subnormal ones and the smallest normal one. -/
theorem C114_sincos_partial (hm : m.Ok) (x : F64) (hx : x.isFinite = true) (k : x.val = 0 ∨ (2 : ℚ) ^ (-1022 : ℤ) < |x.val|)
    (h : |x.val| ≤ 2 ^ 27) : Flush.fast_sincos m x = fast_sincos x :=
  sincos_same hm hx (k.imp_right fun k => by rw [p2_eq]; exact k) h

example : ftz.Ok ∧ (lit 1e-300 : F64).isFinite = true ∧ ((lit 1e-300 : F64).val = 0 ∨ (2 : ℚ) ^ (-1022 : ℤ) < |(lit 1e-300 : F64).val|) ∧
    |(lit 1e-300 : F64).val| ≤ 2 ^ 27 := ⟨ftz_full.toOk, by decide +kernel, by decide +kernel, by decide +kernel⟩

/-- Sine and cosine, single precision. -/
theorem C114_sincosf_partial (hm : m.Ok) (x : F32) (hx : x.isFinite = true) (k : x.val = 0 ∨ (2 : ℚ) ^ (-126 : ℤ) < |x.val|)
    (h : |x.val| ≤ 8192) : Flush.fast_sincosf m x = fast_sincosf x :=
  sincosf_same hm hx (k.imp_right fun k => by rw [p2_eq]; exact k) h

example : ftz.Ok ∧ (lit 1e-30 : F32).isFinite = true ∧ ((lit 1e-30 : F32).val = 0 ∨ (2 : ℚ) ^ (-126 : ℤ) < |(lit 1e-30 : F32).val|) ∧
    |(lit 1e-30 : F32).val| ≤ 8192 := ⟨ftz_full.toOk, by decide +kernel, by decide +kernel, by decide +kernel⟩

/-- The sine of a subnormal number is that number, or zero. -/
theorem C114_sincos_violated : (fast_sincos (lit 1e-310)).map (fun a => decide (a.1 = lit 1e-310)) = some true ∧
    (Flush.fast_sincos ftz (lit 1e-310)).map (fun a => decide (a.1 = zero false)) = some true := by
  constructor <;> decide +kernel

/-! ## Tangent and hyperbolic tangent -/

/-- The tangent of all numbers up to `2^27` but the subnormal ones and the smallest normal one. -/
theorem C114_tan_partial (hm : m.Ok) (x : F64) (hx : x.isFinite = true) (k : x.val = 0 ∨ (2 : ℚ) ^ (-1022 : ℤ) < |x.val|)
    (h : |x.val| ≤ 2 ^ 27) : Flush.fast_tan m x = fast_tan x :=
  tan_same hm hx (k.imp_right fun k => by rw [p2_eq]; exact k) h

example : ftz.Ok ∧ (lit 1e-300 : F64).isFinite = true ∧ ((lit 1e-300 : F64).val = 0 ∨ (2 : ℚ) ^ (-1022 : ℤ) < |(lit 1e-300 : F64).val|) ∧
    |(lit 1e-300 : F64).val| ≤ 2 ^ 27 := ⟨ftz_full.toOk, by decide +kernel, by decide +kernel, by decide +kernel⟩

/-- The tangent, single precision. -/
theorem C114_tanf_partial (hm : m.Ok) (x : F32) (hx : x.isFinite = true) (k : x.val = 0 ∨ (2 : ℚ) ^ (-126 : ℤ) < |x.val|)
    (h : |x.val| ≤ 8192) : Flush.fast_tanf m x = fast_tanf x :=
  tanf_same hm hx (k.imp_right fun k => by rw [p2_eq]; exact k) h

example : ftz.Ok ∧ (lit 1e-30 : F32).isFinite = true ∧ ((lit 1e-30 : F32).val = 0 ∨ (2 : ℚ) ^ (-126 : ℤ) < |(lit 1e-30 : F32).val|) ∧
    |(lit 1e-30 : F32).val| ≤ 8192 := ⟨ftz_full.toOk, by decide +kernel, by decide +kernel, by decide +kernel⟩

/-- The tangent of a subnormal number is that number, or zero. -/
theorem C114_tan_violated : fast_tan (lit 1e-308) = some (lit 1e-308) ∧ Flush.fast_tan ftz (lit 1e-308) = some (zero false) := by
  constructor <;> decide +kernel

/-- The hyperbolic tangent of all numbers but those whose eighth is too small. -/
theorem C114_tanh_partial (hm : m.Ok) (x : F64) (hx : x.isFinite = true) (k : x.val = 0 ∨ (2 : ℚ) ^ (-1018 : ℤ) ≤ |x.val|) :
    Flush.fast_tanh m x = fast_tanh x := tanh_same hm hx (k.imp_right fun k => by rw [p2_eq]; exact k)

example : ftz.Ok ∧ (lit 1e-300 : F64).isFinite = true ∧ ((lit 1e-300 : F64).val = 0 ∨ (2 : ℚ) ^ (-1018 : ℤ) ≤ |(lit 1e-300 : F64).val|) :=
  ⟨ftz_full.toOk, by decide +kernel, by decide +kernel⟩

/-- The hyperbolic tangent, single precision. -/
theorem C114_tanhf_partial (hm : m.Ok) (x : F32) (hx : x.isFinite = true) (k : x.val = 0 ∨ (2 : ℚ) ^ (-122 : ℤ) ≤ |x.val|) :
    Flush.fast_tanhf m x = fast_tanhf x := tanhf_same hm hx (k.imp_right fun k => by rw [p2_eq]; exact k)

example : ftz.Ok ∧ (lit 1e-30 : F32).isFinite = true ∧ ((lit 1e-30 : F32).val = 0 ∨ (2 : ℚ) ^ (-122 : ℤ) ≤ |(lit 1e-30 : F32).val|) :=
  ⟨ftz_full.toOk, by decide +kernel, by decide +kernel⟩

/-- The hyperbolic tangent loses normal arguments: the result is close to the argument, or zero. -/
theorem C114_tanh_violated : (lit 1e-307 : F64).Normal ∧ (fast_tanh (lit 1e-307)).Normal ∧ Flush.fast_tanh ftz (lit 1e-307) = zero false ∧
    (lit 9e-38 : F32).Normal ∧ (fast_tanhf (lit 9e-38)).Normal ∧ Flush.fast_tanhf ftz (lit 9e-38) = zero false := by
  unfold FP.Normal
  refine ⟨⟨?_, ?_⟩, ⟨?_, ?_⟩, ?_, ⟨?_, ?_⟩, ⟨?_, ?_⟩, ?_⟩ <;> decide +kernel

/-! ## Arc functions -/

/-- Arc sine and arc cosine of all numbers between -1 and 1 but the subnormal ones and the smallest normal one. -/
theorem C114_asin_partial (hm : m.Ok) (x : F64) (hx : x.isFinite = true) (k : x.val = 0 ∨ (2 : ℚ) ^ (-1022 : ℤ) < |x.val|)
    (h : |x.val| ≤ 1) : Flush.fast_asin m x = fast_asin x ∧ Flush.fast_acos m x = fast_acos x :=
  have k' : Keep x := k.imp_right fun k => by rw [p2_eq]; exact k
  ⟨asin_same hm hx k' h, acos_same hm hx k' h⟩

example : ftz.Ok ∧ (lit (-1) : F64).isFinite = true ∧ ((lit (-1) : F64).val = 0 ∨ (2 : ℚ) ^ (-1022 : ℤ) < |(lit (-1) : F64).val|) ∧
    |(lit (-1) : F64).val| ≤ 1 := ⟨ftz_full.toOk, by decide +kernel, by decide +kernel, by decide +kernel⟩

/-- Arc sine and arc cosine, single precision. -/
theorem C114_asinf_partial (hm : m.Ok) (x : F32) (hx : x.isFinite = true) (k : x.val = 0 ∨ (2 : ℚ) ^ (-126 : ℤ) < |x.val|)
    (h : |x.val| ≤ 1) : Flush.fast_asinf m x = fast_asinf x ∧ Flush.fast_acosf m x = fast_acosf x :=
  have k' : Keep x := k.imp_right fun k => by rw [p2_eq]; exact k
  ⟨asinf_same hm hx k' h, acosf_same hm hx k' h⟩

example : ftz.Ok ∧ (lit (-1) : F32).isFinite = true ∧ ((lit (-1) : F32).val = 0 ∨ (2 : ℚ) ^ (-126 : ℤ) < |(lit (-1) : F32).val|) ∧
    |(lit (-1) : F32).val| ≤ 1 := ⟨ftz_full.toOk, by decide +kernel, by decide +kernel, by decide +kernel⟩

/-- The arc tangent of all numbers but the subnormal ones and the smallest normal one. -/
theorem C114_atan_partial (hm : m.Ok) (x : F64) (hx : x.isFinite = true) (k : x.val = 0 ∨ (2 : ℚ) ^ (-1022 : ℤ) < |x.val|) :
    Flush.fast_atan m x = fast_atan x := atan_same hm hx (k.imp_right fun k => by rw [p2_eq]; exact k)

example : ftz.Ok ∧ (lit (-1e300) : F64).isFinite = true ∧ ((lit (-1e300) : F64).val = 0 ∨ (2 : ℚ) ^ (-1022 : ℤ) < |(lit (-1e300) : F64).val|) :=
  ⟨ftz_full.toOk, by decide +kernel, by decide +kernel⟩

/-- The arc tangent, single precision. -/
theorem C114_atanf_partial (hm : m.Ok) (x : F32) (hx : x.isFinite = true) (k : x.val = 0 ∨ (2 : ℚ) ^ (-126 : ℤ) < |x.val|) :
    Flush.fast_atanf m x = fast_atanf x := atanf_same hm hx (k.imp_right fun k => by rw [p2_eq]; exact k)

example : ftz.Ok ∧ (lit (-1e30) : F32).isFinite = true ∧ ((lit (-1e30) : F32).val = 0 ∨ (2 : ℚ) ^ (-126 : ℤ) < |(lit (-1e30) : F32).val|) :=
  ⟨ftz_full.toOk, by decide +kernel, by decide +kernel⟩

/-- A subnormal number with another sign than zero: the arc tangent keeps the sign but not the number. -/
theorem C114_atan_violated : fast_atan (lit (-1e-310)) = lit (-1e-310) ∧ Flush.fast_atan ftz (lit (-1e-310)) = zero true := by
  constructor <;> decide +kernel

/-- The arc tangent of two arguments, double precision: the same for normal arguments, if the quotient is not below `2^-1020` or the result is not near 0. -/
theorem C114_atan2_partial (hm : m.Ok) (y x : F64) (hy : y.isFinite = true) (hx : x.isFinite = true) (ky : y.val = 0 ∨ (2 : ℚ) ^ (-1022 : ℤ) < |y.val|)
    (kx : x.val = 0 ∨ (2 : ℚ) ^ (-1022 : ℤ) < |x.val|)
    (h : y.val = 0 ∨ x.val < 0 ∨ |x.val| < |y.val| ∨ (2 : ℚ) ^ (-1020 : ℤ) * |x.val| ≤ |y.val|) : Flush.fast_atan2 m y x = fast_atan2 y x :=
  atan2_same hm hy hx (ky.imp_right fun k => by rw [p2_eq]; exact k) (kx.imp_right fun k => by rw [p2_eq]; exact k) (by rw [p2_eq]; exact h)

example : ftz.Ok ∧ (lit 1e-300 : F64).isFinite = true ∧ (lit (-1e300) : F64).isFinite = true ∧
    ((lit 1e-300 : F64).val = 0 ∨ (2 : ℚ) ^ (-1022 : ℤ) < |(lit 1e-300 : F64).val|) ∧ ((lit (-1e300) : F64).val = 0 ∨ (2 : ℚ) ^ (-1022 : ℤ) < |(lit (-1e300) : F64).val|) ∧
    (lit (-1e300) : F64).val < 0 := ⟨ftz_full.toOk, by decide +kernel, by decide +kernel, by decide +kernel, by decide +kernel, by decide +kernel⟩

/-- The arc tangent of two arguments, single precision: the same for normal arguments, if the quotient is not below `2^-124` or the result is not near 0. -/
theorem C114_atan2f_partial (hm : m.Ok) (y x : F32) (hy : y.isFinite = true) (hx : x.isFinite = true) (ky : y.val = 0 ∨ (2 : ℚ) ^ (-126 : ℤ) < |y.val|)
    (kx : x.val = 0 ∨ (2 : ℚ) ^ (-126 : ℤ) < |x.val|)
    (h : y.val = 0 ∨ x.val < 0 ∨ |x.val| < |y.val| ∨ (2 : ℚ) ^ (-124 : ℤ) * |x.val| ≤ |y.val|) : Flush.fast_atan2f m y x = fast_atan2f y x :=
  atan2f_same hm hy hx (ky.imp_right fun k => by rw [p2_eq]; exact k) (kx.imp_right fun k => by rw [p2_eq]; exact k) (by rw [p2_eq]; exact h)

example : ftz.Ok ∧ (lit 1e-30 : F32).isFinite = true ∧ (lit (-1e30) : F32).isFinite = true ∧
    ((lit 1e-30 : F32).val = 0 ∨ (2 : ℚ) ^ (-126 : ℤ) < |(lit 1e-30 : F32).val|) ∧ ((lit (-1e30) : F32).val = 0 ∨ (2 : ℚ) ^ (-126 : ℤ) < |(lit (-1e30) : F32).val|) ∧
    (lit (-1e30) : F32).val < 0 := ⟨ftz_full.toOk, by decide +kernel, by decide +kernel, by decide +kernel, by decide +kernel, by decide +kernel⟩

/-- Two normal arguments whose quotient is subnormal: it is lost. -/
theorem C114_atan2_violated : fast_atan2 (lit 1e-300) (lit 1e10) = lit 1e-310 ∧ Flush.fast_atan2 ftz (lit 1e-300) (lit 1e10) = zero false := by
  constructor <;> decide +kernel

/-! ## Reciprocal square root and reciprocal -/

theorem isqrt_eq64 {x : F64} (hs : x.sign = false) (n : ℕ) :
    Flush.fast_isqrt_general m x n = Flush.isqrtLoop (of x * of (lit 0.5)) n (of (isqrtStart start64 x)) := by
  unfold Flush.fast_isqrt_general
  dsimp only
  rw [start_bits64 hs (isqrtStart start64 x) rfl rfl]

theorem isqrt_eq64' {x : F64} (hs : x.sign = false) (n : ℕ) :
    fast_isqrt_general x n = details.isqrtLoop (x * lit 0.5) n (isqrtStart start64 x) := by
  unfold fast_isqrt_general
  dsimp only
  rw [start_bits64 hs (isqrtStart start64 x) rfl rfl]

theorem isqrt_eq32 {x : F32} (hs : x.sign = false) (n : ℕ) :
    Flush.fast_isqrtf_general m x n = Flush.isqrtLoop (of x * of (lit 0.5)) n (of (isqrtStart start32 x)) := by
  unfold Flush.fast_isqrtf_general
  dsimp only
  rw [start_bits32 hs (isqrtStart start32 x) rfl rfl]

theorem isqrt_eq32' {x : F32} (hs : x.sign = false) (n : ℕ) :
    fast_isqrtf_general x n = details.isqrtLoop (x * lit 0.5) n (isqrtStart start32 x) := by
  unfold fast_isqrtf_general
  dsimp only
  rw [start_bits32 hs (isqrtStart start32 x) rfl rfl]

theorem isqrt_all64 (hm : m.Ok) {x : F64} (hx : x.isFinite = true) (h : 2 * p2 (-1022) < x.val) (n : ℕ) :
    Flush.fast_isqrt_general m x n = of (fast_isqrt_general x n) ∧ (fast_isqrt_general x n).isFinite = true ∧
      |Real.sqrt x.real * (fast_isqrt_general x n).real - 1| ≤ 0.0354 := by
  have hs : x.sign = false := (val_pos_iff.1 (lt_trans (mul_pos two_pos (p2_pos _)) h)).1
  rw [isqrt_eq64 hs, isqrt_eq64' hs]
  exact isqrt_gen hm newt64 start64 hx h n

theorem isqrt_all32 (hm : m.Ok) {x : F32} (hx : x.isFinite = true) (h : 2 * p2 (-126) < x.val) (n : ℕ) :
    Flush.fast_isqrtf_general m x n = of (fast_isqrtf_general x n) ∧ (fast_isqrtf_general x n).isFinite = true ∧
      |Real.sqrt x.real * (fast_isqrtf_general x n).real - 1| ≤ 0.0354 := by
  have hs : x.sign = false := (val_pos_iff.1 (lt_trans (mul_pos two_pos (p2_pos _)) h)).1
  rw [isqrt_eq32 hs, isqrt_eq32' hs]
  exact isqrt_gen hm newt32 start32 hx h n

/-- The reciprocal square root, any number of steps, of positive numbers whose half is normal. -/
theorem C114_isqrt_partial (hm : m.Ok) (x : F64) (hx : x.isFinite = true) (h : (2 : ℚ) ^ (-1021 : ℤ) < x.val) (n : ℕ) :
    (Flush.fast_isqrt_general m x n).v = fast_isqrt_general x n := by
  rw [← p2_eq, show (-1021 : ℤ) = -1022 + 1 by norm_num, p2_succ] at h
  rw [(isqrt_all64 hm hx h n).1]; rfl

example : ftz.Ok ∧ (lit 5 : F64).isFinite = true ∧ (2 : ℚ) ^ (-1021 : ℤ) < (lit 5 : F64).val :=
  ⟨ftz_full.toOk, by decide +kernel, by decide +kernel⟩

/-- The reciprocal square root, single precision. -/
theorem C114_isqrtf_partial (hm : m.Ok) (x : F32) (hx : x.isFinite = true) (h : (2 : ℚ) ^ (-125 : ℤ) < x.val) (n : ℕ) :
    (Flush.fast_isqrtf_general m x n).v = fast_isqrtf_general x n := by
  rw [← p2_eq, show (-125 : ℤ) = -126 + 1 by norm_num, p2_succ] at h
  rw [(isqrt_all32 hm hx h n).1]; rfl

example : ftz.Ok ∧ (lit 5 : F32).isFinite = true ∧ (2 : ℚ) ^ (-125 : ℤ) < (lit 5 : F32).val :=
  ⟨ftz_full.toOk, by decide +kernel, by decide +kernel⟩

/-- The reciprocal, any number of steps, of numbers whose half and whose reciprocal are normal. -/
theorem C114_inv_partial (hm : m.Ok) (x : F64) (hx : x.isFinite = true) (h1 : (2 : ℚ) ^ (-1021 : ℤ) < |x.val|)
    (h2 : |x.val| ≤ (2 : ℚ) ^ (1021 : ℤ)) (n : ℕ) : (Flush.fast_inv_general m x n).v = fast_inv_general x n := by
  rw [← p2_eq, show (-1021 : ℤ) = -1022 + 1 by norm_num, p2_succ] at h1
  rw [← p2_eq] at h2
  have av : (FP.abs x).val = |x.val| := val_abs x
  obtain ⟨a, b, c⟩ := isqrt_all64 hm (x := FP.abs x) hx (by rw [av]; exact h1) n
  unfold Flush.fast_inv_general fast_inv_general
  dsimp only
  rw [a]
  have X : (FP.abs x).real = ((|x.val| : ℚ) : ℝ) := by unfold FP.real; rw [av]
  rw [X] at c
  have e0 := p2_pos (-1022)
  have key : |x.val| * (2 * p2 (-1022)) ≤ 1 := by
    have := mul_le_mul_of_nonneg_right h2 (mul_pos two_pos e0).le
    refine this.trans (le_of_eq ?_)
    rw [← p2_succ, ← p2_add, p2_eq]; norm_num
  have hd := dpOR_signMask (fast_isqrt_general (FP.abs x) n) x
  refine (congrArg Z.v (square_same hm newt64 (X := ((|x.val| : ℚ) : ℝ)) ?_ ?_ b c (r' := dpORuint64 (fast_isqrt_general (FP.abs x) n) (getSignMask x)) ?_ ?_)).trans rfl
  · exact_mod_cast (by linarith : p2 (-1022) ≤ |x.val|)
  · exact_mod_cast key
  · rw [hd]; exact b
  · rw [hd, FP.abs_val, FP.abs_val]

example : ftz.Ok ∧ (lit (-5) : F64).isFinite = true ∧ (2 : ℚ) ^ (-1021 : ℤ) < |(lit (-5) : F64).val| ∧ |(lit (-5) : F64).val| ≤ (2 : ℚ) ^ (1021 : ℤ) :=
  ⟨ftz_full.toOk, by decide +kernel, by decide +kernel, by decide +kernel⟩

/-- The reciprocal, single precision. -/
theorem C114_invf_partial (hm : m.Ok) (x : F32) (hx : x.isFinite = true) (h1 : (2 : ℚ) ^ (-125 : ℤ) < |x.val|)
    (h2 : |x.val| ≤ (2 : ℚ) ^ (125 : ℤ)) (n : ℕ) : (Flush.fast_invf_general m x n).v = fast_invf_general x n := by
  rw [← p2_eq, show (-125 : ℤ) = -126 + 1 by norm_num, p2_succ] at h1
  rw [← p2_eq] at h2
  have av : (FP.abs x).val = |x.val| := val_abs x
  obtain ⟨a, b, c⟩ := isqrt_all32 hm (x := FP.abs x) hx (by rw [av]; exact h1) n
  unfold Flush.fast_invf_general fast_invf_general
  dsimp only
  rw [a]
  have X : (FP.abs x).real = ((|x.val| : ℚ) : ℝ) := by unfold FP.real; rw [av]
  rw [X] at c
  have e0 := p2_pos (-126)
  have key : |x.val| * (2 * p2 (-126)) ≤ 1 := by
    have := mul_le_mul_of_nonneg_right h2 (mul_pos two_pos e0).le
    refine this.trans (le_of_eq ?_)
    rw [← p2_succ, ← p2_add, p2_eq]; norm_num
  have hd := spOR_signMask (fast_isqrtf_general (FP.abs x) n) x
  refine (congrArg Z.v (square_same hm newt32 (X := ((|x.val| : ℚ) : ℝ)) ?_ ?_ b c (r' := spORuint32 (fast_isqrtf_general (FP.abs x) n) (getSignMaskf x)) ?_ ?_)).trans rfl
  · exact_mod_cast (by linarith : p2 (-126) ≤ |x.val|)
  · exact_mod_cast key
  · rw [hd]; exact b
  · rw [hd, FP.abs_val, FP.abs_val]

example : ftz.Ok ∧ (lit (-5) : F32).isFinite = true ∧ (2 : ℚ) ^ (-125 : ℤ) < |(lit (-5) : F32).val| ∧ |(lit (-5) : F32).val| ≤ (2 : ℚ) ^ (125 : ℤ) :=
  ⟨ftz_full.toOk, by decide +kernel, by decide +kernel, by decide +kernel⟩

/-- The start of the loop. -/
theorem start_lost {f : Fmt} [f.Ok] (hm : m.Full) (ok : NewtOk f ((p2 f.emin : ℚ) : ℝ)) (hb : 3 ≤ 2 ^ (f.mb + 1)) (hmb : 2 ≤ f.mb) {B Km : ℕ}
    (st : StartOk f B Km) {x : FP f} (hf : x.isFinite = true) (h1 : p2 f.emin ≤ x.val) (h2 : x.val ≤ 3 / 2 * p2 f.emin) (n : ℕ) (hn : n ≤ 4) :
    0.96 * 1.49 ^ n ≤ Real.sqrt x.real * (Flush.isqrtLoop (of x * of (lit 0.5)) n (of (isqrtStart st x)) : Z m f).v.real := by
  have e0 := p2_pos f.emin
  have hs : x.sign = false := (val_pos_iff.1 (by linarith)).1
  have nx : x.Normal := ⟨hf, by rw [← p2_eq, abs_of_pos (by linarith)]; exact h1⟩
  have mg := mag_of_normal nx
  obtain ⟨s1, s2⟩ := start_prod st mg.1 mg.2
  have near : |Real.sqrt x.real * (isqrtStart st x).real - 1| ≤ 0.0354 := by
    have x0 : 0 < x.real := by unfold FP.real; exact_mod_cast (by linarith : 0 < x.val)
    refine sqrt_near x0 ?_ ?_
    · rw [real_of_pos rfl]; exact_mod_cast magVal_nonneg _ _
    · rw [real_of_pos hs, real_of_pos rfl]
      push_cast at s2
      exact s2
  have A0 := ok.A0
  have A1 := ok.A1
  have Bb := ok.big
  have l1 : ((p2 f.emin : ℚ) : ℝ) ≤ x.real := by unfold FP.real; exact_mod_cast h1
  have l2 : x.real ≤ 3 / 2 * ((p2 f.emin : ℚ) : ℝ) := by
    unfold FP.real
    have := (Rat.cast_le (K := ℝ)).2 h2
    push_cast at this
    exact this
  rw [half_lost hm ok hb hmb hf h1 h2]
  obtain ⟨S, hS⟩ : ∃ S, Real.sqrt x.real = S := ⟨_, rfl⟩
  have X0 : 0 < x.real := A0.trans_le l1
  have S0 : 0 < S := by rw [← hS]; exact Real.sqrt_pos.2 X0
  have SS : S * S = x.real := by rw [← hS]; exact Real.mul_self_sqrt X0.le
  rw [hS] at near ⊢
  obtain ⟨A, hA⟩ : ∃ A, ((p2 f.emin : ℚ) : ℝ) = A := ⟨_, rfl⟩
  rw [hA] at A0 A1 Bb l1 l2
  have A2 : A ≤ 1 / 1000000 := A1.trans (by norm_num)
  have G0 : (2000000 : ℝ) ≤ f.big := by nlinarith
  have sf : (isqrtStart st x).isFinite = true := decide_eq_true s1
  generalize isqrtStart st x = y at *
  have e := abs_le.1 near
  have S1 : S ≤ 1 / 100 := by nlinarith
  have y0 : 0 < y.real := by
    by_contra c
    push Not at c
    nlinarith
  have y1 : 1 ≤ y.real := by
    by_contra c
    push Not at c
    nlinarith
  have q : (S * y.real) * (S * y.real) = x.real * (y.real * y.real) := by rw [← SS]; ring
  have q2 : x.real * (y.real * y.real) ≤ 1.08 := by rw [← q]; nlinarith
  have q3 : A * (y.real * y.real) ≤ 1.08 := (mul_le_mul_of_nonneg_right l1 (by positivity)).trans q2
  have y2 : y.real * 16 ≤ f.big := by
    by_contra c
    push Not at c
    have t : (f.big : ℝ) * f.big ≤ (y.real * 16) * (y.real * 16) := mul_le_mul c.le c.le (by linarith) (by linarith)
    have t2 := mul_le_mul_of_nonneg_left t A0.le
    have t3 : A * ((f.big : ℝ) * f.big) = (f.big * A) * f.big := by ring
    nlinarith
  have p16 : (2 : ℝ) ^ n ≤ 16 := by
    have := pow_le_pow_right₀ (show (1 : ℝ) ≤ 2 by norm_num) hn
    norm_num at this ⊢; exact this
  have := (lost_loop hm.toOk ok n sf y1 ((mul_le_mul_of_nonneg_left p16 (by linarith)).trans y2)).1
  have t := mul_le_mul_of_nonneg_left this S0.le
  have c0 : (0 : ℝ) ≤ 1.49 ^ n := by positivity
  have : 0.96 * 1.49 ^ n ≤ S * y.real * 1.49 ^ n := mul_le_mul_of_nonneg_right (by linarith) c0
  linarith

/-- For normal numbers whose half is not normal the reciprocal square root is wrong by a factor that grows with the number of
steps, up to more than four. -/
theorem C114_isqrt_violated (hm : m.Full) (x : F64) (hx : x.isFinite = true) (h1 : (2 : ℚ) ^ (-1022 : ℤ) ≤ x.val)
    (h2 : x.val ≤ 3 / 2 * (2 : ℚ) ^ (-1022 : ℤ)) (n : ℕ) (hn : n ≤ 4) :
    0.96 * 1.49 ^ n ≤ Real.sqrt x.real * (Flush.fast_isqrt_general m x n).v.real := by
  rw [← p2_eq] at h1 h2
  rw [isqrt_eq64 (val_pos_iff.1 ((p2_pos _).trans_le h1)).1]
  exact start_lost hm newt64 (by decide) (by decide) start64 hx h1 h2 n hn

/-- The factor for four steps, and that it does not come from the method. -/
example : (4 : ℝ) ≤ 0.96 * 1.49 ^ 4 ∧ (lit 2.3e-308 : F64).isFinite = true ∧ (2 : ℚ) ^ (-1022 : ℤ) ≤ (lit 2.3e-308 : F64).val ∧
    (lit 2.3e-308 : F64).val ≤ 3 / 2 * (2 : ℚ) ^ (-1022 : ℤ) ∧
    |(lit 2.3e-308 : F64).val * (fast_isqrt_general (lit 2.3e-308) 4).val ^ 2 - 1| ≤ 1 / 2 ^ 50 :=
  ⟨by norm_num, by decide +kernel, by decide +kernel, by decide +kernel, by decide +kernel⟩

/-- The same in single precision. -/
theorem C114_isqrtf_violated (hm : m.Full) (x : F32) (hx : x.isFinite = true) (h1 : (2 : ℚ) ^ (-126 : ℤ) ≤ x.val)
    (h2 : x.val ≤ 3 / 2 * (2 : ℚ) ^ (-126 : ℤ)) (n : ℕ) (hn : n ≤ 4) :
    0.96 * 1.49 ^ n ≤ Real.sqrt x.real * (Flush.fast_isqrtf_general m x n).v.real := by
  rw [← p2_eq] at h1 h2
  rw [isqrt_eq32 (val_pos_iff.1 ((p2_pos _).trans_le h1)).1]
  exact start_lost hm newt32 (by decide) (by decide) start32 hx h1 h2 n hn

example : (2 : ℝ) ≤ 0.96 * 1.49 ^ 2 ∧ (lit 1.2e-38 : F32).isFinite = true ∧ (2 : ℚ) ^ (-126 : ℤ) ≤ (lit 1.2e-38 : F32).val ∧
    (lit 1.2e-38 : F32).val ≤ 3 / 2 * (2 : ℚ) ^ (-126 : ℤ) ∧
    |(lit 1.2e-38 : F32).val * (fast_isqrtf_general (lit 1.2e-38) 2).val ^ 2 - 1| ≤ 1 / 2 ^ 16 :=
  ⟨by norm_num, by decide +kernel, by decide +kernel, by decide +kernel, by decide +kernel⟩

/-- Hence the property fails: an argument and a result that are normal numbers, and two different results; likewise for the reciprocal. -/
theorem C114_violated : ∃ (m : Mode) (x : F64), m.Full ∧ x.Normal ∧ (fast_isqrt_general x 4).Normal ∧ (fast_inv_general x 4).Normal ∧
    (Flush.fast_isqrt_general m x 4).v ≠ fast_isqrt_general x 4 ∧ (Flush.fast_inv_general m x 4).v ≠ fast_inv_general x 4 := by
  refine ⟨ftz, lit 2.3e-308, ftz_full, ?_, ?_, ?_, ?_, ?_⟩
  · unfold FP.Normal; constructor <;> decide +kernel
  · unfold FP.Normal; constructor <;> decide +kernel
  · unfold FP.Normal; constructor <;> decide +kernel
  · decide +kernel
  · decide +kernel

end Vdt
