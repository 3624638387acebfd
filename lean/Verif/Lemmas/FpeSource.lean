import Verif.Lemmas.Fpe

/-! # The values of the functions with exceptions are those of the functions -/

namespace Vdt.Fpe
open FP details

theorem res_exp (x : F64) : (fast_exp x).map Ev.res = Vdt.fast_exp x := by
  unfold fast_exp Vdt.fast_exp fast_expM
  simp only [res_add, res_mul, res_of, Option.bind_eq_bind, Option.pure_def]
  rcases h : fpfloor strict (LOG2E * x + lit 0.5) with _ | px
  · rfl
  · rcases h2 : strict.f2i px with _ | n
    · simp [h2]
    · simp only [Option.bind_some, h2, Option.map_some, res_also, res_over, res_mul, res_add, res_sub, res_div, res_of, expCore, expReduce]

theorem res_expf (x : F32) : (fast_expf x).map Ev.res = Vdt.fast_expf x := by
  unfold fast_expf Vdt.fast_expf fast_expfM
  simp only [res_add, res_mul, res_of, Option.bind_eq_bind, Option.pure_def]
  rcases h : fpfloorf strict (LOG2EF * x + lit 0.5) with _ | z
  · rfl
  · rcases h2 : strict.f2i z with _ | n
    · simp [h2]
    · rcases h3 : strict.i32 (n + 127) with _ | k
      · simp [h2, h3]
      · rcases h4 : strict.shl k 23 with _ | s
        · simp [h2, h3, h4]
        · simp only [Option.bind_some, h2, h3, h4, Option.map_some, res_also, res_over, res_mul, res_add, res_sub, res_of, expfCore, expfReduce]

@[simp] theorem res_log_px (x : Ev b64) : (get_log_px x).res = details.get_log_px x.res := rfl
@[simp] theorem res_log_qx (x : Ev b64) : (get_log_qx x).res = details.get_log_qx x.res := rfl
@[simp] theorem res_log_poly (x : Ev b32) : (get_log_poly x).res = details.get_log_poly x.res := rfl

theorem res_log (x : F64) : (fast_log x).res = Vdt.fast_log x := by
  unfold fast_log Vdt.fast_log logCore logBlend
  simp only [res_also, res_over, res_add, res_sub, res_mul, res_div, res_log_px, res_log_qx, res_of]
  cases FP.gt (getMantExponent x).1 SQRTH <;> rfl

theorem res_logf (x : F32) : (fast_logf x).res = Vdt.fast_logf x := by
  unfold fast_logf Vdt.fast_logf logfCore logfBlend
  simp only [res_also, res_over, res_add, res_sub, res_mul, res_div, res_log_poly, res_of]
  cases FP.gt (getMantExponentf x).1 SQRTHF <;> rfl

@[simp] theorem res_sin_px (x : Ev b64) : (get_sin_px x).res = details.get_sin_px x.res := rfl
@[simp] theorem res_cos_px (x : Ev b64) : (get_cos_px x).res = details.get_cos_px x.res := rfl

@[simp] theorem res_sin45 (z : Ev b64) : (sin45 z).res = (fast_sincos_m45_45 z.res).1 := by
  unfold sin45 fast_sincos_m45_45
  simp only [res_mul, res_add, res_sin_px]
@[simp] theorem res_cos45 (z : Ev b64) : (cos45 z).res = (fast_sincos_m45_45 z.res).2 := by
  unfold cos45 fast_sincos_m45_45
  simp only [res_mul, res_add, res_sub, res_of, res_cos_px]
@[simp] theorem res_sinf45 (z : Ev b32) : (sinf45 z).res = (fast_sincosf_m45_45 z.res).1 := by
  unfold sinf45 fast_sincosf_m45_45
  simp only [res_mul, res_add, res_sub, res_of]
@[simp] theorem res_cosf45 (z : Ev b32) : (cosf45 z).res = (fast_sincosf_m45_45 z.res).2 := by
  unfold cosf45 fast_sincosf_m45_45
  simp only [res_mul, res_add, res_sub, res_of]

theorem res_sincos (x : F64) : (fast_sincos x).map (fun r => (r.1, r.2.1)) = Vdt.fast_sincos x := by
  unfold fast_sincos Vdt.fast_sincos fast_sincosM reduce2quadrant reduceWith
  simp only [Option.bind_eq_bind, Option.pure_def]
  rcases h : quadrant strict (FP.abs x) with _ | q
  · rfl
  · simp only [Option.bind_some, Option.map_some, res_mul, res_sub, res_of, res_sin45, res_cos45]

theorem res_sincosf (x : F32) : (fast_sincosf x).map (fun r => (r.1, r.2.1)) = Vdt.fast_sincosf x := by
  unfold fast_sincosf Vdt.fast_sincosf fast_sincosfM reduce2quadrantf reduceWithf
  simp only [Option.bind_eq_bind, Option.pure_def]
  rcases h : quadrantf strict (FP.abs x) with _ | q
  · rfl
  · simp only [Option.bind_some, Option.map_some, res_mul, res_sub, res_of, res_sinf45, res_cosf45]

@[simp] theorem res_tanCore (z : Ev b64) : (tanCore z).res = details.tanCore z.res := by
  unfold tanCore details.tanCore
  simp only [res_also, res_over, res_add, res_mul, res_div, res_of]
@[simp] theorem res_tanfCore (z : Ev b32) : (tanfCore z).res = details.tanfCore z.res := by
  unfold tanfCore details.tanfCore
  simp only [res_also, res_over, res_add, res_mul, res_of]
@[simp] theorem res_tanFinish {f : Fmt} (xor : FP f → FP f) (x : FP f) (r : Ev f) (q : Int) :
    (tanFinish xor x r q).res = details.tanFinish xor x r.res q := rfl

theorem res_tan (x : F64) : (fast_tan x).map Ev.res = Vdt.fast_tan x := by
  unfold fast_tan Vdt.fast_tan fast_tanM reduce2quadranttan reduceWithTan
  simp only [res_mul, res_of, Option.bind_eq_bind, Option.pure_def]
  rcases h : strict.f2i (ONEOPIO4 * FP.abs x) with _ | q
  · rfl
  · rcases h2 : strict.i32 (q + 1) with _ | n
    · simp [h2]
    · simp only [Option.bind_some, h2, Option.map_some, res_also, res_tanFinish, res_tanCore, res_mul, res_sub, res_of]

theorem res_tanf (x : F32) : (fast_tanf x).map Ev.res = Vdt.fast_tanf x := by
  unfold fast_tanf Vdt.fast_tanf fast_tanfM reduce2quadranttanf reduceWithTanf
  simp only [res_mul, res_of, Option.bind_eq_bind, Option.pure_def]
  rcases h : strict.f2i (ONEOPIO4F * FP.abs x) with _ | q
  · rfl
  · rcases h2 : strict.i32 (q + 1) with _ | n
    · simp [h2]
    · simp only [Option.bind_some, h2, Option.map_some, res_also, res_tanFinish, res_tanfCore, res_mul, res_sub, res_of]

@[simp] theorem res_tanhDouble {f : Fmt} (t : Ev f) : (tanhDouble t).res = details.tanhDouble t.res := rfl

theorem res_tanh (x : F64) : (fast_tanh x).res = Vdt.fast_tanh x := by
  unfold fast_tanh Vdt.fast_tanh
  split
  · rfl
  · simp only [res_also, res_tanhDouble, res_add, res_mul, res_div, res_of, tanhPade]

theorem res_tanhf (x : F32) : (fast_tanhf x).res = Vdt.fast_tanhf x := by
  unfold fast_tanhf Vdt.fast_tanhf
  split
  · rfl
  · simp only [res_also, res_tanhDouble, res_add, res_mul, res_div, res_of, tanhPadef]

@[simp] theorem res_RX (x : Ev b64) : (getRX x).res = details.getRX x.res := rfl
@[simp] theorem res_SX (x : Ev b64) : (getSX x).res = details.getSX x.res := rfl
@[simp] theorem res_PX (x : Ev b64) : (getPX x).res = details.getPX x.res := rfl
@[simp] theorem res_QX (x : Ev b64) : (getQX x).res = details.getQX x.res := rfl
@[simp] theorem res_asinLarge (a : Ev b64) : (asinLarge a).res = details.asinLarge a.res := by
  unfold asinLarge details.asinLarge
  simp only [res_add, res_sub, res_mul, res_div, res_sqrt, res_of, res_RX, res_SX]
@[simp] theorem res_asinSmall (a : Ev b64) : (asinSmall a).res = details.asinSmall a.res := by
  unfold asinSmall details.asinSmall
  simp only [res_add, res_mul, res_div, res_PX, res_QX]

theorem res_asin (x : F64) : (fast_asin x).res = Vdt.fast_asin x := by
  unfold fast_asin Vdt.fast_asin asinPos
  simp only [res_map, res_also, res_over, res_of, res_asinLarge, res_asinSmall]

theorem res_asinf (x : F32) : (fast_asinf x).res = Vdt.fast_asinf x := by
  unfold fast_asinf Vdt.fast_asinf asinfPos asinfPoly
  simp only [res_map, res_also, apply_ite Ev.res, res_add, res_sub, res_mul, res_of, res_sqrt]

theorem res_acos (x : F64) : (fast_acos x).res = Vdt.fast_acos x := by
  unfold fast_acos Vdt.fast_acos; rw [res_sub, res_asin, res_of]
theorem res_acosf (x : F32) : (fast_acosf x).res = Vdt.fast_acosf x := by
  unfold fast_acosf Vdt.fast_acosf; rw [res_sub, res_asinf, res_of]

@[simp] theorem res_atan_px (x : Ev b64) : (get_atan_px x).res = details.get_atan_px x.res := rfl
@[simp] theorem res_atan_qx (x : Ev b64) : (get_atan_qx x).res = details.get_atan_qx x.res := rfl
@[simp] theorem res_atanPos (x : Ev b64) : (atanPos x).res = details.atanPos x.res := by
  unfold atanPos details.atanPos atanReduce atanCore
  simp only [res_also, res_over, res_add, res_sub, res_mul, res_div, res_of, res_atan_px, res_atan_qx]

theorem res_atan (x : F64) : (fast_atan x).res = Vdt.fast_atan x := by
  unfold fast_atan Vdt.fast_atan
  simp only [res_map, res_of, res_atanPos]

@[simp] theorem res_atanfPoly (x : Ev b32) : (atanfPoly x).res = details.atanfPoly x.res (x.res * x.res) + x.res := rfl

theorem res_atanf (x : F32) : (fast_atanf x).res = Vdt.fast_atanf x := by
  unfold fast_atanf Vdt.fast_atanf atanfPos atanfReduce
  simp only [res_map, res_also, res_over, res_add, res_sub, res_div, res_of, res_atanfPoly]
  rfl

theorem res_atan2 (y x : F64) : (fast_atan2 y x).res = Vdt.fast_atan2 y x := by
  unfold fast_atan2 Vdt.fast_atan2
  simp only [res_map, res_also, apply_ite Ev.res, res_over, res_add, res_sub, res_mul, res_div, res_of, res_atanPos, details.atanPos]

theorem res_atan2f (y x : F32) : (fast_atan2f y x).res = Vdt.fast_atan2f y x := by
  unfold fast_atan2f Vdt.fast_atan2f
  simp only [res_map, res_also, res_over, res_add, res_sub, res_mul, res_div, res_of, res_atanfPoly]

@[simp] theorem res_isqrtLoop {f : Fmt} (x2 : Ev f) (n : ℕ) (y : Ev f) :
    (isqrtLoop x2 n y).res = details.isqrtLoop x2.res n y.res := by
  induction n generalizing y with
  | zero => rfl
  | succ n ih => exact ih _

@[simp] theorem res_isqrt (x : F64) (n : ℕ) : (fast_isqrt_general x n).res = Vdt.fast_isqrt_general x n := by
  unfold fast_isqrt_general Vdt.fast_isqrt_general
  simp only [res_also, res_isqrtLoop, res_mul, res_of]
@[simp] theorem res_isqrtf (x : F32) (n : ℕ) : (fast_isqrtf_general x n).res = Vdt.fast_isqrtf_general x n := by
  unfold fast_isqrtf_general Vdt.fast_isqrtf_general
  simp only [res_also, res_isqrtLoop, res_mul, res_of]
theorem res_inv (x : F64) (n : ℕ) : (fast_inv_general x n).res = Vdt.fast_inv_general x n := by
  unfold fast_inv_general Vdt.fast_inv_general
  simp only [res_map, res_mul, res_isqrt]
theorem res_invf (x : F32) (n : ℕ) : (fast_invf_general x n).res = Vdt.fast_invf_general x n := by
  unfold fast_invf_general Vdt.fast_invf_general
  simp only [res_map, res_mul, res_isqrtf]

end Vdt.Fpe
