import Verif.Model.Flush
import Verif.Float.Ops

/-! # Without flushing the functions are those of `Verif.Model` -/

namespace Vdt.Flush
open FP details

/-- Nothing is flushed. -/
def plain : Mode := ⟨id, fun _ _ _ r => r, fun _ r => r⟩

theorem plain_ok : plain.Ok := ⟨fun _ => Or.inl rfl, fun _ _ _ _ => Or.inl rfl, fun _ _ => Or.inl rfl⟩

section
variable {f : Fmt}
@[simp] theorem v_add (a b : Z plain f) : (a + b).v = a.v + b.v := rfl
@[simp] theorem v_sub (a b : Z plain f) : (a - b).v = a.v - b.v := rfl
@[simp] theorem v_mul (a b : Z plain f) : (a * b).v = a.v * b.v := rfl
@[simp] theorem v_div (a b : Z plain f) : (a / b).v = a.v / b.v := rfl
@[simp] theorem v_sqrt (a : Z plain f) : a.sqrt.v = FP.sqrt a.v := rfl
@[simp] theorem v_map (g : FP f → FP f) (a : Z plain f) : (a.map g).v = g a.v := rfl
@[simp] theorem v_of (a : FP f) : (of a : Z plain f).v = a := rfl
@[simp] theorem v_ite (c : Prop) {_ : Decidable c} (a b : Z plain f) : (if c then a else b).v = if c then a.v else b.v := by split <;> rfl
@[simp] theorem plain_gt (a b : FP f) : plain.gt a b = FP.gt a b := by cases a; rfl
@[simp] theorem plain_lt (a b : FP f) : plain.lt a b = FP.lt a b := by cases a; rfl
@[simp] theorem plain_le (a b : FP f) : plain.le a b = FP.le a b := by cases a; rfl
@[simp] theorem plain_eq (a b : FP f) : plain.eq a b = FP.eq a b := by cases a; rfl
@[simp] theorem plain_ne (a b : FP f) : plain.ne a b = FP.ne a b := by cases a; rfl
@[simp] theorem plain_arg (a : FP f) : plain.arg a = a := rfl
end

@[simp] theorem plain_floor (x : F64) : fpfloor plain x = details.fpfloor strict x := rfl
@[simp] theorem plain_floorf (x : F32) : fpfloorf plain x = details.fpfloorf strict x := rfl

@[simp] theorem v_expReduce (x p : Z plain b64) : (expReduce x p).v = details.expReduce x.v p.v := rfl
@[simp] theorem v_expCore (x : Z plain b64) : (expCore x).v = details.expCore x.v := rfl
@[simp] theorem v_expfReduce (x p : Z plain b32) : (expfReduce x p).v = details.expfReduce x.v p.v := rfl
@[simp] theorem v_expfCore (x : Z plain b32) : (expfCore x).v = details.expfCore x.v := rfl

theorem v_exp (x : F64) : fast_exp plain x = Vdt.fast_exp x := by
  unfold fast_exp Vdt.fast_exp fast_expM
  simp only [v_ite, v_add, v_sub, v_mul, v_div, v_sqrt, v_map, v_of, plain_gt, plain_lt, plain_le, plain_eq, plain_ne, plain_arg, plain_floor, plain_floorf, v_ite, v_expCore, v_expReduce]

theorem v_expf (x : F32) : fast_expf plain x = Vdt.fast_expf x := by
  unfold fast_expf Vdt.fast_expf fast_expfM
  simp only [v_ite, v_add, v_sub, v_mul, v_div, v_sqrt, v_map, v_of, plain_gt, plain_lt, plain_le, plain_eq, plain_ne, plain_arg, plain_floor, plain_floorf, v_ite, v_expfCore, v_expfReduce]

@[simp] theorem v_log_px (x : Z plain b64) : (get_log_px x).v = details.get_log_px x.v := rfl
@[simp] theorem v_log_qx (x : Z plain b64) : (get_log_qx x).v = details.get_log_qx x.v := rfl
@[simp] theorem v_log_poly (x : Z plain b32) : (get_log_poly x).v = details.get_log_poly x.v := rfl

theorem v_log (x : F64) : fast_log plain x = Vdt.fast_log x := by
  unfold fast_log Vdt.fast_log logCore logBlend
  simp only [v_ite, v_add, v_sub, v_mul, v_div, v_log_px, v_log_qx, v_of, plain_gt, plain_lt, plain_le, plain_eq, plain_ne, plain_arg, plain_floor, plain_floorf]
  cases FP.gt (getMantExponent x).1 SQRTH <;> rfl

theorem v_logf (x : F32) : fast_logf plain x = Vdt.fast_logf x := by
  unfold fast_logf Vdt.fast_logf logfCore logfBlend
  simp only [v_ite, v_add, v_sub, v_mul, v_div, v_log_poly, v_of, plain_gt, plain_lt, plain_le, plain_eq, plain_ne, plain_arg, plain_floor, plain_floorf]
  cases FP.gt (getMantExponentf x).1 SQRTHF <;> rfl

@[simp] theorem v_sin_px (x : Z plain b64) : (get_sin_px x).v = details.get_sin_px x.v := rfl
@[simp] theorem v_cos_px (x : Z plain b64) : (get_cos_px x).v = details.get_cos_px x.v := rfl

@[simp] theorem v_sin45 (z : Z plain b64) : (sin45 z).v = (fast_sincos_m45_45 z.v).1 := by
  unfold sin45 fast_sincos_m45_45
  simp only [v_mul, v_add, v_sin_px]
@[simp] theorem v_cos45 (z : Z plain b64) : (cos45 z).v = (fast_sincos_m45_45 z.v).2 := by
  unfold cos45 fast_sincos_m45_45
  simp only [v_mul, v_add, v_sub, v_of, plain_gt, plain_lt, plain_le, plain_eq, plain_ne, plain_arg, plain_floor, plain_floorf, v_cos_px]
@[simp] theorem v_sinf45 (z : Z plain b32) : (sinf45 z).v = (fast_sincosf_m45_45 z.v).1 := by
  unfold sinf45 fast_sincosf_m45_45
  simp only [v_mul, v_add, v_sub, v_of, plain_gt, plain_lt, plain_le, plain_eq, plain_ne, plain_arg, plain_floor, plain_floorf]
@[simp] theorem v_cosf45 (z : Z plain b32) : (cosf45 z).v = (fast_sincosf_m45_45 z.v).2 := by
  unfold cosf45 fast_sincosf_m45_45
  simp only [v_mul, v_add, v_sub, v_of, plain_gt, plain_lt, plain_le, plain_eq, plain_ne, plain_arg, plain_floor, plain_floorf]

theorem v_sincos (x : F64) : fast_sincos plain x = Vdt.fast_sincos x := by
  unfold fast_sincos Vdt.fast_sincos fast_sincosM reduce2quadrant reduceWith quadrant
  simp only [bind_assoc, pure_bind, Option.bind_eq_bind, Option.pure_def, Option.bind_some, Option.bind_assoc, v_ite, v_add, v_sub, v_mul, v_div, v_map, v_of, plain_gt, plain_lt, plain_le, plain_eq, plain_ne, plain_arg, v_sin45, v_cos45]

theorem v_sincosf (x : F32) : fast_sincosf plain x = Vdt.fast_sincosf x := by
  unfold fast_sincosf Vdt.fast_sincosf fast_sincosfM reduce2quadrantf reduceWithf quadrantf
  simp only [bind_assoc, pure_bind, Option.bind_eq_bind, Option.pure_def, Option.bind_some, Option.bind_assoc, v_ite, v_add, v_sub, v_mul, v_div, v_map, v_of, plain_gt, plain_lt, plain_le, plain_eq, plain_ne, plain_arg, v_sinf45, v_cosf45]

@[simp] theorem v_tanCore (z : Z plain b64) : (tanCore z).v = details.tanCore z.v := by
  unfold tanCore details.tanCore
  simp only [v_ite, v_add, v_mul, v_div, v_of, plain_gt, plain_lt, plain_le, plain_eq, plain_ne, plain_arg, plain_floor, plain_floorf]
@[simp] theorem v_tanfCore (z : Z plain b32) : (tanfCore z).v = details.tanfCore z.v := by
  unfold tanfCore details.tanfCore
  simp only [v_ite, v_add, v_mul, v_of, plain_gt, plain_lt, plain_le, plain_eq, plain_ne, plain_arg, plain_floor, plain_floorf]
@[simp] theorem v_tanFinish {f : Fmt} (xor : FP f → FP f) (x : FP f) (r : Z plain f) (q : Int) :
    (tanFinish xor x r q).v = details.tanFinish xor x r.v q := rfl

theorem v_tan (x : F64) : fast_tan plain x = Vdt.fast_tan x := by
  unfold fast_tan Vdt.fast_tan fast_tanM reduce2quadranttan reduceWithTan
  simp only [v_mul, v_of, plain_arg, Option.bind_eq_bind, Option.pure_def]
  rcases h : strict.f2i (ONEOPIO4 * FP.abs x) with _ | q
  · rfl
  · rcases h2 : strict.i32 (q + 1) with _ | n
    · simp [h2]
    · simp only [Option.bind_some, h2, Option.map_some, v_tanFinish, v_tanCore, v_mul, v_sub, v_of, plain_gt, plain_lt, plain_le, plain_eq, plain_ne, plain_arg, plain_floor, plain_floorf]

theorem v_tanf (x : F32) : fast_tanf plain x = Vdt.fast_tanf x := by
  unfold fast_tanf Vdt.fast_tanf fast_tanfM reduce2quadranttanf reduceWithTanf
  simp only [v_mul, v_of, plain_arg, Option.bind_eq_bind, Option.pure_def]
  rcases h : strict.f2i (ONEOPIO4F * FP.abs x) with _ | q
  · rfl
  · rcases h2 : strict.i32 (q + 1) with _ | n
    · simp [h2]
    · simp only [Option.bind_some, h2, Option.map_some, v_tanFinish, v_tanfCore, v_mul, v_sub, v_of, plain_gt, plain_lt, plain_le, plain_eq, plain_ne, plain_arg, plain_floor, plain_floorf]

@[simp] theorem v_tanhDouble {f : Fmt} (t : Z plain f) : (tanhDouble t).v = details.tanhDouble t.v := rfl

theorem v_tanh (x : F64) : fast_tanh plain x = Vdt.fast_tanh x := by
  unfold fast_tanh Vdt.fast_tanh tanhPade
  simp only [v_tanhDouble, v_ite, v_add, v_sub, v_mul, v_div, v_sqrt, v_map, v_of, plain_gt, plain_lt, plain_le, plain_eq, plain_ne, plain_arg]

theorem v_tanhf (x : F32) : fast_tanhf plain x = Vdt.fast_tanhf x := by
  unfold fast_tanhf Vdt.fast_tanhf tanhPadef
  simp only [v_tanhDouble, v_ite, v_add, v_sub, v_mul, v_div, v_sqrt, v_map, v_of, plain_gt, plain_lt, plain_le, plain_eq, plain_ne, plain_arg]

@[simp] theorem v_RX (x : Z plain b64) : (getRX x).v = details.getRX x.v := rfl
@[simp] theorem v_SX (x : Z plain b64) : (getSX x).v = details.getSX x.v := rfl
@[simp] theorem v_PX (x : Z plain b64) : (getPX x).v = details.getPX x.v := rfl
@[simp] theorem v_QX (x : Z plain b64) : (getQX x).v = details.getQX x.v := rfl
@[simp] theorem v_asinLarge (a : Z plain b64) : (asinLarge a).v = details.asinLarge a.v := by
  unfold asinLarge details.asinLarge
  simp only [v_ite, v_add, v_sub, v_mul, v_div, v_sqrt, v_of, plain_gt, plain_lt, plain_le, plain_eq, plain_ne, plain_arg, plain_floor, plain_floorf, v_RX, v_SX]
@[simp] theorem v_asinSmall (a : Z plain b64) : (asinSmall a).v = details.asinSmall a.v := by
  unfold asinSmall details.asinSmall
  simp only [v_ite, v_add, v_mul, v_div, v_PX, v_QX]

theorem v_asin (x : F64) : fast_asin plain x = Vdt.fast_asin x := by
  unfold fast_asin Vdt.fast_asin asinPos
  simp only [v_ite, v_add, v_sub, v_mul, v_div, v_sqrt, v_map, v_of, plain_gt, plain_lt, plain_le, plain_eq, plain_ne, plain_arg, v_asinLarge, v_asinSmall]

theorem v_asinf (x : F32) : fast_asinf plain x = Vdt.fast_asinf x := by
  unfold fast_asinf Vdt.fast_asinf asinfPos asinfPoly
  simp only [v_map, v_ite, v_add, v_sub, v_mul, v_of, plain_gt, plain_lt, plain_le, plain_eq, plain_ne, plain_arg, plain_floor, plain_floorf, v_sqrt]

theorem v_acos (x : F64) : fast_acos plain x = Vdt.fast_acos x := by
  unfold fast_acos Vdt.fast_acos; rw [v_sub, v_asin, v_of, v_of]
theorem v_acosf (x : F32) : fast_acosf plain x = Vdt.fast_acosf x := by
  unfold fast_acosf Vdt.fast_acosf; rw [v_sub, v_asinf, v_of, v_of]

@[simp] theorem v_atan_px (x : Z plain b64) : (get_atan_px x).v = details.get_atan_px x.v := rfl
@[simp] theorem v_atan_qx (x : Z plain b64) : (get_atan_qx x).v = details.get_atan_qx x.v := rfl
@[simp] theorem v_atanPos (x : Z plain b64) : (atanPos x).v = details.atanPos x.v := by
  unfold atanPos details.atanPos atanReduce atanCore
  simp only [v_ite, v_add, v_sub, v_mul, v_div, v_of, plain_gt, plain_lt, plain_le, plain_eq, plain_ne, plain_arg, plain_floor, plain_floorf, v_atan_px, v_atan_qx]

theorem v_atan (x : F64) : fast_atan plain x = Vdt.fast_atan x := by
  unfold fast_atan Vdt.fast_atan
  simp only [v_ite, v_add, v_sub, v_mul, v_div, v_sqrt, v_map, v_of, plain_gt, plain_lt, plain_le, plain_eq, plain_ne, plain_arg, v_atanPos]

@[simp] theorem v_atanfPoly (x : Z plain b32) : (atanfPoly x).v = details.atanfPoly x.v (x.v * x.v) + x.v := rfl

theorem v_atanf (x : F32) : fast_atanf plain x = Vdt.fast_atanf x := by
  unfold fast_atanf Vdt.fast_atanf atanfPos atanfReduce
  simp only [v_ite, v_add, v_sub, v_mul, v_div, v_sqrt, v_map, v_of, plain_gt, plain_lt, plain_le, plain_eq, plain_ne, plain_arg, v_atanfPoly]

theorem v_atan2 (y x : F64) : fast_atan2 plain y x = Vdt.fast_atan2 y x := by
  unfold fast_atan2 Vdt.fast_atan2
  simp only [v_ite, v_add, v_sub, v_mul, v_div, v_sqrt, v_map, v_of, plain_gt, plain_lt, plain_le, plain_eq, plain_ne, plain_arg, v_atanPos, details.atanPos]

theorem v_atan2f (y x : F32) : fast_atan2f plain y x = Vdt.fast_atan2f y x := by
  unfold fast_atan2f Vdt.fast_atan2f
  simp only [v_ite, v_add, v_sub, v_mul, v_div, v_sqrt, v_map, v_of, plain_gt, plain_lt, plain_le, plain_eq, plain_ne, plain_arg, v_atanfPoly]

@[simp] theorem v_isqrtLoop {f : Fmt} (x2 : Z plain f) (n : ℕ) (y : Z plain f) :
    (isqrtLoop x2 n y).v = details.isqrtLoop x2.v n y.v := by
  induction n generalizing y with
  | zero => rfl
  | succ n ih => exact ih _

@[simp] theorem v_isqrt (x : F64) (n : ℕ) : (fast_isqrt_general plain x n).v = Vdt.fast_isqrt_general x n := by
  unfold fast_isqrt_general Vdt.fast_isqrt_general
  simp only [v_isqrtLoop, v_mul, v_of, plain_gt, plain_lt, plain_le, plain_eq, plain_ne, plain_arg, plain_floor, plain_floorf]
@[simp] theorem v_isqrtf (x : F32) (n : ℕ) : (fast_isqrtf_general plain x n).v = Vdt.fast_isqrtf_general x n := by
  unfold fast_isqrtf_general Vdt.fast_isqrtf_general
  simp only [v_isqrtLoop, v_mul, v_of, plain_gt, plain_lt, plain_le, plain_eq, plain_ne, plain_arg, plain_floor, plain_floorf]
theorem v_inv (x : F64) (n : ℕ) : (fast_inv_general plain x n).v = Vdt.fast_inv_general x n := by
  unfold fast_inv_general Vdt.fast_inv_general
  simp only [v_map, v_mul, v_isqrt]
theorem v_invf (x : F32) (n : ℕ) : (fast_invf_general plain x n).v = Vdt.fast_invf_general x n := by
  unfold fast_invf_general Vdt.fast_invf_general
  simp only [v_map, v_mul, v_isqrtf]

end Vdt.Flush
