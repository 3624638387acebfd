import Verif.Lemmas.FlushNewton
import Verif.Lemmas.FpeParts
import Verif.Props.ExpAcc
import Verif.Props.ExpBasic

/-! # The exponential when small numbers are flushed to zero -/

namespace Vdt.Flush
open FP details
variable {f : Fmt} {m : Mode}

/-! ## Using the analyser -/

theorem keep_of_clear {a : Az} {v w : FP f} (h : a.Sound v w) (hc : a.clear f = true) : w = v ∧ Keep v := Az.clear_big h hc

theorem anZ_keep [f.Ok] (hm : m.Ok) {env : ℕ → Option Az} {s t : ℕ → FP f} (he : ∀ i r, env i = some r → r.Sound (s i) (t i)) {e : E f}
    (h : (anZ f env e).any (Az.clear f) = true) : (evalZ m t e).v = e.evalF s ∧ Keep (e.evalF s) := by
  cases hr : anZ f env e with
  | none => rw [hr] at h; cases h
  | some r =>
    rw [hr] at h
    exact keep_of_clear (anZ_sound hm he e r hr) h

theorem env1 {a : Az} {v w : FP f} (h : a.Sound v w) : ∀ i r, (fun _ : ℕ => some a) i = some r → r.Sound ((fun _ : ℕ => v) i) ((fun _ : ℕ => w) i) := by
  intro i r hr
  simp only [Option.some.injEq] at hr
  exact hr ▸ h

/-- The values of two variables. -/
def two {α : Type} (a b : α) : ℕ → α := fun i => if i = 0 then a else b

theorem env2 {a b : Az} {v w x y : FP f} (h : a.Sound v w) (k : b.Sound x y) :
    ∀ i r, (fun i => some (two a b i)) i = some r → r.Sound (two v x i) (two w y i) := by
  intro i r hr
  simp only [Option.some.injEq] at hr
  subst hr
  unfold two
  split
  · exact h
  · exact k

/-- Any number up to `B`. -/
def upTo (f : Fmt) (B : ℚ) : Az := ⟨-B, B, f.emin - f.mb, none⟩
/-- A number up to `B` that is zero or not below `2^j`. -/
def from_ (f : Fmt) (j : ℤ) (B : ℚ) : Az := ⟨-B, B, j - f.mb, none⟩
/-- A multiple of `2^g`. -/
def grid_ (g : ℤ) (B : ℚ) : Az := ⟨-B, B, g, none⟩

theorem sound_upTo [f.Ok] {x : FP f} {B : ℚ} (hx : x.isFinite = true) (h : |x.val| ≤ B) : (upTo f B).Sound x x := by
  obtain ⟨h1, h2⟩ := abs_le.1 h
  refine ⟨hx, hx, h1, h2, h1, h2, ?_, rfl⟩
  obtain ⟨n, k, hv, _, hk⟩ := val_rep x
  refine ⟨n * 2 ^ (k - (f.emin - f.mb)).toNat, ?_⟩
  have : p2 k = ((2 ^ (k - (f.emin - f.mb)).toNat : ℤ) : ℚ) * p2 (f.emin - f.mb) := by
    rw [Int.cast_pow, Int.cast_ofNat, ← p2_nat, ← p2_add]; congr 1; omega
  show x.val = _ * p2 (f.emin - f.mb)
  rw [hv, this]; push_cast; ring

theorem sound_from [f.Ok] {x : FP f} {B : ℚ} {j : ℤ} (hx : x.isFinite = true) (h : |x.val| ≤ B) (hj : p2 j ≤ |x.val|) : (from_ f j B).Sound x x := by
  obtain ⟨h1, h2⟩ := abs_le.1 h
  exact ⟨hx, hx, h1, h2, h1, h2, mult_of_ge hj, rfl⟩

theorem sound_int {x : FP f} {B : ℚ} {n : ℤ} (hx : x.isFinite = true) (hv : x.val = n) (h : |x.val| ≤ B) : (grid_ 0 B).Sound x x := by
  obtain ⟨h1, h2⟩ := abs_le.1 h
  exact ⟨hx, hx, h1, h2, h1, h2, ⟨n, by rw [hv]; show _ = _ * p2 0; rw [p2_eq]; simp⟩, rfl⟩

/-- Better bounds of a number that is not affected. -/
def narrow (B : ℚ) (a : Az) : Option Az := if a.t.isNone then some ⟨-B, B, a.g, none⟩ else none

theorem narrow_sound {a r : Az} {v w : FP f} {B : ℚ} (h : a.Sound v w) (hB : |v.val| ≤ B) (hr : narrow B a = some r) : r.Sound v w := by
  unfold narrow at hr
  split_ifs at hr with c
  rw [Option.isNone_iff_eq_none] at c
  simp only [Option.some.injEq] at hr
  subst hr
  obtain ⟨h1, h2⟩ := abs_le.1 hB
  have e := h.rel
  rw [c] at e
  have e' : w = v := e
  subst e'
  exact ⟨h.fv, h.fv, h1, h2, h1, h2, h.gv, rfl⟩

/-! ## Conversions and comparisons -/

theorem arg_normal (hm : m.Ok) {x : FP f} (h : p2 f.emin ≤ |x.val|) : m.arg x = x := by
  rcases hm.arg x with a | ⟨a, _⟩
  · exact a
  · rw [← magVal_lt (f := f), minNormal_val, ← abs_val] at a
    exact absurd h (not_le.2 a)

theorem mul_of' (hm : m.Ok) {a b : FP f} (ha : m.arg a = a) (hb : m.arg b = b) (hr : Keep (a * b)) : (of a * of b : Z m f) = of (a * b) := by
  show Z.mk (m.res .mul (m.arg a) (m.arg b) (m.arg a * m.arg b)) = Z.mk (a * b)
  rw [ha, hb, res_same hm hr]

theorem keep_int [f.Ok] {x : FP f} {n : ℤ} (hv : x.val = n) (he : f.emin < 0) : Keep x := by
  by_cases h : n = 0
  · left; rw [hv, h]; simp
  · right
    rw [hv]
    have : (1 : ℚ) ≤ |(n : ℚ)| := by exact_mod_cast Int.one_le_abs h
    refine lt_of_lt_of_le ?_ this
    have := p2_lt he
    rwa [show p2 0 = 1 by rw [p2_eq]; simp] at this

theorem zero_sign (s : Bool) : (zero s : FP f).sign = s := rfl

theorem fpfloor_same (hm : m.Ok) {t : F64} (k : Keep t) : fpfloor m t = details.fpfloor strict t := by
  unfold fpfloor details.fpfloor
  rw [k.arg hm]
  have e : ((sp2uint32 (m.cvt t (convert b32 t)) >>> 31).toNat : ℤ) = (sp2uint32 (convert b32 t) >>> 31).toNat := by
    rw [sp_signbit, sp_signbit]
    rcases hm.cvt t (convert b32 t) with a | ⟨_, a⟩
    · rw [a]
    · rw [a, zero_sign]
  rw [e]

theorem fpfloorf_same (hm : m.Ok) {t : F32} (k : Keep t) : fpfloorf m t = details.fpfloorf strict t := by
  unfold fpfloorf details.fpfloorf
  rw [k.arg hm]

/-- The replaced operand is not larger. -/
theorem arg_le [f.Ok] (hm : m.Ok) {x : FP f} {B : ℚ} (hx : x.isFinite = true) (h : |x.val| ≤ B) : (m.arg x).isFinite = true ∧ |(m.arg x).val| ≤ B := by
  rcases arg_cases hm x with a | ⟨_, a⟩
  · rw [a]; exact ⟨hx, h⟩
  · rw [a, zero_val, abs_zero]; exact ⟨zero_finite _, (abs_nonneg _).trans h⟩

/-! ## Double precision -/

/-- include/exp.h:73 -/
def expTE : E b64 := ((E.const LOG2E).mul (.var 0)).add (.const (lit 0.5))
/-- include/exp.h:77-78 -/
def expRE : E b64 :=
  ((E.var 0).sub ((E.var 1).mul (.const (lit 6.93145751953125E-1)))).sub ((E.var 1).mul (.const (lit 1.42860682030941723212E-6)))

theorem expT_small : (anZ b64 (fun _ => some (upTo b64 (p2 (-40)))) expTE).any (Az.clear b64) = true := by decide +kernel
theorem expT_large : (anZ b64 (fun _ => some (from_ b64 (-40) 708)) expTE).any (Az.clear b64) = true := by decide +kernel
theorem exp_small : (anZ b64 (fun _ => anZ b64 (fun i => some (two (upTo b64 (p2 (-40))) (grid_ 0 0) i)) expRE) expE).any (fun r => r.t.isNone) = true := by
  decide +kernel
theorem exp_large : (anZ b64 (fun _ => (anZ b64 (fun i => some (two (from_ b64 (-40) 708) (grid_ 0 1021) i)) expRE).bind (narrow 0.3475)) expE).any
    (fun r => r.t.isNone) = true := by decide +kernel

theorem expT_Z (x : F64) : (of LOG2E * of x + of (lit 0.5) : Z m b64) = evalZ m (fun _ => x) expTE := rfl
theorem expT_F (x : F64) : LOG2E * x + lit 0.5 = expTE.evalF (fun _ => x) := rfl
theorem expR_Z (x y : F64) : (expReduce (of x) (of y) : Z m b64) = evalZ m (two x y) expRE := rfl
theorem expR_F (x y : F64) : details.expReduce x y = expRE.evalF (two x y) := rfl
theorem expC_Z (z : Z m b64) : expCore z = evalZ m (fun _ => z.v) expE := rfl
theorem expC_F (z : F64) : details.expCore z = expE.evalF (fun _ => z) := rfl

theorem expReduce_plain (x z : F64) : expReduceC (fun _ => false) x z = details.expReduce x z := by plain [expReduceC, details.expReduce]
theorem expCore_plain (z : F64) : expCoreC (fun _ => false) z = details.expCore z := by plain [expCoreC, details.expCore]

theorem eq_of {z : Z m f} {v : FP f} (h : z.v = v) : z = of v := by cases z; exact congrArg Z.mk h

theorem exp_t (hm : m.Ok) {x : F64} (hx : x.isFinite = true) (h : |x.val| ≤ 708) :
    (of LOG2E * of x + of (lit 0.5) : Z m b64).v = LOG2E * x + lit 0.5 ∧ Keep (LOG2E * x + lit 0.5) := by
  rw [expT_Z, expT_F]
  rcases le_total |x.val| (p2 (-40)) with c | c
  · exact anZ_keep hm (env1 (sound_upTo hx c)) expT_small
  · exact anZ_keep hm (env1 (sound_from hx h c)) expT_large

/-- Nothing is taken off a small number. -/
theorem reduce_zero {z x : ℝ} {n : ℤ} (hz : |z| ≤ 0.3475) (h : |z - (x - n * Real.log 2)| ≤ 0.01) (hx : |x| ≤ 0.1) : n = 0 := by
  by_contra hc
  have n1 : (1 : ℝ) ≤ |(n : ℝ)| := by exact_mod_cast Int.one_le_abs hc
  have l := Real.log_two_gt_d9
  have q : |(n : ℝ) * Real.log 2| ≤ 0.46 := by
    have t := abs_le.1 h
    have t2 := abs_le.1 hz
    have t3 := abs_le.1 hx
    rw [abs_le]
    constructor <;> linarith
  rw [abs_mul, abs_of_pos (show 0 < Real.log 2 by linarith)] at q
  nlinarith

theorem real_le {x : FP f} {q : ℚ} (h : |x.val| ≤ q) : |x.real| ≤ (q : ℝ) := by
  unfold FP.real; exact_mod_cast h

theorem val_le_real {x : FP f} {q : ℚ} (h : |x.real| ≤ (q : ℝ)) : |x.val| ≤ q := by
  unfold FP.real at h; exact_mod_cast h

theorem exp_core (hm : m.Ok) {x : F64} (hx : x.isFinite = true) (h : |x.val| ≤ 708) {n : ℤ} (hn : n = expN (LOG2E * x + lit 0.5) (LOG2E * x + lit 0.5).sign) :
    (expCore (expReduce (of x) (of (ofInt n))) : Z m b64).v = details.expCore (details.expReduce x (ofInt n)) := by
  have r := exp_reduce (fun _ => false) hx h
  simp only [mad_false, expReduce_plain] at r
  rw [← hn] at r
  obtain ⟨-, r2, r3, r4, r5⟩ := r
  have i := ofInt_spec64 (n := n) (by refine r2.trans ?_; norm_num)
  rw [expC_Z, expC_F, expR_Z]
  rcases le_total |x.val| (p2 (-40)) with c | c
  · have n0 : n = 0 := by
      refine reduce_zero r4 (r5.trans (by norm_num)) ?_
      have := real_le (c.trans (show p2 (-40) ≤ 0.1 by decide +kernel))
      push_cast at this
      exact this
    rw [expR_F]
    have i0 : (ofInt n : F64).val = 0 := by rw [i.2, n0, Int.cast_zero]
    refine anZ_same hm (fun k r hr => ?_) exp_small
    exact anZ_sound hm (env2 (sound_upTo hx c) (sound_int (n := 0) i.1 (i0.trans Int.cast_zero.symm) (by rw [i0, abs_zero]))) expRE r hr
  · refine anZ_same hm (fun k r hr => ?_) exp_large
    obtain ⟨a, ha, hr⟩ := Option.bind_eq_some_iff.1 hr
    refine narrow_sound (v := details.expReduce x (ofInt n)) ?_ (val_le_real (by push_cast; exact r4)) hr
    rw [expR_F]
    refine anZ_sound hm (env2 (sound_from hx h c) (sound_int i.1 i.2 ?_)) expRE a ha
    rw [i.2]; exact_mod_cast r2

/-- A bound below the exponential. -/
theorem above {y x : ℝ} {k : ℤ} (hy : |y - Real.exp x| ≤ 0.001 * Real.exp x) (h : 0.05 ≤ x - k * Real.log 2) : (2 : ℝ) ^ k < y := by
  rw [real_exp_split x k] at hy
  have a := Real.add_one_le_exp (x - k * Real.log 2)
  have b : (0 : ℝ) < 2 ^ k := by positivity
  have c := (abs_le.1 hy).1
  have d : 1.05 * (2 : ℝ) ^ k ≤ Real.exp (x - k * Real.log 2) * 2 ^ k := mul_le_mul_of_nonneg_right (by linarith) b.le
  linarith

theorem keep_above {y : FP f} (h : (2 : ℝ) ^ f.emin < y.real) : Keep y := by
  right
  refine lt_of_lt_of_le ?_ (le_abs_self _)
  rw [← p2_real] at h
  unfold FP.real at h
  exact_mod_cast h

theorem keep_half [f.Ok] {c : FP f} (h : 1 / 2 ≤ c.real) (he : f.emin < -1) : Keep c := by
  refine keep_above (lt_of_lt_of_le ?_ h)
  have := zpow_lt_zpow_right₀ (a := (2 : ℝ)) (by norm_num) he
  norm_num at this ⊢
  linarith

theorem exp_same (hm : m.Ok) {x : F64} (hx : x.isFinite = true) (h : |x.val| ≤ 708) : fast_exp m x = Vdt.fast_exp x := by
  obtain ⟨t1, t2⟩ := exp_t hm hx h
  have r := exp_reduce (fun _ => false) hx h
  simp only [mad_false, expReduce_plain] at r
  obtain ⟨r1, r2, r3, r4, -⟩ := r
  obtain ⟨y, hy1, hy2, hy3⟩ := C01_exp_accurate x hx h
  rw [fast_exp_eq, if_pos r1] at hy1 ⊢
  unfold fast_exp
  dsimp only
  rw [t1, fpfloor_same hm t2, Fpe.fpfloor_expN r1]
  obtain ⟨n, hn⟩ : ∃ n, n = expN (LOG2E * x + lit 0.5) (LOG2E * x + lit 0.5).sign := ⟨_, rfl⟩
  have c1 := exp_core hm hx h hn
  rw [← hn] at hy1 r2 r3 r4 ⊢
  have i := ofInt_spec64 (n := n) (by refine r2.trans ?_; norm_num)
  have n1 := abs_le.1 r2
  have f1 : strict.f2i (m.arg (ofInt n : F64)) = some n := by
    rw [(keep_int i.2 (by decide)).arg hm, strict_f2i i.1 (by rw [i.2, truncRat_int]; simp [inI32]; omega), i.2, truncRat_int]
  simp only [Option.bind_eq_bind, Option.bind_some, f1, Option.pure_def]
  congr 1
  have ll := in_limit hx h
  obtain ⟨a1, a2⟩ := arg_le hm hx h
  have la := in_limit a1 a2
  have g1 : m.gt x EXP_LIMIT = false := by
    unfold Mode.gt
    rw [show m.arg EXP_LIMIT = EXP_LIMIT from arg_normal hm (by rw [lim_finite.2]; decide +kernel)]
    exact la.1
  have g2 : m.lt x (-EXP_LIMIT) = false := by
    unfold Mode.lt
    rw [show m.arg (-EXP_LIMIT) = -EXP_LIMIT from arg_normal hm (by rw [neg_def, val_neg, abs_neg, lim_finite.2]; decide +kernel)]
    exact la.2
  have pw := pow2n_spec (n := n) (by omega) (by omega)
  obtain ⟨d1, ε, δ, d2, d3, d4⟩ := expCore_acc (fun _ => false) r3 r4
  rw [expCore_plain] at d1 d4
  simp only [g1, g2, Bool.false_eq_true, if_false]
  unfold expTail at hy1 ⊢
  simp only [ll.1, ll.2, Bool.false_eq_true, if_false] at hy1 ⊢
  rw [eq_of c1]
  have kc : Keep (details.expCore (details.expReduce x (ofInt n))) := by
    refine keep_half ?_ (by decide)
    have h1 : Real.exp ((details.expReduce x (ofInt n)).real + δ) ≥ 0.65 := by
      have := Real.add_one_le_exp ((details.expReduce x (ofInt n)).real + δ)
      have hδ := abs_le.1 (d3.trans (show _ ≤ (0.001 : ℝ) by norm_num))
      have := abs_le.1 r4
      linarith
    have h2 := abs_le.1 (d2.trans (show _ ≤ (0.001 : ℝ) by norm_num))
    rw [d4]; nlinarith
  have ky : Keep (details.expCore (details.expReduce x (ofInt n)) * pow2n n) := by
    rw [Option.some.inj hy1]
    refine keep_above (above (x := x.real) (hy3.2.trans ?_) ?_)
    · rw [abs_of_pos (Real.exp_pos _)]
      exact mul_le_mul_of_nonneg_right (by norm_num) (Real.exp_pos _).le
    · have l := Real.log_two_gt_d9
      have x1 := (abs_le.1 (real_le h)).1
      have e : b64.emin = -1022 := by decide
      rw [e]
      push_cast at x1 ⊢
      linarith
  have kp : p2 b64.emin ≤ |(pow2n n).val| := by
    rw [pw.2, abs_of_pos (p2_pos _)]
    refine p2_le ?_
    have : b64.emin = -1022 := by decide
    omega
  generalize details.expCore (details.expReduce x (ofInt n)) = c at *
  have := mul_of' hm (kc.arg hm) (arg_normal hm kp) ky
  exact congrArg Z.v this

/-! ## Single precision -/

/-- include/exp.h:126 -/
def expfTE : E b32 := ((E.const LOG2EF).mul (.var 0)).add (.const (lit 0.5))
/-- include/exp.h:129-130 -/
def expfRE : E b32 := ((E.var 0).sub ((E.var 1).mul (.const C1F))).sub ((E.var 1).mul (.const C2F))

theorem expfT_small : (anZ b32 (fun _ => some (upTo b32 (p2 (-30)))) expfTE).any (Az.clear b32) = true := by decide +kernel
theorem expfT_large : (anZ b32 (fun _ => some (from_ b32 (-30) 88.99)) expfTE).any (Az.clear b32) = true := by decide +kernel
theorem expf_small : (anZ b32 (fun _ => anZ b32 (fun i => some (two (upTo b32 (p2 (-30))) (grid_ 0 0) i)) expfRE) expfE).any
    (fun r => r.t.isNone) = true := by decide +kernel
theorem expf_large : (anZ b32 (fun _ => (anZ b32 (fun i => some (two (from_ b32 (-30) 88.99) (grid_ 0 128) i)) expfRE).bind (narrow 0.3475)) expfE).any
    (fun r => r.t.isNone) = true := by decide +kernel

theorem expfT_Z (x : F32) : (of LOG2EF * of x + of (lit 0.5) : Z m b32) = evalZ m (fun _ => x) expfTE := rfl
theorem expfT_F (x : F32) : LOG2EF * x + lit 0.5 = expfTE.evalF (fun _ => x) := rfl
theorem expfR_Z (x y : F32) : (expfReduce (of x) (of y) : Z m b32) = evalZ m (two x y) expfRE := rfl
theorem expfR_F (x y : F32) : details.expfReduce x y = expfRE.evalF (two x y) := rfl
theorem expfC_Z (z : Z m b32) : expfCore z = evalZ m (fun _ => z.v) expfE := rfl
theorem expfC_F (z : F32) : details.expfCore z = expfE.evalF (fun _ => z) := rfl

theorem expf_t (hm : m.Ok) {x : F32} (hx : x.isFinite = true) (h : |x.val| ≤ 88.99) :
    (of LOG2EF * of x + of (lit 0.5) : Z m b32).v = LOG2EF * x + lit 0.5 ∧ Keep (LOG2EF * x + lit 0.5) := by
  rw [expfT_Z, expfT_F]
  rcases le_total |x.val| (p2 (-30)) with c | c
  · exact anZ_keep hm (env1 (sound_upTo hx c)) expfT_small
  · exact anZ_keep hm (env1 (sound_from hx h c)) expfT_large

theorem expf_core (hm : m.Ok) {x : F32} (hx : x.isFinite = true) (h : |x.val| ≤ 88.99) {n : ℤ}
    (hn : n = expN (LOG2EF * x + lit 0.5) (LOG2EF * x + lit 0.5).sign) :
    (expfCore (expfReduce (of x) (of (ofInt n))) : Z m b32).v = details.expfCore (details.expfReduce x (ofInt n)) := by
  have r := expf_reduce hx h
  simp only at r
  rw [← hn] at r
  obtain ⟨-, r2, r3, r4, r5⟩ := r
  have i := ofInt_spec32 (n := n) (by refine r2.trans ?_; norm_num)
  rw [expfC_Z, expfC_F, expfR_Z]
  rcases le_total |x.val| (p2 (-30)) with c | c
  · have n0 : n = 0 := by
      refine reduce_zero r4 (r5.trans (by norm_num)) ?_
      have := real_le (c.trans (show p2 (-30) ≤ 0.1 by decide +kernel))
      push_cast at this
      exact this
    rw [expfR_F]
    have i0 : (ofInt n : F32).val = 0 := by rw [i.2, n0, Int.cast_zero]
    refine anZ_same hm (fun k r hr => ?_) expf_small
    exact anZ_sound hm (env2 (sound_upTo hx c) (sound_int (n := 0) i.1 (i0.trans Int.cast_zero.symm) (by rw [i0, abs_zero]))) expfRE r hr
  · refine anZ_same hm (fun k r hr => ?_) expf_large
    obtain ⟨a, ha, hr⟩ := Option.bind_eq_some_iff.1 hr
    refine narrow_sound (v := details.expfReduce x (ofInt n)) ?_ (val_le_real (by push_cast; exact r4)) hr
    rw [expfR_F]
    refine anZ_sound hm (env2 (sound_from hx h c) (sound_int i.1 i.2 ?_)) expfRE a ha
    rw [i.2]; exact_mod_cast r2

theorem fpfloorf_expN {a : F32} (h : f2iDefined a = true) : details.fpfloorf strict a = some (ofInt (expN a a.sign)) := by
  unfold details.fpfloorf
  simp only [strict, h, if_true, Option.pure_def, Option.bind_eq_bind, Option.bind_some]
  rw [sp_signbit]
  rfl

theorem limf : MAXLOGF.isFinite = true ∧ MINLOGF.isFinite = true ∧ 88.35 ≤ MAXLOGF.val ∧ MINLOGF.val ≤ -87.25 := by decide +kernel

theorem in_limitf {x : F32} (hx : x.isFinite = true) (h1 : -87.25 ≤ x.val) (h2 : x.val ≤ 88.35) : FP.gt x MAXLOGF = false ∧ FP.lt x MINLOGF = false := by
  rw [gt_fin hx limf.1, lt_fin hx limf.2.1]
  simp only [decide_eq_false_iff_not, not_lt]
  exact ⟨h2.trans limf.2.2.1, limf.2.2.2.trans h1⟩

theorem expf_same (hm : m.Ok) {x : F32} (hx : x.isFinite = true) (h1 : -87.25 ≤ x.val) (h2 : x.val ≤ 88.35) : fast_expf m x = Vdt.fast_expf x := by
  have h : |x.val| ≤ 88.99 := by rw [abs_le]; constructor <;> linarith
  obtain ⟨t1, t2⟩ := expf_t hm hx h
  have r := expf_reduce hx h
  have rn := expf_n hx h
  simp only at r rn
  obtain ⟨r1, r2, r3, r4, -⟩ := r
  obtain ⟨y, hy1, hy2, hy3⟩ := C03_expf_accurate x hx h1 h2
  unfold fast_expf
  dsimp only
  rw [t1, fpfloorf_same hm t2, fpfloorf_expN r1]
  obtain ⟨n, hn⟩ : ∃ n, n = expN (LOG2EF * x + lit 0.5) (LOG2EF * x + lit 0.5).sign := ⟨_, rfl⟩
  have c1 := expf_core hm hx h hn
  have e := fast_expf_eq r1 (r2.trans (by norm_num))
  simp only at e
  rw [← hn] at e r2 r3 r4 rn ⊢
  have nu := rn.1 (by linarith)
  have nl := rn.2.2.1 (by linarith)
  rw [if_pos (by omega)] at e
  rw [e] at hy1 ⊢
  have i := ofInt_spec32 (n := n) (by refine r2.trans ?_; norm_num)
  have f1 : strict.f2i (m.arg (ofInt n : F32)) = some n := by
    rw [(keep_int i.2 (by decide)).arg hm, strict_f2i i.1 (by rw [i.2, truncRat_int]; simp [inI32]; omega), i.2, truncRat_int]
  have f2 : strict.i32 (n + 0x7f) = some (n + 0x7f) := by simp [strict, inI32]; omega
  have f3 : strict.shl (n + 0x7f) 23 = some (wrap32 ((n + 0x7f) * 2 ^ 23)) := by
    simp only [strict]; rw [if_pos (by omega)]
  simp only [Option.bind_eq_bind, Option.bind_some, f1, f2, f3, Option.pure_def]
  congr 1
  have ll := in_limitf hx h1 h2
  have la : FP.gt (m.arg x) MAXLOGF = false ∧ FP.lt (m.arg x) MINLOGF = false := by
    rcases arg_cases hm x with a | ⟨_, a⟩
    · rw [a]; exact ll
    · rw [a]; refine in_limitf (zero_finite _) ?_ ?_ <;> rw [zero_val] <;> norm_num
  have g1 : m.gt x MAXLOGF = false := by
    unfold Mode.gt
    rw [show m.arg MAXLOGF = MAXLOGF from arg_normal hm (by decide +kernel)]
    exact la.1
  have g2 : m.lt x MINLOGF = false := by
    unfold Mode.lt
    rw [show m.arg MINLOGF = MINLOGF from arg_normal hm (by decide +kernel)]
    exact la.2
  have pw := pow2nf_spec nl nu
  obtain ⟨d1, ε, δ, d2, d3, d4⟩ := expfCore_acc r3 r4
  simp only [g1, g2, Bool.false_eq_true, if_false]
  unfold expfTail at hy1 ⊢
  simp only [ll.1, ll.2, Bool.false_eq_true, if_false] at hy1 ⊢
  rw [eq_of c1]
  have kc : Keep (details.expfCore (details.expfReduce x (ofInt n))) := by
    refine keep_half ?_ (by decide)
    have h1 : Real.exp ((details.expfReduce x (ofInt n)).real + δ) ≥ 0.65 := by
      have := Real.add_one_le_exp ((details.expfReduce x (ofInt n)).real + δ)
      have hδ := abs_le.1 (d3.trans (show _ ≤ (0.001 : ℝ) by norm_num))
      have := abs_le.1 r4
      linarith
    have h2 := abs_le.1 (d2.trans (show _ ≤ (0.001 : ℝ) by norm_num))
    rw [d4]; nlinarith
  have ky : Keep (details.expfCore (details.expfReduce x (ofInt n)) * pow2nf n) := by
    rw [Option.some.inj hy1]
    refine keep_above (above (x := x.real) (hy3.2.trans ?_) ?_)
    · rw [abs_of_pos (Real.exp_pos _)]
      exact mul_le_mul_of_nonneg_right (by norm_num) (Real.exp_pos _).le
    · have l := Real.log_two_gt_d9
      have x1 : (((-87.25 : ℚ) : ℚ) : ℝ) ≤ x.real := by unfold FP.real; exact_mod_cast h1
      have e : b32.emin = -126 := by decide
      rw [e]
      push_cast at x1 ⊢
      linarith
  have kp : p2 b32.emin ≤ |(pow2nf n).val| := by
    rw [pw.2, abs_of_pos (p2_pos _)]
    refine p2_le ?_
    have : b32.emin = -126 := by decide
    omega
  generalize details.expfCore (details.expfReduce x (ofInt n)) = c at *
  have := mul_of' hm (kc.arg hm) (arg_normal hm kp) ky
  exact congrArg Z.v this

end Vdt.Flush
