import Verif.Lemmas.FpeSource
import Verif.Props.SincosAcc
import Verif.Props.ExpAcc
import Verif.Props.LogAcc
import Verif.Props.Isqrt
import Verif.Props.InvLarge

/-!
# Exceptions: the functions whose result shows it

Sine and cosine, the logarithms, the exponentials, the reciprocal square roots and the reciprocals.
-/

namespace Vdt.Fpe
open FP details
variable {f : Fmt}

instance [f.Ok] (a b : Ev f) (t : Bool) (k l : ℕ) [ha : Sm a k] [hb : Sm b l] : Sm (a.over t b) (max k l) := ⟨fun h => by
  obtain ⟨a1, a2, a3⟩ := ha.ok (by omega)
  obtain ⟨b1, b2, b3⟩ := hb.ok (by omega)
  cases t
  · exact ⟨a1, a2, a3.trans (pow_le_pow_right₀ (by norm_num) (by omega))⟩
  · refine ⟨?_, b2, b3.trans (pow_le_pow_right₀ (by norm_num) (by omega))⟩
    show a.exc.join b.exc = _
    rw [join_eq]; exact ⟨a1, b1⟩⟩

theorem Sm.le {m : Ev f} {k l : ℕ} (h : Sm m k) (hk : k ≤ l) : Sm m l := ⟨fun hl => by
  obtain ⟨a1, a2, a3⟩ := h.ok (hk.trans hl)
  exact ⟨a1, a2, a3.trans (pow_le_pow_right₀ (by norm_num) hk)⟩⟩

/-- A quotient that is not large. -/
theorem Sm.div [f.Ok] {a b : Ev f} {k : ℕ} (ha : a.exc = {}) (hb : b.exc = {}) (fa : a.res.isFinite = true) (fb : b.res.isFinite = true)
    (h0 : b.res.val ≠ 0) (h : |a.res.val / b.res.val| ≤ 2 ^ k) : Sm (a / b) k := ⟨fun hk => by
  obtain ⟨s1, s2⟩ := div_spec fa fb h0 (h.trans (pow_le_big hk))
  refine ⟨?_, s1, ?_⟩
  · rw [exc_div, join_eq, join_eq]; exact ⟨⟨ha, hb⟩, (div_args s1).2⟩
  · show |(FP.div a.res b.res).val| ≤ _
    rw [s2]; exact rnd_le_pow hk h⟩

theorem over_fin {a b : Ev f} {t : Bool} (h : (a.over t b).res.isFinite = true) (hb : b.res.isFinite = false) : t = false := by
  cases t
  · rfl
  · change b.res.isFinite = true at h; rw [h] at hb; cases hb

theorem over_false (a b : Ev f) : a.over false b = a := rfl

theorem sel_fin {s c : FP f} {p q r : Prop} [Decidable p] [Decidable q] [Decidable r] {t : Bool}
    (h1 : (if t then -(if q then -(if p then c else s) else (if p then c else s)) else (if q then -(if p then c else s) else (if p then c else s))).isFinite = true)
    (h2 : (if r then -(if p then s else c) else (if p then s else c)).isFinite = true) : s.isFinite = true ∧ c.isFinite = true := by
  split_ifs at h1 h2 <;> (try simp only [neg_finite] at h1 h2) <;> exact ⟨by assumption, by assumption⟩

theorem abs_finite (x : FP f) : (FP.abs x).isFinite = x.isFinite := rfl

instance (x : Ev b64) [Good x] : Good (get_sin_px x) := by unfold get_sin_px; infer_instance
instance (x : Ev b64) [Good x] : Good (get_cos_px x) := by unfold get_cos_px; infer_instance
instance (x : Ev b64) [Good x] : Good (sin45 x) := by unfold sin45; infer_instance
instance (x : Ev b64) [Good x] : Good (cos45 x) := by unfold cos45; infer_instance
instance (x : Ev b32) [Good x] : Good (sinf45 x) := by unfold sinf45; infer_instance
instance (x : Ev b32) [Good x] : Good (cosf45 x) := by unfold cosf45; infer_instance
instance (x : Ev b64) [Good x] : Good (get_log_px x) := by unfold get_log_px; infer_instance
instance (x : Ev b64) [Good x] : Good (get_log_qx x) := by unfold get_log_qx; infer_instance
instance (x : Ev b32) [Good x] : Good (get_log_poly x) := by unfold get_log_poly; infer_instance

/-- Sine and cosine in double precision. -/
theorem exc_sincos {x : F64} (hx : x.isFinite = true) (h : |x.val| ≤ 2 ^ 27) : ∃ s c, fast_sincos x = some (s, c, {}) := by
  obtain ⟨s, c, h1, h2, h3, h4⟩ := C08_sin_cos_accurate x hx h
  have r := res_sincos x
  unfold Vdt.fast_sincos at r
  unfold fast_sin fast_sinM at h1
  unfold fast_cos fast_cosM at h2
  rw [← r] at h1 h2
  rcases e : fast_sincos x with _ | ⟨s', c', e'⟩
  · rw [e] at h1; cases h1
  · rw [e] at h1 h2
    have hs : s'.isFinite = true := by injection h1 with h1; change s' = s at h1; rw [h1]; exact h3.1
    have hc : c'.isFinite = true := by injection h2 with h2; change c' = c at h2; rw [h2]; exact h4.1
    clear r
    unfold fast_sincos at e
    rcases q : quadrant strict (FP.abs x) with _ | q'
    · rw [q] at e; cases e
    rw [q] at e
    simp only [Option.bind_eq_bind, Option.bind_some, Option.pure_def, Option.some.injEq, Prod.mk.injEq] at e
    obtain ⟨e1, e2, e3⟩ := e
    rw [← e1] at hs
    rw [← e2] at hc
    obtain ⟨k1, k2⟩ := sel_fin hs hc
    refine ⟨s', c', ?_⟩
    refine congrArg some (Prod.ext rfl (Prod.ext rfl ?_))
    show e' = {}
    rw [← e3]
    rw [join_eq, join_eq, join_eq]
    refine ⟨⟨?_, Good.ok k1, Good.ok k2⟩, cmp_fin hx (by decide +kernel)⟩
    have : Sm (of (FP.abs x)) 27 := Sm.of_val (by rw [abs_finite]; exact hx) (by rw [val_abs, abs_abs]; exact h)
    exact Sm.exc inferInstance (by decide +kernel)

/-- Sine and cosine in single precision. -/
theorem exc_sincosf {x : F32} (hx : x.isFinite = true) (h : |x.val| ≤ 8192) : ∃ s c, fast_sincosf x = some (s, c, {}) := by
  obtain ⟨s, c, h1, h2, h3, h4⟩ := C10_sinf_cosf_accurate x hx h
  have r := res_sincosf x
  unfold Vdt.fast_sincosf at r
  unfold fast_sinf fast_sinfM at h1
  unfold fast_cosf fast_cosfM at h2
  rw [← r] at h1 h2
  rcases e : fast_sincosf x with _ | ⟨s', c', e'⟩
  · rw [e] at h1; cases h1
  · rw [e] at h1 h2
    have hs : s'.isFinite = true := by injection h1 with h1; change s' = s at h1; rw [h1]; exact h3.1
    have hc : c'.isFinite = true := by injection h2 with h2; change c' = c at h2; rw [h2]; exact h4.1
    clear r
    unfold fast_sincosf at e
    rcases q : quadrantf strict (FP.abs x) with _ | q'
    · rw [q] at e; cases e
    rw [q] at e
    simp only [Option.bind_eq_bind, Option.bind_some, Option.pure_def, Option.some.injEq, Prod.mk.injEq] at e
    obtain ⟨e1, e2, e3⟩ := e
    rw [← e1] at hs
    rw [← e2] at hc
    obtain ⟨k1, k2⟩ := sel_fin hs hc
    refine ⟨s', c', ?_⟩
    refine congrArg some (Prod.ext rfl (Prod.ext rfl ?_))
    show e' = {}
    rw [← e3]
    rw [join_eq, join_eq, join_eq]
    refine ⟨⟨?_, Good.ok k1, Good.ok k2⟩, cmp_fin hx (by decide +kernel)⟩
    have : Sm (of (FP.abs x)) 13 := Sm.of_val (by rw [abs_finite]; exact hx) (by rw [val_abs, abs_abs]; exact h.trans (by norm_num))
    exact Sm.exc inferInstance (by decide +kernel)

instance [f.Ok] (a b : Ev f) (t : Bool) (k l : ℕ) [ha : Sm a k] [hb : Sm b l] : Sm (if t then a else b) (max k l) := ⟨fun h => by
  obtain ⟨a1, a2, a3⟩ := ha.ok (by omega)
  obtain ⟨b1, b2, b3⟩ := hb.ok (by omega)
  cases t
  · exact ⟨b1, b2, b3.trans (pow_le_pow_right₀ (by norm_num) (by omega))⟩
  · exact ⟨a1, a2, a3.trans (pow_le_pow_right₀ (by norm_num) (by omega))⟩⟩

/-- The natural logarithm in double precision. -/
theorem exc_log {x : F64} (hn : x.Normal) (h0 : 0 < x.val) (h1 : x.val ≤ 10 ^ 307) : (fast_log x).exc = {} := by
  have hf : (fast_log x).res.isFinite = true := by rw [res_log]; exact (C05_log_accurate x hn h0 h1).1
  obtain ⟨m1, m2, m3, m4, -⟩ := C33_getMantExponent_partial x hn (val_pos_iff.1 h0).1
  unfold fast_log at hf ⊢
  dsimp only at hf ⊢
  rw [res_also] at hf
  rw [exc_also, join_eq, join_eq]
  refine ⟨?_, cmp_fin m1 (by decide +kernel), cmp_fin hn.1 (by decide +kernel)⟩
  have t1 := over_fin hf (by decide +kernel)
  rw [t1, over_false] at hf ⊢
  have t2 := over_fin hf (by decide +kernel)
  rw [t2, over_false] at hf ⊢
  have s1 : Sm (of (getMantExponent x).1) 0 := Sm.of_val m1 (by rw [pow_zero]; exact m4.le)
  generalize FP.gt (getMantExponent x).1 SQRTH = t at *
  obtain ⟨z, hz⟩ : ∃ z, z = (if t then of (getMantExponent x).1 else of (getMantExponent x).1 + of (getMantExponent x).1) - of (lit 1.0) := ⟨_, rfl⟩
  have sz : Sm z 5 := by
    rw [hz]; exact Sm.le inferInstance (by decide +kernel)
  have gz : Good z := by rw [hz]; infer_instance
  rw [← hz] at hf ⊢
  have : Good (get_log_px z * z * (z * z) / get_log_qx z) := Good.div _ _ (by
    unfold get_log_qx; exact Sm.exc inferInstance (by decide +kernel))
  exact Good.ok hf

/-- The natural logarithm in single precision. -/
theorem exc_logf {x : F32} (hn : x.Normal) (h0 : 0 < x.val) : (fast_logf x).exc = {} := by
  have hf : (fast_logf x).res.isFinite = true := by rw [res_logf]; exact (C07_logf_accurate x hn h0).1
  obtain ⟨m1, m2, m3, m4, -⟩ := C33_getMantExponentf_partial x hn (val_pos_iff.1 h0).1
  unfold fast_logf at hf ⊢
  dsimp only at hf ⊢
  rw [res_also] at hf
  rw [exc_also, join_eq, join_eq]
  refine ⟨?_, cmp_fin m1 (by decide +kernel), cmp_fin hn.1 (by decide +kernel)⟩
  have t1 := over_fin hf (by decide +kernel)
  rw [t1, over_false] at hf ⊢
  have t2 := over_fin hf (by decide +kernel)
  rw [t2, over_false] at hf ⊢
  generalize FP.gt (getMantExponentf x).1 SQRTHF = t at *
  obtain ⟨z, hz⟩ : ∃ z, z = (if t then of (getMantExponentf x).1 else of (getMantExponentf x).1 + of (getMantExponentf x).1) - of (lit 1.0) := ⟨_, rfl⟩
  have gz : Good z := by rw [hz]; infer_instance
  rw [← hz] at hf ⊢
  exact Good.ok hf

theorem good_loop [f.Ok] (x2 y : Ev f) [Good x2] [Good y] (n : ℕ) : Good (isqrtLoop x2 n y) := by
  induction n generalizing y with
  | zero => assumption
  | succ n ih => exact ih _

theorem loop_start [f.Ok] (x2 y : Ev f) (n : ℕ) (h : (isqrtLoop x2 n y).res.isFinite = true) : y.res.isFinite = true := by
  induction n generalizing y with
  | zero => exact h
  | succ n ih => exact (mul_args (ih _ h)).1

theorem loop_arg [f.Ok] (x2 y : Ev f) (n : ℕ) (h : (isqrtLoop x2 (n + 1) y).res.isFinite = true) : x2.res.isFinite = true := by
  have k : (y * (of (lit 1.5) - x2 * y * y)).res.isFinite = true := loop_start x2 _ n h
  exact (mul_args (mul_args (sub_args (mul_args k).2).2).1).1

/-- The reciprocal square root, whenever its result is finite. -/
theorem exc_isqrt {x : F64} {n : ℕ} (h : (Vdt.fast_isqrt_general x (n + 1)).isFinite = true) : (fast_isqrt_general x (n + 1)).exc = {} := by
  rw [← res_isqrt] at h
  unfold fast_isqrt_general at h ⊢
  rw [res_also] at h
  rw [exc_also, join_eq]
  exact ⟨(good_loop _ _ _).ok h, Good.ok (loop_arg _ _ _ h)⟩

theorem exc_isqrtf {x : F32} {n : ℕ} (h : (Vdt.fast_isqrtf_general x (n + 1)).isFinite = true) : (fast_isqrtf_general x (n + 1)).exc = {} := by
  rw [← res_isqrtf] at h
  unfold fast_isqrtf_general at h ⊢
  rw [res_also] at h
  rw [exc_also, join_eq]
  exact ⟨(good_loop _ _ _).ok h, Good.ok (loop_arg _ _ _ h)⟩

/-- The reciprocal, whenever its result is finite. -/
theorem exc_inv {x : F64} {n : ℕ} (h : (Vdt.fast_inv_general x (n + 1)).isFinite = true) : (fast_inv_general x (n + 1)).exc = {} := by
  rw [← res_inv] at h
  unfold fast_inv_general at h ⊢
  have k := (mul_args h).1
  rw [res_isqrt] at k
  rw [exc_mul, exc_map, join_eq, join_eq]
  exact ⟨⟨exc_isqrt k, exc_isqrt k⟩, raised_fin h _⟩

theorem exc_invf {x : F32} {n : ℕ} (h : (Vdt.fast_invf_general x (n + 1)).isFinite = true) : (fast_invf_general x (n + 1)).exc = {} := by
  rw [← res_invf] at h
  unfold fast_invf_general at h ⊢
  have k := (mul_args h).1
  rw [res_isqrtf] at k
  rw [exc_mul, exc_map, join_eq, join_eq]
  exact ⟨⟨exc_isqrtf k, exc_isqrtf k⟩, raised_fin h _⟩

theorem fpfloor_expN {a : F64} (h : f2iDefined a = true) : fpfloor strict a = some (ofInt (expN a a.sign)) := by
  have hf : a.isFinite = true := by unfold f2iDefined at h; simp at h; exact h.1
  unfold fpfloor
  simp only [strict, h, if_true, Option.pure_def, Option.bind_eq_bind, Option.bind_some]
  rw [sp_signbit, convert_sign (finite_not_nan hf)]
  rfl

/-- The rational function of include/exp.h:80-101 -/
theorem exc_exp_core {x : Ev b64} (hx : Sm x 0) :
    ((((of QX1exp * (x * x) + of QX2exp) * (x * x) + of QX3exp) * (x * x) + of QX4exp) -
      ((of PX1exp * (x * x) + of PX2exp) * (x * x) + of PX3exp) * x).exc = {} := Sm.exc inferInstance (by decide +kernel)

/-- The exponential in double precision. -/
theorem exc_exp {x : F64} (hx : x.isFinite = true) (h : |x.val| ≤ 708) : ∃ r, fast_exp x = some r ∧ r.exc = {} := by
  obtain ⟨y, h1, h2, h3⟩ := C01_exp_accurate x hx h
  have r := res_exp x
  rw [h1] at r
  rcases e : fast_exp x with _ | r'
  · rw [e] at r; cases r
  refine ⟨r', rfl, ?_⟩
  rw [e] at r
  replace r := Option.some.inj r
  have hf : r'.res.isFinite = true := by rw [r]; exact h3.1
  have hp : 0 < r'.res.val := by rw [r]; exact h2
  obtain ⟨R1, R2, R3, R4, -⟩ := exp_reduce (fun _ => false) hx h
  have st : Sm (of LOG2E * of x + of (lit 0.5)) 13 := by
    have : Sm (of x) 10 := Sm.of_val hx (h.trans (by norm_num))
    exact Sm.le inferInstance (by decide +kernel)
  have em : mad ((fun _ => false : Policy) 0) LOG2E x (lit 0.5) = LOG2E * x + lit 0.5 := mad_false _ _ _
  have er : (of LOG2E * of x + of (lit 0.5)).res = LOG2E * x + lit 0.5 := by rw [res_add, res_mul, res_of, res_of, res_of]
  rw [em] at R1 R3 R4
  have fl := fpfloor_expN R1
  generalize ofInt (expN (LOG2E * x + lit 0.5) (LOG2E * x + lit 0.5).sign) = px at *
  unfold fast_exp at e
  simp only [Option.bind_eq_bind, Option.pure_def] at e
  obtain ⟨px', f1, e⟩ := Option.bind_eq_some_iff.1 e
  obtain ⟨n, f2, e⟩ := Option.bind_eq_some_iff.1 e
  replace e := Option.some.inj e
  rw [er] at f1
  have epx : px' = px := Option.some.inj (f1.symm.trans fl)
  rw [epx] at e
  rw [← e, exc_also, join_eq, join_eq, join_eq]
  rw [← e, res_also] at hf hp
  clear e
  refine ⟨?_, ⟨st.exc (by decide +kernel), ?_⟩, cmp_fin hx (by decide +kernel)⟩
  · obtain ⟨z, hz⟩ : ∃ z, z = of x - of px * of (lit 6.93145751953125E-1) - of px * of (lit 1.42860682030941723212E-6) := ⟨_, rfl⟩
    have gz : Good z := by rw [hz]; infer_instance
    have ez : z.res = expReduceC (fun _ => false) x px := by
      rw [hz]; unfold expReduceC
      simp only [nmad_false, res_sub, res_mul, res_of]
    have sz : Sm z 0 := by
      rw [← ez] at R3 R4
      refine Sm.mk' (gz.ok R3) R3 ?_
      rw [pow_zero]
      have := R4.trans (show (0.3475 : ℝ) ≤ 1 by norm_num)
      rw [real_abs] at this
      exact_mod_cast this
    rw [← hz] at hf hp ⊢
    have t1 : FP.lt x (-EXP_LIMIT) = false := by
      rcases hl : FP.lt x (-EXP_LIMIT)
      · rfl
      · rw [hl] at hp
        exact absurd hp (by show ¬ 0 < (lit 0 : F64).val; decide +kernel)
    rw [t1, over_false] at hf ⊢
    have t2 := over_fin hf (by decide +kernel)
    rw [t2, over_false] at hf ⊢
    have := Good.div (((of PX1exp * (z * z) + of PX2exp) * (z * z) + of PX3exp) * z) _ (exc_exp_core sz)
    exact Good.ok hf
  · have h1 := st.ok (by decide +kernel)
    have h2 : (convert b32 (LOG2E * x + lit 0.5)).isFinite = true := by
      unfold convert
      rw [er] at h1
      have k := h1.2.1
      rw [finite_not_nan k, finite_not_inf k]
      exact finite_ofRat _ (h1.2.2.trans (by decide +kernel))
    rw [er, finite_not_inf h2, Bool.false_and]

/-- The exponential in single precision. -/
theorem exc_expf {x : F32} (hx : x.isFinite = true) (h1 : -87.25 ≤ x.val) (h2 : x.val ≤ 88.35) : ∃ r, fast_expf x = some r ∧ r.exc = {} := by
  obtain ⟨y, g1, g2, g3⟩ := C03_expf_accurate x hx h1 h2
  have r := res_expf x
  rw [g1] at r
  rcases e : fast_expf x with _ | r'
  · rw [e] at r; cases r
  refine ⟨r', rfl, ?_⟩
  rw [e] at r
  replace r := Option.some.inj r
  have hf : r'.res.isFinite = true := by rw [r]; exact g3.1
  have hp : 0 < r'.res.val := by rw [r]; exact g2
  have st : Sm (of LOG2EF * of x + of (lit 0.5)) 10 := by
    have : Sm (of x) 7 := Sm.of_val hx (by rw [abs_le]; constructor <;> norm_num <;> linarith)
    exact Sm.le inferInstance (by decide +kernel)
  unfold fast_expf at e
  simp only [Option.bind_eq_bind, Option.pure_def] at e
  obtain ⟨px, -, e⟩ := Option.bind_eq_some_iff.1 e
  obtain ⟨n, -, e⟩ := Option.bind_eq_some_iff.1 e
  obtain ⟨n', -, e⟩ := Option.bind_eq_some_iff.1 e
  obtain ⟨sh, -, e⟩ := Option.bind_eq_some_iff.1 e
  replace e := Option.some.inj e
  rw [← e, exc_also, join_eq, join_eq]
  rw [← e, res_also] at hf hp
  clear e
  refine ⟨?_, st.exc (by decide +kernel), cmp_fin hx (by decide +kernel)⟩
  obtain ⟨z, hz⟩ : ∃ z, z = of x - of px * of C1F - of px * of C2F := ⟨_, rfl⟩
  have gz : Good z := by rw [hz]; infer_instance
  rw [← hz] at hf hp ⊢
  have t1 : FP.lt x MINLOGF = false := by
    rcases hl : FP.lt x MINLOGF
    · rfl
    · rw [hl] at hp
      exact absurd hp (by show ¬ 0 < (lit 0 : F32).val; decide +kernel)
  rw [t1, over_false] at hf ⊢
  have t2 := over_fin hf (by decide +kernel)
  rw [t2, over_false] at hf ⊢
  exact Good.ok hf

end Vdt.Fpe
