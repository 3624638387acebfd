import Verif.Lemmas.FpeTan
import Verif.Props.Asin

/-!
# Exceptions: arc sine and arc cosine
-/

namespace Vdt.Fpe
open FP details
variable {f : Fmt}

/-- The root of a number that is not negative. -/
theorem Sm.sqrt [f.Ok] (hE : f.emin ≤ -(f.mb : ℤ) - 2) {m : Ev f} {k : ℕ} (h : Sm m k) (hs : k ≤ top f → m.res.sign = false) (hu : f.u ≤ 1) :
    Sm m.sqrt (k + 1) := ⟨fun hk => by
  obtain ⟨a1, a2, a3⟩ := h.ok (by omega)
  obtain ⟨r1, r2, r3⟩ := sqrt_nonneg_err hE a2 (hs (by omega))
  have hu' : (f.u : ℝ) ≤ 1 := by exact_mod_cast hu
  refine ⟨?_, r1, ?_⟩
  · rw [exc_sqrt, join_eq]; exact ⟨a1, raised_fin r1 _⟩
  · have b : √m.res.real ≤ 2 ^ k := by
      have h1 : m.res.real ≤ 2 ^ k := by
        have := (abs_le.1 a3).2
        have : ((m.res.val : ℚ) : ℝ) ≤ ((2 ^ k : ℚ) : ℝ) := by exact_mod_cast this
        push_cast at this; exact this
      have h2 : (1 : ℝ) ≤ 2 ^ k := one_le_pow₀ (by norm_num)
      rw [Real.sqrt_le_left (by positivity)]
      nlinarith
    have c : |(FP.sqrt m.res).real| ≤ 2 ^ (k + 1) := by
      have n := Real.sqrt_nonneg m.res.real
      have t := abs_sub_abs_le_abs_sub (FP.sqrt m.res).real (√m.res.real)
      rw [abs_of_nonneg n] at t
      rw [pow_succ]
      nlinarith
    rw [real_abs] at c
    rw [res_sqrt]
    have : ((|(FP.sqrt m.res).val| : ℚ) : ℝ) ≤ ((2 ^ (k + 1) : ℚ) : ℝ) := by push_cast at c ⊢; exact c
    exact_mod_cast this⟩

/-- include/asin.h:128-130 -/
def asinQuoE : E b64 := ((E.var 0).mul (asinRE (.var 0))).div (asinSE (.var 0))
theorem asinQuo_con (d : F64) : asinQuoE.Con (fun _ => d) (d * details.getRX d / details.getSX d) := by
  unfold asinQuoE asinRE asinSE details.getRX details.getSX; con
theorem asinQuoE_ok : covers (okAbs b64 asinQuoE (1 / 1000)) (grid 0 1 8) = true := by decide +kernel
theorem asinQuo_le : pratio (0 :: asinRl) asinSl 1 (grid 0 1 4) = true := by decide +kernel

theorem asinQuoE_real (x : ℝ) : asinQuoE.evalR (fun _ => x) = pev (0 :: asinRl) x / pev asinSl x := by
  have : asinQuoE.evalR (fun _ => x) = x * (asinRE (.var 0)).evalR (fun _ => x) / (asinSE (.var 0)).evalR (fun _ => x) := rfl
  rw [this, asinRE_real, asinSE_real, pev_cons]
  show x * pev asinRl x / pev asinSl x = _
  push_cast; rw [zero_add]

theorem asinQuo_bound {d : F64} (hd : d.isFinite = true) (h0 : 0 ≤ d.val) (h1 : d.val ≤ 1) :
    (d * details.getRX d / details.getSX d).isFinite = true ∧ |(d * details.getRX d / details.getSX d).val| ≤ 2 ^ 1 := by
  have r0 : ((0 : ℚ) : ℝ) ≤ d.real := by unfold FP.real; exact_mod_cast h0
  have r1 : d.real ≤ ((1 : ℚ) : ℝ) := by unfold FP.real; exact_mod_cast h1
  obtain ⟨s, t, hst, g1, g2⟩ := covers_spans asinQuoE_ok (a := 0) (b := 1) (by decide +kernel) r0 r1
  have k := okAbs_con hst hd g1 g2 (asinQuo_con d)
  have p := pratio_sound asinQuo_le (a := 0) (b := 1) (by decide +kernel) r0 r1
  rw [asinQuoE_real] at k
  refine ⟨k.1, ?_⟩
  have b : |pev (0 :: asinRl) d.real / pev asinSl d.real| ≤ 1 := by
    rw [Rat.cast_one, one_mul] at p
    have n := (abs_nonneg _).trans p
    rw [abs_div, abs_of_nonneg n]
    exact div_le_one_of_le₀ p n
  have t := abs_sub_abs_le_abs_sub (d * details.getRX d / details.getSX d).real (pev (0 :: asinRl) d.real / pev asinSl d.real)
  have c : |(d * details.getRX d / details.getSX d).real| ≤ 2 := by
    have := k.2
    push_cast at this
    linarith
  rw [real_abs] at c
  rw [pow_one]
  exact_mod_cast c

/-- include/asin.h:127-137 -/
theorem exc_asinLarge {a : F64} (ha : a.isFinite = true) (hs : a.sign = false) (h : a.val ≤ 1) : (asinLarge (of a)).exc = {} := by
  have l := lit1_64
  have a0 := val_nonneg_of_sign hs
  have sa : Sm (of a) 0 := Sm.of_val ha (by rw [pow_zero, abs_of_nonneg a0]; exact h)
  have s1 : Sm (of (lit 1.0) - of a) 2 := Sm.le inferInstance (by decide +kernel)
  have d := sub_spec l.1 ha (by rw [l.2.1, abs_of_nonneg (by linarith)]; exact le_trans (b := 1) (by linarith) (by decide +kernel))
  have d0 : 0 ≤ (lit 1.0 - a).val ∧ (lit 1.0 - a).val ≤ 1 := by
    rw [sub_def, d.2, l.2.1]
    have e := rnd_mono b64 (show (0 : ℚ) ≤ 1 - a.val by linarith)
    have e2 := rnd_mono b64 (show 1 - a.val ≤ (1 : ℚ) by linarith)
    exact ⟨le_trans (by decide +kernel) e, e2.trans (by decide +kernel)⟩
  have ds : (lit 1.0 - a).sign = false := sub_sign_nonneg l.1 ha l.2.2 (by rw [l.2.1]; exact h)
  have q := asinQuo_bound d.1 d0.1 d0.2
  obtain ⟨z, hz⟩ : ∃ z, z = of (lit 1.0) - of a := ⟨_, rfl⟩
  have ez : z.res = lit 1.0 - a := by rw [hz, res_sub, res_of, res_of]
  rw [← hz] at s1
  change (lit 1.0 - a).isFinite = true ∧ _ at d
  rw [← ez] at d d0 ds
  change ((lit 1.0 - a) * details.getRX (lit 1.0 - a) / details.getSX (lit 1.0 - a)).isFinite = true ∧
    |((lit 1.0 - a) * details.getRX (lit 1.0 - a) / details.getSX (lit 1.0 - a)).val| ≤ 2 ^ 1 at q
  rw [← ez] at q
  unfold asinLarge
  dsimp only
  rw [← hz]
  have g : Good z := Good.of_exc (s1.exc (by decide +kernel))
  have gr : Good (getRX z) := by unfold getRX; infer_instance
  have gd := Good.div (z * getRX z) (getSX z) (by unfold getSX; exact Sm.exc inferInstance (by decide +kernel))
  have sq : Sm (z * getRX z / getSX z) 1 := by
    have e : (z * getRX z / getSX z).res = z.res * details.getRX z.res / details.getSX z.res := by rw [res_div, res_mul, res_RX, res_SX]
    rw [← e] at q
    exact Sm.mk' (gd.ok q.1) q.1 q.2
  have ss : Sm (z + z).sqrt 4 := Sm.sqrt (k := 3) emin64 inferInstance (fun _ => by
    rw [res_add]; exact add_sign_nonneg d.1 d.1 ds (by linarith [d0.1])) (by decide +kernel)
  exact Sm.exc inferInstance (by decide +kernel)

/-- include/asin.h:140-144 -/
theorem exc_asinSmall {a : F64} (ha : a.isFinite = true) (hs : a.sign = false) (h : a.val ≤ 0.625) : (asinSmall (of a)).exc = {} := by
  have a0 := val_nonneg_of_sign hs
  have sa : Sm (of a) 0 := Sm.of_val ha (by rw [pow_zero, abs_of_nonneg a0]; norm_num at h ⊢; linarith)
  have r0 : ((0 : ℚ) : ℝ) ≤ a.real := by unfold FP.real; exact_mod_cast a0
  have r1 : a.real ≤ ((0.625 : ℚ) : ℝ) := by unfold FP.real; exact_mod_cast h
  obtain ⟨s, t, hst, g1, g2⟩ := covers_spans asinSmallE_ok (a := 0) (b := 0.625) (by decide +kernel) r0 r1
  have rn := (okRel1_con (by norm_num) hst ha g1 g2 (asinSmall_con (fun _ => false) a)).1
  have e : asinSmallC (fun _ => false) a = (asinSmall (of a)).res := by
    rw [res_asinSmall]
    plain [asinSmallC, getPXC, getQXC, details.asinSmall, details.getPX, details.getQX]
    rfl
  rw [e] at rn
  have sz : Sm (of a * of a) 0 := inferInstance
  unfold asinSmall at rn ⊢
  dsimp only at rn ⊢
  generalize of a * of a = z at *
  have g : Good z := Good.of_exc (sz.exc (by decide +kernel))
  have gr : Good (getPX z) := by unfold getPX; infer_instance
  have gd := Good.div (z * getPX z) (getQX z) (by unfold getQX; exact Sm.exc inferInstance (by decide +kernel))
  exact Good.ok rn

theorem exc_asin {x : F64} (hx : x.isFinite = true) (h : |x.val| ≤ 1) : (fast_asin x).exc = {} := by
  have ha : (FP.abs x).isFinite = true := by rw [abs_finite]; exact hx
  have hv : (FP.abs x).val ≤ 1 := by rw [val_abs]; exact h
  have hs : (FP.abs x).sign = false := rfl
  unfold fast_asin
  dsimp only
  rw [exc_map, exc_also, join_eq]
  refine ⟨Good.over (Good.over (exc_asinLarge ha hs hv) fun t => exc_asinSmall ha hs ?_) fun _ => rfl, cmp_fin ha (by decide +kernel)⟩
  rw [lt_fin ha (by decide +kernel), decide_eq_true_eq] at t
  exact t.le.trans (by decide +kernel)

theorem exc_acos {x : F64} (hx : x.isFinite = true) (h : |x.val| ≤ 1) : (fast_acos x).exc = {} := by
  have r : (fast_acos x).res.isFinite = true := by rw [res_acos]; exact (C27_acos_accurate x hx h).1.1
  have g : Good (fast_asin x) := Good.of_exc (exc_asin hx h)
  unfold fast_acos at r ⊢
  exact Good.ok r

theorem exc_asinf {x : F32} (hx : x.isFinite = true) (h : |x.val| ≤ 1) : (fast_asinf x).exc = {} := by
  have ha : (FP.abs x).isFinite = true := by rw [abs_finite]; exact hx
  have hv : |(FP.abs x).val| ≤ 1 := by rw [val_abs, abs_abs]; exact h
  have hf : (fast_asinf x).res.isFinite = true := by rw [res_asinf]; exact (C28_asinf_accurate x hx h).1.1
  unfold fast_asinf at hf ⊢
  dsimp only at hf ⊢
  rw [exc_map, exc_also, join_eq]
  rw [res_map, res_also, spOR_signMask] at hf
  refine ⟨?_, cmp_fin ha (by decide +kernel)⟩
  generalize FP.abs x = a at *
  rcases t : FP.lt a (lit 1e-4)
  · rw [t, if_neg Bool.false_ne_true] at hf
    rw [if_neg Bool.false_ne_true]
    generalize FP.gt a (lit 0.5) = b at *
    obtain ⟨z, hz⟩ : ∃ z, z = if b = true then of (lit 0.5) * (of (lit 1) - of a) else of a * of a := ⟨_, rfl⟩
    have gz : Good z := by rw [hz]; infer_instance
    rw [← hz] at hf ⊢
    obtain ⟨r, hr⟩ : ∃ r, r = if b = true then z.sqrt else of a := ⟨_, rfl⟩
    have gr : Good r := by rw [hr]; infer_instance
    rw [← hr] at hf ⊢
    obtain ⟨w, hw⟩ : ∃ w, w = ((((of (lit 4.2163199048E-2) * z + of (lit 2.4181311049E-2)) * z + of (lit 4.5470025998E-2)) * z +
      of (lit 7.4953002686E-2)) * z + of (lit 1.6666752422E-1)) * z * r + r := ⟨_, rfl⟩
    have gw : Good w := by rw [hw]; infer_instance
    rw [← hw] at hf ⊢
    exact Good.ok hf
  · have nb : FP.gt a (lit 0.5) = false := by
      rw [lt_fin ha (by decide +kernel), decide_eq_true_eq] at t
      rw [gt_fin ha (by decide +kernel), decide_eq_false_iff_not, not_lt]
      exact t.le.trans (by decide +kernel)
    have sa : Sm (of a) 0 := Sm.of_val ha (by rw [pow_zero]; exact hv)
    rw [nb, if_pos rfl, exc_also, join_eq]
    refine ⟨rfl, ?_⟩
    simp only [if_neg Bool.false_ne_true]
    exact Sm.exc inferInstance (by decide +kernel)

theorem exc_acosf {x : F32} (hx : x.isFinite = true) (h : |x.val| ≤ 1) : (fast_acosf x).exc = {} := by
  have r : (fast_acosf x).res.isFinite = true := by rw [res_acosf]; exact (C28_acosf_accurate x hx h).1.1
  have g : Good (fast_asinf x) := Good.of_exc (exc_asinf hx h)
  unfold fast_acosf at r ⊢
  exact Good.ok r

end Vdt.Fpe
