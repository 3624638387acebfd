import Verif.Lemmas.SincosRange

/-! # Sine and cosine, single precision, beyond 8192: the rounding errors of the reduction grow with the argument -/

namespace Vdt
open FP details Ab

section
variable {f : Fmt} [f.Ok]

/-- `a - p*c`, fused or not. -/
theorem nmad_step (b : Bool) {a p c : FP f} {α da e W : ℚ} (ha : a.isFinite = true) (hp : p.isFinite = true) (hc : c.isFinite = true)
    (h1 : |a.val - α| ≤ da) (hm : (p * c).isFinite = true ∧ |(p * c).val - p.val * c.val| ≤ e)
    (hW : |α - p.val * c.val| + da + e ≤ W) (hB : W ≤ f.big) :
    (nmad b p c a).isFinite = true ∧ |(nmad b p c a).val - (α - p.val * c.val)| ≤ da + e + (f.u * W + f.eta) := by
  cases b
  · exact sub_step ha hm.1 h1 hm.2 hW hB
  · have e0 : 0 ≤ e := (abs_nonneg _).trans hm.2
    have hn : (-p).isFinite = true := by simpa using hp
    have hv : (-p).val * c.val + a.val = a.val - p.val * c.val := by rw [neg_def, val_neg]; ring
    have h3 : |a.val - p.val * c.val - (α - p.val * c.val)| ≤ da := by
      rw [show a.val - p.val * c.val - (α - p.val * c.val) = a.val - α by ring]; exact h1
    have h4 : |a.val - p.val * c.val| ≤ W := by
      have := abs_sub_abs_le_abs_sub (a.val - p.val * c.val) (α - p.val * c.val)
      linarith
    have h := fma_spec hn hc ha (by rw [hv]; exact h4.trans hB)
    rw [hv] at h
    refine ⟨h.1, ?_⟩
    change |(fma (-p) c a).val - _| ≤ _
    rw [h.2]
    have h5 := rnd_err_add f (h4.trans hB)
    have h6 := mul_le_mul_of_nonneg_left h4 f.u_pos.le
    have h7 := abs_sub_le (rnd f (a.val - p.val * c.val)) (a.val - p.val * c.val) (α - p.val * c.val)
    linarith

/-- What the bounds of `reduce_far` have to satisfy. -/
def FarOk (f : Fmt) [f.Ok] (c c1 c2 c3 l X H N e1 e2 e3 R W1 W2 W3 Z : ℚ) : Prop :=
  l * (1 + H) + |1 - c * l| * X ≤ R ∧ R + N * |l - c1| + 0 + e1 ≤ W1 ∧
  R + N * |l - c1 - c2| + (0 + e1 + (f.u * W1 + f.eta)) + e2 ≤ W2 ∧
  R + N * |l - c1 - c2 - c3| + (0 + e1 + (f.u * W1 + f.eta) + e2 + (f.u * W2 + f.eta)) + e3 ≤ W3 ∧
  W1 ≤ f.big ∧ W2 ≤ f.big ∧ W3 ≤ f.big ∧
  N * |l - c1 - c2 - c3| + (0 + e1 + (f.u * W1 + f.eta) + e2 + (f.u * W2 + f.eta) + e3 + (f.u * W3 + f.eta)) ≤ Z

instance (c c1 c2 c3 l X H N e1 e2 e3 R W1 W2 W3 Z : ℚ) : Decidable (FarOk f c c1 c2 c3 l X H N e1 e2 e3 R W1 W2 W3 Z) := by
  unfold FarOk; infer_instance

/-- The reduction with every rounding error counted, whatever is fused. -/
theorem reduce_far (pol : Policy) {c c1 c2 c3 x p : FP f} {X H N l e1 e2 e3 R W1 W2 W3 Z t : ℚ} {m : ℕ}
    (hx : x.isFinite = true) (hx0 : 0 ≤ x.val) (hxX : x.val ≤ X)
    (hc1 : c1.isFinite = true) (hc2 : c2.isFinite = true) (hc3 : c3.isFinite = true)
    (hp : p.isFinite = true) (hpv : p.val = 2 * m)
    (q1 : 2 * (m : ℚ) - 1 ≤ t) (q2 : t < 2 * m + 1) (q3 : |t - c.val * x.val| ≤ H)
    (hN : 2 * (m : ℚ) ≤ N) (hl : 0 < l)
    (p1 : (p * c1).isFinite = true ∧ |(p * c1).val - p.val * c1.val| ≤ e1)
    (p2 : (p * c2).isFinite = true ∧ |(p * c2).val - p.val * c2.val| ≤ e2)
    (p3 : (p * c3).isFinite = true ∧ |(p * c3).val - p.val * c3.val| ≤ e3)
    (ok : FarOk f c.val c1.val c2.val c3.val l X H N e1 e2 e3 R W1 W2 W3 Z) :
    (reduceC pol x p c1 c2 c3).isFinite = true ∧ |x.val - 2 * m * l| ≤ R ∧
      |(reduceC pol x p c1 c2 c3).val - (x.val - 2 * m * l)| ≤ Z := by
  obtain ⟨hR, hW1, hW2, hW3, hV1, hV2, hV3, hZ⟩ := ok
  have hm0 : (0 : ℚ) ≤ 2 * m := by positivity
  have hXR : |x.val - 2 * m * l| ≤ R := by
    have e : x.val - 2 * m * l = (1 - c.val * l) * x.val + l * ((t - 2 * m) - (t - c.val * x.val)) := by ring
    have h1 : |(1 - c.val * l) * x.val| ≤ |1 - c.val * l| * X := by
      rw [abs_mul, abs_of_nonneg hx0]; exact mul_le_mul_of_nonneg_left hxX (abs_nonneg _)
    have h2 : |(t - 2 * m) - (t - c.val * x.val)| ≤ 1 + H := by
      refine (abs_sub _ _).trans (add_le_add ?_ q3)
      rw [abs_le]; constructor <;> linarith
    have h3 : |l * ((t - 2 * m) - (t - c.val * x.val))| ≤ l * (1 + H) := by
      rw [abs_mul, abs_of_pos hl]; exact mul_le_mul_of_nonneg_left h2 hl.le
    rw [e]
    refine (abs_add_le _ _).trans ?_
    linarith
  have tri : ∀ d : ℚ, |x.val - 2 * m * (l - d)| ≤ R + N * |d| := by
    intro d
    have e : x.val - 2 * m * (l - d) = (x.val - 2 * m * l) + 2 * m * d := by ring
    rw [e]
    refine (abs_add_le _ _).trans (add_le_add hXR ?_)
    rw [abs_mul, abs_of_nonneg hm0]
    exact mul_le_mul_of_nonneg_right hN (abs_nonneg _)
  have t1 := tri (l - c1.val)
  have t2 := tri (l - c1.val - c2.val)
  have t3 := tri (l - c1.val - c2.val - c3.val)
  have s1 := nmad_step (pol 0) (α := x.val) (da := 0) (W := W1) hx hp hc1 (by simp) p1
    (by rw [hpv, show x.val - 2 * m * c1.val = x.val - 2 * m * (l - (l - c1.val)) by ring]; linarith) hV1
  have s2 := nmad_step (pol 1) (W := W2) s1.1 hp hc2 s1.2 p2
    (by rw [hpv, show x.val - 2 * m * c1.val - 2 * m * c2.val = x.val - 2 * m * (l - (l - c1.val - c2.val)) by ring]; linarith) hV2
  have s3 := nmad_step (pol 2) (W := W3) s2.1 hp hc3 s2.2 p3
    (by rw [hpv, show x.val - 2 * m * c1.val - 2 * m * c2.val - 2 * m * c3.val = x.val - 2 * m * (l - (l - c1.val - c2.val - c3.val)) by ring]
        linarith) hV3
  refine ⟨s3.1, hXR, ?_⟩
  have e := s3.2
  rw [hpv] at e
  change |(reduceC pol x p c1 c2 c3).val - _| ≤ _ at e
  have e2 : ∀ v : ℚ, v - (x.val - 2 * m * l) = (v - (x.val - 2 * m * c1.val - 2 * m * c2.val - 2 * m * c3.val)) +
      2 * m * (l - c1.val - c2.val - c3.val) := by intro v; ring
  rw [e2]
  have h4 : |2 * m * (l - c1.val - c2.val - c3.val)| ≤ N * |l - c1.val - c2.val - c3.val| := by
    rw [abs_mul, abs_of_nonneg hm0]; exact mul_le_mul_of_nonneg_right hN (abs_nonneg _)
  refine (abs_add_le _ _).trans ?_
  linarith
end

theorem taylor_one {x : ℝ} (h : |x| ≤ 1) : |Real.sin x - x * pev sinTl (x * x)| ≤ 2 ^ (-50 : ℤ) ∧
    |Real.cos x - pev cosTl (x * x)| ≤ 2 ^ (-50 : ℤ) := by
  rw [← sinTl_eq, ← cosTl_eq]
  have p : ∀ n, |x| ^ n ≤ 1 := fun n => pow_le_one₀ (abs_nonneg _) h
  constructor
  · refine ((taylor 9).2 x).trans ((div_le_div_of_nonneg_right (p _) (by positivity)).trans ?_)
    norm_num [Nat.factorial]
  · refine ((taylor 9).1 x).trans ((div_le_div_of_nonneg_right (p _) (by positivity)).trans ?_)
    norm_num [Nat.factorial]

/-- The polynomials outside the interval they are made for. -/
theorem sincosf_approx_of {b C : ℚ} {l : List ℚ} (hb1 : b ≤ 1)
    (o1 : pratio (psub sinfPl sinTl) [1] C l = true) (o2 : pratio (psub cosfPl cosTl) [1] C l = true)
    (sp : spans l 0 (b * b) = true) {x : ℝ} (h : |x| ≤ b) :
    |x * pev sinfPl (x * x) - Real.sin x| ≤ C + 2 ^ (-50 : ℤ) ∧ |pev cosfPl (x * x) - Real.cos x| ≤ C + 2 ^ (-50 : ℤ) := by
  have h1 : |x| ≤ 1 := h.trans (by exact_mod_cast hb1)
  obtain ⟨t1, t2⟩ := taylor_one h1
  have w0 : 0 ≤ x * x := mul_self_nonneg x
  have w1 : x * x ≤ ((b * b : ℚ) : ℝ) := by
    push_cast; rw [← abs_mul_abs_self]; exact mul_self_le_mul_self (abs_nonneg _) h
  have p1 := pratio_sound (n := psub sinfPl sinTl) (d := [1]) (C := C) (l := l) (a := 0) (b := b * b) o1 sp (by exact_mod_cast w0) w1
  have p2 := pratio_sound (n := psub cosfPl cosTl) (d := [1]) (C := C) (l := l) (a := 0) (b := b * b) o2 sp (by exact_mod_cast w0) w1
  rw [pev_sub] at p1 p2
  have d1 : pev [1] (x * x) = 1 := by simp [pev_cons, pev_nil]
  rw [d1, mul_one] at p1 p2
  constructor
  · have e : x * pev sinfPl (x * x) - Real.sin x = x * (pev sinfPl (x * x) - pev sinTl (x * x)) - (Real.sin x - x * pev sinTl (x * x)) := by ring
    rw [e]
    refine (abs_sub _ _).trans (add_le_add ?_ t1)
    rw [abs_mul]
    exact (mul_le_of_le_one_left (abs_nonneg _) h1).trans p1
  · have e : pev cosfPl (x * x) - Real.cos x = (pev cosfPl (x * x) - pev cosTl (x * x)) - (Real.cos x - pev cosTl (x * x)) := by ring
    rw [e]
    exact (abs_sub _ _).trans (add_le_add p2 t2)

/-- The evaluation of the polynomials outside the interval they are made for. -/
theorem sincosf_eval_of (p : Policy) {b C D : ℚ} {l g : List ℚ} (hb1 : b ≤ 1)
    (o1 : pratio (psub sinfPl sinTl) [1] C l = true) (o2 : pratio (psub cosfPl cosTl) [1] C l = true)
    (sp : spans l 0 (b * b) = true) (r1 : covers (okAbs b32 sinfE D) g = true) (r2 : covers (okAbs b32 cosfE D) g = true)
    (sg : spans g (-b) b = true) {z : F32} (hz : z.isFinite = true) (h : |z.val| ≤ b) :
    (sincosfCoreC p z).1.isFinite = true ∧ (sincosfCoreC p z).2.isFinite = true ∧
    |(sincosfCoreC p z).1.real - Real.sin z.real| ≤ D + (C + 2 ^ (-50 : ℤ)) ∧
    |(sincosfCoreC p z).2.real - Real.cos z.real| ≤ D + (C + 2 ^ (-50 : ℤ)) := by
  have hr : |z.real| ≤ b := by unfold FP.real; exact_mod_cast h
  obtain ⟨a1, a2⟩ := sincosf_approx_of hb1 o1 o2 sp hr
  rw [abs_le] at hr
  obtain ⟨s, t, hst, h1, h2⟩ := covers_spans r1 sg (x := z.real) (by push_cast; linarith) (by linarith)
  have e1 := okAbs_con hst hz h1 h2 (sinfE_con p z)
  rw [sinfE_real] at e1
  obtain ⟨s', t', hst', h1', h2'⟩ := covers_spans r2 sg (x := z.real) (by push_cast; linarith) (by linarith)
  have e2 := okAbs_con hst' hz h1' h2' (cosfE_con p z)
  rw [cosfE_real] at e2
  exact ⟨e1.1, e2.1, (abs_sub_le _ _ _).trans (add_le_add e1.2 a1), (abs_sub_le _ _ _).trans (add_le_add e2.2 a2)⟩

theorem core08 (p : Policy) {z : F32} (hz : z.isFinite = true) (h : |z.val| ≤ 0.8) :
    (sincosfCoreC p z).1.isFinite = true ∧ (sincosfCoreC p z).2.isFinite = true ∧
    |(sincosfCoreC p z).1.real - Real.sin z.real| ≤ 2 ^ (-22 : ℤ) ∧ |(sincosfCoreC p z).2.real - Real.cos z.real| ≤ 2 ^ (-22 : ℤ) := by
  obtain ⟨a, b, c, d⟩ := sincosf_eval_of p (b := 0.8) (C := 2 * 2 ^ (-24 : ℤ)) (D := 1.5 * 2 ^ (-24 : ℤ)) (l := grid 0 0.64 16)
    (g := grid (-0.8) 0.8 16) (by norm_num) (by decide +kernel) (by decide +kernel) (by decide +kernel) (by decide +kernel)
    (by decide +kernel) (by decide +kernel) hz h
  refine ⟨a, b, c.trans ?_, d.trans ?_⟩ <;> norm_num

theorem core1 (p : Policy) {z : F32} (hz : z.isFinite = true) (h : |z.val| ≤ 1) :
    (sincosfCoreC p z).1.isFinite = true ∧ (sincosfCoreC p z).2.isFinite = true ∧
    |(sincosfCoreC p z).1.real - Real.sin z.real| ≤ 2 ^ (-18 : ℤ) ∧ |(sincosfCoreC p z).2.real - Real.cos z.real| ≤ 2 ^ (-18 : ℤ) := by
  obtain ⟨a, b, c, d⟩ := sincosf_eval_of p (b := 1) (C := 60 * 2 ^ (-24 : ℤ)) (D := 2 * 2 ^ (-24 : ℤ)) (l := grid 0 1 16)
    (g := grid (-1) 1 16) (by norm_num) (by decide +kernel) (by decide +kernel) (by decide +kernel) (by decide +kernel)
    (by decide +kernel) (by decide +kernel) hz h
  refine ⟨a, b, c.trans ?_, d.trans ?_⟩ <;> norm_num

/-- Everything together for arguments up to `X`; `K` is the error of the polynomials. -/
theorem sincosfC_far (pol : Policy) {X M N e1 R W1 W2 W3 Z b K : ℚ} {x : F32} (hx : x.isFinite = true) (h : |x.val| ≤ X)
    (hM : ONEOPIO4F.val * X ≤ M) (hM0 : 0 < M) (hMN : M + hulp b32 M + 1 ≤ N) (hN : N ≤ 16777216)
    (he1 : ∀ m : ℕ, 2 * (m : ℚ) ≤ N → ((ofInt (2 * m) : F32) * DP1F).isFinite = true ∧
      |((ofInt (2 * m) : F32) * DP1F).val - (ofInt (2 * m) : F32).val * DP1F.val| ≤ e1)
    (ok : FarOk b32 ONEOPIO4F.val DP1F.val DP2F.val DP3F.val (piQ / 4) X (hulp b32 M) N e1 (b32.u * (N * DP2F.val) + b32.eta)
      (b32.u * (N * DP3F.val) + b32.eta) R W1 W2 W3 Z) (hb : R + Z ≤ b)
    (core : ∀ z : F32, z.isFinite = true → |z.val| ≤ b → (sincosfCoreC pol z).1.isFinite = true ∧ (sincosfCoreC pol z).2.isFinite = true ∧
      |(sincosfCoreC pol z).1.real - Real.sin z.real| ≤ K ∧ |(sincosfCoreC pol z).2.real - Real.cos z.real| ≤ K) :
    ∃ s c, fast_sincosfC pol x = some (s, c) ∧ s.isFinite = true ∧ c.isFinite = true ∧
      |s.real - Real.sin x.real| ≤ K + (Z + 1 / 10 ^ 30) ∧ |c.real - Real.cos x.real| ≤ K + (Z + 1 / 10 ^ 30) := by
  have hax : (FP.abs x).isFinite = true := by simpa using hx
  have hav : (FP.abs x).val = |x.val| := val_abs x
  have h0 := abs_val_nonneg x
  rw [← hav] at h
  have big : (16777216 : ℚ) ≤ b32.big := by decide +kernel
  have hu : 0 ≤ hulp b32 M := by unfold hulp; exact (p2_pos _).le
  obtain ⟨m, ⟨q0, hq, hq2⟩, hm, q1, q2, q3⟩ := quad_spec (f := b32) (c := ONEOPIO4F) (X := X) (M := M) (by decide +kernel)
    (by decide +kernel) hax h0 h hM hM0 (by linarith) (by linarith)
  have hmN : 2 * (m : ℚ) ≤ N := by
    have h1 : ONEOPIO4F.val * (FP.abs x).val ≤ M := (mul_le_mul_of_nonneg_left h (by decide +kernel)).trans hM
    rw [abs_le] at q3
    linarith
  have hm24 : 2 * m ≤ 16777216 := by exact_mod_cast hmN.trans hN
  have i := ofInt_spec32 (n := 2 * m) (by rw [abs_of_nonneg (by omega)]; omega)
  have hpv : (ofInt (2 * m) : F32).val = 2 * m := by rw [i.2]; push_cast; rfl
  have hpN : |(ofInt (2 * m) : F32).val| ≤ N := by rw [hpv, abs_of_nonneg (by positivity)]; exact hmN
  have d2 : 0 < DP2F.val ∧ DP2F.val ≤ 1 := by decide +kernel
  have d3 : 0 < DP3F.val ∧ DP3F.val ≤ 1 := by decide +kernel
  have N0 : 0 ≤ N := (abs_nonneg _).trans hpN
  have p2 := mul_step (f := b32) (c := DP2F) (Q := N * DP2F.val) i.1 (by decide +kernel) hpN (by rw [abs_of_pos d2.1])
    ((mul_le_of_le_one_right N0 d2.2).trans (hN.trans big))
  have p3 := mul_step (f := b32) (c := DP3F) (Q := N * DP3F.val) i.1 (by decide +kernel) hpN (by rw [abs_of_pos d3.1])
    ((mul_le_of_le_one_right N0 d3.2).trans (hN.trans big))
  obtain ⟨r1, r2, r3⟩ := reduce_far pol (c := ONEOPIO4F) hax h0 h (by decide +kernel) (by decide +kernel) (by decide +kernel) i.1 hpv
    q1 q2 q3 hmN (by decide +kernel) (he1 m hmN) p2 p3 ok
  have e : fast_sincosfC pol x = some (sincosTail (sincosfCoreC pol (reduceC pol (FP.abs x) (ofInt (2 * m)) DP1F DP2F DP3F)) (2 * m)
      (FP.lt x (ofInt 0))) := by
    unfold fast_sincosfC
    rw [fast_sincosfCM_eq, hq]
    simp only [Option.bind_eq_bind, Option.bind_some, Option.pure_def, hq2]
  generalize reduceC pol (FP.abs x) (ofInt (2 * m)) DP1F DP2F DP3F = z at *
  obtain ⟨c1, c2, c3, c4⟩ := core z r1 (by
    have := abs_sub_abs_le_abs_sub z.val ((FP.abs x).val - 2 * m * (piQ / 4))
    linarith)
  generalize sincosfCoreC pol z = sc at *
  rw [hav] at r3
  have r3' : |z.real - (|x.real| - 2 * m * (piQ / 4))| ≤ Z := by
    have := (Rat.cast_le (K := ℝ)).2 r3
    push_cast at this; unfold FP.real; exact this
  have hd : |z.real - (|x.real| - m * (Real.pi / 2))| ≤ Z + 1 / 10 ^ 30 := by
    have hp := pi_near
    have hmR : (m : ℝ) ≤ 8388608 := by exact_mod_cast (by omega : m ≤ 8388608)
    have hd : |m / 2 * (Real.pi - piQ)| ≤ 8388608 * (1 / 10 ^ 38) := by
      rw [abs_mul, abs_of_nonneg (by positivity : (0 : ℝ) ≤ m / 2)]
      exact mul_le_mul (by linarith) hp (abs_nonneg _) (by norm_num)
    have e : z.real - (|x.real| - m * (Real.pi / 2)) = (z.real - (|x.real| - 2 * m * (piQ / 4))) + m / 2 * (Real.pi - piQ) := by ring
    rw [e]
    refine (abs_add_le _ _).trans (add_le_add r3' (hd.trans ?_))
    norm_num
  have t := tail_acc (neg := FP.lt x (ofInt 0)) hm c1 c2 c3 c4 hd (lt_zero_real hx (by decide +kernel) (by decide +kernel))
  exact ⟨_, _, e, t⟩

/-- Up to `2^17` the number of the octant times `DP1F` is exact. -/
theorem dp1_exact (m : ℕ) (h : 2 * (m : ℚ) ≤ 166889) : ((ofInt (2 * m) : F32) * DP1F).isFinite = true ∧
      |((ofInt (2 * m) : F32) * DP1F).val - (ofInt (2 * m) : F32).val * DP1F.val| ≤ 0 := by
  have hm : 2 * m ≤ 166889 := by exact_mod_cast h
  have i := ofInt_spec32 (n := 2 * m) (by rw [abs_of_nonneg (by omega)]; omega)
  have hd : DP1F.val = 201 * p2 (-8) := by decide +kernel
  have hv : (ofInt (2 * m) : F32).val * DP1F.val = ((201 * m : ℤ) : ℚ) * p2 (-7) := by
    rw [i.2, hd, show p2 (-7) = 2 * p2 (-8) by decide +kernel]; push_cast; ring
  have s := mul_exact (f := b32) (x := ofInt (2 * m)) (y := DP1F) i.1 (by decide +kernel)
    ⟨201 * m, -7, hv, by rw [abs_of_nonneg (by omega)]; norm_num; omega, by decide⟩ (by
      rw [hv, show p2 (-7) = 1 / 128 by decide +kernel, abs_of_nonneg (by positivity)]
      have h1 : (16777216 : ℚ) ≤ b32.big := by decide +kernel
      push_cast
      linarith)
  exact ⟨s.1, by rw [s.2]; simp⟩

/-- The rounding error of the octant times `DP1F`. -/
theorem dp1_round {N : ℚ} (hN : N ≤ 16777216) (m : ℕ) (h : 2 * (m : ℚ) ≤ N) : ((ofInt (2 * m) : F32) * DP1F).isFinite = true ∧
      |((ofInt (2 * m) : F32) * DP1F).val - (ofInt (2 * m) : F32).val * DP1F.val| ≤ b32.u * (N * DP1F.val) + b32.eta := by
  have hm24 : 2 * m ≤ 16777216 := by exact_mod_cast h.trans hN
  have i := ofInt_spec32 (n := 2 * m) (by rw [abs_of_nonneg (by omega)]; omega)
  have hpv : (ofInt (2 * m) : F32).val = 2 * m := by rw [i.2]; push_cast; rfl
  have hpN : |(ofInt (2 * m) : F32).val| ≤ N := by rw [hpv, abs_of_nonneg (by positivity)]; exact h
  have d : 0 < DP1F.val ∧ DP1F.val ≤ 1 := by decide +kernel
  exact mul_step (f := b32) (c := DP1F) (Q := N * DP1F.val) i.1 (by decide +kernel) hpN (by rw [abs_of_pos d.1])
    ((mul_le_of_le_one_right ((abs_nonneg _).trans hpN) d.2).trans (hN.trans (by decide +kernel)))

theorem far18 (pol : Policy) {x : F32} (hx : x.isFinite = true) (h : |x.val| ≤ 262144) :
    ∃ s c, fast_sincosfC pol x = some (s, c) ∧ s.isFinite = true ∧ c.isFinite = true ∧
      |s.real - Real.sin x.real| ≤ 2 ^ (-18 : ℤ) + (262229.54 / 2 ^ 24 + 1 / 10 ^ 30) ∧ |c.real - Real.cos x.real| ≤ 2 ^ (-18 : ℤ) + (262229.54 / 2 ^ 24 + 1 / 10 ^ 30) := by
  have r := sincosfC_far pol (X := 262144) (M := 333773) (N := 333775) (e1 := b32.u * (333775 * DP1F.val) + b32.eta) (R := 0.80825) (W1 := 81.57) (W2 := 0.83648) (W3 := 0.82389)
    (Z := 262229.54 / 2 ^ 24) (b := 1) (K := 2 ^ (-18 : ℤ)) hx h (by decide +kernel) (by norm_num) (by decide +kernel) (by norm_num)
    (fun m h => dp1_round (by norm_num) m h) (by decide +kernel) (by norm_num) (fun z hz h => by simpa using core1 pol hz h)
  simpa using r

theorem far19 (pol : Policy) {x : F32} (hx : x.isFinite = true) (h : |x.val| ≤ 524288) :
    ∃ s c, fast_sincosfC pol x = some (s, c) ∧ s.isFinite = true ∧ c.isFinite = true ∧
      |s.real - Real.sin x.real| ≤ 2 ^ (-18 : ℤ) + (524454.37 / 2 ^ 24 + 1 / 10 ^ 30) ∧ |c.real - Real.cos x.real| ≤ 2 ^ (-18 : ℤ) + (524454.37 / 2 ^ 24 + 1 / 10 ^ 30) := by
  have r := sincosfC_far pol (X := 524288) (M := 667545) (N := 667547) (e1 := b32.u * (667547 * DP1F.val) + b32.eta) (R := 0.8311) (W1 := 162.36) (W2 := 0.88756) (W3 := 0.86236)
    (Z := 524454.37 / 2 ^ 24) (b := 1) (K := 2 ^ (-18 : ℤ)) hx h (by decide +kernel) (by norm_num) (by decide +kernel) (by norm_num)
    (fun m h => dp1_round (by norm_num) m h) (by decide +kernel) (by norm_num) (fun z hz h => by simpa using core1 pol hz h)
  simpa using r

theorem far20 (pol : Policy) {x : F32} (hx : x.isFinite = true) (h : |x.val| ≤ 1048576) :
    ∃ s c, fast_sincosfC pol x = some (s, c) ∧ s.isFinite = true ∧ c.isFinite = true ∧
      |s.real - Real.sin x.real| ≤ 2 ^ (-18 : ℤ) + (1048904.0 / 2 ^ 24 + 1 / 10 ^ 30) ∧ |c.real - Real.cos x.real| ≤ 2 ^ (-18 : ℤ) + (1048904.0 / 2 ^ 24 + 1 / 10 ^ 30) := by
  have r := sincosfC_far pol (X := 1048576) (M := 1335089) (N := 1335091) (e1 := b32.u * (1335091 * DP1F.val) + b32.eta) (R := 0.87679) (W1 := 323.92) (W2 := 0.98971) (W3 := 0.93931)
    (Z := 1048904.0 / 2 ^ 24) (b := 1) (K := 2 ^ (-18 : ℤ)) hx h (by decide +kernel) (by norm_num) (by decide +kernel) (by norm_num)
    (fun m h => dp1_round (by norm_num) m h) (by decide +kernel) (by norm_num) (fun z hz h => by simpa using core1 pol hz h)
  simpa using r

end Vdt
