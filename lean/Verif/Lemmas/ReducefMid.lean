import Verif.Lemmas.SincosfFar

/-! # The reduction in single precision between 8192 and `2^17`, where the first subtraction is still exact -/

namespace Vdt
open FP details Ab

/-- A float of at least 8192 is a multiple of `2^-11`. -/
theorem grid11 {x : F32} (h : 8192 ≤ |x.val|) : ∃ n : ℤ, x.val = n * p2 (-11) := by
  obtain ⟨n, k, hv, hn, -⟩ := val_rep x
  have hk : -11 ≤ k := by
    by_contra hc
    have hp : p2 k ≤ p2 (-12) := p2_le (by omega)
    rw [hv, abs_mul, abs_of_pos (p2_pos k)] at h
    have hn' : (|n| : ℚ) ≤ 2 ^ 24 := by exact_mod_cast hn
    have : (|n| : ℚ) * p2 k ≤ 2 ^ 24 * p2 (-12) := mul_le_mul hn' hp (p2_pos k).le (by norm_num)
    have e : (2 : ℚ) ^ 24 * p2 (-12) = 4096 := by decide +kernel
    linarith
  refine ⟨n * 2 ^ (k + 11).toNat, ?_⟩
  rw [hv]
  have e : p2 k = 2 ^ (k + 11).toNat * p2 (-11) := by
    rw [p2_eq, p2_eq, ← zpow_natCast, ← zpow_add₀ (by norm_num)]
    congr 1; omega
  rw [e]; push_cast; ring

/-- What the bounds of `reduce_mid` have to satisfy. -/
def MidOk (c c1 c2 c3 l X H N e2 e3 R W2 W3 Z : ℚ) : Prop :=
  l * (1 + H) + |1 - c * l| * X ≤ R ∧ R + N * |l - c1| ≤ 8000 ∧ R + N * |l - c1 - c2| + 0 + e2 ≤ W2 ∧
  R + N * |l - c1 - c2 - c3| + (0 + e2 + (b32.u * W2 + b32.eta)) + e3 ≤ W3 ∧ W2 ≤ b32.big ∧ W3 ≤ b32.big ∧
  N * |l - c1 - c2 - c3| + (0 + e2 + (b32.u * W2 + b32.eta) + e3 + (b32.u * W3 + b32.eta)) ≤ Z

instance (c c1 c2 c3 l X H N e2 e3 R W2 W3 Z : ℚ) : Decidable (MidOk c c1 c2 c3 l X H N e2 e3 R W2 W3 Z) := by
  unfold MidOk; infer_instance

/-- `a - p*c`, fused or not, when nothing is rounded. -/
theorem nmad_exact (b : Bool) {a p c : F32} (ha : a.isFinite = true) (hp : p.isFinite = true) (hc : c.isFinite = true)
    (hm : (p * c).isFinite = true ∧ (p * c).val = p.val * c.val) (hr : Rep b32 (a.val - p.val * c.val)) (hb : |a.val - p.val * c.val| ≤ b32.big) :
    (nmad b p c a).isFinite = true ∧ (nmad b p c a).val = a.val - p.val * c.val := by
  cases b
  · have := sub_exact ha hm.1 (by rw [hm.2]; exact hr) (by rw [hm.2]; exact hb)
    rw [hm.2] at this; exact this
  · have hn : (-p).isFinite = true := by simpa using hp
    have hv : (-p).val * c.val + a.val = a.val - p.val * c.val := by rw [neg_def, val_neg]; ring
    have h := fma_spec hn hc ha (by rw [hv]; exact hb)
    rw [hv, rnd_exact b32 hr hb] at h
    exact h

/-- The reduction of arguments from 8192 up to `X`. -/
theorem reduce_mid (pol : Policy) {X M N R W2 W3 Z b : ℚ} {x : F32} (hx : x.isFinite = true) (h8 : 8192 ≤ |x.val|) (h : |x.val| ≤ X)
    (hM : ONEOPIO4F.val * X ≤ M) (hM0 : 0 < M) (hMN : M + hulp b32 M + 1 ≤ N) (hN : N ≤ 166889)
    (ok : MidOk ONEOPIO4F.val DP1F.val DP2F.val DP3F.val (piQ / 4) X (hulp b32 M) N (hulp b32 (N * DP2F.val))
      (hulp b32 (N * DP3F.val)) R W2 W3 Z) (hb : R + Z ≤ b) (hR : R + 0.001 ≤ b) :
    ∃ m q0, quadStep strict ONEOPIO4F (FP.abs x) = some q0 ∧ clearLow q0 = 2 * (m : ℕ) ∧ (m : ℚ) ≤ 1073741823 ∧
      (reduceC pol (FP.abs x) (ofInt (2 * m)) DP1F DP2F DP3F).isFinite = true ∧
      |(reduceC pol (FP.abs x) (ofInt (2 * m)) DP1F DP2F DP3F).val| ≤ b ∧ |(|x.real| - m * (Real.pi / 2))| ≤ b ∧
      |(reduceC pol (FP.abs x) (ofInt (2 * m)) DP1F DP2F DP3F).real - (|x.real| - m * (Real.pi / 2))| ≤ Z + 1 / 10 ^ 30 := by
  obtain ⟨oR, o1, o2, o3, v2, v3, oZ⟩ := ok
  have hax : (FP.abs x).isFinite = true := by simpa using hx
  have hav : (FP.abs x).val = |x.val| := val_abs x
  have h0 := abs_val_nonneg x
  have hg : ∃ n : ℤ, (FP.abs x).val = n * p2 (-11) := grid11 (by rw [hav, abs_abs]; exact h8)
  rw [← hav] at h
  have big : (16777216 : ℚ) ≤ b32.big := by decide +kernel
  have hu : 0 ≤ hulp b32 M := by unfold hulp; exact (p2_pos _).le
  obtain ⟨m, ⟨q0, hq, hq2⟩, hm, q1, q2, q3⟩ := quad_spec (f := b32) (c := ONEOPIO4F) (X := X) (M := M) (by decide +kernel)
    (by decide +kernel) hax h0 h hM hM0 (by linarith) (by linarith)
  have hmN : 2 * (m : ℚ) ≤ N := by
    have h1 : ONEOPIO4F.val * (FP.abs x).val ≤ M := (mul_le_mul_of_nonneg_left h (by decide +kernel)).trans hM
    rw [abs_le] at q3
    linarith
  have hm17 : 2 * m ≤ 166889 := by exact_mod_cast hmN.trans hN
  have i := ofInt_spec32 (n := 2 * m) (by rw [abs_of_nonneg (by omega)]; omega)
  have hpv : (ofInt (2 * m) : F32).val = 2 * m := by rw [i.2]; push_cast; rfl
  have hm0 : (0 : ℚ) ≤ 2 * m := by positivity
  have N0 : 0 < N := by linarith
  have mul_h : ∀ d : F32, d.isFinite = true → 0 < d.val → d.val ≤ 1 → ((ofInt (2 * m) : F32) * d).isFinite = true ∧
      |((ofInt (2 * m) : F32) * d).val - (ofInt (2 * m) : F32).val * d.val| ≤ hulp b32 (N * d.val) := by
    intro d hd d0 d1
    have hb : N * d.val ≤ b32.big := (mul_le_of_le_one_right N0.le d1).trans (by linarith)
    have hp : |(ofInt (2 * m) : F32).val * d.val| ≤ N * d.val := by
      rw [hpv, abs_of_nonneg (mul_nonneg hm0 d0.le)]
      exact mul_le_mul_of_nonneg_right hmN d0.le
    have s := mul_spec (f := b32) i.1 hd (hp.trans hb)
    refine ⟨s.1, ?_⟩
    change |(mul _ _).val - _| ≤ _
    rw [s.2]
    exact rnd_err b32 (mul_pos N0 d0) hp hb
  have p1 := dp1_exact m (hmN.trans hN)
  have p1' : ((ofInt (2 * m) : F32) * DP1F).val = (ofInt (2 * m) : F32).val * DP1F.val :=
    sub_eq_zero.1 (abs_nonpos_iff.1 p1.2)
  have k2 := mul_h DP2F (by decide +kernel) (by decide +kernel) (by decide +kernel)
  have k3 := mul_h DP3F (by decide +kernel) (by decide +kernel) (by decide +kernel)
  have hXR : |(FP.abs x).val - 2 * m * (piQ / 4)| ≤ R := by
    obtain ⟨t, ht⟩ : ∃ t, t = rnd b32 (ONEOPIO4F.val * (FP.abs x).val) := ⟨_, rfl⟩
    rw [← ht] at q1 q2 q3
    obtain ⟨l, hl⟩ : ∃ l, l = piQ / 4 := ⟨_, rfl⟩
    have l0 : 0 < l := by rw [hl]; decide +kernel
    rw [← hl] at oR ⊢
    have e : (FP.abs x).val - 2 * m * l = (1 - ONEOPIO4F.val * l) * (FP.abs x).val + l * ((t - 2 * m) - (t - ONEOPIO4F.val * (FP.abs x).val)) := by ring
    have h1 : |(1 - ONEOPIO4F.val * l) * (FP.abs x).val| ≤ |1 - ONEOPIO4F.val * l| * X := by
      rw [abs_mul, abs_of_nonneg h0]; exact mul_le_mul_of_nonneg_left h (abs_nonneg _)
    have h2 : |(t - 2 * m) - (t - ONEOPIO4F.val * (FP.abs x).val)| ≤ 1 + hulp b32 M := by
      refine (abs_sub _ _).trans (add_le_add ?_ q3)
      rw [abs_le]; constructor <;> linarith
    have h3 : |l * ((t - 2 * m) - (t - ONEOPIO4F.val * (FP.abs x).val))| ≤ l * (1 + hulp b32 M) := by
      rw [abs_mul, abs_of_pos l0]; exact mul_le_mul_of_nonneg_left h2 l0.le
    rw [e]
    refine (abs_add_le _ _).trans ?_
    linarith
  have tri : ∀ d : ℚ, |(FP.abs x).val - 2 * m * (piQ / 4 - d)| ≤ R + N * |d| := by
    intro d
    have e : (FP.abs x).val - 2 * m * (piQ / 4 - d) = ((FP.abs x).val - 2 * m * (piQ / 4)) + 2 * m * d := by ring
    rw [e]
    refine (abs_add_le _ _).trans (add_le_add hXR ?_)
    rw [abs_mul, abs_of_nonneg hm0]
    exact mul_le_mul_of_nonneg_right hmN (abs_nonneg _)
  have t1 := tri (piQ / 4 - DP1F.val)
  have t2 := tri (piQ / 4 - DP1F.val - DP2F.val)
  have t3 := tri (piQ / 4 - DP1F.val - DP2F.val - DP3F.val)
  have w1 : |(FP.abs x).val - (ofInt (2 * m) : F32).val * DP1F.val| ≤ 8000 := by
    rw [hpv, show (FP.abs x).val - 2 * m * DP1F.val = (FP.abs x).val - 2 * m * (piQ / 4 - (piQ / 4 - DP1F.val)) by ring]
    linarith
  have s1 := nmad_exact (pol 0) hax i.1 (by decide +kernel) ⟨p1.1, p1'⟩ (by
    obtain ⟨n, hn⟩ := hg
    have hd : DP1F.val = 1608 * p2 (-11) := by decide +kernel
    have e : (FP.abs x).val - (ofInt (2 * m) : F32).val * DP1F.val = ((n - 3216 * m : ℤ) : ℚ) * p2 (-11) := by
      rw [hn, hpv, hd]; push_cast; ring
    refine ⟨n - 3216 * m, -11, e, ?_, by decide⟩
    rw [e, abs_mul, abs_of_pos (p2_pos _), show p2 (-11) = 1 / 2048 by decide +kernel] at w1
    have : ((|n - 3216 * m| : ℤ) : ℚ) ≤ 16384000 := by push_cast at w1 ⊢; linarith
    have h2 : |n - 3216 * m| ≤ 16384000 := by exact_mod_cast this
    exact h2.trans (by decide)) (w1.trans (by linarith))
  have s2 := nmad_step (pol 1) (α := (FP.abs x).val - 2 * m * DP1F.val) (da := 0) (W := W2) s1.1 i.1 (by decide +kernel) (by rw [s1.2, hpv]; simp) k2
    (by rw [hpv, show (FP.abs x).val - 2 * m * DP1F.val - 2 * m * DP2F.val = (FP.abs x).val - 2 * m * (piQ / 4 - (piQ / 4 - DP1F.val - DP2F.val)) by ring]; linarith) v2
  have s3 := nmad_step (pol 2) (W := W3) s2.1 i.1 (by decide +kernel) s2.2 k3
    (by rw [hpv, show (FP.abs x).val - 2 * m * DP1F.val - 2 * m * DP2F.val - 2 * m * DP3F.val = (FP.abs x).val - 2 * m * (piQ / 4 - (piQ / 4 - DP1F.val - DP2F.val - DP3F.val)) by ring]
        linarith) v3
  refine ⟨m, q0, hq, hq2, hm, s3.1, ?_⟩
  have r3 := s3.2
  rw [hpv] at r3
  change |(reduceC pol (FP.abs x) (ofInt (2 * m)) DP1F DP2F DP3F).val - _| ≤ _ at r3
  change |(reduceC pol (FP.abs x) (ofInt (2 * m)) DP1F DP2F DP3F).val| ≤ _ ∧ _ ∧ |(reduceC pol (FP.abs x) (ofInt (2 * m)) DP1F DP2F DP3F).real - _| ≤ _
  generalize reduceC pol (FP.abs x) (ofInt (2 * m)) DP1F DP2F DP3F = z at *
  have r4 : |z.val - ((FP.abs x).val - 2 * m * (piQ / 4))| ≤ Z := by
    have e2 : z.val - ((FP.abs x).val - 2 * m * (piQ / 4)) = (z.val - ((FP.abs x).val - 2 * m * DP1F.val - 2 * m * DP2F.val - 2 * m * DP3F.val)) +
        2 * m * (piQ / 4 - DP1F.val - DP2F.val - DP3F.val) := by ring
    rw [e2]
    have h4 : |2 * m * (piQ / 4 - DP1F.val - DP2F.val - DP3F.val)| ≤ N * |piQ / 4 - DP1F.val - DP2F.val - DP3F.val| := by
      rw [abs_mul, abs_of_nonneg hm0]; exact mul_le_mul_of_nonneg_right hmN (abs_nonneg _)
    refine (abs_add_le _ _).trans ?_
    linarith
  clear r3 s1 s2 s3
  rw [hav] at r4 hXR
  have hp := pi_near
  have hmR : (m : ℝ) ≤ 8388608 := by exact_mod_cast (by omega : m ≤ 8388608)
  have hd : |m / 2 * (Real.pi - piQ)| ≤ 8388608 * (1 / 10 ^ 38) := by
    rw [abs_mul, abs_of_nonneg (by positivity : (0 : ℝ) ≤ m / 2)]
    exact mul_le_mul (by linarith) hp (abs_nonneg _) (by norm_num)
  have r2' : |(|x.real| - 2 * m * (piQ / 4))| ≤ R := by
    have := (Rat.cast_le (K := ℝ)).2 hXR
    push_cast at this; unfold FP.real; exact this
  have r3' : |z.real - (|x.real| - 2 * m * (piQ / 4))| ≤ Z := by
    have := (Rat.cast_le (K := ℝ)).2 r4
    push_cast at this; unfold FP.real; exact this
  refine ⟨?_, ?_, ?_⟩
  · have := abs_sub_abs_le_abs_sub z.val (|x.val| - 2 * m * (piQ / 4))
    linarith
  · have e : |x.real| - m * (Real.pi / 2) = (|x.real| - 2 * m * (piQ / 4)) - m / 2 * (Real.pi - piQ) := by ring
    rw [e]
    refine (abs_sub _ _).trans ((add_le_add r2' hd).trans ?_)
    have := (Rat.cast_le (K := ℝ)).2 hR
    push_cast at this
    norm_num at this ⊢
    linarith
  · have e : z.real - (|x.real| - m * (Real.pi / 2)) = (z.real - (|x.real| - 2 * m * (piQ / 4))) + m / 2 * (Real.pi - piQ) := by ring
    rw [e]
    refine (abs_add_le _ _).trans (add_le_add r3' (hd.trans ?_))
    norm_num

/-- The reduction with the error `Z`. -/
def Mid (pol : Policy) (x : F32) (Z : ℝ) : Prop :=
  ∃ m q0, quadStep strict ONEOPIO4F (FP.abs x) = some q0 ∧ clearLow q0 = 2 * (m : ℕ) ∧ (m : ℚ) ≤ 1073741823 ∧
      (reduceC pol (FP.abs x) (ofInt (2 * m)) DP1F DP2F DP3F).isFinite = true ∧
      |(reduceC pol (FP.abs x) (ofInt (2 * m)) DP1F DP2F DP3F).val| ≤ 0.8 ∧ |(|x.real| - m * (Real.pi / 2))| ≤ 0.8 ∧
      |(reduceC pol (FP.abs x) (ofInt (2 * m)) DP1F DP2F DP3F).real - (|x.real| - m * (Real.pi / 2))| ≤ Z

theorem mid_of (pol : Policy) {X M N R W2 W3 Z : ℚ} {x : F32} {Y : ℝ} (hx : x.isFinite = true) (h8 : 8192 ≤ |x.val|) (h : |x.val| ≤ X)
    (hM : ONEOPIO4F.val * X ≤ M) (hM0 : 0 < M) (hMN : M + hulp b32 M + 1 ≤ N) (hN : N ≤ 166889)
    (ok : MidOk ONEOPIO4F.val DP1F.val DP2F.val DP3F.val (piQ / 4) X (hulp b32 M) N (hulp b32 (N * DP2F.val))
      (hulp b32 (N * DP3F.val)) R W2 W3 Z) (hb : R + Z ≤ 0.8) (hR : R + 0.001 ≤ 0.8) (hY : (Z : ℝ) + 1 / 10 ^ 30 ≤ Y) : Mid pol x Y := by
  obtain ⟨m, q0, a, b, c, d, e, f, g⟩ := reduce_mid pol hx h8 h hM hM0 hMN hN ok hb hR
  exact ⟨m, q0, a, b, c, d, e, by simpa using f, g.trans hY⟩

/-- Between 8192 and `2^17` the reduction is off by 1.263 times `2^-36` of the argument and three half units of the last place: the error is that of
the second product, and it doubles at 12985 and at its multiples by powers of two. -/
theorem mid (pol : Policy) {x : F32} (hx : x.isFinite = true) (h8 : 8192 ≤ |x.val|) (h : |x.val| ≤ 131072) :
    Mid pol x (1.263 * 2 ^ (-36 : ℤ) * |x.real| + 3 * 2 ^ (-24 : ℤ)) := by
  have cast : ∀ q : ℚ, q ≤ |x.val| → (q : ℝ) ≤ |x.real| := fun q hq => by unfold FP.real; exact_mod_cast hq
  have g1 := cast _ h8
  push_cast at g1
  rcases le_total |x.val| 12985 with h2 | h2
  · exact mid_of pol (X := 12985) (M := 16533.1) (N := 16536) (R := 0.787) (W2 := 0.788) (W3 := 0.788) (Z := 4.5 / 2 ^ 24)
      hx h8 h2 (by decide +kernel) (by norm_num) (by decide +kernel) (by norm_num) (by decide +kernel) (by norm_num) (by norm_num) (by norm_num; linarith)
  have g2 := cast _ h2
  push_cast at g2
  rcases le_total |x.val| 25970 with h3 | h3
  · exact mid_of pol (X := 25970) (M := 33066.1) (N := 33069) (R := 0.788) (W2 := 0.79) (W3 := 0.789) (Z := 6.5 / 2 ^ 24)
      hx h8 h3 (by decide +kernel) (by norm_num) (by decide +kernel) (by norm_num) (by decide +kernel) (by norm_num) (by norm_num) (by norm_num; linarith)
  have g3 := cast _ h3
  push_cast at g3
  rcases le_total |x.val| 51945 with h4 | h4
  · exact mid_of pol (X := 51945) (M := 66138.5) (N := 66141) (R := 0.7968) (W2 := 0.803) (W3 := 0.7969) (Z := 10.5 / 2 ^ 24)
      hx h8 h4 (by decide +kernel) (by norm_num) (by decide +kernel) (by norm_num) (by decide +kernel) (by norm_num) (by norm_num) (by norm_num; linarith)
  have g4 := cast _ h4
  push_cast at g4
  rcases le_total |x.val| 103900 with h5 | h5
  · exact mid_of pol (X := 103900) (M := 132289.7) (N := 132292) (R := 0.7968) (W2 := 0.803) (W3 := 0.7969) (Z := 18.5 / 2 ^ 24)
      hx h8 h5 (by decide +kernel) (by norm_num) (by decide +kernel) (by norm_num) (by decide +kernel) (by norm_num) (by norm_num) (by norm_num; linarith)
  have g5 := cast _ h5
  push_cast at g5
  exact mid_of pol (X := 131072) (M := 166887) (N := 166889) (R := 0.79683) (W2 := 0.80314) (W3 := 0.79684) (Z := 34.5 / 2 ^ 24)
      hx h8 h (by decide +kernel) (by norm_num) (by decide +kernel) (by norm_num) (by decide +kernel) (by norm_num) (by norm_num) (by norm_num; linarith)

/-- Sine and cosine. -/
theorem sincosfC_mid (pol : Policy) {x : F32} {Z : ℝ} (hx : x.isFinite = true) (M : Mid pol x Z) :
    ∃ s c, fast_sincosfC pol x = some (s, c) ∧ s.isFinite = true ∧ c.isFinite = true ∧
      |s.real - Real.sin x.real| ≤ 2 ^ (-22 : ℤ) + Z ∧ |c.real - Real.cos x.real| ≤ 2 ^ (-22 : ℤ) + Z := by
  obtain ⟨m, q0, hq, hq2, hm, zf, zb, -, hd⟩ := M
  have e : fast_sincosfC pol x = some (sincosTail (sincosfCoreC pol (reduceC pol (FP.abs x) (ofInt (2 * m)) DP1F DP2F DP3F)) (2 * m)
      (FP.lt x (ofInt 0))) := by
    unfold fast_sincosfC
    rw [fast_sincosfCM_eq, hq]
    simp only [Option.bind_eq_bind, Option.bind_some, Option.pure_def, hq2]
  generalize reduceC pol (FP.abs x) (ofInt (2 * m)) DP1F DP2F DP3F = z at *
  obtain ⟨c1, c2, c3, c4⟩ := core08 pol zf zb
  generalize sincosfCoreC pol z = sc at *
  exact ⟨_, _, e, tail_acc (neg := FP.lt x (ofInt 0)) hm c1 c2 c3 c4 hd (lt_zero_real hx (by decide +kernel) (by decide +kernel))⟩

end Vdt
