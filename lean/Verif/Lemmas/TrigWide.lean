import Verif.Lemmas.SincosfFar
import Verif.Lemmas.TanFinish

/-! # Sine, cosine and tangent, double precision, beyond `2^27` up to the last argument for which the calls are defined -/

namespace Vdt
open FP details Ab

/-- The reduction of arguments up to `X`, whatever is fused. -/
theorem reduce64C_far (pol : Policy) {X M N e1 e2 R W1 W2 W3 Z : ℚ} {x : F64} {q0 : ℤ} (hx : x.isFinite = true) (h : |x.val| ≤ X)
    (hM : ONEOPIO4.val * X ≤ M) (hM0 : 0 < M) (hMN : M + hulp b64 M + 1 ≤ N) (hN : N ≤ 2147483650)
    (he1 : ∀ m : ℕ, m ≤ 1073741823 → 2 * (m : ℚ) ≤ N → ((ofInt (2 * m) : F64) * DP1).isFinite = true ∧
      |((ofInt (2 * m) : F64) * DP1).val - (ofInt (2 * m) : F64).val * DP1.val| ≤ e1)
    (he2 : ∀ m : ℕ, m ≤ 1073741823 → 2 * (m : ℚ) ≤ N → ((ofInt (2 * m) : F64) * DP2).isFinite = true ∧
      |((ofInt (2 * m) : F64) * DP2).val - (ofInt (2 * m) : F64).val * DP2.val| ≤ e2)
    (ok : FarOk b64 ONEOPIO4.val DP1.val DP2.val DP3.val (piQ / 4) X (hulp b64 M) N e1 e2
      (b64.u * (N * DP3.val) + b64.eta) R W1 W2 W3 Z) (hR : R ≤ 0.7862) (hb : R + Z ≤ 0.787)
    (hq : quadStep strict ONEOPIO4 (FP.abs x) = some q0) :
    ∃ m : ℕ, clearLow q0 = 2 * m ∧ (m : ℚ) ≤ 1073741823 ∧ (reduceC pol (FP.abs x) (ofInt (2 * m)) DP1 DP2 DP3).isFinite = true ∧
      |(reduceC pol (FP.abs x) (ofInt (2 * m)) DP1 DP2 DP3).real| ≤ 0.787 ∧ |(|x.real| - m * (Real.pi / 2))| ≤ 0.7863 ∧
      |(reduceC pol (FP.abs x) (ofInt (2 * m)) DP1 DP2 DP3).real - (|x.real| - m * (Real.pi / 2))| ≤ Z + 1 / 10 ^ 28 := by
  have hax : (FP.abs x).isFinite = true := by simpa using hx
  have hav : (FP.abs x).val = |x.val| := val_abs x
  have h0 := abs_val_nonneg x
  rw [← hav] at h
  have big : (2147483650 : ℚ) ≤ b64.big := by decide +kernel
  have hu : 0 ≤ hulp b64 M := by unfold hulp; exact (p2_pos _).le
  have hM1 : ONEOPIO4.val * (FP.abs x).val ≤ M := (mul_le_mul_of_nonneg_left h (by decide +kernel)).trans hM
  obtain ⟨m, hm, hmN, q1, q2, q3⟩ := quad_of_some (c := ONEOPIO4) (M := M) (by decide +kernel) (by decide +kernel) hax h0
    hM1 hM0 (by linarith) hq
  have hm2 : 2 * (m : ℚ) ≤ N := by
    rw [abs_le] at q3
    linarith
  have i := ofInt_spec64 (n := 2 * m) (by rw [abs_of_nonneg (by omega)]; omega)
  have hpv : (ofInt (2 * m) : F64).val = 2 * m := by rw [i.2]; push_cast; rfl
  have hpN : |(ofInt (2 * m) : F64).val| ≤ N := by rw [hpv, abs_of_nonneg (mul_nonneg two_pos.le (Nat.cast_nonneg m))]; exact hm2
  have d3 : 0 < DP3.val ∧ DP3.val ≤ 1 := by decide +kernel
  have N0 : 0 ≤ N := (abs_nonneg _).trans hpN
  have p3 := mul_step (f := b64) (c := DP3) (Q := N * DP3.val) i.1 (by decide +kernel) hpN (by rw [abs_of_pos d3.1])
    ((mul_le_of_le_one_right N0 d3.2).trans (hN.trans big))
  obtain ⟨r1, r2, r3⟩ := reduce_far pol (c := ONEOPIO4) hax h0 h (by decide +kernel) (by decide +kernel) (by decide +kernel) i.1 hpv
    q1 q2 q3 hm2 (by decide +kernel) (he1 m hmN hm2) (he2 m hmN hm2) p3 ok
  refine ⟨m, hm, by exact_mod_cast hmN, r1, ?_⟩
  generalize reduceC pol (FP.abs x) (ofInt (2 * m)) DP1 DP2 DP3 = z at *
  rw [hav] at r2 r3
  have hz : |z.val| ≤ 0.787 := by
    have := abs_sub_abs_le_abs_sub z.val (|x.val| - 2 * m * (piQ / 4))
    linarith
  have r2' : |(|x.real| - 2 * m * (piQ / 4))| ≤ 0.7862 := by
    have := (Rat.cast_le (K := ℝ)).2 (r2.trans hR)
    push_cast at this; unfold FP.real; exact this
  have r3' : |z.real - (|x.real| - 2 * m * (piQ / 4))| ≤ Z := by
    have := (Rat.cast_le (K := ℝ)).2 r3
    push_cast at this; unfold FP.real; exact this
  have hd : |m / 2 * (Real.pi - piQ)| ≤ 1 / 10 ^ 28 := by
    have hmR : (m : ℝ) ≤ 1073741823 := by exact_mod_cast hmN
    rw [abs_mul, abs_of_nonneg (by positivity : (0 : ℝ) ≤ m / 2)]
    exact (mul_le_mul (by linarith : (m : ℝ) / 2 ≤ 1073741823) pi_near (abs_nonneg _) (by norm_num)).trans (by norm_num)
  refine ⟨?_, ?_, ?_⟩
  · have := (Rat.cast_le (K := ℝ)).2 hz
    push_cast at this; unfold FP.real; exact this
  · have e : |x.real| - m * (Real.pi / 2) = (|x.real| - 2 * m * (piQ / 4)) - m / 2 * (Real.pi - piQ) := by ring
    rw [e]
    refine (abs_sub _ _).trans ((add_le_add r2' hd).trans ?_)
    norm_num
  · have e : z.real - (|x.real| - m * (Real.pi / 2)) = (z.real - (|x.real| - 2 * m * (piQ / 4))) + m / 2 * (Real.pi - piQ) := by ring
    rw [e]
    exact (abs_add_le _ _).trans (add_le_add r3' hd)

/-- The number of the octant times a part of `π/4`. -/
theorem dp_round64 {d : F64} (hd : d.isFinite = true) (h0 : 0 < d.val) (h1 : d.val ≤ 1) {N : ℚ} (hN0 : 0 < N) (hN : N ≤ 2147483650) (m : ℕ)
    (hm : m ≤ 1073741823) (h : 2 * (m : ℚ) ≤ N) : ((ofInt (2 * m) : F64) * d).isFinite = true ∧
      |((ofInt (2 * m) : F64) * d).val - (ofInt (2 * m) : F64).val * d.val| ≤ hulp b64 (N * d.val) := by
  have i := ofInt_spec64 (n := 2 * m) (by rw [abs_of_nonneg (by omega)]; omega)
  have hb : N * d.val ≤ b64.big := (mul_le_of_le_one_right hN0.le h1).trans (hN.trans (by decide +kernel))
  have hp : |(ofInt (2 * m) : F64).val * d.val| ≤ N * d.val := by
    rw [i.2]; push_cast
    rw [abs_of_nonneg (mul_nonneg (mul_nonneg two_pos.le (Nat.cast_nonneg m)) h0.le)]
    exact mul_le_mul_of_nonneg_right h h0.le
  have s := mul_spec (f := b64) i.1 hd (hp.trans hb)
  refine ⟨s.1, ?_⟩
  change |(mul _ _).val - _| ≤ _
  rw [s.2]
  exact rnd_err b64 (mul_pos hN0 h0) hp hb

/-- The reduction up to 530000000, where the products with the parts of `π/4` and the first two subtractions are exact. -/
theorem reduce64C_mid (pol : Policy) {x : F64} (hx : x.isFinite = true) (h : |x.val| ≤ 530000000) :
    ∃ m : ℕ, (∃ q1, quadStep strict ONEOPIO4 (FP.abs x) = some q1 ∧ clearLow q1 = 2 * m) ∧ (m : ℚ) ≤ 337408482 ∧
      (reduceC pol (FP.abs x) (ofInt (2 * m)) DP1 DP2 DP3).isFinite = true ∧
      |(reduceC pol (FP.abs x) (ofInt (2 * m)) DP1 DP2 DP3).real| ≤ 0.787 ∧
      (m = 0 → (reduceC pol (FP.abs x) (ofInt (2 * m)) DP1 DP2 DP3).val = |x.val|) ∧
      (1 ≤ m → 1 / 2 ≤ |x.val|) ∧ |(|x.real| - m * (Real.pi / 2))| ≤ 0.7863 ∧
      |(reduceC pol (FP.abs x) (ofInt (2 * m)) DP1 DP2 DP3).real - (|x.real| - m * (Real.pi / 2))| ≤
        2 ^ (-53 : ℤ) * |(|x.real| - m * (Real.pi / 2))| + m * (1 / 2 ^ 106) := by
  have hax : (FP.abs x).isFinite = true := by simpa using hx
  have hav : (FP.abs x).val = |x.val| := val_abs x
  have h0 := abs_val_nonneg x
  rw [← hav] at h
  obtain ⟨m, hq, hm, q1, q2, q3⟩ := quad_spec (f := b64) (c := ONEOPIO4) (X := 530000000) (M := 674816962) (by decide +kernel)
    (by decide +kernel) hax h0 h (by decide +kernel) (by decide +kernel) (by decide +kernel) (by decide +kernel)
  have hm8 : (m : ℚ) ≤ 674816962 := by
    have h1 : ONEOPIO4.val * (FP.abs x).val ≤ 674816962 :=
      (mul_le_mul_of_nonneg_left h (by decide +kernel)).trans (show ONEOPIO4.val * 530000000 ≤ 674816962 by decide +kernel)
    have h2 : hulp b64 674816962 ≤ 1 := by decide +kernel
    rw [abs_le] at q3; linarith [q3.2]
  have i := ofInt_spec64 (n := 2 * m) (by
    have : m ≤ 674816962 := by exact_mod_cast hm8
    rw [abs_of_nonneg (by omega)]; omega)
  have r := reduce3 pol (f := b64) (c := ONEOPIO4) (c1 := DP1) (c2 := DP2) (c3 := DP3) (X := 530000000) (M := 674816962) (l := piQ / 4)
    (R := 0.7862) (κ := (0.9 / 2 ^ 106)) (N := 337408482) (k1 := 26353589) (j1 := -25) (k2 := 8947107) (j2 := -50)
    (k := 28) (m := m) (p := ofInt (2 * m)) hax h0 h (by decide +kernel) (by decide +kernel) i.1 (by rw [i.2]; push_cast; rfl) q1 q2 q3
    (by decide +kernel) (by decide +kernel) (by decide +kernel) (by decide +kernel)
    (by decide +kernel) (by decide +kernel) (by decide +kernel) (by decide +kernel) (by decide +kernel) (by decide +kernel)
    (by decide +kernel) (by decide +kernel) (by decide +kernel) (by decide +kernel)
    (by decide +kernel) (by decide +kernel) (by decide +kernel) (by decide +kernel) (by decide +kernel)
    (by decide +kernel) (by decide +kernel) (by decide +kernel) (by decide +kernel) (by decide +kernel) (by decide +kernel)
    (by decide +kernel) (by decide +kernel) (by decide +kernel) (by decide +kernel) (by decide +kernel)
  obtain ⟨r1, r2, r3, r4, r5, r6⟩ := r
  have hmN : (m : ℚ) ≤ 337408482 := by exact_mod_cast r2
  change (reduceC pol (FP.abs x) (ofInt (2 * m)) DP1 DP2 DP3).isFinite = true at r1
  change m = 0 → (reduceC pol (FP.abs x) (ofInt (2 * m)) DP1 DP2 DP3).val = _ at r5
  change |(reduceC pol (FP.abs x) (ofInt (2 * m)) DP1 DP2 DP3).val - _| ≤ _ at r6
  rw [hav] at r3 r4 r5 r6
  refine ⟨m, hq, hmN, r1, ?_⟩
  generalize reduceC pol (FP.abs x) (ofInt (2 * m)) DP1 DP2 DP3 = z at *
  have hmR : (m : ℝ) ≤ 337408482 := by exact_mod_cast hmN
  have hm0 : (0 : ℝ) ≤ m := by positivity
  have hp := pi_near
  have hu : b64.u = p2 (-53) := by decide +kernel
  have r3' : |(|x.real| - 2 * m * (piQ / 4))| ≤ 0.7862 := by
    have : ((|(|x.val| - 2 * m * (piQ / 4))| : ℚ) : ℝ) ≤ ((0.7862 : ℚ) : ℝ) := by exact_mod_cast r3
    push_cast at this; unfold FP.real; exact this
  have r6' : |z.real - (|x.real| - 2 * m * (piQ / 4))| ≤ 2 ^ (-53 : ℤ) * |(|x.real| - 2 * m * (piQ / 4))| + m * (0.9 / 2 ^ 106) := by
    have : ((|z.val - (|x.val| - 2 * m * (piQ / 4))| : ℚ) : ℝ) ≤
        ((b64.u * |(|x.val| - 2 * m * (piQ / 4))| + m * (0.9 / 2 ^ 106) : ℚ) : ℝ) := by exact_mod_cast r6
    rw [hu, p2_eq] at this
    push_cast at this; unfold FP.real; exact this
  have e : |x.real| - m * (Real.pi / 2) = (|x.real| - 2 * m * (piQ / 4)) - m / 2 * (Real.pi - piQ) := by ring
  obtain ⟨ζ, hζ⟩ : ∃ ζ, ζ = |x.real| - m * (Real.pi / 2) := ⟨_, rfl⟩
  obtain ⟨ζ', hζ'⟩ : ∃ ζ', ζ' = |x.real| - 2 * m * (piQ / 4 : ℝ) := ⟨_, rfl⟩
  rw [← hζ, ← hζ'] at e
  rw [← hζ'] at r3' r6'
  have hd : |m / 2 * (Real.pi - piQ)| ≤ m * (1 / 10 ^ 38) := by
    rw [abs_mul, abs_of_nonneg (by positivity : (0 : ℝ) ≤ m / 2)]
    have h1 : (m : ℝ) / 2 ≤ m := by linarith
    exact mul_le_mul h1 hp (_root_.abs_nonneg _) hm0
  have hdz : |ζ' - ζ| ≤ m * (1 / 10 ^ 38) := by
    rw [e]; refine le_trans (le_of_eq ?_) hd; congr 1; ring
  have hz1 : |ζ'| ≤ |ζ| + m * (1 / 10 ^ 38) := by
    have := abs_add_le ζ (ζ' - ζ); rw [add_sub_cancel] at this; linarith
  have hz2 : |ζ| ≤ |ζ'| + m * (1 / 10 ^ 38) := by
    have := abs_add_le ζ' (ζ - ζ'); rw [add_sub_cancel, abs_sub_comm ζ ζ'] at this; linarith
  have hfin : |z.real - ζ| ≤ 2 ^ (-53 : ℤ) * |ζ| + m * (1 / 2 ^ 106) := by
    have h1 := abs_sub_le z.real ζ' ζ
    have h2 : (2 : ℝ) ^ (-53 : ℤ) * |ζ'| ≤ 2 ^ (-53 : ℤ) * (|ζ| + m * (1 / 10 ^ 38)) := mul_le_mul_of_nonneg_left hz1 (by positivity)
    have h3 : (m : ℝ) * ((0.9 / 2 ^ 106) + (1 + 2 ^ (-53 : ℤ)) * (1 / 10 ^ 38)) ≤ m * (1 / 2 ^ 106) := mul_le_mul_of_nonneg_left (by norm_num) hm0
    nlinarith
  have hzb : |ζ| ≤ 0.7863 := by
    have : (m : ℝ) * (1 / 10 ^ 38) ≤ 337408482 * (1 / 10 ^ 38) := mul_le_mul_of_nonneg_right hmR (by positivity)
    have : (337408482 : ℝ) * (1 / 10 ^ 38) ≤ 0.0001 := by norm_num
    linarith
  rw [← hζ]
  refine ⟨?_, r5, r4, hzb, hfin⟩
  have h1 := abs_add_le ζ (z.real - ζ)
  rw [add_sub_cancel] at h1
  have h2 : (m : ℝ) * (1 / 2 ^ 106) ≤ 337408482 * (1 / 2 ^ 106) := mul_le_mul_of_nonneg_right hmR (by positivity)
  have h3 : (337408482 : ℝ) * (1 / 2 ^ 106) ≤ 0.0001 := by norm_num
  have h4 : (2 : ℝ) ^ (-53 : ℤ) * |ζ| ≤ 2 ^ (-53 : ℤ) * 0.7863 := mul_le_mul_of_nonneg_left hzb (by positivity)
  have h5 : (2 : ℝ) ^ (-53 : ℤ) * 0.7863 ≤ 0.0001 := by norm_num
  linarith

/-- What a reduction with the additional error `D` delivers: the number of quarter turns, and a reduced argument within
`u|ζ| + D` of `ζ = |x| - mπ/2`. -/
def Reduced64 (pol : Policy) (x : F64) (q0 : ℤ) (D : ℝ) : Prop :=
    ∃ m : ℕ, clearLow q0 = 2 * m ∧ (m : ℚ) ≤ 1073741823 ∧ (reduceC pol (FP.abs x) (ofInt (2 * m)) DP1 DP2 DP3).isFinite = true ∧
      |(reduceC pol (FP.abs x) (ofInt (2 * m)) DP1 DP2 DP3).real| ≤ 0.787 ∧ |(|x.real| - m * (Real.pi / 2))| ≤ 0.7863 ∧
      |(reduceC pol (FP.abs x) (ofInt (2 * m)) DP1 DP2 DP3).real - (|x.real| - m * (Real.pi / 2))| ≤
        2 ^ (-53 : ℤ) * |(|x.real| - m * (Real.pi / 2))| + D

theorem reduced64_mid (pol : Policy) {x : F64} {q0 : ℤ} (hx : x.isFinite = true) (h : |x.val| ≤ 530000000)
    (hq : quadStep strict ONEOPIO4 (FP.abs x) = some q0) : Reduced64 pol x q0 (2 ^ (-77 : ℤ)) := by
  obtain ⟨m, ⟨q1, h1, h2⟩, h3, h4, h5, -, -, h6, h7⟩ := reduce64C_mid pol hx h
  rw [hq, Option.some.injEq] at h1
  have hmR : (m : ℝ) ≤ 337408482 := by exact_mod_cast h3
  refine ⟨m, h1 ▸ h2, h3.trans (by norm_num), h4, h5, h6, h7.trans (add_le_add le_rfl ?_)⟩
  refine (mul_le_mul_of_nonneg_right hmR (by positivity)).trans ?_
  norm_num

/-- The reduction up to `2^30`: one bit of the product with the first part of `π/4` may be lost. -/
theorem reduced64_30 (pol : Policy) {x : F64} {q0 : ℤ} (h : |x.val| ≤ 2 ^ 30) (hq : quadStep strict ONEOPIO4 (FP.abs x) = some q0) :
    Reduced64 pol x q0 (1.00001 * 2 ^ (-24 : ℤ)) := by
  obtain ⟨hx, hX⟩ := (quad64_defined_iff x).1 (by rw [hq]; rfl)
  obtain ⟨m, h1, h2, h3, h4, h5, h6⟩ := reduce64C_far pol (X := 2 ^ 30) (M := 1367130552) (N := 1367130554)
    (e1 := hulp b64 (1367130554 * DP1.val)) (e2 := hulp b64 (1367130554 * DP2.val))
    (R := 0.7862) (W1 := 20) (W2 := 0.79) (W3 := 0.79) (Z := 1.000001 / 2 ^ 24) hx h (by decide +kernel) (by norm_num) (by decide +kernel) (by norm_num)
    (fun m => dp_round64 (by decide +kernel) (by decide +kernel) (by decide +kernel) (by norm_num) (by norm_num) m)
    (fun m => dp_round64 (by decide +kernel) (by decide +kernel) (by decide +kernel) (by norm_num) (by norm_num) m)
    (by decide +kernel) (by norm_num) (by norm_num) hq
  refine ⟨m, h1, h2, h3, h4, h5, h6.trans (le_trans ?_ (le_add_of_nonneg_left (by positivity)))⟩
  push_cast; norm_num

/-- The reduction of every argument for which the calls are defined: two bits may be lost. -/
theorem reduced64_wide (pol : Policy) {x : F64} {q0 : ℤ} (hq : quadStep strict ONEOPIO4 (FP.abs x) = some q0) :
    Reduced64 pol x q0 (1.00001 * 2 ^ (-23 : ℤ)) := by
  obtain ⟨hx, hX⟩ := (quad64_defined_iff x).1 (by rw [hq]; rfl)
  obtain ⟨m, h1, h2, h3, h4, h5, h6⟩ := reduce64C_far pol (X := 7074237748734241 / 4194304) (M := 2147483648) (N := 2147483650)
    (e1 := hulp b64 (2147483650 * DP1.val)) (e2 := hulp b64 (2147483650 * DP2.val))
    (R := 0.7862) (W1 := 20) (W2 := 0.79) (W3 := 0.79) (Z := 1.000001 / 2 ^ 23) hx hX.le (by decide +kernel) (by norm_num) (by decide +kernel) (by norm_num)
    (fun m => dp_round64 (by decide +kernel) (by decide +kernel) (by decide +kernel) (by norm_num) (by norm_num) m)
    (fun m => dp_round64 (by decide +kernel) (by decide +kernel) (by decide +kernel) (by norm_num) (by norm_num) m)
    (by decide +kernel) (by norm_num) (by norm_num) hq
  refine ⟨m, h1, h2, h3, h4, h5, h6.trans (le_trans ?_ (le_add_of_nonneg_left (by positivity)))⟩
  push_cast; norm_num

/-- The tail of the sine and cosine after a reduction with error `D`. -/
theorem sincosC_of_reduce (p : Policy) {x : F64} {q0 : ℤ} {D : ℝ} (hq : quadStep strict ONEOPIO4 (FP.abs x) = some q0)
    (hr : Reduced64 p x q0 D) :
    ∃ s c, fast_sincosC p x = some (s, c) ∧ s.isFinite = true ∧ c.isFinite = true ∧
      |s.real - Real.sin x.real| ≤ 2.06 * 2 ^ (-53 : ℤ) + (0.7863 * 2 ^ (-53 : ℤ) + D) ∧
      |c.real - Real.cos x.real| ≤ 2.06 * 2 ^ (-53 : ℤ) + (0.7863 * 2 ^ (-53 : ℤ) + D) ∧
      |s.real ^ 2 + c.real ^ 2 - 1| ≤ 2 ^ (-50 : ℤ) := by
  obtain ⟨m, hm, hmN, r1, r2, r5, r3⟩ := hr
  replace r3 := r3.trans (add_le_add (le_trans (mul_le_mul_of_nonneg_left r5 (by positivity)) (le_of_eq (mul_comm _ _))) le_rfl)
  obtain ⟨hx, -⟩ := (quad64_defined_iff x).1 (by rw [hq]; rfl)
  have e : fast_sincosC p x = some (sincosTail (sincosCoreC p (reduceC p (FP.abs x) (ofInt (2 * m)) DP1 DP2 DP3)) (2 * m) (FP.lt x (lit 0))) := by
    unfold fast_sincosC
    rw [fast_sincosCM_eq, hq]
    simp only [Option.bind_eq_bind, Option.bind_some, Option.pure_def, hm]
  generalize reduceC p (FP.abs x) (ofInt (2 * m)) DP1 DP2 DP3 = z at *
  obtain ⟨c1, c2, c3, c4⟩ := sincosC_core p r1 r2
  generalize sincosCoreC p z = sc at *
  have heta : ((b64.eta : ℚ) : ℝ) ≤ 1 / 2 ^ 100 := by
    have : b64.eta ≤ 1 / 2 ^ 100 := by decide +kernel
    have : ((b64.eta : ℚ) : ℝ) ≤ ((1 / 2 ^ 100 : ℚ) : ℝ) := by exact_mod_cast this
    push_cast at this; exact this
  have c3' : |sc.1.real - Real.sin z.real| ≤ 1.2 * 2 ^ (-53 : ℤ) := by
    refine c3.trans ?_
    have : (1.43 : ℝ) * 2 ^ (-53 : ℤ) * |z.real| ≤ 1.43 * 2 ^ (-53 : ℤ) * 0.787 := mul_le_mul_of_nonneg_left r2 (by positivity)
    refine (add_le_add this (mul_le_mul_of_nonneg_left heta (by norm_num))).trans ?_
    norm_num
  obtain ⟨t1, t2, t3, t4⟩ := tail_acc (neg := FP.lt x (lit 0)) hmN c1 c2 (c3'.trans (by norm_num)) c4 r3 (lt_zero_real hx (by decide +kernel) (by decide +kernel))
  refine ⟨(sincosTail sc (2 * m) (FP.lt x (lit 0))).1, (sincosTail sc (2 * m) (FP.lt x (lit 0))).2, e, t1, t2, t3, t4, ?_⟩
  have hsq : (sincosTail sc (2 * m) (FP.lt x (lit 0))).1.real ^ 2 + (sincosTail sc (2 * m) (FP.lt x (lit 0))).2.real ^ 2 =
      sc.1.real ^ 2 + sc.2.real ^ 2 := by
    rw [sincosTail_eq sc hmN]
    split_ifs <;> simp only [neg_real] <;> ring
  rw [hsq]
  have hS := Real.abs_sin_le_one z.real
  have hC := Real.abs_cos_le_one z.real
  have hs1 : |Real.sin z.real| ≤ 0.787 := Real.abs_sin_le_abs.trans r2
  have e2 : sc.1.real ^ 2 + sc.2.real ^ 2 - 1 =
      (sc.1.real - Real.sin z.real) * (sc.1.real - Real.sin z.real + 2 * Real.sin z.real) +
      (sc.2.real - Real.cos z.real) * (sc.2.real - Real.cos z.real + 2 * Real.cos z.real) := by
    linear_combination (Real.sin_sq_add_cos_sq z.real)
  rw [e2]
  refine (abs_add_le _ _).trans ?_
  rw [abs_mul, abs_mul]
  have u1 : |sc.1.real - Real.sin z.real + 2 * Real.sin z.real| ≤ 1.58 := by
    refine (abs_add_le _ _).trans ?_
    rw [abs_mul, abs_two]
    have : |sc.1.real - Real.sin z.real| ≤ 0.001 := c3'.trans (by norm_num)
    linarith
  have u2 : |sc.2.real - Real.cos z.real + 2 * Real.cos z.real| ≤ 2.01 := by
    refine (abs_add_le _ _).trans ?_
    rw [abs_mul, abs_two]
    have : |sc.2.real - Real.cos z.real| ≤ 0.001 := c4.trans (by norm_num)
    linarith
  have v1 := mul_le_mul c3' u1 (abs_nonneg _) (by positivity)
  have v2 := mul_le_mul c4 u2 (abs_nonneg _) (by positivity)
  refine (add_le_add v1 v2).trans ?_
  norm_num

/-- The tangent after a reduction with error `D`, away from its zeros and poles. -/
theorem tanC_of_reduce (p : Policy) {x : F64} {q0 : ℤ} {D τ : ℝ} (hD0 : 0 ≤ D) (hτ : 2 ^ (-20 : ℤ) ≤ τ) (hD : D ≤ 2 ^ (-10 : ℤ) * τ) (hx1 : 1 ≤ |x.val|)
    (hq : quadStep strict ONEOPIO4 (FP.abs x) = some q0)
    (hr : Reduced64 p x q0 D)
    (ht0 : τ ≤ |Real.tan x.real|) (ht1 : |Real.tan x.real| ≤ 1 / τ) :
    ∃ y, fast_tanC p x = some y ∧ y.isFinite = true ∧
      |y.real - Real.tan x.real| ≤ 7 * 2 ^ (-53 : ℤ) * |Real.tan x.real| + 2.9 * D * (1 + Real.tan x.real ^ 2) := by
  obtain ⟨m, hm, hmN, r1, r2, r5, r6⟩ := hr
  have hτ0 : 0 < τ := lt_of_lt_of_le (by norm_num) hτ
  obtain ⟨hx, -⟩ := (quad64_defined_iff x).1 (by rw [hq]; rfl)
  have e : fast_tanC p x = some (tanFinishC p (fun r => dpXORuint64 r (getSignMask x)) x (tanCoreC p (reduceC p (FP.abs x) (ofInt (2 * m)) DP1 DP2 DP3)) (2 * m)) := by
    unfold fast_tanC
    rw [fast_tanCM_eq, hq]
    simp only [Option.bind_eq_bind, Option.bind_some, Option.pure_def, hm]
  have hx0 : x.val ≠ 0 := abs_pos.1 (lt_of_lt_of_le one_pos hx1)
  have hU : ((b64.u : ℚ) : ℝ) = 2 ^ (-53 : ℤ) := by
    rw [show b64.u = p2 (-53) by decide +kernel, p2_eq]; push_cast; rfl
  obtain ⟨ζ, hζ⟩ : ∃ ζ, ζ = |x.real| - m * (Real.pi / 2) := ⟨_, rfl⟩
  rw [← hζ] at r5 r6
  have hx1r : 1 ≤ |x.real| := by
    have := (Rat.cast_le (K := ℝ)).2 hx1
    push_cast at this; unfold FP.real; exact this
  have hm1 : 1 ≤ m := by
    by_contra hc
    have : m = 0 := by omega
    rw [this, Nat.cast_zero, zero_mul, sub_zero] at hζ
    rw [hζ, abs_abs] at r5
    norm_num at r5
    linarith
  have hmp : (0 : ℝ) < m := by exact_mod_cast hm1
  -- the reduced argument is not small
  have hζl : τ / 2 ≤ |ζ| := by
    have hta : |Real.tan x.real| = |Real.tan (|x.real|)| := by
      rcases abs_choice x.real with h | h <;> rw [h]
      rw [Real.tan_neg, abs_neg]
    have hqt := quadrant_tan (t := ζ) m
    rw [show ζ + m * (Real.pi / 2) = |x.real| by rw [hζ]; ring] at hqt
    rw [hta, hqt] at ht0 ht1
    have τ2 := tan_le (a := ζ) (r5.trans (by norm_num))
    have h3 : τ ≤ |Real.tan ζ| := by
      split_ifs at ht0 ht1 with h
      · rw [abs_div, abs_neg, abs_one] at ht0 ht1
        have hp : 0 < |Real.tan ζ| := by
          by_contra hc
          have : |Real.tan ζ| = 0 := le_antisymm (not_lt.1 hc) (abs_nonneg _)
          rw [this, div_zero] at ht0
          linarith
        rw [div_le_div_iff₀ hp hτ0] at ht1
        linarith
      · exact ht0
    norm_num at τ2 ⊢
    linarith
  have hζ0 : 0 < |ζ| := lt_of_lt_of_le (by linarith) hζl
  have core := tan_core p r1 r2
  have hzl : 1.1e-7 ≤ |(reduceC p (FP.abs x) (ofInt (2 * m)) DP1 DP2 DP3).real| := by
    have := abs_sub_abs_le_abs_sub ζ (reduceC p (FP.abs x) (ofInt (2 * m)) DP1 DP2 DP3).real
    rw [abs_sub_comm ζ] at this
    norm_num at hτ hD r6 ⊢
    linarith
  have hw : D / |ζ| * |ζ| = m * (D / m) := by rw [div_mul_cancel₀ _ hζ0.ne', mul_div_cancel₀ _ hmp.ne']
  have hw0 : 0 ≤ D / |ζ| := by positivity
  have hwb : D / |ζ| ≤ 2 ^ (-9 : ℤ) := by
    rw [div_le_iff₀ hζ0]
    refine hD.trans ?_
    norm_num at hζl ⊢
    linarith
  obtain ⟨t1, t2, t3, -⟩ := tan_assemble tanC64 p (A := 3.9 * 2 ^ (-53 : ℤ)) (κ := D / m) (w := D / |ζ|) hx hx0 hmN core.1 r2
    (by rw [← hζ]; exact r5) (by rw [← hζ]; exact hζ0)
    (by rw [← hζ, mul_div_cancel₀ _ hmp.ne', hU]
        exact r6) (by rw [← hζ]; exact hw) hw0 (core.2.2 hzl) (by norm_num) (by
        rw [hU]
        norm_num at hwb ⊢
        linarith) (by norm_num) (Or.inl (by
          rw [← hζ]
          refine le_trans ?_ hζl
          norm_num at hτ ⊢
          linarith))
      (by decide +kernel) (by decide +kernel) (by decide +kernel) (dpXOR_signMask · x)
  rw [mul_div_cancel₀ _ hmp.ne'] at t3
  refine ⟨_, e, t1, t2.trans ?_⟩
  rw [hU]
  have h1 : 1.006 * ((2 : ℝ) ^ (-53 : ℤ) + (3.9 * 2 ^ (-53 : ℤ) * 1.005 + 2.02 * (2 ^ (-53 : ℤ) + D / |ζ|))) * |Real.tan x.real| =
      1.006 * ((2 : ℝ) ^ (-53 : ℤ) + (3.9 * 2 ^ (-53 : ℤ) * 1.005 + 2.02 * 2 ^ (-53 : ℤ))) * |Real.tan x.real| +
      1.006 * 2.02 * (D / |ζ| * |Real.tan x.real|) := by ring
  rw [h1]
  refine add_le_add (mul_le_mul_of_nonneg_right (by norm_num) (abs_nonneg _)) ?_
  have h2 : 0 ≤ D * (1 + Real.tan x.real ^ 2) := by positivity
  have h3 := mul_le_mul_of_nonneg_left t3 (by norm_num : (0 : ℝ) ≤ 1.006 * 2.02)
  refine h3.trans ?_
  norm_num at h2 ⊢
  linarith

end Vdt
