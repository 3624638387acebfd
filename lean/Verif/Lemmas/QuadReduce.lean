import Verif.Lemmas.Quadrant
import Verif.Real.Tools
import Verif.Spec

/-! # The argument reduction of sine, cosine and tangent, in both precisions -/

namespace Vdt
open FP details

/-- What the reduction delivers (double precision): the number `m` of quarter turns, the reduced argument
within `u|ζ| + mκ` of `ζ = |x| - mπ/2`, and equal to `|x|` if `m = 0`. -/
theorem reduce64C (pol : Policy) {x : F64} (hx : x.isFinite = true) (h : |x.val| ≤ 2 ^ 27) :
    ∃ m : ℕ, (∃ q1, quadStep strict ONEOPIO4 (FP.abs x) = some q1 ∧ clearLow q1 = 2 * m) ∧ (m : ℚ) ≤ 85445661 ∧
      (reduceC pol (FP.abs x) (ofInt (2 * m)) DP1 DP2 DP3).isFinite = true ∧
      |(reduceC pol (FP.abs x) (ofInt (2 * m)) DP1 DP2 DP3).real| ≤ 0.787 ∧
      (m = 0 → (reduceC pol (FP.abs x) (ofInt (2 * m)) DP1 DP2 DP3).val = |x.val|) ∧
      (1 ≤ m → 1 / 2 ≤ |x.val|) ∧ |(|x.real| - m * (Real.pi / 2))| ≤ 0.7863 ∧
      |(reduceC pol (FP.abs x) (ofInt (2 * m)) DP1 DP2 DP3).real - (|x.real| - m * (Real.pi / 2))| ≤
        2 ^ (-53 : ℤ) * |(|x.real| - m * (Real.pi / 2))| + m * (1 / 2 ^ 106) := by
  have hax : (FP.abs x).isFinite = true := by simpa using hx
  have hav : (FP.abs x).val = |x.val| := val_abs x
  have h0 := abs_val_nonneg x
  rw [← hav] at h
  obtain ⟨m, hq, hm, q1, q2, q3⟩ := quad_spec (f := b64) (c := ONEOPIO4) (X := 2 ^ 27) (M := 170891319) (by decide +kernel)
    (by decide +kernel) hax h0 h (by decide +kernel) (by decide +kernel) (by decide +kernel) (by decide +kernel)
  have hm8 : (m : ℚ) ≤ 170891319 := by
    have h1 : ONEOPIO4.val * (FP.abs x).val ≤ 170891319 :=
      (mul_le_mul_of_nonneg_left h (by decide +kernel)).trans (show ONEOPIO4.val * 2 ^ 27 ≤ 170891319 by decide +kernel)
    have h2 : hulp b64 170891319 ≤ 1 := by decide +kernel
    rw [abs_le] at q3; linarith [q3.2]
  have i := ofInt_spec64 (n := 2 * m) (by
    have : m ≤ 170891319 := by exact_mod_cast hm8
    rw [abs_of_nonneg (by omega)]; omega)
  have r := reduce3 pol (f := b64) (c := ONEOPIO4) (c1 := DP1) (c2 := DP2) (c3 := DP3) (X := 2 ^ 27) (M := 170891319) (l := piQ / 4)
    (R := 0.7862) (κ := (0.9 / 2 ^ 106)) (N := 85445661) (k1 := 26353589) (j1 := -25) (k2 := 8947107) (j2 := -50)
    (k := 27) (m := m) (p := ofInt (2 * m)) hax h0 h (by decide +kernel) (by decide +kernel) i.1 (by rw [i.2]; push_cast; rfl) q1 q2 q3
    (by decide +kernel) (by decide +kernel) (by decide +kernel) (by decide +kernel)
    (by decide +kernel) (by decide +kernel) (by decide +kernel) (by decide +kernel) (by decide +kernel) (by decide +kernel)
    (by decide +kernel) (by decide +kernel) (by decide +kernel) (by decide +kernel)
    (by decide +kernel) (by decide +kernel) (by decide +kernel) (by decide +kernel) (by decide +kernel)
    (by decide +kernel) (by decide +kernel) (by decide +kernel) (by decide +kernel) (by decide +kernel) (by decide +kernel)
    (by decide +kernel) (by decide +kernel) (by decide +kernel) (by decide +kernel) (by decide +kernel)
  obtain ⟨r1, r2, r3, r4, r5, r6⟩ := r
  have hmN : (m : ℚ) ≤ 85445661 := by exact_mod_cast r2
  change (reduceC pol (FP.abs x) (ofInt (2 * m)) DP1 DP2 DP3).isFinite = true at r1
  change m = 0 → (reduceC pol (FP.abs x) (ofInt (2 * m)) DP1 DP2 DP3).val = _ at r5
  change |(reduceC pol (FP.abs x) (ofInt (2 * m)) DP1 DP2 DP3).val - _| ≤ _ at r6
  rw [hav] at r3 r4 r5 r6
  refine ⟨m, hq, hmN, r1, ?_⟩
  generalize reduceC pol (FP.abs x) (ofInt (2 * m)) DP1 DP2 DP3 = z at *
  have hmR : (m : ℝ) ≤ 85445661 := by exact_mod_cast hmN
  have hm0 : (0 : ℝ) ≤ m := by positivity
  have hp := pi_near
  have hu : b64.u = p2 (-53) := by decide +kernel
  have r3' : |(|x.real| - 2 * m * (piQ / 4))| ≤ 0.7862 := by
    have : ((|(|x.val| - 2 * m * (piQ / 4))| : ℚ) : ℝ) ≤ ((0.7862 : ℚ) : ℝ) := by exact_mod_cast r3
    push_cast at this; unfold FP.real; exact this
  have r6' : |z.real - (|x.real| - 2 * m * (piQ / 4))| ≤ 2 ^ (-53 : ℤ) * |(|x.real| - 2 * m * (piQ / 4))| + m * (0.9 / 2 ^ 106) := by
    have : ((|z.val - (|x.val| - 2 * m * (piQ / 4))| : ℚ) : ℝ) ≤
        ((b64.u * |(|x.val| - 2 * m * (piQ / 4))| + m * (0.9 / 2 ^ 106) : ℚ) : ℝ) := by exact_mod_cast r6
    rw [hu, p2_eq] at this
    push_cast at this; unfold FP.real; exact this
  have e : |x.real| - m * (Real.pi / 2) = (|x.real| - 2 * m * (piQ / 4)) - m / 2 * (Real.pi - piQ) := by ring
  obtain ⟨ζ, hζ⟩ : ∃ ζ, ζ = |x.real| - m * (Real.pi / 2) := ⟨_, rfl⟩
  obtain ⟨ζ', hζ'⟩ : ∃ ζ', ζ' = |x.real| - 2 * m * (piQ / 4 : ℝ) := ⟨_, rfl⟩
  rw [← hζ, ← hζ'] at e
  rw [← hζ'] at r3' r6'
  have hd : |m / 2 * (Real.pi - piQ)| ≤ m * (1 / 10 ^ 38) := by
    rw [abs_mul, abs_of_nonneg (by positivity : (0 : ℝ) ≤ m / 2)]
    have h1 : (m : ℝ) / 2 ≤ m := by linarith
    exact mul_le_mul h1 hp (_root_.abs_nonneg _) hm0
  have hdz : |ζ' - ζ| ≤ m * (1 / 10 ^ 38) := by
    rw [e]; refine le_trans (le_of_eq ?_) hd; congr 1; ring
  have hz1 : |ζ'| ≤ |ζ| + m * (1 / 10 ^ 38) := by
    have := abs_add_le ζ (ζ' - ζ); rw [add_sub_cancel] at this; linarith
  have hz2 : |ζ| ≤ |ζ'| + m * (1 / 10 ^ 38) := by
    have := abs_add_le ζ' (ζ - ζ'); rw [add_sub_cancel, abs_sub_comm ζ ζ'] at this; linarith
  have hfin : |z.real - ζ| ≤ 2 ^ (-53 : ℤ) * |ζ| + m * (1 / 2 ^ 106) := by
    have h1 := abs_sub_le z.real ζ' ζ
    have h2 : (2 : ℝ) ^ (-53 : ℤ) * |ζ'| ≤ 2 ^ (-53 : ℤ) * (|ζ| + m * (1 / 10 ^ 38)) := mul_le_mul_of_nonneg_left hz1 (by positivity)
    have h3 : (m : ℝ) * ((0.9 / 2 ^ 106) + (1 + 2 ^ (-53 : ℤ)) * (1 / 10 ^ 38)) ≤ m * (1 / 2 ^ 106) := mul_le_mul_of_nonneg_left (by norm_num) hm0
    nlinarith
  have hzb : |ζ| ≤ 0.7863 := by
    have : (m : ℝ) * (1 / 10 ^ 38) ≤ 85445661 * (1 / 10 ^ 38) := mul_le_mul_of_nonneg_right hmR (by positivity)
    have : (85445661 : ℝ) * (1 / 10 ^ 38) ≤ 0.0001 := by norm_num
    linarith
  rw [← hζ]
  refine ⟨?_, r5, r4, hzb, hfin⟩
  have h1 := abs_add_le ζ (z.real - ζ)
  rw [add_sub_cancel] at h1
  have h2 : (m : ℝ) * (1 / 2 ^ 106) ≤ 85445661 * (1 / 2 ^ 106) := mul_le_mul_of_nonneg_right hmR (by positivity)
  have h3 : (85445661 : ℝ) * (1 / 2 ^ 106) ≤ 0.0001 := by norm_num
  have h4 : (2 : ℝ) ^ (-53 : ℤ) * |ζ| ≤ 2 ^ (-53 : ℤ) * 0.7863 := mul_le_mul_of_nonneg_left hzb (by positivity)
  have h5 : (2 : ℝ) ^ (-53 : ℤ) * 0.7863 ≤ 0.0001 := by norm_num
  linarith

theorem reduceWith_plain (x y : F64) : reduceC (fun _ => false) x y DP1 DP2 DP3 = reduceWith x y := by
  simp only [reduceC, reduceWith, nmad_false]

theorem reduce64 {x : F64} (hx : x.isFinite = true) (h : |x.val| ≤ 2 ^ 27) :
    ∃ m : ℕ, (∃ q1, quadStep strict ONEOPIO4 (FP.abs x) = some q1 ∧ clearLow q1 = 2 * m) ∧ (m : ℚ) ≤ 85445661 ∧
      (reduceWith (FP.abs x) (ofInt (2 * m))).isFinite = true ∧
      |(reduceWith (FP.abs x) (ofInt (2 * m))).real| ≤ 0.787 ∧
      (m = 0 → (reduceWith (FP.abs x) (ofInt (2 * m))).val = |x.val|) ∧
      (1 ≤ m → 1 / 2 ≤ |x.val|) ∧ |(|x.real| - m * (Real.pi / 2))| ≤ 0.7863 ∧
      |(reduceWith (FP.abs x) (ofInt (2 * m))).real - (|x.real| - m * (Real.pi / 2))| ≤
        2 ^ (-53 : ℤ) * |(|x.real| - m * (Real.pi / 2))| + m * (1 / 2 ^ 106) := by
  have r := reduce64C (fun _ => false) hx h
  simpa only [reduceWith_plain] using r

/-- For each binade: exponent, bound for the number of quarter turns, and the two neighbours of
`(π/2)/2^(e-mb)`. -/
def distTab64 : List (ℤ × ℤ × ℤ × ℤ × ℤ × ℤ) :=
  [(-1, 1, 14148475504056880, 1, 14148475504056881, 1),
   (0, 2, 7074237752028440, 1, 21222713256085321, 3),
   (1, 3, 3537118876014220, 1, 14148475504056881, 4),
   (2, 6, 1768559438007110, 1, 12379916066049771, 7),
   (3, 11, 884279719003555, 1, 10611356628042661, 12),
   (4, 21, 884279719003555, 2, 10169216768540883, 23),
   (5, 41, 13706335644555103, 62, 6411027962775774, 29),
   (6, 82, 10500821663167216, 95, 3205513981387887, 29),
   (7, 163, 11661438794359382, 211, 3205513981387887, 58),
   (8, 326, 9036233378567578, 327, 3205513981387887, 116),
   (9, 652, 10929144652059563, 791, 3205513981387887, 232),
   (10, 1304, 10272843298111612, 1487, 3205513981387887, 464),
   (11, 2608, 11547449611831580, 3343, 3205513981387887, 928),
   (12, 5216, 12184752768691564, 7055, 3205513981387887, 1856),
   (13, 10431, 9297890365733669, 10767, 3205513981387887, 3712),
   (14, 20861, 9457216154948665, 21903, 3205513981387887, 7424),
   (15, 41722, 3125851086780389, 14479, 6331365068168276, 29327),
   (16, 83444, 9457216154948665, 87612, 3165682534084138, 29327),
   (17, 166887, 9457216154948665, 175224, 1582841267042069, 29327),
   (18, 333773, 5520028710995367, 204551, 12622898689032803, 467756),
   (19, 667545, 5520028710995367, 409102, 3551434989018718, 263205),
   (20, 1335089, 5520028710995367, 818204, 7295746205504726, 1081409),
   (21, 2670177, 9167901813747730, 2717817, 3647873102752363, 1081409),
   (22, 5340354, 11879697112378591, 7043453, 3647873102752363, 2162818),
   (23, 10680708, 7763785107565477, 9206271, 3647873102752363, 4325636),
   (24, 21361415, 7763785107565477, 18412542, 5705829105158920, 13531907),
   (25, 42722830, 7763785107565477, 36825084, 2852914552579460, 13531907),
   (26, 85445660, 7763785107565477, 73650168, 1426457276289730, 13531907)]

def distCheck64 (ρ a b : ℚ) : Bool := distTab64.any fun r =>
  decide (p2 r.1 = a) && decide (b + 0.7863 < (r.2.1 + 1) * 1.57079632) &&
    distOk (piQ / 2 * p2 (52 - r.1)) (1.01 * ρ * r.2.1 * (1 / 2 ^ 106) * p2 (52 - r.1)) r.2.1 r.2.2

/-- A multiple of `π/2` is never so close to a number that the error of the reduction matters much. -/
theorem dist64 {ρ X : ℚ} {l : List ℚ} (hρ : 1 ≤ ρ) (ok : covers (distCheck64 ρ) l = true) (hs : spans l (1 / 2) X = true)
    {x : F64} (hx : 1 / 2 ≤ |x.val|) (h : |x.val| ≤ X) {m : ℕ} (hm : 1 ≤ m)
    (hd : |(|x.real| - m * (Real.pi / 2))| ≤ 0.7863) :
    ρ * (m * (1 / 2 ^ 106)) ≤ |(|x.real| - m * (Real.pi / 2))| := by
  have hρ' : (1 : ℝ) ≤ ρ := by exact_mod_cast hρ
  have hxr : |x.real| = ((|x.val| : ℚ) : ℝ) := by unfold FP.real; push_cast; rfl
  obtain ⟨a, b, hc, h1, h2⟩ := covers_spans ok hs (x := |x.real|)
    (by rw [hxr]; exact Rat.cast_le.2 hx) (by rw [hxr]; exact_mod_cast h)
  unfold distCheck64 at hc
  rw [List.any_eq_true] at hc
  obtain ⟨r, _, hr⟩ := hc
  simp only [Bool.and_eq_true, decide_eq_true_eq] at hr
  obtain ⟨⟨hr1, hr2⟩, hr3⟩ := hr
  have hp := pi_near
  have hpi : (3.14159265 : ℝ) ≤ Real.pi := by
    have : ((piQ : ℚ) : ℝ) ≥ 3.141592653 := by norm_num [piQ]
    rw [abs_le] at hp
    have : (1 : ℝ) / 10 ^ 38 ≤ 0.000000001 := by norm_num
    linarith [hp.1]
  have hmM : (m : ℤ) ≤ r.2.1 := by
    by_contra hcon
    push Not at hcon
    have h3 : ((r.2.1 + 1 : ℤ) : ℝ) ≤ m := by exact_mod_cast hcon
    have h4 : ((b + 0.7863 : ℚ) : ℝ) < (((r.2.1 + 1) * 1.57079632 : ℚ) : ℝ) := by exact_mod_cast hr2
    push_cast at h3 h4
    rw [abs_le] at hd
    have h5 : (m : ℝ) * 1.57075 ≤ m * (Real.pi / 2) := mul_le_mul_of_nonneg_left (by linarith) (by positivity)
    have h6 : (0 : ℝ) ≤ m := by positivity
    nlinarith [hd.1]
  have hax : p2 r.1 ≤ |(FP.abs x).val| := by
    rw [val_abs, _root_.abs_abs, hr1]
    have : ((a : ℚ) : ℝ) ≤ ((|x.val| : ℚ) : ℝ) := by rw [← hxr]; exact h1
    exact_mod_cast this
  have t := dist_of_table (f := b64) (x := FP.abs x) (B := 1.01 * ρ * r.2.1 * (1 / 2 ^ 106)) hax hr3 hm hmM
  rw [val_abs] at t
  have t' : ((1.01 * ρ * r.2.1 * (1 / 2 ^ 106) : ℚ) : ℝ) ≤ |(|x.real| - m * (piQ / 2))| := by
    have : ((1.01 * ρ * r.2.1 * (1 / 2 ^ 106) : ℚ) : ℝ) ≤ ((|(|x.val| - m * (piQ / 2))| : ℚ) : ℝ) := by exact_mod_cast t
    push_cast at this ⊢; unfold FP.real; exact this
  have hmr : (m : ℝ) ≤ (r.2.1 : ℝ) := by exact_mod_cast hmM
  have hm0 : (0 : ℝ) ≤ m := by positivity
  have e : |x.real| - m * (piQ / 2 : ℝ) = (|x.real| - m * (Real.pi / 2)) + m / 2 * (Real.pi - piQ) := by ring
  rw [e] at t'
  have h7 := abs_add_le (|x.real| - m * (Real.pi / 2)) (m / 2 * (Real.pi - piQ))
  have hd : |m / 2 * (Real.pi - piQ)| ≤ m * (1 / 10 ^ 38) := by
    rw [abs_mul, abs_of_nonneg (by positivity : (0 : ℝ) ≤ m / 2)]
    have h1 : (m : ℝ) / 2 ≤ m := by linarith
    exact mul_le_mul h1 hp (_root_.abs_nonneg _) hm0
  push_cast at t'
  have h8 : (m : ℝ) * (1.01 * ρ * (1 / 2 ^ 106)) ≤ r.2.1 * (1.01 * ρ * (1 / 2 ^ 106)) := mul_le_mul_of_nonneg_right hmr (mul_nonneg (mul_nonneg (by norm_num) (by linarith)) (by norm_num))
  have h9 : (m : ℝ) * (ρ * (1 / 2 ^ 106) + 1 / 10 ^ 38) ≤ m * (1.01 * ρ * (1 / 2 ^ 106)) := mul_le_mul_of_nonneg_left (by linarith) hm0
  nlinarith

/-- What the reduction delivers (single precision): the number `m` of quarter turns, the reduced argument
within `u|ζ| + mκ` of `ζ = |x| - mπ/2`, and equal to `|x|` if `m = 0`. -/
theorem reduce32C (pol : Policy) {x : F32} (hx : x.isFinite = true) (h : |x.val| ≤ 8192) :
    ∃ m : ℕ, (∃ q1, quadStep strict ONEOPIO4F (FP.abs x) = some q1 ∧ clearLow q1 = 2 * m) ∧ (m : ℚ) ≤ 5216 ∧
      (reduceC pol (FP.abs x) (ofInt (2 * m)) DP1F DP2F DP3F).isFinite = true ∧
      |(reduceC pol (FP.abs x) (ofInt (2 * m)) DP1F DP2F DP3F).real| ≤ 0.787 ∧
      (m = 0 → (reduceC pol (FP.abs x) (ofInt (2 * m)) DP1F DP2F DP3F).val = |x.val|) ∧
      (1 ≤ m → 1 / 2 ≤ |x.val|) ∧ |(|x.real| - m * (Real.pi / 2))| ≤ 0.7863 ∧
      |(reduceC pol (FP.abs x) (ofInt (2 * m)) DP1F DP2F DP3F).real - (|x.real| - m * (Real.pi / 2))| ≤
        2 ^ (-24 : ℤ) * |(|x.real| - m * (Real.pi / 2))| + m * (0.9 / 2 ^ 47) := by
  have hax : (FP.abs x).isFinite = true := by simpa using hx
  have hav : (FP.abs x).val = |x.val| := val_abs x
  have h0 := abs_val_nonneg x
  rw [← hav] at h
  obtain ⟨m, hq, hm, q1, q2, q3⟩ := quad_spec (f := b32) (c := ONEOPIO4F) (X := 8192) (M := 10431) (by decide +kernel)
    (by decide +kernel) hax h0 h (by decide +kernel) (by decide +kernel) (by decide +kernel) (by decide +kernel)
  have hm8 : (m : ℚ) ≤ 10431 := by
    have h1 : ONEOPIO4F.val * (FP.abs x).val ≤ 10431 :=
      (mul_le_mul_of_nonneg_left h (by decide +kernel)).trans (show ONEOPIO4F.val * 8192 ≤ 10431 by decide +kernel)
    have h2 : hulp b32 10431 ≤ 1 := by decide +kernel
    rw [abs_le] at q3; linarith [q3.2]
  have i := ofInt_spec32 (n := 2 * m) (by
    have : m ≤ 10431 := by exact_mod_cast hm8
    rw [abs_of_nonneg (by omega)]; omega)
  have r := reduce3 pol (f := b32) (c := ONEOPIO4F) (c1 := DP1F) (c2 := DP2F) (c3 := DP3F) (X := 8192) (M := 10431) (l := piQ / 4)
    (R := 0.7862) (κ := (0.89 / 2 ^ 47)) (N := 5216) (k1 := 201) (j1 := -8) (k2 := 2029) (j2 := -23)
    (k := 13) (m := m) (p := ofInt (2 * m)) hax h0 h (by decide +kernel) (by decide +kernel) i.1 (by rw [i.2]; push_cast; rfl) q1 q2 q3
    (by decide +kernel) (by decide +kernel) (by decide +kernel) (by decide +kernel)
    (by decide +kernel) (by decide +kernel) (by decide +kernel) (by decide +kernel) (by decide +kernel) (by decide +kernel)
    (by decide +kernel) (by decide +kernel) (by decide +kernel) (by decide +kernel)
    (by decide +kernel) (by decide +kernel) (by decide +kernel) (by decide +kernel) (by decide +kernel)
    (by decide +kernel) (by decide +kernel) (by decide +kernel) (by decide +kernel) (by decide +kernel) (by decide +kernel)
    (by decide +kernel) (by decide +kernel) (by decide +kernel) (by decide +kernel) (by decide +kernel)
  obtain ⟨r1, r2, r3, r4, r5, r6⟩ := r
  have hmN : (m : ℚ) ≤ 5216 := by exact_mod_cast r2
  change (reduceC pol (FP.abs x) (ofInt (2 * m)) DP1F DP2F DP3F).isFinite = true at r1
  change m = 0 → (reduceC pol (FP.abs x) (ofInt (2 * m)) DP1F DP2F DP3F).val = _ at r5
  change |(reduceC pol (FP.abs x) (ofInt (2 * m)) DP1F DP2F DP3F).val - _| ≤ _ at r6
  rw [hav] at r3 r4 r5 r6
  refine ⟨m, hq, hmN, r1, ?_⟩
  generalize reduceC pol (FP.abs x) (ofInt (2 * m)) DP1F DP2F DP3F = z at *
  have hmR : (m : ℝ) ≤ 5216 := by exact_mod_cast hmN
  have hm0 : (0 : ℝ) ≤ m := by positivity
  have hp := pi_near
  have hu : b32.u = p2 (-24) := by decide +kernel
  have r3' : |(|x.real| - 2 * m * (piQ / 4))| ≤ 0.7862 := by
    have : ((|(|x.val| - 2 * m * (piQ / 4))| : ℚ) : ℝ) ≤ ((0.7862 : ℚ) : ℝ) := by exact_mod_cast r3
    push_cast at this; unfold FP.real; exact this
  have r6' : |z.real - (|x.real| - 2 * m * (piQ / 4))| ≤ 2 ^ (-24 : ℤ) * |(|x.real| - 2 * m * (piQ / 4))| + m * (0.89 / 2 ^ 47) := by
    have : ((|z.val - (|x.val| - 2 * m * (piQ / 4))| : ℚ) : ℝ) ≤
        ((b32.u * |(|x.val| - 2 * m * (piQ / 4))| + m * (0.89 / 2 ^ 47) : ℚ) : ℝ) := by exact_mod_cast r6
    rw [hu, p2_eq] at this
    push_cast at this; unfold FP.real; exact this
  have e : |x.real| - m * (Real.pi / 2) = (|x.real| - 2 * m * (piQ / 4)) - m / 2 * (Real.pi - piQ) := by ring
  obtain ⟨ζ, hζ⟩ : ∃ ζ, ζ = |x.real| - m * (Real.pi / 2) := ⟨_, rfl⟩
  obtain ⟨ζ', hζ'⟩ : ∃ ζ', ζ' = |x.real| - 2 * m * (piQ / 4 : ℝ) := ⟨_, rfl⟩
  rw [← hζ, ← hζ'] at e
  rw [← hζ'] at r3' r6'
  have hd : |m / 2 * (Real.pi - piQ)| ≤ m * (1 / 10 ^ 38) := by
    rw [abs_mul, abs_of_nonneg (by positivity : (0 : ℝ) ≤ m / 2)]
    have h1 : (m : ℝ) / 2 ≤ m := by linarith
    exact mul_le_mul h1 hp (_root_.abs_nonneg _) hm0
  have hdz : |ζ' - ζ| ≤ m * (1 / 10 ^ 38) := by
    rw [e]; refine le_trans (le_of_eq ?_) hd; congr 1; ring
  have hz1 : |ζ'| ≤ |ζ| + m * (1 / 10 ^ 38) := by
    have := abs_add_le ζ (ζ' - ζ); rw [add_sub_cancel] at this; linarith
  have hz2 : |ζ| ≤ |ζ'| + m * (1 / 10 ^ 38) := by
    have := abs_add_le ζ' (ζ - ζ'); rw [add_sub_cancel, abs_sub_comm ζ ζ'] at this; linarith
  have hfin : |z.real - ζ| ≤ 2 ^ (-24 : ℤ) * |ζ| + m * (0.9 / 2 ^ 47) := by
    have h1 := abs_sub_le z.real ζ' ζ
    have h2 : (2 : ℝ) ^ (-24 : ℤ) * |ζ'| ≤ 2 ^ (-24 : ℤ) * (|ζ| + m * (1 / 10 ^ 38)) := mul_le_mul_of_nonneg_left hz1 (by positivity)
    have h3 : (m : ℝ) * ((0.89 / 2 ^ 47) + (1 + 2 ^ (-24 : ℤ)) * (1 / 10 ^ 38)) ≤ m * (0.9 / 2 ^ 47) := mul_le_mul_of_nonneg_left (by norm_num) hm0
    nlinarith
  have hzb : |ζ| ≤ 0.7863 := by
    have : (m : ℝ) * (1 / 10 ^ 38) ≤ 5216 * (1 / 10 ^ 38) := mul_le_mul_of_nonneg_right hmR (by positivity)
    have : (5216 : ℝ) * (1 / 10 ^ 38) ≤ 0.0001 := by norm_num
    linarith
  rw [← hζ]
  refine ⟨?_, r5, r4, hzb, hfin⟩
  have h1 := abs_add_le ζ (z.real - ζ)
  rw [add_sub_cancel] at h1
  have h2 : (m : ℝ) * (0.9 / 2 ^ 47) ≤ 5216 * (0.9 / 2 ^ 47) := mul_le_mul_of_nonneg_right hmR (by positivity)
  have h3 : (5216 : ℝ) * (0.9 / 2 ^ 47) ≤ 0.0001 := by norm_num
  have h4 : (2 : ℝ) ^ (-24 : ℤ) * |ζ| ≤ 2 ^ (-24 : ℤ) * 0.7863 := mul_le_mul_of_nonneg_left hzb (by positivity)
  have h5 : (2 : ℝ) ^ (-24 : ℤ) * 0.7863 ≤ 0.0001 := by norm_num
  linarith

theorem reduceWithf_plain (x y : F32) : reduceC (fun _ => false) x y DP1F DP2F DP3F = reduceWithf x y := by
  simp only [reduceC, reduceWithf, nmad_false]

theorem reduce32 {x : F32} (hx : x.isFinite = true) (h : |x.val| ≤ 8192) :
    ∃ m : ℕ, (∃ q1, quadStep strict ONEOPIO4F (FP.abs x) = some q1 ∧ clearLow q1 = 2 * m) ∧ (m : ℚ) ≤ 5216 ∧
      (reduceWithf (FP.abs x) (ofInt (2 * m))).isFinite = true ∧
      |(reduceWithf (FP.abs x) (ofInt (2 * m))).real| ≤ 0.787 ∧
      (m = 0 → (reduceWithf (FP.abs x) (ofInt (2 * m))).val = |x.val|) ∧
      (1 ≤ m → 1 / 2 ≤ |x.val|) ∧ |(|x.real| - m * (Real.pi / 2))| ≤ 0.7863 ∧
      |(reduceWithf (FP.abs x) (ofInt (2 * m))).real - (|x.real| - m * (Real.pi / 2))| ≤
        2 ^ (-24 : ℤ) * |(|x.real| - m * (Real.pi / 2))| + m * (0.9 / 2 ^ 47) := by
  have r := reduce32C (fun _ => false) hx h
  simpa only [reduceWithf_plain] using r

/-- For each binade: exponent, bound for the number of quarter turns, and the two neighbours of
`(π/2)/2^(e-mb)`. -/
def distTab32 : List (ℤ × ℤ × ℤ × ℤ × ℤ × ℤ) :=
  [(-1, 1, 26353589, 1, 26353590, 1),
   (0, 2, 26353589, 2, 13176795, 1),
   (1, 3, 6588397, 1, 19765192, 3),
   (2, 6, 26353589, 8, 9882596, 3),
   (3, 11, 21412291, 13, 4941298, 3),
   (4, 21, 18941642, 23, 2470649, 3),
   (5, 41, 19353417, 47, 2470649, 6),
   (6, 82, 18323980, 89, 2470649, 12),
   (7, 163, 14103288, 137, 16573937, 161),
   (8, 326, 7051644, 137, 16573937, 322),
   (9, 652, 3525822, 137, 16573937, 644),
   (10, 1304, 1762911, 137, 16573937, 1288),
   (11, 2608, 9168424, 1425, 16573937, 2576),
   (12, 5216, 4584212, 1425, 16573937, 5152)]

def distCheck32 (ρ a b : ℚ) : Bool := distTab32.any fun r =>
  decide (p2 r.1 = a) && decide (b + 0.7863 < (r.2.1 + 1) * 1.57079632) &&
    distOk (piQ / 2 * p2 (23 - r.1)) (1.01 * ρ * r.2.1 * (0.9 / 2 ^ 47) * p2 (23 - r.1)) r.2.1 r.2.2

/-- A multiple of `π/2` is never so close to a number that the error of the reduction matters much. -/
theorem dist32 {ρ X : ℚ} {l : List ℚ} (hρ : 1 ≤ ρ) (ok : covers (distCheck32 ρ) l = true) (hs : spans l (1 / 2) X = true)
    {x : F32} (hx : 1 / 2 ≤ |x.val|) (h : |x.val| ≤ X) {m : ℕ} (hm : 1 ≤ m)
    (hd : |(|x.real| - m * (Real.pi / 2))| ≤ 0.7863) :
    ρ * (m * (0.9 / 2 ^ 47)) ≤ |(|x.real| - m * (Real.pi / 2))| := by
  have hρ' : (1 : ℝ) ≤ ρ := by exact_mod_cast hρ
  have hxr : |x.real| = ((|x.val| : ℚ) : ℝ) := by unfold FP.real; push_cast; rfl
  obtain ⟨a, b, hc, h1, h2⟩ := covers_spans ok hs (x := |x.real|)
    (by rw [hxr]; exact Rat.cast_le.2 hx) (by rw [hxr]; exact_mod_cast h)
  unfold distCheck32 at hc
  rw [List.any_eq_true] at hc
  obtain ⟨r, _, hr⟩ := hc
  simp only [Bool.and_eq_true, decide_eq_true_eq] at hr
  obtain ⟨⟨hr1, hr2⟩, hr3⟩ := hr
  have hp := pi_near
  have hpi : (3.14159265 : ℝ) ≤ Real.pi := by
    have : ((piQ : ℚ) : ℝ) ≥ 3.141592653 := by norm_num [piQ]
    rw [abs_le] at hp
    have : (1 : ℝ) / 10 ^ 38 ≤ 0.000000001 := by norm_num
    linarith [hp.1]
  have hmM : (m : ℤ) ≤ r.2.1 := by
    by_contra hcon
    push Not at hcon
    have h3 : ((r.2.1 + 1 : ℤ) : ℝ) ≤ m := by exact_mod_cast hcon
    have h4 : ((b + 0.7863 : ℚ) : ℝ) < (((r.2.1 + 1) * 1.57079632 : ℚ) : ℝ) := by exact_mod_cast hr2
    push_cast at h3 h4
    rw [abs_le] at hd
    have h5 : (m : ℝ) * 1.57075 ≤ m * (Real.pi / 2) := mul_le_mul_of_nonneg_left (by linarith) (by positivity)
    have h6 : (0 : ℝ) ≤ m := by positivity
    nlinarith [hd.1]
  have hax : p2 r.1 ≤ |(FP.abs x).val| := by
    rw [val_abs, _root_.abs_abs, hr1]
    have : ((a : ℚ) : ℝ) ≤ ((|x.val| : ℚ) : ℝ) := by rw [← hxr]; exact h1
    exact_mod_cast this
  have t := dist_of_table (f := b32) (x := FP.abs x) (B := 1.01 * ρ * r.2.1 * (0.9 / 2 ^ 47)) hax hr3 hm hmM
  rw [val_abs] at t
  have t' : ((1.01 * ρ * r.2.1 * (0.9 / 2 ^ 47) : ℚ) : ℝ) ≤ |(|x.real| - m * (piQ / 2))| := by
    have : ((1.01 * ρ * r.2.1 * (0.9 / 2 ^ 47) : ℚ) : ℝ) ≤ ((|(|x.val| - m * (piQ / 2))| : ℚ) : ℝ) := by exact_mod_cast t
    push_cast at this ⊢; unfold FP.real; exact this
  have hmr : (m : ℝ) ≤ (r.2.1 : ℝ) := by exact_mod_cast hmM
  have hm0 : (0 : ℝ) ≤ m := by positivity
  have e : |x.real| - m * (piQ / 2 : ℝ) = (|x.real| - m * (Real.pi / 2)) + m / 2 * (Real.pi - piQ) := by ring
  rw [e] at t'
  have h7 := abs_add_le (|x.real| - m * (Real.pi / 2)) (m / 2 * (Real.pi - piQ))
  have hd : |m / 2 * (Real.pi - piQ)| ≤ m * (1 / 10 ^ 38) := by
    rw [abs_mul, abs_of_nonneg (by positivity : (0 : ℝ) ≤ m / 2)]
    have h1 : (m : ℝ) / 2 ≤ m := by linarith
    exact mul_le_mul h1 hp (_root_.abs_nonneg _) hm0
  push_cast at t'
  have h8 : (m : ℝ) * (1.01 * ρ * (0.9 / 2 ^ 47)) ≤ r.2.1 * (1.01 * ρ * (0.9 / 2 ^ 47)) := mul_le_mul_of_nonneg_right hmr (mul_nonneg (mul_nonneg (by norm_num) (by linarith)) (by norm_num))
  have h9 : (m : ℝ) * (ρ * (0.9 / 2 ^ 47) + 1 / 10 ^ 38) ≤ m * (1.01 * ρ * (0.9 / 2 ^ 47)) := mul_le_mul_of_nonneg_left (by linarith) hm0
  nlinarith

end Vdt
