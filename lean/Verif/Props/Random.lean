import Verif.Model.Random
import Verif.Spec
import Verif.Lemmas.Atan2
import Verif.Lemmas.Common
import Mathlib.Tactic.Linarith
import Mathlib.Tactic.Positivity
import Mathlib.Tactic.NormNum

/-!
# C60: the random pools

Every number of a pool is finite and lies between the limits, for all limits (up to the largest
double, the reason the code computes in `long double`), all sizes and all outputs of the engine; and
it is the linear image of the engine output, to within rounding.
-/

namespace Vdt.Rand
open FP

instance : Fmt.Ok b80 := ⟨by decide, by decide⟩

/-- The formats pools are made of. -/
def IsT (f : Fmt) : Prop := f = b64 ∨ f = b32

theorem b80_u : b80.u = 1 / 2 ^ 64 := by unfold Fmt.u; rw [p2_eq]; norm_num

theorem finite_lt {f : Fmt} (hf : IsT f) {x : FP f} (hx : x.isFinite = true) : |x.val| < p2 1024 := by
  rw [abs_val]
  simp only [isFinite, decide_eq_true_eq] at hx
  rcases hf with rfl | rfl
  · exact lt_of_lt_of_le (magVal_lt.2 hx) (by decide +kernel)
  · exact lt_of_lt_of_le (magVal_lt.2 hx) (by decide +kernel)

theorem rep80 {f : Fmt} (hf : IsT f) (x : FP f) : Rep b80 x.val := by
  obtain ⟨n, k, h1, h2, h3⟩ := val_rep x
  rcases hf with rfl | rfl
  · exact ⟨n, k, h1, h2.trans (by norm_num), le_trans (by decide) h3⟩
  · exact ⟨n, k, h1, h2.trans (by norm_num), le_trans (by decide) h3⟩

theorem big80 : p2 1040 ≤ b80.big := p2_le (by decide)

theorem convert80 {f : Fmt} (hf : IsT f) {x : FP f} (hx : x.isFinite = true) :
    (convert b80 x).isFinite = true ∧ (convert b80 x).val = x.val := by
  have h := (finite_lt hf hx).le.trans ((p2_le (by decide)).trans big80)
  unfold convert
  rw [if_neg (by simp [finite_not_nan hx]), if_neg (by simp [finite_not_inf hx])]
  exact ⟨finite_ofRat _ h, by rw [val_ofRat, rnd_exact b80 (rep80 hf x) h]⟩

theorem canonical_val (g : BitVec 64) : (canonical g).isFinite = true ∧ (canonical g).val = (g.toNat : ℚ) / 2 ^ 64 := by
  have hg : (g.toNat : ℚ) < 2 ^ 64 := by exact_mod_cast g.isLt
  have g0 : (0 : ℚ) ≤ g.toNat := by positivity
  have hb : (2 : ℚ) ^ 64 ≤ b80.big := by
    refine le_trans ?_ (le_trans (p2_le (by decide : (64 : ℤ) ≤ 1040)) big80)
    rw [p2_eq]; norm_num
  have r1 : Rep b80 (g.toNat : ℚ) := ⟨g.toNat, 0, by simp [p2_eq], by
    have := g.isLt
    rw [abs_of_nonneg (by positivity)]
    norm_num; exact_mod_cast this.le, by decide⟩
  have e1 := rnd_exact b80 r1 (by rw [abs_of_nonneg g0]; exact hg.le.trans hb)
  have e2 : rnd b80 (2 ^ 64) = 2 ^ 64 := by decide +kernel
  have f1 : (ofRat b80 false (g.toNat : ℚ)).isFinite = true := finite_ofRat _ (by rw [abs_of_nonneg g0]; exact hg.le.trans hb)
  have f2 : (ofRat b80 false ((2 : ℚ) ^ 64)).isFinite = true := by decide +kernel
  have v1 : (ofRat b80 false (g.toNat : ℚ)).val = g.toNat := by rw [val_ofRat, e1]
  have v2 : (ofRat b80 false ((2 : ℚ) ^ 64)).val = 2 ^ 64 := by rw [val_ofRat, e2]
  have r3 : Rep b80 ((g.toNat : ℚ) / 2 ^ 64) := ⟨g.toNat, -64, by
    rw [p2_eq]; norm_num; rw [div_eq_mul_inv]; norm_num, by
    have := g.isLt
    rw [abs_of_nonneg (by positivity)]
    norm_num; exact_mod_cast this.le, by decide⟩
  have q1 : (g.toNat : ℚ) / 2 ^ 64 < 1 := by rw [div_lt_one (by positivity)]; exact hg
  have q0 : 0 ≤ (g.toNat : ℚ) / 2 ^ 64 := div_nonneg g0 (by norm_num)
  have qb : |(g.toNat : ℚ) / 2 ^ 64| ≤ b80.big := by
    rw [abs_of_nonneg q0]
    exact q1.le.trans (le_trans (by norm_num) hb)
  have d := div_fin f1 f2 (by rw [v2]; positivity)
  have hd : (ofRat b80 false (g.toNat : ℚ) / ofRat b80 false ((2 : ℚ) ^ 64)).isFinite = true ∧
      (ofRat b80 false (g.toNat : ℚ) / ofRat b80 false ((2 : ℚ) ^ 64)).val = (g.toNat : ℚ) / 2 ^ 64 := by
    rw [div_def, d, v1, v2]
    exact ⟨finite_ofRat _ qb, by rw [val_ofRat, rnd_exact b80 r3 qb]⟩
  unfold canonical
  dsimp only
  rw [if_neg]
  · exact hd
  · rw [le_fin (by decide +kernel) hd.1, hd.2]
    have : (lit 1 : FP b80).val = 1 := by decide +kernel
    rw [this]; simpa using q1

/-- The product with a canonical number below one does not exceed the exact difference, although the
difference may have been rounded up. -/
theorem scaled_le {D t : ℚ} (hD : p2 (-1100) ≤ D) (hD2 : D ≤ p2 1030) (t0 : 0 ≤ t) (t1 : t ≤ 1 - 1 / 2 ^ 64) :
    rnd b80 (t * rnd b80 D) ≤ D := by
  by_contra hc
  push Not at hc
  have Dpos : 0 < D := lt_of_lt_of_le (p2_pos _) hD
  have R0 : 0 ≤ rnd b80 D := rnd_nonneg _ Dpos.le
  have Db : D ≤ b80.big := hD2.trans ((p2_le (by decide)).trans big80)
  have e1 := rnd_err_add b80 (q := D) (by rw [abs_of_pos Dpos]; exact Db)
  rw [abs_of_pos Dpos, b80_u] at e1
  have eta : b80.eta ≤ p2 (-1100) * (1 / 2 ^ 70) := by
    have : p2 (-1100) * (1 / 2 ^ 70) = p2 (-1170) := by
      rw [show (-1170 : ℤ) = -1100 + -70 by norm_num, p2_add, show p2 (-70) = 1 / 2 ^ 70 by rw [p2_eq]; norm_num]
    rw [this]; exact p2_le (by decide)
  have Rlo : D / 2 ≤ rnd b80 D := by
    have := abs_le.1 e1; nlinarith
  have Rhi : rnd b80 D ≤ 2 * D := by
    have := abs_le.1 e1; nlinarith
  set R := rnd b80 D with hR
  have RR : rnd b80 R = R := by
    rw [hR, ← val_ofRat (f := b80) false D]
    exact rnd_fin (finite_ofRat _ (by rw [abs_of_pos Dpos]; exact Db))
  have qhi : t * R ≤ R - R / 2 ^ 64 := by nlinarith
  have q0 : 0 ≤ t * R := mul_nonneg t0 R0
  have qb : |t * R| ≤ b80.big := by
    rw [abs_of_nonneg q0]
    have h1 : t * R ≤ 2 * D := by
      have : 0 ≤ R / 2 ^ 64 := div_nonneg R0 (by norm_num)
      linarith
    have h2 : 2 * D ≤ p2 1031 := by rw [show (1031 : ℤ) = 1030 + 1 by norm_num, p2_succ]; linarith
    exact h1.trans (h2.trans ((p2_le (by decide)).trans big80))
  have hidem : rnd b80 (rnd b80 (t * R)) = rnd b80 (t * R) := by
    rw [← val_ofRat (f := b80) false (t * R)]
    exact rnd_fin (finite_ofRat _ qb)
  have hge : R ≤ rnd b80 (t * R) := by
    rw [← hidem]; exact rnd_mono b80 hc.le
  have e2 := rnd_err_rel b80 qb
  rw [abs_of_nonneg q0, b80_u] at e2
  have e3 : R - t * R ≤ max (1 / 2 ^ 64 * (t * R)) b80.eta :=
    le_trans (by linarith [le_abs_self (rnd b80 (t * R) - t * R)]) e2
  have Rpos : 0 < R := by linarith
  rcases le_max_iff.1 e3 with h | h
  · have : 0 < R / 2 ^ 64 := div_pos Rpos (by norm_num)
    nlinarith
  · have h4 : p2 (-1100) / 2 ≤ R := by linarith
    have := p2_pos (-1100)
    nlinarith

/-- Nonzero doubles differ by at least the smallest subnormal. -/
theorem grid_gap {f : Fmt} (hf : IsT f) {a b : FP f} (h : a.val < b.val) : p2 (-1100) ≤ b.val - a.val := by
  have key : ∀ x : FP f, ∃ n : ℤ, x.val = n * p2 (-1100) := by
    intro x
    obtain ⟨n, k, h1, -, h3⟩ := val_rep x
    have hk : -1100 ≤ k := by rcases hf with rfl | rfl <;> exact le_trans (by decide) h3
    obtain ⟨j, hj⟩ := Int.eq_ofNat_of_zero_le (show 0 ≤ k + 1100 by omega)
    refine ⟨n * 2 ^ j, ?_⟩
    rw [h1, show k = (j : ℤ) + -1100 by omega, p2_add, p2_nat]
    push_cast; ring
  obtain ⟨n, hn⟩ := key a
  obtain ⟨m, hm⟩ := key b
  have hp := p2_pos (-1100)
  have hlt : n < m := by
    rw [hn, hm] at h
    exact_mod_cast lt_of_mul_lt_mul_right h hp.le
  have h1 : (1 : ℚ) ≤ (m : ℚ) - n := by
    have : (n : ℚ) + 1 ≤ m := by exact_mod_cast hlt
    linarith
  rw [hn, hm, ← sub_mul]
  nlinarith

/-- What `uniform` computes: everything is finite, one rounding for each of the three operations. -/
theorem uniform_parts {f : Fmt} (hf : IsT f) {a b : FP f} (ha : a.isFinite = true) (hb : b.isFinite = true)
    (hab : a.val ≤ b.val) (g : BitVec 64) :
    (∃ P A : FP b80, P.isFinite = true ∧ A.isFinite = true ∧ P.val = rnd b80 ((g.toNat : ℚ) / 2 ^ 64 * rnd b80 (b.val - a.val)) ∧
      A.val = a.val ∧ uniform a b g = FP.add P A) ∧
    (uniform a b g).isFinite = true ∧
    (uniform a b g).val = rnd b80 (rnd b80 ((g.toNat : ℚ) / 2 ^ 64 * rnd b80 (b.val - a.val)) + a.val) ∧
    0 ≤ rnd b80 ((g.toNat : ℚ) / 2 ^ 64 * rnd b80 (b.val - a.val)) ∧
    rnd b80 ((g.toNat : ℚ) / 2 ^ 64 * rnd b80 (b.val - a.val)) ≤ b.val - a.val := by
  obtain ⟨ca, va⟩ := convert80 hf ha
  obtain ⟨cb, vb⟩ := convert80 hf hb
  obtain ⟨cg, vg⟩ := canonical_val g
  have la := finite_lt hf ha
  have lb := finite_lt hf hb
  have hD : b.val - a.val ≤ p2 1025 := by
    rw [show (1025 : ℤ) = 1024 + 1 by norm_num, p2_succ]
    linarith [abs_lt.1 la, abs_lt.1 lb]
  have b25 : p2 1025 ≤ b80.big := (p2_le (by decide)).trans big80
  have D0 : 0 ≤ b.val - a.val := by linarith
  have t0 : 0 ≤ (g.toNat : ℚ) / 2 ^ 64 := div_nonneg (Nat.cast_nonneg _) (by norm_num)
  have t1 : (g.toNat : ℚ) / 2 ^ 64 ≤ 1 - 1 / 2 ^ 64 := by
    have h : g.toNat + 1 ≤ 2 ^ 64 := g.isLt
    have h' : (g.toNat : ℚ) + 1 ≤ 2 ^ 64 := by exact_mod_cast h
    have e : (1 : ℚ) - 1 / 2 ^ 64 = (2 ^ 64 - 1) / 2 ^ 64 := by norm_num
    rw [e]
    exact (div_le_div_iff_of_pos_right (by norm_num)).2 (by linarith)
  obtain ⟨sf, sv⟩ := sub_spec cb ca (by rw [va, vb, abs_of_nonneg D0]; exact hD.trans b25)
  rw [va, vb] at sv
  have hp : rnd b80 ((g.toNat : ℚ) / 2 ^ 64 * rnd b80 (b.val - a.val)) ≤ b.val - a.val := by
    rcases hab.eq_or_lt with h | h
    · rw [h, sub_self, rnd_zero, mul_zero, rnd_zero]
    · exact scaled_le (grid_gap hf h) (hD.trans (p2_le (by decide))) t0 t1
  have R0 : 0 ≤ rnd b80 (b.val - a.val) := rnd_nonneg _ D0
  have p0 : 0 ≤ rnd b80 ((g.toNat : ℚ) / 2 ^ 64 * rnd b80 (b.val - a.val)) := rnd_nonneg _ (mul_nonneg t0 R0)
  have Rb : rnd b80 (b.val - a.val) ≤ p2 1025 := by
    refine (rnd_mono b80 hD).trans (le_of_eq ?_)
    exact rnd_exact b80 ⟨1, 1025, by simp, by norm_num, by decide⟩ (by rw [abs_of_pos (p2_pos _)]; exact b25)
  obtain ⟨mf, mv⟩ := mul_spec cg sf (by
    rw [vg, sv, abs_of_nonneg (mul_nonneg t0 R0)]
    have : (g.toNat : ℚ) / 2 ^ 64 ≤ 1 := t1.trans (by norm_num)
    exact (mul_le_of_le_one_left R0 this).trans (Rb.trans b25))
  rw [vg, sv] at mv
  obtain ⟨af, av⟩ := add_spec mf ca (by
    rw [va, mv]
    have h1 : p2 1025 = 2 * p2 1024 := by rw [show (1025 : ℤ) = 1024 + 1 by norm_num, p2_succ]
    have h2 : p2 1026 = 2 * p2 1025 := by rw [show (1026 : ℤ) = 1025 + 1 by norm_num, p2_succ]
    have h3 : p2 1026 ≤ b80.big := (p2_le (by decide)).trans big80
    rw [abs_le]
    have := abs_lt.1 la
    have := abs_lt.1 lb
    constructor <;> linarith)
  rw [va, mv] at av
  exact ⟨⟨_, _, mf, ca, mv, va, rfl⟩, af, av, p0, hp⟩

theorem uniform_eq {f : Fmt} (hf : IsT f) {a b : FP f} (ha : a.isFinite = true) (hb : b.isFinite = true)
    (hab : a.val ≤ b.val) (g : BitVec 64) :
    (uniform a b g).isFinite = true ∧
    (uniform a b g).val = rnd b80 (rnd b80 ((g.toNat : ℚ) / 2 ^ 64 * rnd b80 (b.val - a.val)) + a.val) ∧
    0 ≤ rnd b80 ((g.toNat : ℚ) / 2 ^ 64 * rnd b80 (b.val - a.val)) ∧
    rnd b80 ((g.toNat : ℚ) / 2 ^ 64 * rnd b80 (b.val - a.val)) ≤ b.val - a.val := (uniform_parts hf ha hb hab g).2

/-- A zero between a negative and a positive limit is positive. -/
theorem uniform_zero {f : Fmt} (hf : IsT f) {a b : FP f} (ha : a.isFinite = true) (hb : b.isFinite = true)
    (hab : a.val ≤ b.val) (g : BitVec 64) (h0 : a.val < 0)
    (h : rnd b80 ((g.toNat : ℚ) / 2 ^ 64 * rnd b80 (b.val - a.val)) + a.val = 0) : convert f (uniform a b g) = zero false := by
  obtain ⟨⟨P, A, pf, af, pv, av, e⟩, -⟩ := uniform_parts hf ha hb hab g
  rw [← pv] at h
  have ps : P.sign = false := by
    by_contra hc
    rw [Bool.not_eq_false] at hc
    have : P.val = -magVal b80 P.mag := by unfold FP.val; rw [hc]; simp
    have := magVal_nonneg b80 P.mag
    linarith
  have e2 : FP.add P A = zero false := by
    unfold FP.add
    rw [if_neg (by simp [finite_not_nan pf, finite_not_nan af]), if_neg (by simp [finite_not_inf pf]), if_neg (by simp [finite_not_inf af]),
      av, h, ps]
    rfl
  rw [e, e2]
  rcases hf with rfl | rfl <;> decide +kernel

/-- The number before its conversion to `T` lies between the limits. -/
theorem uniform_range {f : Fmt} (hf : IsT f) {a b : FP f} (ha : a.isFinite = true) (hb : b.isFinite = true)
    (hab : a.val ≤ b.val) (g : BitVec 64) : a.val ≤ (uniform a b g).val ∧ (uniform a b g).val ≤ b.val := by
  obtain ⟨-, v, p0, p1⟩ := uniform_eq hf ha hb hab g
  have ea : rnd b80 a.val = a.val := by rw [← (convert80 hf ha).2]; exact rnd_fin (convert80 hf ha).1
  have eb : rnd b80 b.val = b.val := by rw [← (convert80 hf hb).2]; exact rnd_fin (convert80 hf hb).1
  rw [v]
  generalize rnd b80 ((g.toNat : ℚ) / 2 ^ 64 * rnd b80 (b.val - a.val)) = p at *
  exact ⟨ea.symm.le.trans (rnd_mono b80 (by linarith)), (rnd_mono b80 (by linarith)).trans eb.le⟩

theorem number_eq {f : Fmt} (hf : IsT f) {a b : FP f} (ha : a.isFinite = true) (hb : b.isFinite = true)
    (hab : a.val ≤ b.val) (g : BitVec 64) :
    (convert f (uniform a b g)).isFinite = true ∧ (convert f (uniform a b g)).val = rnd f (uniform a b g).val ∧
    a.val ≤ (convert f (uniform a b g)).val ∧ (convert f (uniform a b g)).val ≤ b.val := by
  obtain ⟨uf, -⟩ := uniform_eq hf ha hb hab g
  obtain ⟨u1, u2⟩ := uniform_range hf ha hb hab g
  have e : convert f (uniform a b g) = ofRat f (uniform a b g).sign (uniform a b g).val := by
    unfold convert
    rw [if_neg (by simp [finite_not_nan uf]), if_neg (by simp [finite_not_inf uf])]
  have ra : a.val ≤ rnd f (uniform a b g).val := by
    have : f.Ok := by rcases hf with rfl | rfl <;> infer_instance
    exact (rnd_fin ha).symm.le.trans (rnd_mono f u1)
  have rb : rnd f (uniform a b g).val ≤ b.val := by
    have : f.Ok := by rcases hf with rfl | rfl <;> infer_instance
    exact (rnd_mono f u2).trans (rnd_fin hb).le
  rw [e, val_ofRat]
  refine ⟨?_, rfl, ra, rb⟩
  have hm : |(ofRat f (uniform a b g).sign (uniform a b g).val).val| < magVal f f.infMag := by
    simp only [isFinite, decide_eq_true_eq] at ha hb
    have h1 := (magVal_lt (f := f)).2 ha
    have h2 := (magVal_lt (f := f)).2 hb
    rw [← abs_val] at h1 h2
    rw [val_ofRat, abs_lt]
    constructor <;> linarith [abs_lt.1 h1, abs_lt.1 h2]
  rw [abs_val, magVal_lt] at hm
  simpa [isFinite] using hm

/-- C60: number of entries and range of a pool of one-argument inputs. -/
theorem C60_pool_range {f : Fmt} (hf : f = b64 ∨ f = b32) (min max : FP f) (hmin : min.isFinite = true)
    (hmax : max.isFinite = true) (h : min.val ≤ max.val) (eng : Engine) (size : BitVec 64) :
    (pool1D eng min max size).length = size.toNat ∧
    ∀ x ∈ pool1D eng min max size, x.isFinite = true ∧ min.val ≤ x.val ∧ x.val ≤ max.val := by
  unfold pool1D fillVector
  refine ⟨by simp, fun x hx => ?_⟩
  obtain ⟨i, -, rfl⟩ := List.mem_map.1 hx
  obtain ⟨h1, -, h2, h3⟩ := number_eq hf hmin hmax h (eng (0 + i))
  exact ⟨h1, h2, h3⟩

/-- C60 for pools of pairs: as many second as first components, each within its own limits. -/
theorem C60_pool2D_range {f : Fmt} (hf : f = b64 ∨ f = b32) (minX minY maxX maxY : FP f)
    (h1 : minX.isFinite = true) (h2 : maxX.isFinite = true) (hX : minX.val ≤ maxX.val)
    (h3 : minY.isFinite = true) (h4 : maxY.isFinite = true) (hY : minY.val ≤ maxY.val)
    (eng : Engine) (size : BitVec 64) :
    ((pool2D eng minX minY maxX maxY size).1.length = size.toNat ∧
     ∀ x ∈ (pool2D eng minX minY maxX maxY size).1, x.isFinite = true ∧ minX.val ≤ x.val ∧ x.val ≤ maxX.val) ∧
    ((pool2D eng minX minY maxX maxY size).2.length = size.toNat ∧
     ∀ y ∈ (pool2D eng minX minY maxX maxY size).2, y.isFinite = true ∧ minY.val ≤ y.val ∧ y.val ≤ maxY.val) := by
  unfold pool2D fillVector
  refine ⟨⟨by simp, fun x hx => ?_⟩, ⟨by simp, fun x hx => ?_⟩⟩
  all_goals obtain ⟨i, -, rfl⟩ := List.mem_map.1 hx
  · obtain ⟨g1, -, g2, g3⟩ := number_eq hf h1 h2 hX (eng (0 + i))
    exact ⟨g1, g2, g3⟩
  · obtain ⟨g1, -, g2, g3⟩ := number_eq hf h3 h4 hY (eng (size.toNat + i))
    exact ⟨g1, g2, g3⟩

/-- The deviation of the number before conversion from the exact linear map. -/
theorem uniform_near {f : Fmt} (hf : IsT f) {a b : FP f} (ha : a.isFinite = true) (hb : b.isFinite = true)
    (hab : a.val < b.val) (g : BitVec 64) :
    |(uniform a b g).val - (a.val + (b.val - a.val) * ((g.toNat : ℚ) / 2 ^ 64))| ≤ max |a.val| |b.val| / 2 ^ 60 := by
  obtain ⟨-, v, p0, p1⟩ := uniform_eq hf ha hb hab.le g
  have la := finite_lt hf ha
  have lb := finite_lt hf hb
  have hgap := grid_gap hf hab
  have b25 : p2 1026 ≤ b80.big := (p2_le (by decide)).trans big80
  have h26 : p2 1026 = 4 * p2 1024 := by
    rw [show (1026 : ℤ) = 1024 + 1 + 1 by norm_num, p2_succ, p2_succ]; ring
  have hp := p2_pos 1024
  have hq := p2_pos (-1100)
  have eta : b80.eta ≤ p2 (-1100) * (1 / 2 ^ 70) := by
    have : p2 (-1100) * (1 / 2 ^ 70) = p2 (-1170) := by
      rw [show (-1170 : ℤ) = -1100 + -70 by norm_num, p2_add, show p2 (-70) = 1 / 2 ^ 70 by rw [p2_eq]; norm_num]
    rw [this]; exact p2_le (by decide)
  have eta0 := b80.eta_pos
  have t0 : 0 ≤ (g.toNat : ℚ) / 2 ^ 64 := div_nonneg (Nat.cast_nonneg _) (by norm_num)
  have t1 : (g.toNat : ℚ) / 2 ^ 64 ≤ 1 := by
    rw [div_le_one (by norm_num)]; exact_mod_cast g.isLt.le
  have A := le_max_left |a.val| |b.val|
  have B := le_max_right |a.val| |b.val|
  have Ml : max |a.val| |b.val| < p2 1024 := max_lt la lb
  rw [v]
  set t : ℚ := (g.toNat : ℚ) / 2 ^ 64 with ht
  set M := max |a.val| |b.val| with hM
  have := abs_le.1 A
  have := abs_le.1 B
  set D := b.val - a.val with hD
  have D2 : D ≤ 2 * M := by linarith
  have Dpos : 0 < D := by linarith
  have e1 := rnd_err_add b80 (q := D) (by rw [abs_of_pos Dpos]; linarith)
  rw [abs_of_pos Dpos, b80_u] at e1
  have R0 : 0 ≤ rnd b80 D := rnd_nonneg _ Dpos.le
  set R := rnd b80 D with hR
  obtain ⟨e1a, e1b⟩ := abs_le.1 e1
  have R2 : R ≤ 2 * D := by linarith
  have tR0 := mul_nonneg t0 R0
  have tR1 : t * R ≤ R := mul_le_of_le_one_left R0 t1
  have e2 := rnd_err_add b80 (q := t * R) (by rw [abs_of_nonneg tR0]; linarith)
  rw [abs_of_nonneg tR0, b80_u] at e2
  set p := rnd b80 (t * R) with hpp
  obtain ⟨e2a, e2b⟩ := abs_le.1 e2
  have pa : |p + a.val| ≤ M := by rw [abs_le]; constructor <;> linarith
  have e3 := rnd_err_add b80 (q := p + a.val) (by linarith)
  rw [b80_u] at e3
  obtain ⟨e3a, e3b⟩ := abs_le.1 e3
  have x1 : t * R - t * D ≤ (1 / 2 ^ 64 * D + b80.eta) := by
    have : t * (R - D) ≤ t * (1 / 2 ^ 64 * D + b80.eta) := mul_le_mul_of_nonneg_left e1b t0
    have h5 : t * (1 / 2 ^ 64 * D + b80.eta) ≤ 1 / 2 ^ 64 * D + b80.eta := mul_le_of_le_one_left (by linarith) t1
    linarith
  have x2 : -(1 / 2 ^ 64 * D + b80.eta) ≤ t * R - t * D := by
    have : t * -(1 / 2 ^ 64 * D + b80.eta) ≤ t * (R - D) := mul_le_mul_of_nonneg_left e1a t0
    have h5 : t * (1 / 2 ^ 64 * D + b80.eta) ≤ 1 / 2 ^ 64 * D + b80.eta := mul_le_of_le_one_left (by linarith) t1
    linarith
  have c : D * t = t * D := mul_comm _ _
  rw [c, abs_le]
  constructor <;> linarith

/-- C60: apart from rounding, the numbers are the engine outputs scaled linearly to the interval. -/
theorem C60_pool_linear {f : Fmt} (hf : f = b64 ∨ f = b32) (min max : FP f) (hmin : min.isFinite = true)
    (hmax : max.isFinite = true) (h : min.val < max.val) (hm : |min.val| ≤ f.big) (hM : |max.val| ≤ f.big)
    (eng : Engine) (size : BitVec 64) (i : ℕ) (x : FP f) (hx : (pool1D eng min max size)[i]? = some x) :
    |x.val - (min.val + (max.val - min.val) * ((eng i).toNat / 2 ^ 64))| ≤
      Max.max |min.val| |max.val| * (2 : ℚ) ^ (-(f.mb : ℤ)) + 2 ^ (f.emin - f.mb) := by
  have hx2 : x = convert f (uniform min max (eng i)) := by
    unfold pool1D fillVector at hx
    rw [List.getElem?_map] at hx
    obtain ⟨j, hj, rfl⟩ := Option.map_eq_some_iff.1 hx
    rw [List.getElem?_range] at hj
    · obtain rfl := Option.some.inj hj; simp
    · by_contra hc
      rw [List.getElem?_eq_none (by simpa using hc)] at hj
      cases hj
  subst hx2
  have n1 := uniform_near hf hmin hmax h (eng i)
  obtain ⟨u1, u2⟩ := uniform_range hf hmin hmax h.le (eng i)
  rw [(number_eq hf hmin hmax h.le (eng i)).2.1]
  set w := (uniform min max (eng i)).val
  set I := min.val + (max.val - min.val) * ((eng i).toNat / 2 ^ 64)
  have A := le_max_left |min.val| |max.val|
  have B := le_max_right |min.val| |max.val|
  have Mb : Max.max |min.val| |max.val| ≤ f.big := max_le hm hM
  set M := Max.max |min.val| |max.val|
  have wM : |w| ≤ M := by
    have := abs_le.1 A
    have := abs_le.1 B
    rw [abs_le]; constructor <;> linarith
  have ok : f.Ok := by rcases hf with rfl | rfl <;> infer_instance
  have e := rnd_err_add f (q := w) (wM.trans Mb)
  have M0 : 0 ≤ M := (abs_nonneg _).trans wM
  have hu : f.u * |w| ≤ f.u * M := mul_le_mul_of_nonneg_left wM f.u_pos.le
  have hu2 : f.u * M + M / 2 ^ 60 ≤ M * 2 ^ (-(f.mb : ℤ)) := by
    have hu3 : f.u + 1 / 2 ^ 60 ≤ 2 ^ (-(f.mb : ℤ)) := by
      unfold Fmt.u
      rw [p2_eq]
      rcases hf with rfl | rfl <;> norm_num
    have := mul_le_mul_of_nonneg_left hu3 M0
    linarith
  have hη : f.eta ≤ 2 ^ (f.emin - f.mb) := by
    unfold Fmt.eta; rw [← p2_eq]; exact p2_le (by omega)
  have := abs_le.1 e
  have := abs_le.1 n1
  rw [abs_le]; constructor <;> linarith

/-- The largest limits there are: the whole range of `double`. -/
example : (neg ⟨false, b64.infMag - 1, by decide⟩ : F64).isFinite = true ∧ (⟨false, b64.infMag - 1, by decide⟩ : F64).isFinite = true ∧
    (neg ⟨false, b64.infMag - 1, by decide⟩ : F64).val < (⟨false, b64.infMag - 1, by decide⟩ : F64).val := by decide +kernel

example : (lit (-705) : F64).isFinite = true ∧ (lit 705 : F64).isFinite = true ∧ (lit (-705) : F64).val < (lit 705 : F64).val ∧
    |(lit (-705) : F64).val| ≤ b64.big ∧ |(lit 705 : F64).val| ≤ b64.big ∧
    (pool1D (fun _ => 3#64 <<< 62) (lit (-705) : F64) (lit 705) 2#64)[1]? = some (lit 352.5) := by decide +kernel

end Vdt.Rand
