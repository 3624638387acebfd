import Verif.Float.Analyse2
import Verif.Real.Atan
import Verif.Lemmas.Tanh
import Verif.Model.Atan
import Verif.Model.Contract
import Verif.Float.Contract

/-! # Accuracy of the arctangent of a nonnegative number -/

namespace Vdt
open FP details

/-! ## Facts about the arctangent -/

theorem arctan_lip (a b : ℝ) : |Real.arctan a - Real.arctan b| ≤ |a - b| := by
  have h := mvt_bound (f := fun y => Real.arctan (b + y)) (f' := fun y => 1 / (1 + (b + y) ^ 2)) (C := 1) (x := a - b)
    (fun y _ => (Real.hasDerivAt_arctan (b + y)).comp_const_add b y)
    (fun y _ => by
      rw [abs_of_pos (by positivity), div_le_one (by positivity)]
      nlinarith [sq_nonneg (b + y)])
  simpa using h

theorem arctan_abs_le (a : ℝ) : |Real.arctan a| ≤ |a| := by
  have := arctan_lip a 0
  simpa using this

/-- Around one. -/
theorem arctan_mid {x : ℝ} (h : 0 < x) : Real.arctan x = Real.pi / 4 + Real.arctan ((x - 1) / (x + 1)) := by
  have h1 : 0 < x + 1 := by linarith
  have h2 : 1 * ((x - 1) / (x + 1)) < 1 := by rw [one_mul, div_lt_one h1]; linarith
  have k := Real.arctan_add h2
  rw [Real.arctan_one] at k
  rw [k]
  congr 1
  have h3 : 1 - 1 * ((x - 1) / (x + 1)) = 2 / (x + 1) := by field_simp; ring
  rw [h3]
  field_simp
  ring

/-- Large arguments. -/
theorem arctan_big {x : ℝ} (h : 0 < x) : Real.arctan x = Real.pi / 2 + Real.arctan (-1 / x) := by
  have k := Real.arctan_inv_of_pos h
  have e : -1 / x = -x⁻¹ := by field_simp
  rw [e, Real.arctan_neg, k]; ring

theorem pi_bounds : (3.14159265358979 : ℝ) ≤ Real.pi ∧ Real.pi ≤ 3.14159265358980 := by
  have h := pi_near
  rw [abs_le] at h
  norm_num [piQ] at h ⊢
  constructor <;> linarith [h.1, h.2]

/-- Lower bound on the small interval. -/
theorem arctan_lower {x : ℝ} (h0 : 0 ≤ x) (h : x ≤ 0.6601) : 0.88 * x ≤ Real.arctan x := by
  have hx : |x| ≤ 0.6601 := by rw [abs_of_nonneg h0]; exact h
  have c := atan_conv hx
  have hs : x * x ≤ ((0.4358 : ℚ) : ℝ) := by push_cast; nlinarith
  have p := pratio_sound (n := psub (psmul 2 atanGp) (psmul 1.882 atanGq)) (d := atanGq) (C := 0.12) (l := grid 0 0.4358 16) (a := 0) (b := 0.4358)
    (by decide +kernel) (by decide +kernel) (x := x * x) (by push_cast; positivity) hs
  rw [pev_sub, pev_smul, pev_smul, abs_le] at p
  have hq : 0 < pev atanGq (x * x) := by
    simp only [atanGq, pev_cons, pev_nil]
    have := mul_self_nonneg x
    push_cast; positivity
  have g : 0.881 ≤ pev atanGp (x * x) / pev atanGq (x * x) := by
    rw [le_div_iff₀ hq]
    have := p.1
    push_cast at this
    linarith
  rw [abs_le, abs_of_nonneg h0] at c
  have g2 := mul_le_mul_of_nonneg_left g h0
  have e : (2 : ℝ) ^ (-60 : ℤ) ≤ 0.001 := by norm_num
  have e2 := mul_le_mul_of_nonneg_right e h0
  have := c.2
  nlinarith

/-- A rational function `z n/d` against the arctangent. -/
theorem atan_ratio {N Q : List ℚ} {C : ℚ} {L : List ℚ} {B : ℚ} (h1 : pratio (psub (pmul N atanGq) (pmul atanGp Q)) (pmul Q atanGq) C L = true)
    (h2 : spans L 0 B = true) (hB : B ≤ 0.43573201) {z : ℝ} (hz : z * z ≤ (B : ℝ)) (hq : 0 < pev Q (z * z)) :
    |z * (pev N (z * z) / pev Q (z * z)) - Real.arctan z| ≤ (C + 2 ^ (-60 : ℤ)) * |z| := by
  have hz' : |z| ≤ 0.6601 := by
    have hb : (B : ℝ) ≤ ((0.43573201 : ℚ) : ℝ) := by exact_mod_cast hB
    push_cast at hb
    have := abs_mul_abs_self z
    by_contra hc
    push Not at hc
    nlinarith
  have c := atan_conv hz'
  have p := pratio_sound h1 h2 (x := z * z) (by push_cast; exact mul_self_nonneg z) hz
  rw [pev_sub, pev_mul, pev_mul, pev_mul] at p
  have hg : 0 < pev atanGq (z * z) := by
    simp only [atanGq, pev_cons, pev_nil]
    have := mul_self_nonneg z
    push_cast; positivity
  have d : |pev N (z * z) / pev Q (z * z) - pev atanGp (z * z) / pev atanGq (z * z)| ≤ C := by
    rw [div_sub_div _ _ hq.ne' hg.ne', abs_div, abs_of_pos (mul_pos hq hg), div_le_iff₀ (mul_pos hq hg)]
    rw [show pev Q (z * z) * pev atanGp (z * z) = pev atanGp (z * z) * pev Q (z * z) by ring]
    exact p
  have e : z * (pev N (z * z) / pev Q (z * z)) - Real.arctan z =
      z * (pev N (z * z) / pev Q (z * z) - pev atanGp (z * z) / pev atanGq (z * z)) + (z * (pev atanGp (z * z) / pev atanGq (z * z)) - Real.arctan z) := by ring
  rw [e]
  refine (abs_add_le _ _).trans ?_
  rw [abs_mul, add_mul]
  refine add_le_add ?_ c
  rw [mul_comm]
  exact mul_le_mul_of_nonneg_right d (abs_nonneg z)

/-! ## Double precision -/

/-- include/atan.h:38-57 -/
def atanPE (x2 : E b64) : E b64 := (((((((((E.const (-lit 8.750608600031904122785E-1)).mul x2).add (.const (-lit 1.615753718733365076637E1))).mul x2).add
    (.const (-lit 7.500855792314704667340E1))).mul x2).add (.const (-lit 1.228866684490136173410E2))).mul x2).add (.const (-lit 6.485021904942025371773E1)))
/-- include/atan.h:60-79 -/
def atanQE (x2 : E b64) : E b64 := ((((((((x2.add (.const (lit 2.485846490142306297962E1))).mul x2).add (.const (lit 1.650270098316988542046E2))).mul x2).add
    (.const (lit 4.328810604912902668951E2))).mul x2).add (.const (lit 4.853903996359136964868E2))).mul x2).add (.const (lit 1.945506571482613964425E2))
/-- include/atan.h:110-119; the argument in the role of a number (`v`) and of a small quantity (`z`). -/
def atanCoreE (v z : E b64) : E b64 := ((z.mul (v.mul v)).mul ((atanPE (v.mul v)).div (atanQE (v.mul v)))).add z
/-- include/atan.h:97 and 102 -/
def atanMidR : E b64 := ((E.var 0).sub (.const (lit 1.0))).div ((E.var 0).add (.const (lit 1.0)))
def atanBigR : E b64 := (E.const (-lit 1.0)).div (.var 0)
def atanMidE : E b64 := ((atanCoreE atanMidR atanMidR).add (.const PIO4)).add (.const MOREBITSO2)
def atanBigE : E b64 := ((atanCoreE atanBigR atanBigR).add (.const PIO2)).add (.const MOREBITS)

/-- include/atan.h:97-120 on the middle and the large interval -/
def atanMidC (p : Policy) (x : F64) : F64 := (atanCoreC p ((x - lit 1.0) / (x + lit 1.0)) + PIO4) + MOREBITSO2
def atanBigC (p : Policy) (x : F64) : F64 := (atanCoreC p (-lit 1.0 / x) + PIO2) + MOREBITS

theorem atanCore_con (p : Policy) (x : F64) : (atanCoreE (.var 0) (.var 1)).Con (fun _ => x) (atanCoreC p x) := by
  unfold atanCoreE atanPE atanQE atanCoreC get_atan_pxC get_atan_qxC; con
theorem atanMid_con (p : Policy) (x : F64) : atanMidE.Con (fun _ => x) (atanMidC p x) := by
  unfold atanMidE atanMidR atanCoreE atanPE atanQE atanMidC atanCoreC get_atan_pxC get_atan_qxC; con
theorem atanBig_con (p : Policy) (x : F64) : atanBigE.Con (fun _ => x) (atanBigC p x) := by
  unfold atanBigE atanBigR atanCoreE atanPE atanQE atanBigC atanCoreC get_atan_pxC get_atan_qxC; con

theorem atanPos_plain (x : F64) : atanPosC (fun _ => false) x = atanPos x := by
  plain [atanPosC, atanPos, atanCoreC, get_atan_pxC, get_atan_qxC, atanCore, get_atan_px, get_atan_qx]
theorem atanPosC_small (p : Policy) {x : F64} (h1 : FP.gt x T3PO8 = false) (h2 : FP.le x (lit 0.66) = true) :
    atanPosC p x = (atanCoreC p x + lit 0) + lit 0 := by
  unfold atanPosC atanReduce; simp only [h1, h2]; rfl
theorem atanPosC_mid (p : Policy) {x : F64} (h1 : FP.gt x T3PO8 = false) (h2 : FP.le x (lit 0.66) = false) : atanPosC p x = atanMidC p x := by
  unfold atanPosC atanReduce; simp only [h1, h2]; rfl
theorem atanPosC_big (p : Policy) {x : F64} (h1 : FP.gt x T3PO8 = true) (h2 : FP.le x (lit 0.66) = false) : atanPosC p x = atanBigC p x := by
  unfold atanPosC atanReduce; simp only [h1, h2]; rfl
theorem atanPos_mid {x : F64} (h1 : FP.gt x T3PO8 = false) (h2 : FP.le x (lit 0.66) = false) :
    atanPos x = (atanCore ((x - lit 1.0) / (x + lit 1.0)) + PIO4) + MOREBITSO2 := by
  unfold atanPos atanReduce; simp only [h1, h2]; rfl

def atanPl : List ℚ := [(-lit 6.485021904942025371773E1 : F64).val, (-lit 1.228866684490136173410E2 : F64).val,
  (-lit 7.500855792314704667340E1 : F64).val, (-lit 1.615753718733365076637E1 : F64).val, (-lit 8.750608600031904122785E-1 : F64).val]
def atanQl : List ℚ := [(lit 1.945506571482613964425E2 : F64).val, (lit 4.853903996359136964868E2 : F64).val, (lit 4.328810604912902668951E2 : F64).val,
  (lit 1.650270098316988542046E2 : F64).val, (lit 2.485846490142306297962E1 : F64).val, 1]
def atanNl : List ℚ := padd atanQl (0 :: atanPl)

theorem atanPE_real (x2 : E b64) (env : ℕ → ℝ) : (atanPE x2).evalR env = pev atanPl (x2.evalR env) := by
  simp only [atanPE, E.evalR, atanPl, pev_cons, pev_nil, FP.real]
  ring
theorem atanQE_real (x2 : E b64) (env : ℕ → ℝ) : (atanQE x2).evalR env = pev atanQl (x2.evalR env) := by
  simp only [atanQE, E.evalR, atanQl, pev_cons, pev_nil, FP.real]
  push_cast
  ring

theorem atanQ_pos (s : ℝ) (h : 0 ≤ s) : 0 < pev atanQl s := by
  have c : (∀ c ∈ atanQl, 0 ≤ c) ∧ 194 ≤ atanQl.headI := by decide +kernel
  have k : ∀ l : List ℚ, (∀ c ∈ l, 0 ≤ c) → 0 ≤ pev l s := by
    intro l
    induction l with
    | nil => intro _; simp
    | cons a l ih =>
      intro hl
      rw [pev_cons]
      have h1 : (0 : ℝ) ≤ a := by exact_mod_cast hl a (by simp)
      have h2 := ih (fun c hc => hl c (by simp [hc]))
      positivity
  have e : atanQl = atanQl.headI :: atanQl.tail := rfl
  rw [e, pev_cons]
  have h1 : (194 : ℝ) ≤ atanQl.headI := by exact_mod_cast c.2
  have h2 := k atanQl.tail (fun c' hc => c.1 c' (List.mem_of_mem_tail hc))
  have := mul_nonneg h h2
  linarith

theorem atanCoreE_real (v z : E b64) (env : ℕ → ℝ) (h : v.evalR env = z.evalR env) :
    (atanCoreE v z).evalR env = z.evalR env * (pev atanNl (z.evalR env * z.evalR env) / pev atanQl (z.evalR env * z.evalR env)) := by
  have e : (atanCoreE v z).evalR env = z.evalR env * (v.evalR env * v.evalR env) * ((atanPE (v.mul v)).evalR env / (atanQE (v.mul v)).evalR env) + z.evalR env := rfl
  rw [e, atanPE_real, atanQE_real]
  have e2 : (v.mul v).evalR env = v.evalR env * v.evalR env := rfl
  rw [e2, h, atanNl, pev_add, pev_cons]
  generalize z.evalR env = r
  have q := (atanQ_pos (r * r) (mul_self_nonneg r)).ne'
  generalize pev atanQl (r * r) = q' at *
  generalize pev atanPl (r * r) = p'
  field_simp
  push_cast
  ring

/-- The rational function of the code. -/
theorem atan_approx {z : ℝ} (h : |z| ≤ 0.6601) : |z * (pev atanNl (z * z) / pev atanQl (z * z)) - Real.arctan z| ≤ 0.125 * 2 ^ (-53 : ℤ) * |z| := by
  have hz : z * z ≤ ((0.43573201 : ℚ) : ℝ) := by
    rw [← abs_mul_abs_self]; push_cast; nlinarith [abs_nonneg z]
  have k := atan_ratio (N := atanNl) (Q := atanQl) (C := 0.115 * 2 ^ (-53 : ℤ)) (L := [0, 29 / 1024, 39 / 512, 151 / 1024, 53 / 256, 293 / 1024, 43 / 128, 201 / 512, 215 / 512, 0.43573201]) (B := 0.43573201) (by decide +kernel) (by decide +kernel) le_rfl hz
    (atanQ_pos _ (mul_self_nonneg z))
  refine k.trans (mul_le_mul_of_nonneg_right ?_ (abs_nonneg z))
  push_cast; norm_num

theorem atanSmallE_ok : covers (okRel1 b64 (atanCoreE (.var 0) (.var 1)) (2.48 * 2 ^ (-53 : ℤ)) 2.36) [0, 3 / 16, 19 / 64, 25 / 64, 1 / 2, 39 / 64, 6601 / 10000] = true := by decide +kernel
theorem atanMidE_ok : covers (okRel b64 atanMidE (3.1 * 2 ^ (-53 : ℤ))) [659 / 1000, 43 / 32, 101 / 64, 113 / 64, 127 / 64, 135 / 64, 9 / 4, 77 / 32, 483 / 200] = true := by decide +kernel
def bigCells (M : ℚ) : List ℚ := [2.414, 2.8, 3.2, 4, 5, 6, 8, 16, 1000, 1000000, M]
theorem atanBigE_ok : covers (okRel b64 atanBigE (2.4 * 2 ^ (-53 : ℤ))) (bigCells (p2 1024)) = true := by decide +kernel

theorem pi4_const : |(PIO4.real + MOREBITSO2.real) - Real.pi / 4| ≤ 1 / 10 ^ 30 := by
  have h := pi_near
  have c : |(PIO4.val + MOREBITSO2.val) - piQ / 4| ≤ 1 / 10 ^ 31 := by decide +kernel
  unfold FP.real
  generalize PIO4.val = a at *
  generalize MOREBITSO2.val = b at *
  generalize piQ = π' at *
  have c' := (Rat.cast_le (K := ℝ)).2 c
  push_cast at c'
  rw [abs_le] at *
  norm_num at h c' ⊢
  constructor <;> linarith [h.1, h.2, c'.1, c'.2]

theorem pi2_const : |(PIO2.real + MOREBITS.real) - Real.pi / 2| ≤ 1 / 10 ^ 30 := by
  have h := pi_near
  have c : |(PIO2.val + MOREBITS.val) - piQ / 2| ≤ 1 / 10 ^ 31 := by decide +kernel
  unfold FP.real
  generalize PIO2.val = a at *
  generalize MOREBITS.val = b at *
  generalize piQ = π' at *
  have c' := (Rat.cast_le (K := ℝ)).2 c
  push_cast at c'
  rw [abs_le] at *
  norm_num at h c' ⊢
  constructor <;> linarith [h.1, h.2, c'.1, c'.2]

/-- Bounds for the combination of errors. -/
theorem rel_chain {F R A C δ D : ℝ} (h1 : |F - R| ≤ C * R) (h2 : |R - A| ≤ δ) (hC : 0 ≤ C) (h : C * δ + δ ≤ D * A) : |F - A| ≤ (C + D) * A := by
  rw [abs_le] at *
  have : C * R ≤ C * (A + δ) := mul_le_mul_of_nonneg_left (by linarith) hC
  constructor <;> nlinarith

end Vdt
