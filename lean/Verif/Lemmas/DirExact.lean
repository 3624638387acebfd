import Verif.Lemmas.Directed

/-! # Which of the two neighbours each of the four directions returns -/

namespace Vdt.Flush
open FP
variable {f : Fmt}

/-- `r` is the rounded result of the operation, `t` the exact one. -/
structure Rounded (o : Op) (x y r : FP f) (t : ℝ) : Prop where
  near : r.Nearest t
  big : |t| ≤ (f.big : ℝ)
  lt : cmpExact o x y r = .lt ↔ r.real < t
  gt : cmpExact o x y r = .gt ↔ t < r.real

theorem rounded_of [f.Ok] {o : Op} {x y r : FP f} {q : ℚ} {t : ℝ} (ht : t = q) (hq : cmpExact o x y r = compare r.val q) (hn : r.Nearest q)
    (hb : |q| ≤ f.big) : Rounded o x y r t := by
  subst ht
  refine ⟨hn, by exact_mod_cast hb, ?_, ?_⟩
  · rw [hq, compare_lt_iff_lt]; unfold FP.real; exact Rat.cast_lt.symm
  · rw [hq, compare_gt_iff_gt]; unfold FP.real; exact Rat.cast_lt.symm

theorem rounded_add [f.Ok] {x y : FP f} (hx : x.isFinite = true) (hy : y.isFinite = true) (hb : |x.val + y.val| ≤ f.big) :
    Rounded .add x y (x + y) (x.real + y.real) :=
  rounded_of (by unfold FP.real; push_cast; rfl) rfl (by rw [add_def, add_fin hx hy]; exact nearest_ofRat _ hb) hb

theorem rounded_sub [f.Ok] {x y : FP f} (hx : x.isFinite = true) (hy : y.isFinite = true) (hb : |x.val - y.val| ≤ f.big) :
    Rounded .sub x y (x - y) (x.real - y.real) :=
  rounded_of (by unfold FP.real; push_cast; rfl) rfl (by rw [sub_def, sub_fin hx hy]; exact nearest_ofRat _ hb) hb

theorem rounded_mul [f.Ok] {x y : FP f} (hx : x.isFinite = true) (hy : y.isFinite = true) (hb : |x.val * y.val| ≤ f.big) :
    Rounded .mul x y (x * y) (x.real * y.real) :=
  rounded_of (by unfold FP.real; push_cast; rfl) rfl (by rw [mul_def, mul_fin hx hy]; exact nearest_ofRat _ hb) hb

theorem rounded_div [f.Ok] {x y : FP f} (hx : x.isFinite = true) (hy : y.isFinite = true) (h0 : y.val ≠ 0) (hb : |x.val / y.val| ≤ f.big) :
    Rounded .div x y (x / y) (x.real / y.real) :=
  rounded_of (by unfold FP.real; push_cast; rfl) rfl (by rw [div_def, div_fin hx hy h0]; exact nearest_ofRat _ hb) hb

theorem rounded_sqrt [f.Ok] {x : FP f} (he : f.emin ≤ -(f.mb : ℤ) - 2) (hx : x.isFinite = true) (h0 : 0 ≤ x.val) (hb : x.val ≤ f.big) :
    Rounded .sqrt x x (FP.sqrt x) (Real.sqrt x.real) := by
  have hxr : 0 ≤ x.real := by unfold FP.real; exact_mod_cast h0
  have rv : (FP.sqrt x).Nearest (Real.sqrt x.real) := by
    rcases h0.lt_or_eq with h0 | h0
    · exact sqrt_nearest he hx h0
    · have hm := val_eq_zero.1 h0.symm
      have e : FP.sqrt x = x := by
        unfold FP.sqrt
        simp [finite_not_nan hx, isZero, hm]
      have : x.real = 0 := by unfold FP.real; rw [← h0]; simp
      rw [e, this, Real.sqrt_zero]
      exact nearest_zero hm
  have r0 : 0 ≤ (FP.sqrt x).real := by
    have n := rv.2.1 (FP.zero false) (zero_finite false)
    have z : (FP.zero false : FP f).real = 0 := by unfold FP.real; rw [zero_val]; simp
    rw [z, zero_sub, abs_neg, abs_of_nonneg (Real.sqrt_nonneg _)] at n
    linarith [(abs_le.1 n).1]
  refine ⟨rv, ?_, ?_, ?_⟩
  · rw [abs_of_nonneg (Real.sqrt_nonneg _)]
    have b1 : (1 : ℚ) ≤ f.big := by
      unfold Fmt.big
      rw [show (1 : ℚ) = p2 0 by decide +kernel]; exact p2_le (by omega)
    have b1R : (1 : ℝ) ≤ (f.big : ℝ) := by exact_mod_cast b1
    have hbR : x.real ≤ (f.big : ℝ) := by unfold FP.real; exact_mod_cast hb
    rw [Real.sqrt_le_left (by linarith)]
    nlinarith
  · rw [show (cmpExact .sqrt x x (FP.sqrt x) = .lt) = (compare ((FP.sqrt x).val * (FP.sqrt x).val) x.val = .lt) from rfl, compare_lt_iff_lt,
      Real.lt_sqrt r0, pow_two]
    unfold FP.real
    exact_mod_cast Iff.rfl
  · rw [show (cmpExact .sqrt x x (FP.sqrt x) = .gt) = (compare ((FP.sqrt x).val * (FP.sqrt x).val) x.val = .gt) from rfl, compare_gt_iff_gt]
    constructor
    · intro h
      have h' : x.real < (FP.sqrt x).real * (FP.sqrt x).real := by unfold FP.real; exact_mod_cast h
      rw [← pow_two] at h'
      by_contra c
      have := pow_le_pow_left₀ r0 (not_lt.1 c) 2
      rw [Real.sq_sqrt hxr] at this
      linarith
    · intro h
      have := (Real.sqrt_lt hxr r0).1 h
      rw [pow_two] at this
      unfold FP.real at this
      exact_mod_cast this

/-- The least number not below `t`. -/
def Least (w : FP f) (t : ℝ) : Prop := w.isFinite = true ∧ t ≤ w.real ∧ ∀ z : FP f, z.isFinite = true → t ≤ z.real → w.real ≤ z.real

/-- The greatest number not above `t`. -/
def Greatest (w : FP f) (t : ℝ) : Prop := w.isFinite = true ∧ w.real ≤ t ∧ ∀ z : FP f, z.isFinite = true → z.real ≤ t → z.real ≤ w.real

theorem least_of {w : FP f} {t : ℝ} (h : Faithful w t) (hw : t ≤ w.real) : Least w t := by
  refine ⟨h.1, hw, fun z hz h1 => ?_⟩
  by_contra c
  have := (h.2 z hz).2 h1 (not_le.1 c).le
  linarith

theorem greatest_of {w : FP f} {t : ℝ} (h : Faithful w t) (hw : w.real ≤ t) : Greatest w t := by
  refine ⟨h.1, hw, fun z hz h1 => ?_⟩
  by_contra c
  have := (h.2 z hz).1 (not_le.1 c).le h1
  linarith

theorem least_up [f.Ok] {r : FP f} {t : ℝ} (h : r.Nearest t) (hl : r.real < t) (hb : |t| ≤ (f.big : ℝ)) : Least (nextUp r) t := by
  have F := faithful_up h hl (abs_le.1 hb).2
  refine least_of F ?_
  have g : r.real < (nextUp r).real := by unfold FP.real; exact_mod_cast nextUp_gt h.1
  by_contra c
  have := h.2.1 _ F.1
  rw [abs_of_neg (by linarith), abs_of_neg (by linarith)] at this
  linarith

theorem greatest_down [f.Ok] {r : FP f} {t : ℝ} (h : r.Nearest t) (hl : t < r.real) (hb : |t| ≤ (f.big : ℝ)) : Greatest (nextDown r) t := by
  obtain ⟨a, b, c⟩ := least_up (nearest_neg h) (by rw [real_neg]; linarith) (t := -t) (by rwa [abs_neg])
  unfold nextDown
  refine ⟨by simpa using a, by rw [real_neg]; linarith, fun z hz h1 => ?_⟩
  have := c (FP.neg z) (by simpa using hz) (by rw [real_neg]; linarith)
  rw [real_neg] at this ⊢
  linarith

variable {o : Op} {x y r : FP f} {t : ℝ}

theorem Rounded.upward [f.Ok] (h : Rounded o x y r t) : Least (upward.res o x y r) t := by
  show Least (if cmpExact o x y r = .lt then nextUp r else r) t
  split_ifs with c
  · exact least_up h.near (h.lt.1 c) h.big
  · exact least_of (faithful_nearest h.near) (not_lt.1 (mt h.lt.2 c))

theorem Rounded.downward [f.Ok] (h : Rounded o x y r t) : Greatest (downward.res o x y r) t := by
  show Greatest (if cmpExact o x y r = .gt then nextDown r else r) t
  split_ifs with c
  · exact greatest_down h.near (h.gt.1 c) h.big
  · exact greatest_of (faithful_nearest h.near) (not_lt.1 (mt h.gt.2 c))

/-- Rounding to nearest keeps the sign. -/
theorem nearest_nonneg [f.Ok] (h : r.Nearest t) (ht : 0 ≤ t) : 0 ≤ r.val := by
  have n := h.2.1 (FP.zero false) (zero_finite false)
  have z : (FP.zero false : FP f).real = 0 := by unfold FP.real; rw [zero_val]; simp
  rw [z, zero_sub, abs_neg, abs_of_nonneg ht] at n
  have : 0 ≤ r.real := by linarith [(abs_le.1 n).1]
  unfold FP.real at this; exact_mod_cast this

theorem nearest_nonpos [f.Ok] (h : r.Nearest t) (ht : t ≤ 0) : r.val ≤ 0 := by
  have := nearest_nonneg (nearest_neg h) (by linarith)
  rw [val_neg] at this
  linarith

theorem Rounded.towardZero [f.Ok] (h : Rounded o x y r t) :
    (0 ≤ t → Greatest (towardZero.res o x y r) t) ∧ (t ≤ 0 → Least (towardZero.res o x y r) t) := by
  show (0 ≤ t → Greatest (if cmpExact o x y r = .gt ∧ 0 < r.val then nextDown r else if cmpExact o x y r = .lt ∧ r.val < 0 then nextUp r else r) t) ∧
    (t ≤ 0 → Least (if cmpExact o x y r = .gt ∧ 0 < r.val then nextDown r else if cmpExact o x y r = .lt ∧ r.val < 0 then nextUp r else r) t)
  constructor <;> intro ht
  · have r0 := nearest_nonneg h.near ht
    split_ifs with c d
    · exact greatest_down h.near (h.gt.1 c.1) h.big
    · linarith [d.2]
    · refine greatest_of (faithful_nearest h.near) (not_lt.1 fun k => c ⟨h.gt.2 k, ?_⟩)
      have : 0 < r.real := lt_of_le_of_lt ht k
      unfold FP.real at this; exact_mod_cast this
  · have r0 := nearest_nonpos h.near ht
    split_ifs with c d
    · linarith [c.2]
    · exact least_up h.near (h.lt.1 d.1) h.big
    · refine least_of (faithful_nearest h.near) (not_lt.1 fun k => d ⟨h.lt.2 k, ?_⟩)
      have : r.real < 0 := lt_of_lt_of_le k ht
      unfold FP.real at this; exact_mod_cast this

/-- The exact result and the computed one for each of the five operations on `x` and `y`. -/
inductive Computes (m : Mode) [f.Ok] (x y : FP f) : FP f → ℝ → Prop
  | add : |x.val + y.val| ≤ f.big → Computes m x y (of x + of y : Z m f).v (x.real + y.real)
  | sub : |x.val - y.val| ≤ f.big → Computes m x y (of x - of y : Z m f).v (x.real - y.real)
  | mul : |x.val * y.val| ≤ f.big → Computes m x y (of x * of y : Z m f).v (x.real * y.real)
  | div : y.val ≠ 0 → |x.val / y.val| ≤ f.big → Computes m x y (of x / of y : Z m f).v (x.real / y.real)
  | sqrt : f.emin ≤ -(f.mb : ℤ) - 2 → 0 ≤ x.val → x.val ≤ f.big → Computes m x y (of x : Z m f).sqrt.v (Real.sqrt x.real)

theorem Computes.rounded [f.Ok] {m : Mode} (ha : ∀ x : FP f, m.arg x = x) (hx : x.isFinite = true) (hy : y.isFinite = true) {w : FP f}
    (h : Computes m x y w t) : ∃ o y' r, w = m.res o x y' r ∧ Rounded o x y' r t := by
  rcases h with h | h | h | ⟨h0, h⟩ | ⟨he, h0, h⟩
  · exact ⟨.add, y, _, by show m.res .add (m.arg x) (m.arg y) (m.arg x + m.arg y) = _; rw [ha, ha], rounded_add hx hy h⟩
  · exact ⟨.sub, y, _, by show m.res .sub (m.arg x) (m.arg y) (m.arg x - m.arg y) = _; rw [ha, ha], rounded_sub hx hy h⟩
  · exact ⟨.mul, y, _, by show m.res .mul (m.arg x) (m.arg y) (m.arg x * m.arg y) = _; rw [ha, ha], rounded_mul hx hy h⟩
  · exact ⟨.div, y, _, by show m.res .div (m.arg x) (m.arg y) (m.arg x / m.arg y) = _; rw [ha, ha], rounded_div hx hy h0 h⟩
  · exact ⟨.sqrt, x, _, by show m.res .sqrt (m.arg x) (m.arg x) (FP.sqrt (m.arg x)) = _; rw [ha], rounded_sqrt he hx h0 h⟩

theorem nearest_convert {x : F64} (hx : x.isFinite = true) (h : |x.val| ≤ b32.big) : (convert b32 x).Nearest x.real := by
  have e : convert b32 x = ofRat b32 x.sign x.val := by
    unfold convert
    simp [finite_not_nan hx, finite_not_inf hx]
  rw [e]
  exact nearest_ofRat _ h

theorem convert_directions {x : F64} (hx : x.isFinite = true) (h : |x.val| ≤ b32.big) :
    Least (Flush.upward.cvt x (convert b32 x)) x.real ∧ Greatest (Flush.downward.cvt x (convert b32 x)) x.real ∧
    (0 ≤ x.real → Greatest (Flush.towardZero.cvt x (convert b32 x)) x.real) ∧
    (x.real ≤ 0 → Least (Flush.towardZero.cvt x (convert b32 x)) x.real) := by
  have n := nearest_convert hx h
  have hb : |x.real| ≤ (b32.big : ℝ) := by rw [real_abs]; exact_mod_cast h
  generalize convert b32 x = r at *
  have l : ∀ {u v : ℚ}, u < v ↔ (u : ℝ) < (v : ℝ) := Rat.cast_lt.symm
  refine ⟨?_, ?_, fun ht => ?_, fun ht => ?_⟩
  · show Least (if r.val < x.val then nextUp r else r) _
    split_ifs with c
    · exact least_up n (l.1 c) hb
    · exact least_of (faithful_nearest n) (not_lt.1 (mt l.2 c))
  · show Greatest (if x.val < r.val then nextDown r else r) _
    split_ifs with c
    · exact greatest_down n (l.1 c) hb
    · exact greatest_of (faithful_nearest n) (not_lt.1 (mt l.2 c))
  · have r0 := nearest_nonneg n ht
    show Greatest (if x.val < r.val ∧ 0 < r.val then nextDown r else if r.val < x.val ∧ r.val < 0 then nextUp r else r) _
    split_ifs with c d
    · exact greatest_down n (l.1 c.1) hb
    · linarith [d.2]
    · refine greatest_of (faithful_nearest n) (not_lt.1 fun k => c ⟨l.2 k, ?_⟩)
      have : (0 : ℝ) < r.real := lt_of_le_of_lt ht k
      unfold FP.real at this; exact_mod_cast this
  · have r0 := nearest_nonpos n ht
    show Least (if x.val < r.val ∧ 0 < r.val then nextDown r else if r.val < x.val ∧ r.val < 0 then nextUp r else r) _
    split_ifs with c d
    · linarith [c.2]
    · exact least_up n (l.1 d.1) hb
    · refine least_of (faithful_nearest n) (not_lt.1 fun k => d ⟨l.2 k, ?_⟩)
      have : r.real < 0 := lt_of_lt_of_le k ht
      unfold FP.real at this; exact_mod_cast this

end Vdt.Flush
