import Verif.Props.Direction

/-!
# C87, continued: mirror images of a vector

The four quadrants and the two halves of a quadrant: the result for the mirror image of a vector is the floating-point difference of a
constant of the code and the result for the vector.
-/

namespace Vdt
open FP details
variable {f : Fmt}

private theorem axis {x z : FP f} (hx : x.isFinite = true) (hz : z.isFinite = true) (z0 : z.val = 0) (h0 : 0 < x.val) :
    FP.lt x z = false ∧ FP.lt (-x) z = true := by
  have nf : (-x).isFinite = true := by rw [neg_def]; simpa using hx
  rw [lt_fin hx hz, lt_fin nf hz, z0]
  refine ⟨decide_eq_false (not_lt.2 h0.le), decide_eq_true ?_⟩
  rw [neg_def, val_neg]
  linarith

private theorem absneg (x : FP f) : FP.abs (-x) = FP.abs x := by
  rw [neg_def]
  rfl

private theorem abspos {x : FP f} (h0 : 0 < x.val) : FP.abs x = x := by
  ext
  · rw [abs_sign, sign_of_pos h0]
  · rfl

/-- Mirror image at the ordinate axis, and at the diagonal. -/
theorem C87_mirror (p : Policy) (x y : F64) (hx : x.isFinite = true) (hy : y.isFinite = true) (x0 : 0 < x.val) :
    (0 ≤ y.val → fast_atan2C p y (-x) = PI - fast_atan2C p y x) ∧
    (0 < y.val → y.val < x.val → fast_atan2C p x y = PIO2 - fast_atan2C p y x) ∧
    (y.val ≠ 0 → fast_atan2C p (-y) x = -fast_atan2C p y x ∧ fast_atan2C p (-y) (-x) = -fast_atan2C p y (-x)) := by
  have o : (ofInt 0 : F64).isFinite = true ∧ (ofInt 0 : F64).val = 0 := by decide +kernel
  obtain ⟨s1, s2⟩ := axis hx o.1 o.2 x0
  have ay : (FP.abs y).isFinite = true := by simpa using hy
  have nyf : (-y).isFinite = true := by rw [neg_def]; simpa using hy
  refine ⟨fun y0 => ?_, fun y0 hl => ?_, fun y0 => ?_⟩
  · have ly : FP.lt y (ofInt 0) = false := by rw [lt_fin hy o.1, o.2]; exact decide_eq_false (not_lt.2 y0)
    rw [fast_atan2C_eq, fast_atan2C_eq, absneg, s1, s2, ly]
    simp only [quad, if_true, Bool.false_eq_true, if_false]
  · have ly : FP.lt y (ofInt 0) = false := (axis hy o.1 o.2 y0).1
    have ex : FP.eq x (ofInt 0) = false := by rw [eq_fin hx o.1, o.2]; exact decide_eq_false x0.ne'
    have ey : FP.eq y (ofInt 0) = false := by rw [eq_fin hy o.1, o.2]; exact decide_eq_false y0.ne'
    have g1 : FP.gt (FP.abs y) (FP.abs x) = false := by
      rw [abspos x0, abspos y0, gt_fin hy hx]; exact decide_eq_false (not_lt.2 hl.le)
    have g2 : FP.gt (FP.abs x) (FP.abs y) = true := by
      rw [abspos x0, abspos y0, gt_fin hx hy]; exact decide_eq_true hl
    have oo : oct64C p x (FP.abs x) (FP.abs y) = oct64C p y (FP.abs x) (FP.abs y) := by
      unfold oct64C
      rw [ex, ey]
    rw [fast_atan2C_eq, fast_atan2C_eq, g1, g2, s1, ly, if_pos rfl, if_neg (by decide), oo]
    simp only [quad, if_true, Bool.false_eq_true, if_false]
  · have ey : FP.eq (-y) (ofInt 0) = FP.eq y (ofInt 0) := by
      rw [eq_fin hy o.1, eq_fin nyf o.1, o.2, neg_def, val_neg]
      congr 1; apply propext; exact neg_eq_zero
    have ly : FP.lt (-y) (ofInt 0) = !FP.lt y (ofInt 0) := by
      rw [lt_fin hy o.1, lt_fin nyf o.1, o.2, neg_def, val_neg]
      rcases lt_or_gt_of_ne y0 with h | h
      · rw [decide_eq_true h, decide_eq_false (show ¬-y.val < 0 by linarith)]; rfl
      · rw [decide_eq_true (show -y.val < 0 by linarith), decide_eq_false (show ¬y.val < 0 by linarith)]; rfl
    have oo : ∀ a b : F64, oct64C p (-y) a b = oct64C p y a b := by
      intro a b
      unfold oct64C
      rw [ey]
    have q : ∀ (r : F64) (a b c : Bool), quad PIO2 PI r a b (!c) = -quad PIO2 PI r a b c := by
      intro r a b c
      unfold quad
      cases c
      · simp only [Bool.not_false, if_true, Bool.false_eq_true, if_false]
      · simp [neg_def]
    constructor
    · rw [fast_atan2C_eq, fast_atan2C_eq, absneg, ly, oo, oo, q]
    · rw [fast_atan2C_eq, fast_atan2C_eq, absneg, absneg, ly, oo, oo, q]

/-- Mirror image at the ordinate axis, and at the diagonal. -/
theorem C87_mirrorf (p : Policy) (x y : F32) (hx : x.isFinite = true) (hy : y.isFinite = true) (x0 : 0 < x.val) :
    (0 ≤ y.val → fast_atan2fC p y (-x) = PIF - fast_atan2fC p y x) ∧
    (0 < y.val → y.val < x.val → fast_atan2fC p x y = PIO2F - fast_atan2fC p y x) ∧
    (y.val ≠ 0 → fast_atan2fC p (-y) x = -fast_atan2fC p y x ∧ fast_atan2fC p (-y) (-x) = -fast_atan2fC p y (-x)) := by
  have o : (lit 0 : F32).isFinite = true ∧ (lit 0 : F32).val = 0 := by decide +kernel
  obtain ⟨s1, s2⟩ := axis hx o.1 o.2 x0
  have ay : (FP.abs y).isFinite = true := by simpa using hy
  have nyf : (-y).isFinite = true := by rw [neg_def]; simpa using hy
  refine ⟨fun y0 => ?_, fun y0 hl => ?_, fun y0 => ?_⟩
  · have ly : FP.lt y (lit 0) = false := by rw [lt_fin hy o.1, o.2]; exact decide_eq_false (not_lt.2 y0)
    rw [fast_atan2fC_eq, fast_atan2fC_eq, absneg, s1, s2, ly]
    simp only [quad, if_true, Bool.false_eq_true, if_false]
  · have ly : FP.lt y (lit 0) = false := (axis hy o.1 o.2 y0).1
    have ex : FP.eq x (lit 0) = false := by rw [eq_fin hx o.1, o.2]; exact decide_eq_false x0.ne'
    have ey : FP.eq y (lit 0) = false := by rw [eq_fin hy o.1, o.2]; exact decide_eq_false y0.ne'
    have g1 : FP.gt (FP.abs y) (FP.abs x) = false := by
      rw [abspos x0, abspos y0, gt_fin hy hx]; exact decide_eq_false (not_lt.2 hl.le)
    have g2 : FP.gt (FP.abs x) (FP.abs y) = true := by
      rw [abspos x0, abspos y0, gt_fin hx hy]; exact decide_eq_true hl
    have oo : oct32C p x (FP.abs x) (FP.abs y) = oct32C p y (FP.abs x) (FP.abs y) := by
      unfold oct32C
      rw [ex, ey]
    rw [fast_atan2fC_eq, fast_atan2fC_eq, g1, g2, s1, ly, if_pos rfl, if_neg (by decide), oo]
    simp only [quad, if_true, Bool.false_eq_true, if_false]
  · have ey : FP.eq (-y) (lit 0) = FP.eq y (lit 0) := by
      rw [eq_fin hy o.1, eq_fin nyf o.1, o.2, neg_def, val_neg]
      congr 1; apply propext; exact neg_eq_zero
    have ly : FP.lt (-y) (lit 0) = !FP.lt y (lit 0) := by
      rw [lt_fin hy o.1, lt_fin nyf o.1, o.2, neg_def, val_neg]
      rcases lt_or_gt_of_ne y0 with h | h
      · rw [decide_eq_true h, decide_eq_false (show ¬-y.val < 0 by linarith)]; rfl
      · rw [decide_eq_true (show -y.val < 0 by linarith), decide_eq_false (show ¬y.val < 0 by linarith)]; rfl
    have oo : ∀ a b : F32, oct32C p (-y) a b = oct32C p y a b := by
      intro a b
      unfold oct32C
      rw [ey]
    have q : ∀ (r : F32) (a b c : Bool), quad PIO2F PIF r a b (!c) = -quad PIO2F PIF r a b c := by
      intro r a b c
      unfold quad
      cases c
      · simp only [Bool.not_false, if_true, Bool.false_eq_true, if_false]
      · simp [neg_def]
    constructor
    · rw [fast_atan2fC_eq, fast_atan2fC_eq, absneg, ly, oo, oo, q]
    · rw [fast_atan2fC_eq, fast_atan2fC_eq, absneg, absneg, ly, oo, oo, q]

/-- The hypotheses at (3, 1), where the results are those of the plain code; all images of the vector have different angles. -/
example : 0 < (lit 3 : F64).val ∧ 0 < (lit 1 : F64).val ∧ (lit 1 : F64).val < (lit 3 : F64).val ∧
    fast_atan2 (lit 1) (-lit 3) = PI - fast_atan2 (lit 1) (lit 3) ∧ fast_atan2 (lit 3) (lit 1) = PIO2 - fast_atan2 (lit 1) (lit 3) ∧
    fast_atan2 (-lit 1) (lit 3) = -fast_atan2 (lit 1) (lit 3) ∧ fast_atan2 (lit 3) (lit 1) ≠ fast_atan2 (lit 1) (lit 3) := by decide +kernel

end Vdt
