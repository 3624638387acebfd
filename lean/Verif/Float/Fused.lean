import Verif.Float.Ops

/-!
# Sums that a compiler may fuse with a product

`mad b x y z` is `x*y + z`, computed with one rounding (`b = true`) or with two; similarly for the
other shapes.
-/

namespace Vdt
open FP
variable {f : Fmt}

/-- Which sums of a function are fused: the numbers are those given in Model/Contract.lean. -/
abbrev Policy := ℕ → Bool

namespace FP
/-- `x*y + z` -/
def mad (b : Bool) (x y z : FP f) : FP f := if b then fma x y z else x * y + z
/-- `z + x*y` -/
def madR (b : Bool) (x y z : FP f) : FP f := if b then fma x y z else z + x * y
/-- `x*y - z` -/
def msub (b : Bool) (x y z : FP f) : FP f := if b then fma x y (-z) else x * y - z
/-- `z - x*y` -/
def nmad (b : Bool) (x y z : FP f) : FP f := if b then fma (-x) y z else z - x * y
/-- `x*y + u*v`: either product may be fused -/
def mad2 (b c : Bool) (x y u v : FP f) : FP f :=
  if b then fma x y (u * v) else if c then fma u v (x * y) else x * y + u * v
/-- `x*y - u*v` -/
def msub2 (b c : Bool) (x y u v : FP f) : FP f :=
  if b then fma x y (-(u * v)) else if c then fma (-u) v (x * y) else x * y - u * v

theorem mad_false (x y z : FP f) : mad false x y z = x * y + z := by simp [mad]
theorem madR_false (x y z : FP f) : madR false x y z = z + x * y := by simp [madR]
theorem msub_false (x y z : FP f) : msub false x y z = x * y - z := by simp [msub]
theorem nmad_false (x y z : FP f) : nmad false x y z = z - x * y := by simp [nmad]
theorem mad2_false (x y u v : FP f) : mad2 false false x y u v = x * y + u * v := by simp [mad2]
theorem msub2_false (x y u v : FP f) : msub2 false false x y u v = x * y - u * v := by simp [msub2]

/-- The fused operation on finite operands. -/
theorem fma_fin {x y z : FP f} (hx : x.isFinite = true) (hy : y.isFinite = true) (hz : z.isFinite = true) :
    fma x y z = ofRat f ((x.sign ^^ y.sign) && z.sign) (x.val * y.val + z.val) := by
  have h1 : ∀ {w : FP f}, w.isFinite = true → w.isNaN = false ∧ w.isInf = false := by
    intro w hw
    unfold isFinite at hw
    simp only [decide_eq_true_eq] at hw
    unfold isNaN isInf
    constructor <;> simp <;> omega
  unfold fma
  simp [h1 hx, h1 hy, h1 hz]

variable [f.Ok]

theorem fma_spec {x y z : FP f} (hx : x.isFinite = true) (hy : y.isFinite = true) (hz : z.isFinite = true)
    (h : |x.val * y.val + z.val| ≤ f.big) :
    (fma x y z).isFinite = true ∧ (fma x y z).val = rnd f (x.val * y.val + z.val) := by
  rw [fma_fin hx hy hz]
  exact ⟨finite_ofRat _ h, val_ofRat _ _⟩

/-- Fused or not, the sum is rounded from an exact or rounded product. -/
theorem mad_split (b : Bool) {x y z : FP f} (hx : x.isFinite = true) (hy : y.isFinite = true) (hz : z.isFinite = true)
    (h : |x.val * y.val| ≤ f.big) :
    ∃ w, (w = x.val * y.val ∨ w = rnd f (x.val * y.val)) ∧
      (|w + z.val| ≤ f.big → (mad b x y z).isFinite = true ∧ (mad b x y z).val = rnd f (w + z.val)) := by
  cases b
  · have m := mul_spec hx hy h
    rw [← mul_def] at m
    refine ⟨_, Or.inr rfl, fun hb => ?_⟩
    rw [mad_false, ← m.2]
    exact add_spec m.1 hz (by rw [m.2]; exact hb)
  · exact ⟨_, Or.inl rfl, fun hb => fma_spec hx hy hz hb⟩

theorem madR_split (b : Bool) {x y z : FP f} (hx : x.isFinite = true) (hy : y.isFinite = true) (hz : z.isFinite = true)
    (h : |x.val * y.val| ≤ f.big) :
    ∃ w, (w = x.val * y.val ∨ w = rnd f (x.val * y.val)) ∧
      (|z.val + w| ≤ f.big → (madR b x y z).isFinite = true ∧ (madR b x y z).val = rnd f (z.val + w)) := by
  cases b
  · have m := mul_spec hx hy h
    rw [← mul_def] at m
    refine ⟨_, Or.inr rfl, fun hb => ?_⟩
    rw [madR_false, ← m.2]
    exact add_spec hz m.1 (by rw [m.2]; exact hb)
  · refine ⟨_, Or.inl rfl, fun hb => ?_⟩
    rw [add_comm] at hb ⊢
    exact fma_spec hx hy hz hb

theorem nmad_split (b : Bool) {x y z : FP f} (hx : x.isFinite = true) (hy : y.isFinite = true) (hz : z.isFinite = true)
    (h : |x.val * y.val| ≤ f.big) :
    ∃ w, (w = x.val * y.val ∨ w = rnd f (x.val * y.val)) ∧
      (|z.val - w| ≤ f.big → (nmad b x y z).isFinite = true ∧ (nmad b x y z).val = rnd f (z.val - w)) := by
  cases b
  · have m := mul_spec hx hy h
    rw [← mul_def] at m
    refine ⟨_, Or.inr rfl, fun hb => ?_⟩
    rw [nmad_false, ← m.2]
    exact sub_spec hz m.1 (by rw [m.2]; exact hb)
  · refine ⟨_, Or.inl rfl, fun hb => ?_⟩
    have e : z.val - x.val * y.val = (-x).val * y.val + z.val := by rw [neg_def, val_neg]; ring
    rw [e] at hb ⊢
    exact fma_spec (by rw [neg_def]; simpa using hx) hy hz hb

/-- With an exact product nothing depends on the choice. -/
theorem nmad_exact (b : Bool) {x y z : FP f} (hx : x.isFinite = true) (hy : y.isFinite = true) (hz : z.isFinite = true)
    (hm : (x * y).isFinite = true) (he : (x * y).val = x.val * y.val) (h : |x.val * y.val| ≤ f.big)
    (hb : |z.val - x.val * y.val| ≤ f.big) :
    (nmad b x y z).isFinite = true ∧ (nmad b x y z).val = (z - x * y).val := by
  have m := mul_spec hx hy h
  have s := sub_spec hz hm (by rw [he]; exact hb)
  rw [he] at s
  obtain ⟨w, hw, hs⟩ := nmad_split b hx hy hz h
  have : w = x.val * y.val := by
    rcases hw with hw | hw
    · exact hw
    · rw [hw, ← m.2]; exact he
  subst this
  have := hs hb
  exact ⟨this.1, this.2.trans s.2.symm⟩

end FP
end Vdt
