import Verif.Props.PyCall
import Verif.Props.Precisions
import Verif.Lemmas.Nearest

/-!
# The conversion of the elements of an array by the Python functions (C84)
-/

namespace Vdt.Py
open FP

/-- `y` is `x` in another format: the nearest number (infinity beyond the largest), with the sign of `x`. -/
structure Converted {f g : Fmt} (x : FP f) (y : FP g) : Prop where
  nan : x.isNaN = true → y.isNaN = true
  sign : x.isNaN = false → y.sign = x.sign
  inf : x.isInf = true → y.isInf = true
  near : x.isFinite = true → |x.val| < g.ovf → y.Nearest x.real
  over : x.isFinite = true → g.ovf ≤ |x.val| → y.isInf = true

theorem isInf_inf {f : Fmt} (s : Bool) : (FP.inf s : FP f).isInf = true := by simp [FP.inf, isInf]

theorem converted {f g : Fmt} [g.Ok] (hn : (nan : FP g).isNaN = true) (x : FP f) : Converted x (convert g x) where
  nan h := by unfold convert; rw [if_pos h]; exact hn
  sign h := convert_sign h
  inf h := by
    have : x.isNaN = false := by
      by_contra c
      rw [Bool.not_eq_false] at c
      simp only [isNaN, isInf, decide_eq_true_eq] at c h
      omega
    unfold convert
    rw [if_neg (by simp [this]), if_pos h]; exact isInf_inf _
  near h b := by
    unfold convert
    rw [if_neg (by simp [finite_not_nan h]), if_neg (by simp [finite_not_inf h])]
    exact ofRat_nearest g _ b
  over h b := by
    unfold convert
    rw [if_neg (by simp [finite_not_nan h]), if_neg (by simp [finite_not_inf h]), ofRat_overflow g _ b]
    exact isInf_inf _

theorem forall₂_map {α β : Type} {R : α → β → Prop} {g : α → β} (h : ∀ x, R x (g x)) (l : List α) : List.Forall₂ R l (l.map g) := by
  induction l with
  | nil => exact .nil
  | cons a l ih => exact .cons (h a) ih

theorem int_near {f : Fmt} [f.Ok] {n : ℤ} (h : (2 : ℚ) ^ (63 : ℕ) < f.ovf) (h1 : -2 ^ 63 ≤ n) (h2 : n < 2 ^ 63) : (ofInt n : FP f).Nearest n := by
  have b : |((n : ℤ) : ℚ)| < f.ovf := by
    refine lt_of_le_of_lt (abs_le.2 ⟨?_, ?_⟩) h
    · exact_mod_cast h1
    · exact_mod_cast h2.le
  have := ofRat_nearest f false b
  rwa [Rat.cast_intCast] at this

/-- The elements that the functions of C84 receive: floats as doubles are unchanged, doubles as floats and integers are rounded to
the nearest number, and what has the type already stays as it is. -/
theorem C84_converted :
    (∀ l : List F64, Dat.to (.f64 l) false = l) ∧ (∀ l : List F32, Dat.to (.f32 l) true = l) ∧
    (∀ l : List F32, List.Forall₂ (fun (x : F32) (y : F64) => Converted x y ∧ (x.isFinite = true → y.isFinite = true ∧ y.val = x.val)) l (Dat.to (.f32 l) false)) ∧
    (∀ l : List F64, List.Forall₂ (fun (x : F64) (y : F32) => Converted x y) l (Dat.to (.f64 l) true)) ∧
    (∀ l : List ℤ, (∀ n ∈ l, -2 ^ 63 ≤ n ∧ n < 2 ^ 63) →
      List.Forall₂ (fun (n : ℤ) (y : F64) => y.Nearest n) l (Dat.to (.i64 l) false) ∧ List.Forall₂ (fun (n : ℤ) (y : F32) => y.Nearest n) l (Dat.to (.i64 l) true)) := by
  refine ⟨fun _ => rfl, fun _ => rfl, fun l => forall₂_map (fun x => ⟨converted (by decide +kernel) x, fun h => ⟨(widen h).1, (widen h).2.1⟩⟩) l,
    fun l => forall₂_map (fun x => converted (by decide +kernel) x) l, fun l hl => ?_⟩
  have k1 : (2 : ℚ) ^ (63 : ℕ) < b64.ovf := by decide +kernel
  have k2 : (2 : ℚ) ^ (63 : ℕ) < b32.ovf := by decide +kernel
  induction l with
  | nil => exact ⟨.nil, .nil⟩
  | cons n l ih =>
    obtain ⟨a, b⟩ := hl n (List.mem_cons_self ..)
    obtain ⟨i, j⟩ := ih fun n h => hl n (List.mem_cons_of_mem _ h)
    exact ⟨.cons (int_near k1 a b) i, .cons (int_near k2 a b) j⟩

/-- An integer that is no float is rounded, a double beyond the floats becomes infinite. -/
example : Dat.to (.i64 [16777217]) true = [lit 16777216] ∧ Dat.to (.f64 [lit 1e300, lit (-0.1)]) true = [FP.inf false, lit (-0.1)] := by decide +kernel

end Vdt.Py
