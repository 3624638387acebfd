import Verif.Props.MonotoneC
import Verif.Lemmas.AsinMono
import Verif.Lemmas.AtanMono

/-! # C85: the inverse trigonometric functions in double precision keep the order -/

namespace Vdt
open FP details

/-- On all numbers, infinities included. -/
theorem C85_fast_atan : KeepsOrder (fun x => some (fast_atan x)) := by
  intro x y a b h ha hb
  simp only [Option.some.injEq] at ha hb
  subst ha; subst hb
  have acc : ∀ z : F64, z.isFinite = true → (fast_atan z).isFinite = true ∧ |(fast_atan z).val| ≤ PIO2.val ∧
      (fast_atan z).val = if z.sign then -(atanPos (FP.abs z)).val else (atanPos (FP.abs z)).val := by
    intro z hz
    have q := atanPos_acc (x := FP.abs z) (by simpa using hz) (by simp)
    have v := val_signedBy (atanPos (FP.abs z)) z.sign q.2.1
    rw [fast_atan_signed hz]
    refine ⟨q.1, ?_, v⟩
    have n := val_nonneg_of_sign q.2.1
    have u := q.2.2.1
    rw [v]
    cases z.sign
    · simp only [Bool.false_eq_true, if_false]; rw [abs_of_nonneg n]; exact u
    · simp only [if_true]; rw [abs_neg, abs_of_nonneg n]; exact u
  have inf : ∀ s, (fast_atan (FP.inf s)).isFinite = true ∧ (fast_atan (FP.inf s)).val = if s then -PIO2.val else PIO2.val := by
    intro s
    rw [(C20_atan_inf s).1]
    have e : PIO2.sign = false ∧ PIO2.isFinite = true := by decide +kernel
    exact ⟨e.2, val_signedBy _ _ e.1⟩
  have all : ∀ z : F64, z.isNaN = false → (fast_atan z).isFinite = true ∧ |(fast_atan z).val| ≤ PIO2.val := by
    intro z hz
    have p0 : 0 ≤ PIO2.val := by decide +kernel
    have z1 : z.mag ≤ b64.infMag := by simpa [FP.isNaN] using hz
    rcases z1.lt_or_eq with z2 | z2
    · exact ⟨(acc z (by simpa [FP.isFinite] using z2)).1, (acc z (by simpa [FP.isFinite] using z2)).2.1⟩
    · have e : z = FP.inf z.sign := by
        ext
        · rfl
        · exact z2
      rw [e]
      refine ⟨(inf _).1, ?_⟩
      rw [(inf _).2]
      cases z.sign
      · simp only [Bool.false_eq_true, if_false]; rw [abs_of_nonneg p0]
      · simp only [if_true]; rw [abs_neg, abs_of_nonneg p0]
  obtain ⟨hxn, hyn, hc⟩ := le_cases h
  rw [le_fin (all x hxn).1 (all y hyn).1]
  apply decide_eq_true
  rcases hc with ⟨hx, hy⟩ | e | e
  · have hv : x.val ≤ y.val := by
      rw [le_fin hx hy] at h; exact of_decide_eq_true h
    rw [(acc x hx).2.2, (acc y hy).2.2]
    have nn : ∀ z : F64, z.isFinite = true → 0 ≤ (atanPos (FP.abs z)).val := fun z hz =>
      val_nonneg_of_sign (atanPos_acc (x := FP.abs z) (by simpa using hz) (by simp)).2.1
    refine odd_order (P := fun z => (atanPos z).val) hv (nn x hx) (nn y hy) (by decide +kernel) ?_
    rintro a b (⟨rfl, rfl⟩ | ⟨rfl, rfl⟩) hab
    · exact atanPos_order (by simpa using hx) (by simpa using hy) (by simp) (by simp) hab
    · exact atanPos_order (by simpa using hy) (by simpa using hx) (by simp) (by simp) hab
  · rw [e, (inf true).2]
    exact (abs_le.1 (all y hyn).2).1
  · rw [e, (inf false).2]
    exact (abs_le.1 (all x hxn).2).2

theorem asin_order {x y : F64} (hx : x.isFinite = true) (hy : y.isFinite = true) (h1 : -1 ≤ x.val) (h : x.val ≤ y.val) (h2 : y.val ≤ 1) :
    (fast_asin x).isFinite = true ∧ (fast_asin y).isFinite = true ∧ (fast_asin x).val ≤ (fast_asin y).val ∧
      |(fast_asin x).val| ≤ 2 ∧ |(fast_asin y).val| ≤ 2 := by
  have acc : ∀ z : F64, z.isFinite = true → |z.val| ≤ 1 → (fast_asin z).isFinite = true ∧ |(fast_asin z).val| ≤ 2 ∧
      (fast_asin z).val = (if z.sign then -(asinPos (FP.abs z)).val else (asinPos (FP.abs z)).val) ∧ 0 ≤ (asinPos (FP.abs z)).val := by
    intro z hz hz1
    obtain ⟨i1, i2, i3⟩ := inside_abs hz hz1
    have q := asinPos_acc i1 i2 i3
    have v := val_signedBy (asinPos (FP.abs z)) z.sign q.2.1
    have n := val_nonneg_of_sign q.2.1
    have u := q.2.2.1
    have p2 : PIO2.val ≤ 2 := by decide +kernel
    rw [fast_asin_signed hz hz1]
    refine ⟨q.1, ?_, v, n⟩
    rw [v]
    cases z.sign
    · simp only [Bool.false_eq_true, if_false]; rw [abs_of_nonneg n]; exact u.trans p2
    · simp only [if_true]; rw [abs_neg, abs_of_nonneg n]; exact u.trans p2
  have ax : |x.val| ≤ 1 := abs_le.2 ⟨h1, h.trans h2⟩
  have ay : |y.val| ≤ 1 := abs_le.2 ⟨h1.trans h, h2⟩
  obtain ⟨x1, x2, x3, x4⟩ := acc x hx ax
  obtain ⟨y1, y2, y3, y4⟩ := acc y hy ay
  obtain ⟨i1, i2, i3⟩ := inside_abs hx ax
  obtain ⟨j1, j2, j3⟩ := inside_abs hy ay
  refine ⟨x1, y1, ?_, x2, y2⟩
  rw [x3, y3]
  refine odd_order (P := fun z => (asinPos z).val) h x4 y4 (by decide +kernel) ?_
  rintro a b (⟨rfl, rfl⟩ | ⟨rfl, rfl⟩) hab
  · exact asinPos_order i1 j1 i2 j2 hab j3
  · exact asinPos_order j1 i1 j2 i2 hab i3

/-- Arguments between `-1` and `1`. -/
theorem between64 {x y : F64} (h1 : FP.le (lit (-1)) x = true) (h : FP.le x y = true) (h2 : FP.le y (lit 1) = true) :
    x.isFinite = true ∧ y.isFinite = true ∧ -1 ≤ x.val ∧ x.val ≤ y.val ∧ y.val ≤ 1 := by
  have l : (lit (-1) : F64).val = -1 ∧ (lit (-1) : F64).isFinite = true ∧ (lit 1 : F64).val = 1 ∧ (lit 1 : F64).isFinite = true := by decide +kernel
  have ni : FP.le (lit (-1)) (FP.inf true : F64) = false ∧ FP.le (FP.inf false) (lit 1 : F64) = false := by decide +kernel
  have nx : x ≠ FP.inf true := by rintro rfl; rw [ni.1] at h1; exact absurd h1 (by decide)
  have ny : y ≠ FP.inf false := by rintro rfl; rw [ni.2] at h2; exact absurd h2 (by decide)
  rcases (le_cases h).2.2 with ⟨hx, hy⟩ | e | e
  · rw [le_fin l.2.1 hx, l.1] at h1
    rw [le_fin hx hy] at h
    rw [le_fin hy l.2.2.2, l.2.2.1] at h2
    exact ⟨hx, hy, of_decide_eq_true h1, of_decide_eq_true h, of_decide_eq_true h2⟩
  · exact absurd e nx
  · exact absurd e ny

theorem C85_fast_asin (x y : F64) (h1 : FP.le (lit (-1)) x = true) (h : FP.le x y = true) (h2 : FP.le y (lit 1) = true) :
    FP.le (fast_asin x) (fast_asin y) = true := by
  obtain ⟨hx, hy, a, b, c⟩ := between64 h1 h h2
  have k := asin_order hx hy a b c
  rw [le_fin k.1 k.2.1]
  exact decide_eq_true k.2.2.1

theorem C85_fast_acos (x y : F64) (h1 : FP.le (lit (-1)) x = true) (h : FP.le x y = true) (h2 : FP.le y (lit 1) = true) :
    FP.le (fast_acos y) (fast_acos x) = true := by
  obtain ⟨hx, hy, a, b, c⟩ := between64 h1 h h2
  obtain ⟨k1, k2, k3, k4, k5⟩ := asin_order hx hy a b c
  have pf : PIO2.isFinite = true ∧ |PIO2.val| ≤ 2 ∧ 4 ≤ b64.big := by decide +kernel
  have s1 := subS pf.1 k1 ((abs_sub _ _).trans (by linarith [pf.2.1, pf.2.2]))
  have s2 := subS pf.1 k2 ((abs_sub _ _).trans (by linarith [pf.2.1, pf.2.2]))
  unfold fast_acos
  rw [le_fin s2.1 s1.1, s1.2, s2.2]
  exact decide_eq_true (rnd_mono b64 (by linarith))

/-- Neighbouring arguments around a threshold of `fast_atan` and around that of `fast_asin`; the results are in order. -/
example : FP.le (fast_atan (lit 0.66)) (fast_atan (ofBits (toBits (lit 0.66 : F64) + 1))) = true ∧
    FP.lt (lit 0.66 : F64) (ofBits (toBits (lit 0.66 : F64) + 1)) = true ∧
    FP.lt (lit 0.625 : F64) (ofBits (toBits (lit 0.625 : F64) + 1)) = true ∧
    FP.le (fast_asin (lit 0.625)) (fast_asin (ofBits (toBits (lit 0.625 : F64) + 1))) = true ∧
    FP.lt (fast_acos (lit 1)) (fast_acos (lit (-1))) = true := by decide +kernel

end Vdt
