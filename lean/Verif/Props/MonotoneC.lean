import Verif.Props.MonotoneB
import Verif.Props.Atan
import Verif.Props.Asin
import Verif.Lemmas.AsinfMono
import Verif.Lemmas.AtanfMono

/-! # C85: the inverse trigonometric functions in single precision keep the order -/

namespace Vdt
open FP details

/-- Comparable patterns are both finite, unless one of them is the least or the greatest. -/
theorem le_cases {f : Fmt} [f.Ok] {x y : FP f} (h : FP.le x y = true) :
    x.isNaN = false ∧ y.isNaN = false ∧ (x.isFinite = true ∧ y.isFinite = true ∨ x = FP.inf true ∨ y = FP.inf false) := by
  have hxn : x.isNaN = false := by
    by_contra hc
    simp only [Bool.not_eq_false] at hc
    simp [FP.le, FP.lt, FP.eq, hc] at h
  have hyn : y.isNaN = false := by
    by_contra hc
    simp only [Bool.not_eq_false] at hc
    simp [FP.le, FP.lt, FP.eq, hc] at h
  refine ⟨hxn, hyn, ?_⟩
  have sp : ∀ z : FP f, z.isNaN = false → (z.isFinite = true ∧ z.isInf = false) ∨ (z.isInf = true ∧ z = FP.inf z.sign) := by
    intro z hz
    have z1 : z.mag ≤ f.infMag := by simpa [FP.isNaN] using hz
    rcases z1.lt_or_eq with z2 | z2
    · left; exact ⟨by simpa [FP.isFinite] using z2, by simpa [FP.isInf] using z2.ne⟩
    · right
      refine ⟨by simpa [FP.isInf] using z2, ?_⟩
      ext
      · rfl
      · exact z2
  rcases sp x hxn with ⟨x1, x2⟩ | ⟨x1, x2⟩ <;> rcases sp y hyn with ⟨y1, y2⟩ | ⟨y1, y2⟩
  · exact Or.inl ⟨x1, y1⟩
  · right; right
    cases hs : y.sign
    · rw [hs] at y2; exact y2
    · simp [FP.le, FP.lt, FP.eq, hxn, hyn, x2, y1, hs] at h
  · right; left
    cases hs : x.sign
    · simp [FP.le, FP.lt, FP.eq, hxn, hyn, x1, y2, hs] at h
    · rw [hs] at x2; exact x2
  · cases hs : x.sign
    · cases ht : y.sign
      · right; right; rw [ht] at y2; exact y2
      · simp [FP.le, FP.lt, FP.eq, hxn, hyn, x1, y1, hs, ht] at h
    · right; left; rw [hs] at x2; exact x2

theorem val_signedBy {f : Fmt} (r : FP f) (s : Bool) (hr : r.sign = false) : (signedBy r s).val = if s then -r.val else r.val := by
  unfold signedBy FP.val
  cases s <;> simp [hr]

/-- On all numbers, infinities included. -/
theorem C85_fast_atanf : KeepsOrder (fun x => some (fast_atanf x)) := by
  intro x y a b h ha hb
  simp only [Option.some.injEq] at ha hb
  subst ha; subst hb
  have acc : ∀ z : F32, z.isFinite = true → (fast_atanf z).isFinite = true ∧ |(fast_atanf z).val| ≤ PIO2F.val ∧
      (fast_atanf z).val = if z.sign then -(atanfPos (FP.abs z)).val else (atanfPos (FP.abs z)).val := by
    intro z hz
    have q := atanfPos_acc (x := FP.abs z) (by simpa using hz) (by simp)
    have v := val_signedBy (atanfPos (FP.abs z)) z.sign q.2.1
    rw [fast_atanf_signed hz]
    refine ⟨q.1, ?_, v⟩
    have n := val_nonneg_of_sign q.2.1
    have u := q.2.2.1
    rw [v]
    cases z.sign
    · simp only [Bool.false_eq_true, if_false]; rw [abs_of_nonneg n]; exact u
    · simp only [if_true]; rw [abs_neg, abs_of_nonneg n]; exact u
  have inf : ∀ s, (fast_atanf (FP.inf s)).isFinite = true ∧ (fast_atanf (FP.inf s)).val = if s then -PIO2F.val else PIO2F.val := by
    intro s
    rw [(C20_atan_inf s).2.1]
    have e : PIO2F.sign = false ∧ PIO2F.isFinite = true := by decide +kernel
    exact ⟨e.2, val_signedBy _ _ e.1⟩
  have all : ∀ z : F32, z.isNaN = false → (fast_atanf z).isFinite = true ∧ |(fast_atanf z).val| ≤ PIO2F.val := by
    intro z hz
    have p0 : 0 ≤ PIO2F.val := by decide +kernel
    have z1 : z.mag ≤ b32.infMag := by simpa [FP.isNaN] using hz
    rcases z1.lt_or_eq with z2 | z2
    · exact ⟨(acc z (by simpa [FP.isFinite] using z2)).1, (acc z (by simpa [FP.isFinite] using z2)).2.1⟩
    · have e : z = FP.inf z.sign := by
        ext
        · rfl
        · exact z2
      rw [e]
      refine ⟨(inf _).1, ?_⟩
      rw [(inf _).2]
      cases z.sign
      · simp only [Bool.false_eq_true, if_false]; rw [abs_of_nonneg p0]
      · simp only [if_true]; rw [abs_neg, abs_of_nonneg p0]
  obtain ⟨hxn, hyn, hc⟩ := le_cases h
  rw [le_fin (all x hxn).1 (all y hyn).1]
  apply decide_eq_true
  rcases hc with ⟨hx, hy⟩ | e | e
  · have hv : x.val ≤ y.val := by
      rw [le_fin hx hy] at h; exact of_decide_eq_true h
    rw [(acc x hx).2.2, (acc y hy).2.2]
    have nn : ∀ z : F32, z.isFinite = true → 0 ≤ (atanfPos (FP.abs z)).val := fun z hz =>
      val_nonneg_of_sign (atanfPos_acc (x := FP.abs z) (by simpa using hz) (by simp)).2.1
    refine odd_order (P := fun z => (atanfPos z).val) hv (nn x hx) (nn y hy) (by decide +kernel) ?_
    rintro a b (⟨rfl, rfl⟩ | ⟨rfl, rfl⟩) hab
    · exact atanfPos_order (by simpa using hx) (by simpa using hy) (by simp) (by simp) hab
    · exact atanfPos_order (by simpa using hy) (by simpa using hx) (by simp) (by simp) hab
  · rw [e, (inf true).2]
    exact (abs_le.1 (all y hyn).2).1
  · rw [e, (inf false).2]
    exact (abs_le.1 (all x hxn).2).2

/-- Neighbouring arguments around the two thresholds of `fast_atanf`; the results are in order. -/
example : FP.lt (ofBits 1054086093#32 : F32) (ofBits 1054086094#32) = true ∧
    FP.le (fast_atanf (ofBits 1054086093#32)) (fast_atanf (ofBits 1054086094#32)) = true ∧
    FP.lt (fast_atanf (FP.inf true)) (fast_atanf (lit 3)) = true := by decide +kernel

theorem asinf_order {x y : F32} (hx : x.isFinite = true) (hy : y.isFinite = true) (h1 : -1 ≤ x.val) (h : x.val ≤ y.val) (h2 : y.val ≤ 1) :
    (fast_asinf x).isFinite = true ∧ (fast_asinf y).isFinite = true ∧ (fast_asinf x).val ≤ (fast_asinf y).val ∧
      |(fast_asinf x).val| ≤ 2 ∧ |(fast_asinf y).val| ≤ 2 := by
  have acc : ∀ z : F32, z.isFinite = true → |z.val| ≤ 1 → (fast_asinf z).isFinite = true ∧ |(fast_asinf z).val| ≤ 2 ∧
      (fast_asinf z).val = (if z.sign then -(asinfPos (FP.abs z)).val else (asinfPos (FP.abs z)).val) ∧ 0 ≤ (asinfPos (FP.abs z)).val := by
    intro z hz hz1
    obtain ⟨i1, i2, i3⟩ := inside_abs hz hz1
    have q := asinfPos_acc i1 i2 i3
    have v := val_signedBy (asinfPos (FP.abs z)) z.sign q.2.1
    have n := val_nonneg_of_sign q.2.1
    have u := q.2.2.1
    have p2 : PIO2F.val ≤ 2 := by decide +kernel
    rw [fast_asinf_signed hz hz1]
    refine ⟨q.1, ?_, v, n⟩
    rw [v]
    cases z.sign
    · simp only [Bool.false_eq_true, if_false]; rw [abs_of_nonneg n]; exact u.trans p2
    · simp only [if_true]; rw [abs_neg, abs_of_nonneg n]; exact u.trans p2
  have ax : |x.val| ≤ 1 := abs_le.2 ⟨h1, h.trans h2⟩
  have ay : |y.val| ≤ 1 := abs_le.2 ⟨h1.trans h, h2⟩
  obtain ⟨x1, x2, x3, x4⟩ := acc x hx ax
  obtain ⟨y1, y2, y3, y4⟩ := acc y hy ay
  obtain ⟨i1, i2, i3⟩ := inside_abs hx ax
  obtain ⟨j1, j2, j3⟩ := inside_abs hy ay
  refine ⟨x1, y1, ?_, x2, y2⟩
  rw [x3, y3]
  refine odd_order (P := fun z => (asinfPos z).val) h x4 y4 (by decide +kernel) ?_
  rintro a b (⟨rfl, rfl⟩ | ⟨rfl, rfl⟩) hab
  · exact asinfPos_order i1 j1 i2 j2 hab j3
  · exact asinfPos_order j1 i1 j2 i2 hab i3

/-- Arguments between `-1` and `1`. -/
theorem between {x y : F32} (h1 : FP.le (lit (-1)) x = true) (h : FP.le x y = true) (h2 : FP.le y (lit 1) = true) :
    x.isFinite = true ∧ y.isFinite = true ∧ -1 ≤ x.val ∧ x.val ≤ y.val ∧ y.val ≤ 1 := by
  have l : (lit (-1) : F32).val = -1 ∧ (lit (-1) : F32).isFinite = true ∧ (lit 1 : F32).val = 1 ∧ (lit 1 : F32).isFinite = true := by decide +kernel
  have ni : FP.le (lit (-1)) (FP.inf true : F32) = false ∧ FP.le (FP.inf false) (lit 1 : F32) = false := by decide +kernel
  have nx : x ≠ FP.inf true := by rintro rfl; rw [ni.1] at h1; exact absurd h1 (by decide)
  have ny : y ≠ FP.inf false := by rintro rfl; rw [ni.2] at h2; exact absurd h2 (by decide)
  rcases (le_cases h).2.2 with ⟨hx, hy⟩ | e | e
  · rw [le_fin l.2.1 hx, l.1] at h1
    rw [le_fin hx hy] at h
    rw [le_fin hy l.2.2.2, l.2.2.1] at h2
    exact ⟨hx, hy, of_decide_eq_true h1, of_decide_eq_true h, of_decide_eq_true h2⟩
  · exact absurd e nx
  · exact absurd e ny

theorem C85_fast_asinf (x y : F32) (h1 : FP.le (lit (-1)) x = true) (h : FP.le x y = true) (h2 : FP.le y (lit 1) = true) :
    FP.le (fast_asinf x) (fast_asinf y) = true := by
  obtain ⟨hx, hy, a, b, c⟩ := between h1 h h2
  have k := asinf_order hx hy a b c
  rw [le_fin k.1 k.2.1]
  exact decide_eq_true k.2.2.1

theorem C85_fast_acosf (x y : F32) (h1 : FP.le (lit (-1)) x = true) (h : FP.le x y = true) (h2 : FP.le y (lit 1) = true) :
    FP.le (fast_acosf y) (fast_acosf x) = true := by
  obtain ⟨hx, hy, a, b, c⟩ := between h1 h h2
  obtain ⟨k1, k2, k3, k4, k5⟩ := asinf_order hx hy a b c
  have pf : PIO2F.isFinite = true ∧ |PIO2F.val| ≤ 2 ∧ 4 ≤ b32.big := by decide +kernel
  have s1 := subS pf.1 k1 ((abs_sub _ _).trans (by linarith [pf.2.1, pf.2.2]))
  have s2 := subS pf.1 k2 ((abs_sub _ _).trans (by linarith [pf.2.1, pf.2.2]))
  unfold fast_acosf
  rw [le_fin s2.1 s1.1, s1.2, s2.2]
  exact decide_eq_true (rnd_mono b32 (by linarith))

/-- Neighbouring arguments around one half, where the code changes its formula. -/
example : FP.le (lit (-1)) (ofBits 1056964608#32 : F32) = true ∧ FP.lt (ofBits 1056964608#32 : F32) (ofBits 1056964609#32) = true ∧
    FP.le (ofBits 1056964609#32 : F32) (lit 1) = true ∧
    FP.lt (fast_asinf (ofBits 1056964608#32)) (fast_asinf (ofBits 1056964609#32)) = true ∧
    FP.lt (fast_acosf (lit 1)) (fast_acosf (lit (-1))) = true := by decide +kernel

end Vdt
