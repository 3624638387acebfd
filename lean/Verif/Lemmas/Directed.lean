import Verif.Float.Directed
import Verif.Model.Directed

/-! # The four rounding directions return neighbours of the exact result -/

namespace Vdt.Flush
open FP
variable {f : Fmt}

theorem faithful_nearest {r : FP f} {t : ℝ} (h : r.Nearest t) : Faithful r t := by
  refine ⟨h.1, fun z hz => ⟨fun h1 h2 => ?_, fun h1 h2 => ?_⟩⟩
  · have := h.2.1 z hz
    rw [abs_of_nonpos (by linarith), abs_of_nonpos (by linarith)] at this
    linarith
  · have := h.2.1 z hz
    rw [abs_of_nonneg (by linarith), abs_of_nonneg (by linarith)] at this
    linarith

theorem faithful_neg {w : FP f} {t : ℝ} (h : Faithful w t) : Faithful (FP.neg w) (-t) := by
  refine ⟨by simpa using h.1, fun z hz => ?_⟩
  have hz' : (FP.neg z).isFinite = true := by simpa using hz
  obtain ⟨a, b⟩ := h.2 _ hz'
  rw [real_neg] at a b
  rw [real_neg]
  exact ⟨fun h1 h2 => by linarith [b (by linarith) (by linarith)], fun h1 h2 => by linarith [a (by linarith) (by linarith)]⟩

/-- No number lies between a number and the next one. -/
theorem nextUp_adj {r z : FP f} (h : r.val < z.val) : (nextUp r).val ≤ z.val := by
  unfold nextUp
  split
  · rename_i c
    have r0 : r.val = magVal f r.mag := by
      unfold FP.val
      rcases c with c | c
      · rw [c]; simp
      · rw [c]; simp [magVal_zero]
    have zs : z.sign = false := by
      by_contra hc
      have : z.val ≤ 0 := by
        unfold FP.val; rw [if_pos (by simpa using hc)]
        have := magVal_nonneg f z.mag; linarith
      have := magVal_nonneg f r.mag
      linarith
    have zv : z.val = magVal f z.mag := by unfold FP.val; rw [zs]; simp
    rw [r0, zv, magVal_lt] at h
    split
    · rw [zv]
      show magVal f (r.mag + 1) ≤ _
      rw [magVal_le]; omega
    · rename_i hc
      have := z.bound
      omega
  · rename_i c
    push Not at c
    have rs : r.sign = true := by simpa using c.1
    have rv : r.val = -magVal f r.mag := by unfold FP.val; rw [rs]; simp
    show -magVal f (r.mag - 1) ≤ _
    cases zs : z.sign
    · have zv : z.val = magVal f z.mag := by unfold FP.val; rw [zs]; simp
      have := magVal_nonneg f z.mag
      have := magVal_nonneg f (r.mag - 1)
      rw [zv]; linarith
    · have zv : z.val = -magVal f z.mag := by unfold FP.val; rw [zs]; simp
      rw [rv, zv] at h
      have h' := neg_lt_neg_iff.1 h
      rw [magVal_lt] at h'
      rw [zv, neg_le_neg_iff, magVal_le]; omega

theorem nextUp_gt [f.Ok] {r : FP f} (hr : r.isFinite = true) : r.val < (nextUp r).val := by
  have hb : f.infMag < f.magCount := (FP.inf false : FP f).bound
  have hr' : r.mag < f.infMag := by simpa [isFinite] using hr
  unfold nextUp
  split
  · rename_i c
    have r0 : r.val = magVal f r.mag := by
      unfold FP.val
      rcases c with c | c
      · rw [c]; simp
      · rw [c]; simp [magVal_zero]
    rw [dif_pos (by omega), r0]
    show _ < magVal f (r.mag + 1)
    rw [magVal_lt]; omega
  · rename_i c
    push Not at c
    have rs : r.sign = true := by simpa using c.1
    have rv : r.val = -magVal f r.mag := by unfold FP.val; rw [rs]; simp
    rw [rv]
    show _ < -magVal f (r.mag - 1)
    rw [neg_lt_neg_iff, magVal_lt]; have := c.2; omega

theorem nextUp_finite [hf : f.Ok] {r : FP f} (hr : r.isFinite = true) (h : r.val ≤ f.big) : (nextUp r).isFinite = true := by
  have hb : f.infMag < f.magCount := (FP.inf false : FP f).bound
  have hr' : r.mag < f.infMag := by simpa [isFinite] using hr
  unfold nextUp
  split
  · rename_i c
    have r0 : r.val = magVal f r.mag := by
      unfold FP.val
      rcases c with c | c
      · rw [c]; simp
      · rw [c]; simp [magVal_zero]
    rw [dif_pos (by omega)]
    unfold isFinite
    simp only [decide_eq_true_eq]
    have h1 : magVal f r.mag < magVal f (f.infMag - 1) := by
      rw [← r0]
      refine lt_of_le_of_lt h ?_
      have e : f.infMag - 1 = (1 - f.emin - f.emin).toNat * 2 ^ f.mb + (2 ^ (f.mb + 1) - 1) := by
        rw [infMag_code]; have := Nat.one_le_two_pow (n := f.mb + 1); omega
      have k1 : 2 ^ f.mb ≤ 2 ^ (f.mb + 1) - 1 := by
        have := Nat.one_le_two_pow (n := f.mb); rw [pow_succ]; omega
      have k0 : 2 ^ f.mb < 2 ^ (f.mb + 1) - 1 := by
        have : 2 ^ 1 ≤ 2 ^ f.mb := Nat.pow_le_pow_right (by norm_num) hf.mb1
        rw [pow_succ]; omega
      obtain ⟨d, -, hd, hd1⟩ := infMag_eq f
      rw [e, magVal_code f (by omega) (Nat.sub_le _ _) (Or.inl k1)]
      have e2 : f.big = ((2 ^ f.mb : ℕ) : ℚ) * p2 (1 - f.emin - f.mb) := by
        unfold Fmt.big
        push_cast
        rw [← p2_nat, ← p2_add]; congr 1; ring
      rw [e2]
      exact mul_lt_mul_of_pos_right (by exact_mod_cast k0) (p2_pos _)
    rw [magVal_lt] at h1
    omega
  · unfold isFinite
    simp only [decide_eq_true_eq]
    omega

/-- The neighbour above. -/
theorem faithful_up [f.Ok] {r : FP f} {t : ℝ} (h : r.Nearest t) (hl : r.real < t) (hb : t ≤ (f.big : ℝ)) : Faithful (nextUp r) t := by
  have g := nextUp_gt h.1
  have fin : (nextUp r).isFinite = true := nextUp_finite h.1 (by
    have : r.real ≤ (f.big : ℝ) := hl.le.trans hb
    unfold FP.real at this; exact_mod_cast this)
  have gR : r.real < (nextUp r).real := by unfold FP.real; exact_mod_cast g
  have le : t ≤ (nextUp r).real := by
    by_contra c
    have := h.2.1 _ fin
    rw [abs_of_neg (by linarith), abs_of_neg (by linarith)] at this
    linarith
  refine ⟨fin, fun z hz => ⟨fun h1 h2 => by linarith, fun h1 h2 => ?_⟩⟩
  have : r.val < z.val := by
    have : r.real < z.real := by linarith
    unfold FP.real at this; exact_mod_cast this
  have := nextUp_adj this
  refine le_antisymm h2 ?_
  unfold FP.real; exact_mod_cast this

theorem faithful_down [f.Ok] {r : FP f} {t : ℝ} (h : r.Nearest t) (hl : t < r.real) (hb : -t ≤ (f.big : ℝ)) : Faithful (nextDown r) t := by
  have := faithful_neg (faithful_up (nearest_neg h) (by rw [real_neg]; linarith) hb)
  rwa [neg_neg] at this

/-- A rounded result that is replaced by the neighbour on the other side of the exact one. -/
def Moved (r w : FP f) (t : ℝ) : Prop := w = r ∨ r.real < t ∧ w = nextUp r ∨ t < r.real ∧ w = nextDown r

theorem Moved.faithful [f.Ok] {r w : FP f} {t : ℝ} (h : Moved r w t) (hn : r.Nearest t) (hb : |t| ≤ (f.big : ℝ)) : Faithful w t := by
  rw [abs_le] at hb
  rcases h with rfl | ⟨h, rfl⟩ | ⟨h, rfl⟩
  · exact faithful_nearest hn
  · exact faithful_up hn h hb.2
  · exact faithful_down hn h (by linarith)

theorem ovf_big (f : Fmt) : f.big < f.ovf := by
  unfold Fmt.big Fmt.ovf
  have h1 : p2 (2 - f.emin) = 2 * p2 (1 - f.emin) := by
    rw [show (2 : ℚ) = p2 1 by decide +kernel, ← p2_add]; congr 1; ring
  have h2 : p2 (-f.emin - f.mb) < p2 (1 - f.emin) := p2_lt (by omega)
  linarith

theorem nearest_ofRat [f.Ok] (zs : Bool) {q : ℚ} (h : |q| ≤ f.big) : (ofRat f zs q).Nearest q := ofRat_nearest f zs (lt_of_le_of_lt h (ovf_big f))

/-- Results that are moved as the exact result demands. -/
theorem dir_of (m : Mode) (harg : ∀ {f : Fmt} (x : FP f), m.arg x = x)
    (h : ∀ {f : Fmt} (o : Op) (x y r : FP f), m.res o x y r = r ∨ cmpExact o x y r = .lt ∧ m.res o x y r = nextUp r ∨
      cmpExact o x y r = .gt ∧ m.res o x y r = nextDown r)
    (hc : ∀ (x : F64) (r : F32), r.sign = x.sign → (m.cvt x r).sign = x.sign) : m.Dir := by
  have key : ∀ {f : Fmt} [f.Ok] (o : Op) (x y r : FP f) (q : ℚ), cmpExact o x y r = compare r.val q → r.Nearest q → |q| ≤ f.big → Faithful (m.res o x y r) q := by
    intro f _ o x y r q hq hn hb
    refine Moved.faithful ?_ hn (by exact_mod_cast hb)
    rcases h o x y r with h | ⟨h1, h2⟩ | ⟨h1, h2⟩
    · exact Or.inl h
    · rw [hq, compare_lt_iff_lt] at h1
      exact Or.inr (Or.inl ⟨by unfold FP.real; exact_mod_cast h1, h2⟩)
    · rw [hq, compare_gt_iff_gt] at h1
      exact Or.inr (Or.inr ⟨by unfold FP.real; exact_mod_cast h1, h2⟩)
  refine ⟨harg, ?_, ?_, ?_, ?_, ?_, hc⟩
  · intro f _ x y hx hy hb
    have := key .add x y (x + y) (x.val + y.val) rfl (by rw [add_def, add_fin hx hy]; exact nearest_ofRat _ hb) hb
    rwa [Rat.cast_add] at this
  · intro f _ x y hx hy hb
    have := key .sub x y (x - y) (x.val - y.val) rfl (by rw [sub_def, sub_fin hx hy]; exact nearest_ofRat _ hb) hb
    rwa [Rat.cast_sub] at this
  · intro f _ x y hx hy hb
    have := key .mul x y (x * y) (x.val * y.val) rfl (by rw [mul_def, mul_fin hx hy]; exact nearest_ofRat _ hb) hb
    rwa [Rat.cast_mul] at this
  · intro f _ x y hx hy h0 hb
    have := key .div x y (x / y) (x.val / y.val) rfl (by rw [div_def, div_fin hx hy h0]; exact nearest_ofRat _ hb) hb
    rwa [Rat.cast_div] at this
  · intro f _ x he hx h0 hb
    have hxr : 0 ≤ x.real := by unfold FP.real; exact_mod_cast h0
    have rv : 0 ≤ (FP.sqrt x).val ∧ (FP.sqrt x).Nearest (Real.sqrt x.real) := by
      rcases h0.lt_or_eq with h0 | h0
      · refine ⟨?_, sqrt_nearest he hx h0⟩
        have n := (sqrt_nearest he hx h0).2.1 (FP.zero false) (zero_finite false)
        have z : (FP.zero false : FP f).real = 0 := by unfold FP.real; rw [zero_val]; simp
        rw [z, zero_sub, abs_neg, abs_of_nonneg (Real.sqrt_nonneg _)] at n
        have n1 := (abs_le.1 n).1
        have : 0 ≤ (FP.sqrt x).real := by linarith
        unfold FP.real at this; exact_mod_cast this
      · have hm := val_eq_zero.1 h0.symm
        have e : FP.sqrt x = x := by
          unfold FP.sqrt
          simp [finite_not_nan hx, isZero, hm]
        rw [e]
        refine ⟨h0.le, ?_⟩
        have : x.real = 0 := by unfold FP.real; rw [← h0]; simp
        rw [this, Real.sqrt_zero]
        exact nearest_zero hm
    have r0 : 0 ≤ (FP.sqrt x).real := by unfold FP.real; exact_mod_cast rv.1
    refine Moved.faithful ?_ rv.2 ?_
    · rcases h .sqrt x x (FP.sqrt x) with h | ⟨h1, h2⟩ | ⟨h1, h2⟩
      · exact Or.inl h
      · refine Or.inr (Or.inl ⟨?_, h2⟩)
        have h1' := compare_lt_iff_lt.1 h1
        refine Real.lt_sqrt_of_sq_lt ?_
        rw [pow_two]; unfold FP.real; exact_mod_cast h1'
      · refine Or.inr (Or.inr ⟨?_, h2⟩)
        have h1' : x.val < (FP.sqrt x).val * (FP.sqrt x).val := compare_gt_iff_gt.1 h1
        rw [Real.sqrt_lt' ]
        · rw [pow_two]; unfold FP.real; exact_mod_cast h1'
        · rcases r0.lt_or_eq with c | c
          · exact c
          · exfalso
            have : (FP.sqrt x).val = 0 := by unfold FP.real at c; exact_mod_cast c.symm
            rw [this] at h1'; linarith
    · rw [abs_of_nonneg (Real.sqrt_nonneg _)]
      have b1 : (1 : ℚ) ≤ f.big := by
        unfold Fmt.big
        rw [show (1 : ℚ) = p2 0 by decide +kernel]; exact p2_le (by omega)
      have b1R : (1 : ℝ) ≤ (f.big : ℝ) := by exact_mod_cast b1
      have hbR : x.real ≤ (f.big : ℝ) := by unfold FP.real; exact_mod_cast hb
      rw [Real.sqrt_le_left (by linarith)]
      nlinarith

theorem nextUp_sign {r : FP f} (h : r.mag ≠ 0 ∨ r.sign = false) : (nextUp r).sign = r.sign := by
  unfold nextUp
  split
  · rename_i c
    have : r.sign = false := by
      rcases c with c | c
      · exact c
      · exact h.resolve_left (not_not.2 c)
    split
    · exact this.symm
    · rfl
  · rename_i c
    push Not at c
    simpa using c.1

theorem nextDown_sign {r : FP f} (h : r.mag ≠ 0 ∨ r.sign = true) : (nextDown r).sign = r.sign := by
  unfold nextDown
  rw [neg_sign, nextUp_sign (by simpa using h)]
  simp

theorem val_sign {x : FP f} : (x.sign = true → x.val ≤ 0) ∧ (x.sign = false → 0 ≤ x.val) := by
  have := magVal_nonneg f x.mag
  unfold FP.val
  constructor
  · intro h; rw [if_pos h]; linarith
  · intro h; rw [h]; simpa using this

theorem up_cvt {x : F64} {r : F32} (h : r.sign = x.sign) (hl : r.val < x.val) : (nextUp r).sign = x.sign := by
  rw [← h]
  refine nextUp_sign ?_
  by_contra c
  push Not at c
  have c2 : r.sign = true := by simpa using c.2
  have := val_eq_zero.2 c.1
  have := val_sign (x := x).1 (by rw [← h, c2])
  linarith

theorem down_cvt {x : F64} {r : F32} (h : r.sign = x.sign) (hl : x.val < r.val) : (nextDown r).sign = x.sign := by
  rw [← h]
  refine nextDown_sign ?_
  by_contra c
  push Not at c
  have c2 : r.sign = false := by simpa using c.2
  have := val_eq_zero.2 c.1
  have := val_sign (x := x).2 (by rw [← h, c2])
  linarith

theorem nearest_dir : nearest.Dir := dir_of _ (fun _ => rfl) (fun _ _ _ _ => Or.inl rfl) fun _ _ h => h

theorem upward_dir : upward.Dir := by
  refine dir_of _ (fun _ => rfl) (fun o x y r => ?_) fun x r h => ?_
  · simp only [upward]
    split
    · exact Or.inr (Or.inl ⟨by assumption, rfl⟩)
    · exact Or.inl rfl
  · simp only [upward]
    split
    · exact up_cvt h (by assumption)
    · exact h

theorem downward_dir : downward.Dir := by
  refine dir_of _ (fun _ => rfl) (fun o x y r => ?_) fun x r h => ?_
  · simp only [downward]
    split
    · exact Or.inr (Or.inr ⟨by assumption, rfl⟩)
    · exact Or.inl rfl
  · simp only [downward]
    split
    · exact down_cvt h (by assumption)
    · exact h

theorem towardZero_dir : towardZero.Dir := by
  refine dir_of _ (fun _ => rfl) (fun o x y r => ?_) fun x r h => ?_
  · simp only [towardZero]
    split
    · rename_i c; exact Or.inr (Or.inr ⟨c.1, rfl⟩)
    · split
      · rename_i c; exact Or.inr (Or.inl ⟨c.1, rfl⟩)
      · exact Or.inl rfl
  · simp only [towardZero]
    split
    · rename_i c; exact down_cvt h c.1
    · split
      · rename_i c; exact up_cvt h c.1
      · exact h

end Vdt.Flush
