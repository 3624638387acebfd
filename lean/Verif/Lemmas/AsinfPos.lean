import Verif.Lemmas.AsinfAcc

/-! # The arcsine of a nonnegative float -/

namespace Vdt
open FP details
variable {f : Fmt}

/-- Selection by multiplying with one and zero. -/
theorem select_fin [f.Ok] {t z o n : FP f} (ht : t.isFinite = true) (hz : z.isFinite = true) (t0 : t.val ≠ 0)
    (ho : o.isFinite = true ∧ o.sign = false ∧ o.val = 1) (hn : n.isFinite = true ∧ n.val = 0) :
    t * o + n * z = t ∧ z * n + t * o = t ∧ t * o + z * n = t ∧ z * n + o * t = t := by
  have e1 : t * o = t := mul_one_fin ht ho
  have e1' : o * t = t := by
    rw [mul_def, mul_fin ho.1 ht, ho.2.1, ho.2.2, one_mul, Bool.false_xor]
    exact ofRat_val_fin ht t0
  have e2 : n * z = zero (n.sign ^^ z.sign) := by
    rw [mul_def, mul_fin hn.1 hz, hn.2, zero_mul, ofRat_zero]
  have e3 : z * n = zero (z.sign ^^ n.sign) := by
    rw [mul_def, mul_fin hz hn.1, hn.2, mul_zero, ofRat_zero]
  have k : ∀ s, t + zero s = t := fun s => by
    rw [add_def, add_fin ht (zero_finite s), val_zero, add_zero]
    exact ofRat_val_fin ht t0
  have k' : ∀ s, zero s + t = t := fun s => by
    rw [add_comm_fin (zero_finite s) ht, k]
  exact ⟨by rw [e1, e2, k], by rw [e1, e3, k'], by rw [e1, e3, k], by rw [e1', e3, k']⟩

/-- The same when a product is fused with the sum. -/
theorem select_mad2 [f.Ok] (b c : Bool) {x y u v t : FP f} (hx : x.isFinite = true) (hy : y.isFinite = true) (hu : u.isFinite = true) (hv : v.isFinite = true)
    (ht : t.isFinite = true) (t0 : t.val ≠ 0) (h : (x.val * y.val = t.val ∧ u.val * v.val = 0) ∨ (x.val * y.val = 0 ∧ u.val * v.val = t.val)) :
    mad2 b c x y u v = t := by
  have prod : ∀ {a d : FP f}, a.isFinite = true → d.isFinite = true → a.val * d.val = t.val ∨ a.val * d.val = 0 →
      (a * d).isFinite = true ∧ (a * d).val = a.val * d.val := by
    intro a d ha hd h
    rw [mul_def, mul_fin ha hd]
    rcases h with h | h
    · rw [h, ofRat_val_fin ht t0]; exact ⟨ht, rfl⟩
    · rw [h, ofRat_zero]; exact ⟨zero_finite _, val_zero _⟩
  have p1 := prod hx hy (h.imp And.left And.left)
  have p2 := prod hu hv (h.symm.imp And.right And.right)
  have s : x.val * y.val + u.val * v.val = t.val := by rcases h with h | h <;> rw [h.1, h.2] <;> ring
  unfold mad2
  cases b
  · cases c
    · simp only [Bool.false_eq_true, if_false]
      rw [add_def, add_fin p1.1 p2.1, p1.2, p2.2, s, ofRat_val_fin ht t0]
    · simp only [Bool.false_eq_true, if_false, if_true]
      rw [fma_fin hu hv p1.1, p1.2, add_comm, s, ofRat_val_fin ht t0]
  · simp only [if_true]
    rw [fma_fin hx hy p2.1, p2.2, s, ofRat_val_fin ht t0]

theorem flags32 : ((ofInt ((1#32 : BitVec 32).toNat : ℤ) : F32).isFinite = true ∧ (ofInt ((1#32 : BitVec 32).toNat : ℤ) : F32).sign = false ∧ (ofInt ((1#32 : BitVec 32).toNat : ℤ) : F32).val = 1) ∧
    ((ofInt ((0#32 : BitVec 32).toNat : ℤ) : F32).isFinite = true ∧ (ofInt ((0#32 : BitVec 32).toNat : ℤ) : F32).val = 0) ∧
    1#32 - 1#32 = 0#32 ∧ 1#32 - 0#32 = 1#32 := by decide +kernel

theorem asinfPosC_large (pol : Policy) {a : F32} (hb : FP.gt a (lit 0.5) = true) (ht : FP.lt a (lit 1e-4) = false) (hf : (asinfLargeC pol a).isFinite = true) (h0 : (asinfLargeC pol a).val ≠ 0)
    (hp : (asinfPolyC pol (lit 0.5 * (lit 1 - a)) (FP.sqrt (lit 0.5 * (lit 1 - a)))).isFinite = true) : asinfPosC pol a = asinfLargeC pol a := by
  obtain ⟨f1, f2, f3, -⟩ := flags32
  unfold asinfPosC
  simp only [hb, ht, if_true, Bool.false_eq_true, if_false, f3]
  exact select_mad2 _ _ hf f1.1 f2.1 hp hf h0 (Or.inl ⟨by rw [f1.2.2, mul_one]; rfl, by rw [f2.2, zero_mul]⟩)

theorem asinfPosC_small (pol : Policy) {a : F32} (hb : FP.gt a (lit 0.5) = false) (ht : FP.lt a (lit 1e-4) = false) (hf : (asinfPolyC pol (a * a) a).isFinite = true)
    (h0 : (asinfPolyC pol (a * a) a).val ≠ 0) (ht2 : (PIO2F - (asinfPolyC pol (a * a) a + asinfPolyC pol (a * a) a)).isFinite = true) : asinfPosC pol a = asinfPolyC pol (a * a) a := by
  obtain ⟨f1, f2, -, f4⟩ := flags32
  unfold asinfPosC
  simp only [hb, ht, Bool.false_eq_true, if_false, f4]
  exact select_mad2 _ _ ht2 f2.1 f1.1 hf hf h0 (Or.inr ⟨by rw [f2.2, mul_zero], by rw [f1.2.2, one_mul]⟩)

theorem asinf_small_acc (pol : Policy) {x : F32} (hx : x.isFinite = true) (h1 : 1 / 10 ^ 5 ≤ x.real) (h2 : x.real ≤ 1 / 2) :
    (asinfPolyC pol (x * x) x).isFinite = true ∧ |(asinfPolyC pol (x * x) x).real - Real.arcsin x.real| ≤ 1.6 * 2 ^ (-24 : ℤ) * Real.arcsin x.real := by
  have x0 : 0 ≤ x.real := le_trans (by norm_num) h1
  obtain ⟨s, t, hst, g1, g2⟩ := covers_spans asinfSmallE_ok (a := 0) (b := 0.5) (by decide +kernel) (x := x.real) (by push_cast; exact x0)
    (by push_cast; norm_num; exact h2)
  have rn := okRel1_con (by norm_num) hst hx g1 g2 (asinfSmall_con pol x)
  have eR : asinfSmallE.evalR (fun _ => x.real) = x.real * pev (1 :: asinfPl) (x.real * x.real) := by
    unfold asinfSmallE; rw [asinfPolyE_real]; rfl
  rw [eR] at rn
  have sq : x.real * x.real ≤ 0.25 := by norm_num; nlinarith
  have ap := asinf_approx (mul_self_nonneg x.real) sq
  have tay := asin_taylor x0 (h2.trans (by norm_num))
  have lo := le_arcsin_self x0 (h2.trans (by norm_num))
  have hR : |x.real * pev (1 :: asinfPl) (x.real * x.real) - Real.arcsin x.real| ≤ 0.21 * 2 ^ (-24 : ℤ) * Real.arcsin x.real := by
    have : |x.real * pev (1 :: asinfPl) (x.real * x.real) - x.real * pev asinT (x.real * x.real)| ≤ x.real * (0.2 * 2 ^ (-24 : ℤ)) := by
      rw [← mul_sub, abs_mul, abs_of_nonneg x0]
      exact mul_le_mul_of_nonneg_left ap x0
    refine (abs_sub_le _ _ _).trans ((add_le_add this tay).trans ?_)
    norm_num at *
    linarith
  have c1 : ((1.3 * 2 ^ (-24 : ℤ) : ℚ) : ℝ) = 1.3 * 2 ^ (-24 : ℤ) := by norm_num
  have c2 : ((4 : ℚ) : ℝ) = 4 := by norm_num
  rw [c1, c2] at rn
  refine ⟨rn.1, ?_⟩
  have k := rel_chain_abs (D := 0.25 * 2 ^ (-24 : ℤ)) rn.2 hR (by linarith) (by positivity) (by
    generalize Real.arcsin x.real = A at *
    norm_num at *; nlinarith)
  refine k.trans ?_
  have et := eta32_le
  generalize (b32.eta : ℝ) = η at *
  generalize Real.arcsin x.real = A at *
  norm_num at *
  linarith

theorem asinfPosC_acc (pol : Policy) {x : F32} (hx : x.isFinite = true) (hs : x.sign = false) (h : x.val ≤ 1) :
    (asinfPosC pol x).isFinite = true ∧ (asinfPosC pol x).sign = false ∧ (asinfPosC pol x).val ≤ PIO2F.val ∧
    |(asinfPosC pol x).real - Real.arcsin x.real| ≤ 9.1 * 2 ^ (-24 : ℤ) * Real.arcsin x.real ∧
    |(asinfPosC pol x).real - Real.arcsin x.real| ≤ 4.8 * 2 ^ (-24 : ℤ) := by
  have x0 := real_nonneg hs
  have L : (lit 0.5 : F32).isFinite = true ∧ (lit 0.5 : F32).val = 0.5 ∧ (lit 1e-4 : F32).isFinite = true ∧ 1 / 10 ^ 5 ≤ (lit 1e-4 : F32).val ∧
      (lit 1e-4 : F32).val ≤ 1.01 / 10 ^ 4 ∧ 1 ≤ PIO2F.val ∧ PIO2F.isFinite = true ∧ PIO2F.val ≤ 2 ∧ 8 ≤ b32.big := by decide +kernel
  obtain ⟨l1, l2, l3, l4, l5, l6, l7, l8, l9⟩ := L
  rcases lt_or_ge x.val (lit 1e-4 : F32).val with c | c
  · have e : asinfPosC pol x = x := by
      unfold asinfPosC; simp only; rw [lt_fin hx l3]; simp [c]
    have r := real_le_iff.2 (c.le.trans l5)
    push_cast at r
    rw [e]
    have t := arcsin_small x0 (r.trans (by norm_num))
    have u := arcsin_upper x0 (r.trans (by norm_num))
    have lo := le_arcsin_self x0 (r.trans (by norm_num))
    have sq : x.real * x.real ≤ (1.01 / 10 ^ 4) * (1.01 / 10 ^ 4) := mul_self_le_mul_self x0 r
    have cu : x.real * (x.real * x.real) ≤ x.real * ((1.01 / 10 ^ 4) * (1.01 / 10 ^ 4)) := mul_le_mul_of_nonneg_left sq x0
    refine ⟨hx, hs, h.trans l6, t.trans ?_, t.trans ?_⟩
    all_goals
      generalize Real.arcsin x.real = A at *
      norm_num at *
      linarith
  · have ht : FP.lt x (lit 1e-4) = false := by rw [lt_fin hx l3]; simpa using c
    rcases le_or_gt x.val 0.5 with d | d
    · have hb : FP.gt x (lit 0.5) = false := by rw [gt_fin hx l1, l2]; simpa using d
      have r1 := le_real_iff.2 (l4.trans c)
      have r2 := real_le_iff.2 d
      push_cast at r1 r2
      have r2' : x.real ≤ 1 / 2 := r2.trans (by norm_num)
      obtain ⟨a1, a2⟩ := asinf_small_acc pol hx r1 r2'
      have u := arcsin_upper x0 (r2'.trans (by norm_num))
      have lo := le_arcsin_self x0 (r2'.trans (by norm_num))
      have p : 0 < (asinfPolyC pol (x * x) x).real := pos_of_acc a2 (by norm_num at *; linarith) (by norm_num)
      have p1 : (asinfPolyC pol (x * x) x).val ≤ 1 := by
        apply real_le_iff.1
        have := (abs_le.1 a2).2
        generalize Real.arcsin x.real = A at *
        push_cast
        norm_num at *
        linarith
      have pv : 0 < (asinfPolyC pol (x * x) x).val := by unfold FP.real at p; exact_mod_cast p
      have e : asinfPosC pol x = asinfPolyC pol (x * x) x := by
        apply asinfPosC_small pol hb ht a1 pv.ne'
        generalize asinfPolyC pol (x * x) x = q at *
        have s := add_spec a1 a1 (by rw [abs_of_nonneg (by linarith)]; linarith)
        have sv : |(q + q).val| ≤ 3 := by
          rw [add_def, s.2, abs_of_nonneg (rnd_nonneg b32 (by linarith))]
          have : rnd b32 3 ≤ 3 := by decide +kernel
          exact (rnd_mono b32 (by linarith)).trans this
        have sf : (q + q).isFinite = true := s.1
        rw [abs_le] at sv
        exact (sub_spec l7 sf (by rw [abs_le]; constructor <;> linarith [sv.1, sv.2])).1
      rw [e]
      generalize Real.arcsin x.real = A at *
      refine ⟨a1, sign_of_pos pv, p1.trans l6, a2.trans (mul_le_mul_of_nonneg_right (by norm_num) (by linarith)), a2.trans ?_⟩
      norm_num at *
      linarith
    · have hb : FP.gt x (lit 0.5) = true := by rw [gt_fin hx l1, l2]; simpa using d
      obtain ⟨a1, a2, a3, a4, a5, a6⟩ := asinf_large_acc pol hx d.le h
      have p : 0 < (asinfLargeC pol x).real := pos_of_acc a3 (by linarith) (by norm_num)
      have pv : 0 < (asinfLargeC pol x).val := by unfold FP.real at p; exact_mod_cast p
      rw [asinfPosC_large pol hb ht a1 pv.ne' a5]
      exact ⟨a1, sign_of_pos pv, a6, a3, a2⟩

theorem asinfPos_plain (x : F32) : asinfPosC (fun _ => false) x = asinfPos x := by
  plain [asinfPosC, asinfPos, asinfPolyC, asinfPoly]

theorem asinfPos_acc {x : F32} (hx : x.isFinite = true) (hs : x.sign = false) (h : x.val ≤ 1) :
    (asinfPos x).isFinite = true ∧ (asinfPos x).sign = false ∧ (asinfPos x).val ≤ PIO2F.val ∧
    |(asinfPos x).real - Real.arcsin x.real| ≤ 9.1 * 2 ^ (-24 : ℤ) * Real.arcsin x.real ∧
    |(asinfPos x).real - Real.arcsin x.real| ≤ 4.8 * 2 ^ (-24 : ℤ) := by
  rw [← asinfPos_plain]
  exact asinfPosC_acc _ hx hs h

end Vdt
