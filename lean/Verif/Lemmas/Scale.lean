import Verif.Props.Isqrt

/-! # Multiplication of the arguments by powers of two -/

namespace Vdt
open FP details
variable {f : Fmt}

theorem ilog2_scale {q : ℚ} (h : 0 < q) (k : ℤ) : ilog2 (q * p2 k) = ilog2 q + k := by
  obtain ⟨a, b⟩ := ilog2_spec h
  apply ilog2_unique
  · rw [p2_add]; exact mul_le_mul_of_nonneg_right a (p2_pos k).le
  · rw [show ilog2 q + k + 1 = ilog2 q + 1 + k by ring, p2_add]; exact mul_lt_mul_of_pos_right b (p2_pos k)

/-- Rounding commutes with multiplication by a power of two, in the normal range. -/
theorem rnd_scale [f.Ok] {q : ℚ} (k : ℤ) (l1 : p2 f.emin ≤ |q|) (l2 : p2 f.emin ≤ |q| * p2 k) (b1 : |q| ≤ f.big) (b2 : |q| * p2 k ≤ f.big) :
    rnd f (q * p2 k) = rnd f q * p2 k := by
  have key : ∀ r : ℚ, p2 f.emin ≤ r → p2 f.emin ≤ r * p2 k → r ≤ f.big → r * p2 k ≤ f.big → rnd f (r * p2 k) = rnd f r * p2 k := by
    intro r l1 l2 b1 b2
    have r0 : 0 < r := (p2_pos _).trans_le l1
    have r0' : 0 < r * p2 k := mul_pos r0 (p2_pos k)
    have il := ilog2_scale r0 k
    have big : ∀ {s : ℚ}, 0 < s → p2 f.emin ≤ s → rexp f s = ilog2 s := by
      intro s hs h
      unfold rexp
      apply max_eq_left
      have := p2_lt_iff.1 (lt_of_le_of_lt h (ilog2_spec hs).2)
      omega
    unfold rnd
    rw [if_neg (not_lt.2 r0.le), if_neg (not_lt.2 r0'.le), roundMag_eq_rcode f r0 b1, roundMag_eq_rcode f r0' b2, magVal_rcode f r0, magVal_rcode f r0']
    have e : rexp f (r * p2 k) = rexp f r + k := by rw [big r0' l2, big r0 l1, il]
    have s : rsig f (r * p2 k) = rsig f r := by
      unfold rsig
      rw [e, show rexp f r + k - f.mb = (rexp f r - f.mb) + k by ring, p2_add, mul_div_mul_right _ _ (p2_pos k).ne']
    rw [s, e, show rexp f r + k - f.mb = (rexp f r - f.mb) + k by ring, p2_add]
    ring
  rcases le_total 0 q with h | h
  · rw [abs_of_nonneg h] at l1 l2 b1 b2
    exact key q l1 l2 b1 b2
  · rw [abs_of_nonpos h] at l1 l2 b1 b2
    have := key (-q) l1 l2 b1 b2
    rw [neg_mul, rnd_neg, rnd_neg] at this
    linarith

theorem mul_scale [f.Ok] {x y x' y' : FP f} (k : ℤ) (hx : x.isFinite = true) (hy : y.isFinite = true) (hx' : x'.isFinite = true) (hy' : y'.isFinite = true)
    (hv : x'.val * y'.val = x.val * y.val * p2 k) (l1 : p2 f.emin ≤ |x.val * y.val|) (l2 : p2 f.emin ≤ |x'.val * y'.val|) (b1 : |x.val * y.val| ≤ f.big)
    (b2 : |x'.val * y'.val| ≤ f.big) : (mul x' y').val = (mul x y).val * p2 k := by
  rw [mul_fin hx hy, mul_fin hx' hy', val_ofRat, val_ofRat]
  have e : |x'.val * y'.val| = |x.val * y.val| * p2 k := by rw [hv, abs_mul, abs_of_pos (p2_pos k)]
  rw [e] at l2 b2
  rw [hv]
  exact rnd_scale k l1 l2 b1 b2

theorem nmad_same [f.Ok] (b : Bool) {a y a' y' z : FP f} (ha : a.isFinite = true) (hy : y.isFinite = true) (ha' : a'.isFinite = true) (hy' : y'.isFinite = true)
    (hz : z.isFinite = true) (hv : a'.val * y'.val = a.val * y.val) (hb : |a.val * y.val| ≤ f.big) : (nmad b a' y' z).val = (nmad b a y z).val := by
  unfold nmad
  cases b
  · have m := mul_spec ha hy hb
    have m' := mul_spec ha' hy' (by rw [hv]; exact hb)
    simp only [Bool.false_eq_true, if_false]
    rw [sub_def, mul_def, mul_def, sub_def, sub_fin hz m.1, sub_fin hz m'.1, val_ofRat, val_ofRat, m.2, m'.2, hv]
  · have n : ∀ {w : FP f}, w.isFinite = true → (neg w).isFinite = true := fun h => by simpa using h
    simp only [if_true]
    rw [neg_def, neg_def, fma_fin (n ha) hy hz, fma_fin (n ha') hy' hz, val_ofRat, val_ofRat, val_neg, val_neg, neg_mul, neg_mul, hv]

/-- Ranges of the intermediate results of one step. -/
theorem newton_bounds [f.Ok] {A : ℝ} (ok : NewtOk f A) (fu : Bool) {X : ℝ} {x2 y : FP f} (hX : A ≤ X) (hX2 : X ≤ 2 * f.big) (h2f : x2.isFinite = true)
    (h2 : |x2.real - X / 2| ≤ f.u * X) (hy : y.isFinite = true) (he : |Real.sqrt X * y.real - 1| ≤ 1 / 20) :
    (A ≤ |x2.real * y.real| ∧ |x2.real * y.real| ≤ f.big) ∧ (mul x2 y).isFinite = true ∧ |(mul x2 y).real * y.real| ≤ f.big ∧
    (nmad fu (mul x2 y) y (lit 1.5)).isFinite = true ∧
    A ≤ |y.real * (nmad fu (mul x2 y) y (lit 1.5)).real| ∧ |y.real * (nmad fu (mul x2 y) y (lit 1.5)).real| ≤ f.big := by
  have X0 : 0 < X := ok.A0.trans_le hX
  obtain ⟨S, hS⟩ : ∃ S, Real.sqrt X = S := ⟨_, rfl⟩
  have S0 : 0 < S := by rw [← hS]; exact Real.sqrt_pos.2 X0
  have SS : S * S = X := by rw [← hS]; exact Real.mul_self_sqrt X0.le
  rw [hS] at he
  have A0 := ok.A0
  have A2 : A ≤ 1 / 1000000 := ok.A1.trans (by norm_num)
  have u0 := ok.u0
  have u1 := ok.u1
  have u2 : (f.u : ℝ) ≤ 1 / 100000 := u1.trans (by norm_num)
  obtain ⟨SA, AS, G1, SG, GS⟩ := newton_range A0 A2 ok.big S0 SS hX hX2
  obtain ⟨P, hP⟩ : ∃ P, S * y.real = P := ⟨_, rfl⟩
  rw [hP] at he
  have p1 := abs_le.1 he
  have yv : y.real = P / S := by rw [← hP]; field_simp
  have y0 : 0 ≤ P / S := div_nonneg (by linarith) S0.le
  have first : A ≤ |x2.real * y.real| ∧ |x2.real * y.real| ≤ f.big := by
    have k : |x2.real * y.real - S * P / 2| ≤ 2 * f.u * (S * P / 2) := by
      have e1 : x2.real * y.real - S * P / 2 = (x2.real - X / 2) * (P / S) := by rw [yv, ← SS]; field_simp
      have e2 : 2 * f.u * (S * P / 2) = (f.u * X) * (P / S) := by rw [← SS]; field_simp
      rw [e1, e2, abs_mul, abs_of_nonneg y0]
      exact mul_le_mul_of_nonneg_right h2 y0
    have SP : 0.95 * S ≤ S * P ∧ S * P ≤ 1.05 * S := by constructor <;> nlinarith
    obtain ⟨m, hm⟩ : ∃ m, x2.real * y.real = m := ⟨_, rfl⟩
    have k2 : 2 * f.u * (S * P / 2) ≤ 0.001 * (S * P / 2) := mul_le_mul_of_nonneg_right (by linarith) (by linarith)
    have k3 := abs_le.1 (k.trans k2)
    rw [hm] at k3 ⊢
    have m0 : 0 ≤ m := by linarith
    rw [abs_of_nonneg m0]
    constructor <;> linarith
  obtain ⟨f1, e1⟩ := newton_prod ok S0 SS SA SG h2f h2 hy yv (by linarith) (by linarith)
  obtain ⟨⟨f20, f21⟩, f2, bm⟩ := newton_prod2 ok S0 G1 f1 e1 hy yv (by linarith) (by linarith)
  obtain ⟨b, hb, hd⟩ := nmad_err ok fu f1 hy ok.th.1 f20
  have bb : |b - P * P / 2| ≤ 4.01 * f.u * (P * P / 2) := by rcases hb with hb | hb <;> rw [hb] <;> assumption
  have pp : 0.9 ≤ P * P ∧ P * P ≤ 1.11 := sq_near (by linarith) (by linarith)
  have bs : |b - P * P / 2| ≤ 0.001 * (P * P / 2) := bb.trans (mul_le_mul_of_nonneg_right (by linarith) (by linarith))
  have b1 := abs_le.1 bs
  have t1 : (lit 1.5 : FP f).real = 3 / 2 := by unfold FP.real; rw [ok.th.2]; norm_num
  obtain ⟨f3, e3⟩ := hd 1.1
    (by rw [t1, abs_le]; constructor <;> linarith) (by linarith) (by linarith)
  rw [t1] at e3
  obtain ⟨c, hc⟩ : ∃ v, (nmad fu (mul x2 y) y (lit 1.5)).real = v := ⟨_, rfl⟩
  rw [hc] at e3
  have cb : 0.9 ≤ c ∧ c ≤ 1.1 := by
    have := abs_le.1 e3
    constructor <;> linarith
  have PC := prod_near (P := P) (c := c) (by linarith) (by linarith) cb.1 cb.2
  have yc : y.real * c = P * c / S := by rw [yv]; ring
  have yc0 : 0 ≤ y.real * c := by rw [yc]; exact div_nonneg (by linarith) S0.le
  have y1 : A ≤ y.real * c := by rw [yc, le_div_iff₀ S0]; linarith
  have y2 : y.real * c ≤ f.big := by rw [yc, div_le_iff₀ S0]; linarith
  refine ⟨first, f1, f20, f3, ?_, ?_⟩ <;> rw [hc, abs_of_nonneg yc0] <;> assumption

theorem rat_of_real {x y : FP f} : (|x.real * y.real| : ℝ) = ((|x.val * y.val| : ℚ) : ℝ) := by
  unfold FP.real; push_cast; rfl

/-- The loop on two arguments, one a power of four times the other. -/
theorem loop_scale [f.Ok] {A : ℝ} (ok : NewtOk f A) (hA : ((p2 f.emin : ℚ) : ℝ) = A) (p : Policy) {X X' : ℝ} {x2 x2' : FP f} (k : ℤ)
    (hX : A ≤ X) (hX2 : X ≤ 2 * f.big) (h2f : x2.isFinite = true) (h2 : |x2.real - X / 2| ≤ f.u * X)
    (gX : A ≤ X') (gX2 : X' ≤ 2 * f.big) (g2f : x2'.isFinite = true) (g2 : |x2'.real - X' / 2| ≤ f.u * X')
    (hv2 : x2'.val = x2.val * p2 (2 * k))
    (e : ℕ → ℝ) (n : ℕ) (hes : ∀ i < n, 3 / 2 * e i ^ 2 + e i ^ 3 / 2 + 5 * f.u ≤ e (i + 1)) (heb : ∀ i < n, e i ≤ 1 / 20) :
    ∀ y y' : FP f, y.isFinite = true → y'.isFinite = true → |Real.sqrt X * y.real - 1| ≤ e 0 → |Real.sqrt X' * y'.real - 1| ≤ e 0 →
      y'.val = y.val * p2 (-k) → (isqrtLoopC p x2' n y').val = (isqrtLoopC p x2 n y).val * p2 (-k) := by
  induction n generalizing e with
  | zero => intro y y' _ _ _ _ hv; exact hv
  | succ n ih =>
    intro y y' hy hy' h h' hv
    have s := newton_step ok (p n) hX hX2 h2f h2 hy h (heb 0 (by omega))
    have s' := newton_step ok (p n) gX gX2 g2f g2 hy' h' (heb 0 (by omega))
    obtain ⟨⟨a1, a2⟩, a3, a4, a5, a6, a7⟩ := newton_bounds ok (p n) hX hX2 h2f h2 hy (h.trans (heb 0 (by omega)))
    obtain ⟨⟨b1, b2⟩, b3, b4, b5, b6, b7⟩ := newton_bounds ok (p n) gX gX2 g2f g2 hy' (h'.trans (heb 0 (by omega)))
    rw [← hA, rat_of_real] at a1 a6 b1 b6
    rw [rat_of_real] at a2 a4 a7 b2 b4 b7
    have kk : p2 (2 * k) * p2 (-k) = p2 k := by rw [← p2_add]; congr 1; ring
    have kn : p2 k * p2 (-k) = 1 := by rw [← p2_add, add_neg_cancel]; rfl
    have m := mul_scale k h2f hy g2f hy' (by rw [hv2, hv, ← kk]; ring) (by exact_mod_cast a1) (by exact_mod_cast b1) (by exact_mod_cast a2) (by exact_mod_cast b2)
    have c := nmad_same (p n) (z := lit 1.5) a3 hy b3 hy' ok.th.1
      (by rw [m, hv, show (mul x2 y).val * p2 k * (y.val * p2 (-k)) = (mul x2 y).val * y.val * (p2 k * p2 (-k)) by ring, kn, mul_one])
      (by exact_mod_cast a4)
    have r := mul_scale (-k) hy a5 hy' b5 (by rw [c, hv]; ring) (by exact_mod_cast a6) (by exact_mod_cast b6) (by exact_mod_cast a7) (by exact_mod_cast b7)
    exact ih (fun i => e (i + 1)) (fun i hi => hes (i + 1) (by omega)) (fun i hi => heb (i + 1) (by omega)) _ _ s.1 s'.1
      (s.2.trans (hes 0 (by omega))) (s'.2.trans (hes 0 (by omega))) r

end Vdt
