import Verif.Lemmas.DirAtan
import Verif.Lemmas.AsinfPos
import Verif.Lemmas.FlushAsin

/-! # The arcsine in every rounding direction -/

namespace Vdt.Flush
open FP details Ab
variable {f : Fmt} {m : Mode}

/-- The error against a real number. -/
theorem Faithful.err_real [f.Ok] {w : FP f} {t : ℝ} (h : Faithful w t) (hb : |t| < (f.big : ℝ)) :
    |w.real - t| ≤ 2 * (f.u : ℝ) * |t| + 2 * (f.eta : ℝ) := by
  have u1 : (2 * f.u : ℚ) ≤ 1 := by
    have : p2 (-f.mb - 1) ≤ p2 (-1) := p2_le (by omega)
    rw [show p2 (-1) = 1 / 2 by decide +kernel] at this
    unfold Fmt.u; linarith
  have u1' : 2 * (f.u : ℝ) ≤ 1 := by exact_mod_cast u1
  have u0 : (0 : ℝ) ≤ 2 * (f.u : ℝ) := by exact_mod_cast (mul_pos two_pos f.u_pos).le
  -- a rational number close to `t` has the same neighbour
  have key : ∀ q : ℚ, Faithful w q → |(q : ℝ)| < f.big → |w.real - q| ≤ 2 * (f.u : ℝ) * |(q : ℝ)| + 2 * (f.eta : ℝ) := by
    intro q k kb
    have := k.err_add (by have : |q| < f.big := by exact_mod_cast kb
                          exact this.le)
    have := (Rat.cast_le (K := ℝ)).2 this
    push_cast at this
    exact this
  rw [abs_lt] at hb
  by_contra c
  rw [not_le] at c
  rcases lt_trichotomy w.real t with l | l | l
  · rw [abs_of_neg (by linarith : w.real - t < 0)] at c
    obtain ⟨q, q1, q2⟩ := exists_rat_btwn (show max (max w.real (-(f.big : ℝ))) (t - ((t - w.real) - 2 * f.u * |t| - 2 * f.eta) / 2) < t from
      max_lt (max_lt l hb.1) (by linarith))
    rw [max_lt_iff, max_lt_iff] at q1
    obtain ⟨⟨a1, a2⟩, a3⟩ := q1
    have k := key q ⟨h.1, fun z hz => ⟨fun g1 g2 => (h.2 z hz).1 g1 (g2.trans q2.le), fun g1 g2 => by linarith⟩⟩ (by rw [abs_lt]; constructor <;> linarith)
    rw [abs_of_neg (by linarith : w.real - q < 0)] at k
    have s : |(q : ℝ)| ≤ |t| + (t - q) := by
      have := abs_sub_abs_le_abs_sub (q : ℝ) t
      rw [abs_of_neg (by linarith : (q : ℝ) - t < 0)] at this
      linarith
    have s1 := mul_le_mul_of_nonneg_left s u0
    have s2 := mul_le_mul_of_nonneg_right u1' (show 0 ≤ t - (q : ℝ) by linarith)
    nlinarith
  · have e0 := abs_nonneg t
    have := mul_nonneg u0 e0
    have : (0 : ℝ) ≤ 2 * f.eta := by exact_mod_cast (mul_pos two_pos (p2_pos _)).le
    rw [l, sub_self, abs_zero] at c
    linarith
  · rw [abs_of_pos (by linarith : 0 < w.real - t)] at c
    obtain ⟨q, q1, q2⟩ := exists_rat_btwn (show t < min (min w.real (f.big : ℝ)) (t + ((w.real - t) - 2 * f.u * |t| - 2 * f.eta) / 2) from
      lt_min (lt_min l hb.2) (by linarith))
    rw [lt_min_iff, lt_min_iff] at q2
    obtain ⟨⟨a1, a2⟩, a3⟩ := q2
    have k := key q ⟨h.1, fun z hz => ⟨fun g1 g2 => by linarith, fun g1 g2 => (h.2 z hz).2 (q1.le.trans g1) g2⟩⟩ (by rw [abs_lt]; constructor <;> linarith)
    rw [abs_of_pos (by linarith : 0 < w.real - q)] at k
    have s : |(q : ℝ)| ≤ |t| + (q - t) := by
      have := abs_sub_abs_le_abs_sub (q : ℝ) t
      rw [abs_of_pos (by linarith : 0 < (q : ℝ) - t)] at this
      linarith
    have s1 := mul_le_mul_of_nonneg_left s u0
    have s2 := mul_le_mul_of_nonneg_right u1' (show 0 ≤ (q : ℝ) - t by linarith)
    nlinarith

/-- As `envS`, for a square root rounded in any direction. -/
def envSD (f : Fmt) (c a b : ℚ) : ℕ → Option Ab
  | 0 => some ⟨0, c * (a * a), c * (b * b), 0, 0⟩
  | 1 => some ⟨0, a, b, 2 * f.u * b, 2⟩
  | _ => none

def anSD (f : Fmt) (c : ℚ) (e : E f) (a b : ℚ) : Option Ab :=
  if 0 ≤ a ∧ 0 ≤ c then anD f 0 (envSD f c a b) e else none

theorem anSD_sound [f.Ok] [EtaOk f] (hm : m.Dir) {c : ℚ} {e : E f} {a b : ℚ} {r : Ab} (h : anSD f c e a b = some r) {x s : FP f} {σ : ℝ}
    (hx : x.isFinite = true) (hs : s.isFinite = true) (he : x.real = c * (σ * σ)) (hσ : |s.real - σ| ≤ 2 * f.u * σ + 2 * f.eta) (h1 : (a : ℝ) ≤ σ) (h2 : σ ≤ b) :
    Ab.Sound f 0 r (evalZ m (two x s) e).v (e.evalR (two x.real σ)) := by
  unfold anSD at h
  split at h
  · rename_i h0
    obtain ⟨a0, c0⟩ := h0
    have a0' : (0 : ℝ) ≤ a := by exact_mod_cast a0
    have c0' : (0 : ℝ) ≤ c := by exact_mod_cast c0
    have b0 : (0 : ℝ) ≤ b := by linarith
    have u0 : (0 : ℝ) ≤ f.u := by exact_mod_cast (p2_pos _).le
    refine anD_sound (f := f) (z := 0) (Z := 0) hm (by simp) (env := envSD f c a b) (eF := two x s) (eR := two x.real σ) ?_ e r h
    intro i t ht
    match i, ht with
    | 0, ht =>
      cases ht
      refine ⟨hx, ⟨x.real, by simp [two], ?_, ?_⟩, le_rfl, le_rfl, by simp [two]⟩
      · rw [he]; push_cast
        exact mul_le_mul_of_nonneg_left (mul_self_le_mul_self a0' h1) c0'
      · rw [he]; push_cast
        exact mul_le_mul_of_nonneg_left (mul_self_le_mul_self (a0'.trans h1) h2) c0'
    | 1, ht =>
      cases ht
      refine ⟨hs, ⟨σ, by simp [two], h1, h2⟩, ?_, by norm_num, ?_⟩
      · have : (0 : ℝ) ≤ ((2 * f.u * b : ℚ) : ℝ) := by push_cast; positivity
        exact_mod_cast this
      · simp only [two, pow_zero, mul_one, one_ne_zero, if_false]
        push_cast
        have := mul_le_mul_of_nonneg_left h2 u0
        linarith
  · cases h

/-- Error at most `K` relative to the exact value and at most `C`. -/
def okRelSD (f : Fmt) (c : ℚ) (e : E f) (C K : ℚ) (a b : ℚ) : Bool :=
  match anSD f c e a b with
  | some r => r.k == 0 && decide (r.err + r.h * etaUp ≤ C) && decide (r.err + r.h * etaUp ≤ K * r.lo) && decide (0 ≤ K)
  | none => false

theorem okRelSD_sound [f.Ok] [EtaOk f] (hm : m.Dir) {c : ℚ} {e : E f} {a b C K : ℚ} (h : okRelSD f c e C K a b = true) {x s : FP f} {σ : ℝ}
    (hx : x.isFinite = true) (hs : s.isFinite = true) (he : x.real = c * (σ * σ)) (hσ : |s.real - σ| ≤ 2 * f.u * σ + 2 * f.eta) (h1 : (a : ℝ) ≤ σ) (h2 : σ ≤ b) :
    (evalZ m (two x s) e).v.isFinite = true ∧ |(evalZ m (two x s) e).v.real - e.evalR (two x.real σ)| ≤ C ∧
      |(evalZ m (two x s) e).v.real - e.evalR (two x.real σ)| ≤ K * e.evalR (two x.real σ) := by
  unfold okRelSD at h
  split at h
  · rename_i r hr
    simp only [Bool.and_eq_true, beq_iff_eq, decide_eq_true_eq] at h
    obtain ⟨⟨⟨hk, hC⟩, hK⟩, hK0⟩ := h
    have S := anSD_sound hm hr hx hs he hσ h1 h2
    obtain ⟨v, hv, hl, _⟩ := S.ex
    have B := S.bound
    rw [hk] at hv B
    simp only [pow_zero, one_mul, mul_one] at hv B
    have hC' := (Rat.cast_le (K := ℝ)).2 hC
    have hK' := (Rat.cast_le (K := ℝ)).2 hK
    have hK0' : (0 : ℝ) ≤ K := by exact_mod_cast hK0
    push_cast at hC' hK'
    have := mul_le_mul_of_nonneg_left (eta_le (f := f)) (show (0 : ℝ) ≤ r.h by exact_mod_cast S.h0)
    have := mul_le_mul_of_nonneg_left hl hK0'
    rw [hv] at B ⊢
    exact ⟨S.fin, by linarith, by linarith⟩
  · cases h

/-- The square root of a number that is not negative. -/
theorem sqrt_dir [f.Ok] (hm : m.Dir) {a : Z m f} (ha : a.v.isFinite = true) (h0 : 0 ≤ a.v.val) (h : a.v.val ≤ 1) (hb : 1 < f.big) (hE : f.emin ≤ -(f.mb : ℤ) - 2) :
    a.sqrt.v.isFinite = true ∧ |a.sqrt.v.real - √a.v.real| ≤ 2 * f.u * √a.v.real + 2 * f.eta := by
  have t : Faithful a.sqrt.v √a.v.real := by
    show Faithful (m.res .sqrt (m.arg _) (m.arg _) (FP.sqrt (m.arg _))) _
    rw [hm.arg]
    exact hm.sqrt _ hE ha h0 (h.trans hb.le)
  have s0 := Real.sqrt_nonneg a.v.real
  have k := t.err_real (by
    rw [abs_of_nonneg s0]
    refine lt_of_le_of_lt (Real.sqrt_le_one.2 ?_) (by exact_mod_cast hb)
    have := real_le_iff.2 h
    push_cast at this; exact this)
  rw [abs_of_nonneg s0] at k
  exact ⟨t.1, k⟩

theorem two_pick {α : Type} (a b : α) : two a b = pick a b := by
  funext i
  match i with
  | 0 => rfl
  | _ + 1 => rfl

/-- Putting the sign back, also onto zero. -/
theorem signed_dir0 {g : ℝ → ℝ} (hg : ∀ t, g (-t) = -g t) {x r w : FP f} (hr : 0 ≤ r.real) (hw : w.sign = (r.sign || x.sign)) (hm : w.mag = r.mag) {B : ℝ}
    (hb : |r.real - g (|x.real|)| ≤ B) : |w.real - g x.real| ≤ B := by
  have ga : |w.real - g x.real| = |r.real - g (|x.real|)| := by
    rcases hr.eq_or_lt with z | z
    · have r0 : r.val = 0 := by unfold FP.real at z; exact_mod_cast z.symm
      have w0 : w.real = 0 := by
        have : |w.val| = 0 := by rw [abs_val, hm, ← abs_val, r0, abs_zero]
        unfold FP.real
        rw [abs_eq_zero.1 this]; norm_num
      rw [w0, ← z, zero_sub, zero_sub, abs_neg, abs_neg]
      rcases abs_choice x.real with c | c <;> rw [c]
      rw [hg, abs_neg]
    · have hs : r.sign = false := sign_of_pos (by unfold FP.real at z; exact_mod_cast z)
      have e : w = signedBy r x.sign := by
        ext
        · rw [hw, hs]; rfl
        · exact hm
      rw [e]
      cases hx : x.sign
      · rw [signedBy_false hs, abs_of_nonneg (real_nonneg hx)]
      · have x0 : x.real ≤ 0 := by
          have := real_nonneg (x := neg x) (by rw [neg_sign, hx]; rfl)
          unfold FP.real at *
          rw [val_neg] at this
          push_cast at this; linarith
        rw [signedBy_true hs, abs_of_nonpos x0, hg]
        unfold FP.real
        rw [val_neg]
        push_cast
        rw [← abs_neg]; congr 1; ring
  rw [ga]; exact hb

theorem odd_abs {g : ℝ → ℝ} (hg : ∀ t, g (-t) = -g t) (x : ℝ) : |g (|x|)| = |g x| := by
  rcases abs_choice x with c | c <;> rw [c]
  rw [hg, abs_neg]

/-! ## Double precision -/

theorem asinSmallE_okD : covers (okLinD b64 (asinSmallE (.var 0) (.var 1)) (6 * 2 ^ (-53 : ℤ)) 10) [0, 31 / 64, 9 / 16, 19 / 32, 39 / 64, 5 / 8] = true := by decide +kernel
theorem asinLargeE_okD : covers (okRelSD b64 (1/2) asinLargeE (4.8 * 2 ^ (-53 : ℤ)) (5.4 * 2 ^ (-53 : ℤ))) [0, 3 / 8, 43 / 64, 27 / 32, 8661 / 10000] = true := by decide +kernel

theorem asinRest_Z' (d s : Z m b64) : asinRest d s = evalZ m (two d.v s.v) asinLargeE := (rfl)
theorem asinSmall_Z (a : F64) : (asinSmall (of a) : Z m b64) = evalZ m (fun _ => a) (asinSmallE (.var 0) (.var 1)) := (rfl)

theorem asin_small_dir (hm : m.Dir) {x : F64} (hx : x.isFinite = true) (h1 : 1 / 10 ^ 9 ≤ x.real) (h2 : x.real ≤ 5 / 8) :
    (asinSmall (of x) : Z m b64).v.isFinite = true ∧ |(asinSmall (of x) : Z m b64).v.real - Real.arcsin x.real| ≤ 6.4 * 2 ^ (-53 : ℤ) * Real.arcsin x.real := by
  have x0 : 0 ≤ x.real := le_trans (by norm_num) h1
  obtain ⟨s, t, hst, g1, g2⟩ := covers_spans asinSmallE_okD (a := 0) (b := 0.625) (by decide +kernel) (x := x.real) (by push_cast; exact x0)
    (by push_cast; norm_num; exact h2)
  have rn := okLinD_sound hm hst hx g1 g2
  rw [asinSmallE_real, ← asinSmall_Z] at rn
  have sq : x.real * x.real ≤ 0.390625 := by norm_num; nlinarith
  have ap := asin_small_approx (mul_self_nonneg x.real) sq
  have tay := asin_taylor x0 h2
  have lo := le_arcsin_self x0 (h2.trans (by norm_num))
  have hR : |x.real * (1 + x.real * x.real * pev asinPl (x.real * x.real) / pev asinQl (x.real * x.real)) - Real.arcsin x.real| ≤ 0.31 * 2 ^ (-53 : ℤ) * Real.arcsin x.real := by
    have : |x.real * (1 + x.real * x.real * pev asinPl (x.real * x.real) / pev asinQl (x.real * x.real)) - x.real * pev asinT (x.real * x.real)| ≤ x.real * (0.3 * 2 ^ (-53 : ℤ)) := by
      rw [← mul_sub, abs_mul, abs_of_nonneg x0]
      exact mul_le_mul_of_nonneg_left ap x0
    refine (abs_sub_le _ _ _).trans ((add_le_add this tay).trans ?_)
    norm_num at *
    linarith
  refine ⟨rn.1, ?_⟩
  have r2 := rn.2
  rw [abs_of_nonneg x0] at r2
  push_cast at r2
  refine (abs_sub_le _ _ _).trans ((add_le_add r2 hR).trans ?_)
  have et := eta64_le
  generalize (b64.eta : ℝ) = η at *
  generalize Real.arcsin x.real = A at *
  norm_num at *
  linarith

theorem asin_large_dir (hm : m.Dir) {a : F64} (ha : a.isFinite = true) (h1 : 0.625 ≤ a.val) (h2 : a.val ≤ 1) :
    (asinLarge (of a) : Z m b64).v.isFinite = true ∧ |(asinLarge (of a) : Z m b64).v.real - Real.arcsin a.real| ≤ 5.2 * 2 ^ (-53 : ℤ) ∧
    |(asinLarge (of a) : Z m b64).v.real - Real.arcsin a.real| ≤ 6 * 2 ^ (-53 : ℤ) * Real.arcsin a.real ∧ 0.65 ≤ Real.arcsin a.real := by
  have r1 := le_real_iff.2 h1
  have r2 := real_le_iff.2 h2
  push_cast at r1 r2
  have l := lit1_64
  have b1 : (1 : ℚ) < b64.big := by decide +kernel
  have h1' : 1 / 2 ≤ a.val := le_trans (by norm_num) h1
  have d := sub_dir hm (a := of (lit 1.0)) (b := of a) l.1 ha (by
    show |(lit 1.0 : F64).val - a.val| ≤ _
    rw [l.2.1, abs_of_nonneg (by linarith)]; linarith)
  have dv : (of (lit 1.0) - of a : Z m b64).v.val = 1 - a.val := by
    have := d.exactQ (by show Rep b64 ((lit 1.0 : F64).val - a.val); rw [l.2.1]; exact rep_one_sub emin64 h1' h2) (by
      show |(lit 1.0 : F64).val - a.val| ≤ _
      rw [l.2.1, abs_of_nonneg (by linarith)]; linarith)
    rw [this]
    show (lit 1.0 : F64).val - a.val = _
    rw [l.2.1]
  have df := d.1
  rw [asinLarge_eq]
  generalize (of (lit 1.0) - of a : Z m b64) = D at *
  have eb : D.v.val + D.v.val ≤ 1 := by norm_num at h1; rw [dv]; linarith
  have e0 : 0 ≤ D.v.val + D.v.val := by rw [dv]; linarith
  have e := add_dir hm (a := D) (b := D) df df (by rw [abs_of_nonneg e0]; linarith)
  have ev : (D + D).v.val = 2 * (1 - a.val) := by
    rw [e.exactQ (by rw [dv, ← two_mul]; exact rep_two_mul (rep_one_sub emin64 h1' h2)) (by rw [abs_of_nonneg e0]; linarith), dv]; ring
  have ef := e.1
  obtain ⟨s1, s2⟩ := sqrt_dir hm (a := D + D) ef (by rw [ev]; linarith) (by rw [ev]; linarith) b1 emin64
  have er : (D + D).v.real = 2 * (1 - a.real) := by
    unfold FP.real; rw [ev]; push_cast; ring
  have dr : D.v.real = 1 - a.real := by
    unfold FP.real; rw [dv]; push_cast; ring
  rw [er] at s2
  have ar := asin_large_real r1 r2
  have z0 : 0 ≤ 2 * (1 - a.real) := by linarith
  have q0 := Real.sqrt_nonneg (2 * (1 - a.real))
  have q2 := Real.mul_self_sqrt z0
  have q1 : √(2 * (1 - a.real)) ≤ 0.8661 := by
    by_contra hc
    push Not at hc
    norm_num at *
    nlinarith
  set σ := √(2 * (1 - a.real))
  obtain ⟨s, t, hst, g1, g2⟩ := covers_spans asinLargeE_okD (a := 0) (b := 0.8661) (by decide +kernel) (x := σ) (by push_cast; exact q0) (by push_cast; exact q1)
  have k := okRelSD_sound hm hst df s1 (σ := σ) (by rw [dr, q2]; push_cast; ring) s2 g1 g2
  rw [dr, two_pick (1 - a.real), ← asinRest_Z'] at k
  have a65 := (asin_large_acc (fun _ => false) ha h1 h2).2.2.2
  generalize asinRest D (D + D).sqrt = F at *
  generalize asinLargeE.evalR _ = R at *
  generalize Real.arcsin a.real = A at *
  obtain ⟨k1, k2, k4⟩ := k
  refine ⟨k1, ?_, ?_, a65⟩
  · have := (abs_sub_le F.v.real R A)
    refine this.trans ((add_le_add k2 ar).trans ?_)
    push_cast; norm_num
  · have c1 : ((5.4 * 2 ^ (-53 : ℤ) : ℚ) : ℝ) = 5.4 * 2 ^ (-53 : ℤ) := by norm_num
    rw [c1] at k4
    have := rel_chain (D := 0.6 * 2 ^ (-53 : ℤ)) k4 ar (by positivity) (by norm_num at *; linarith)
    refine this.trans (le_of_eq ?_)
    norm_num

/-- The result before the sign is put back. -/
def asinPosZ (a : F64) : Z m b64 := if m.lt a (lit 1e-8) then of a else if m.lt a (lit 0.625) then asinSmall (of a) else asinLarge (of a)

theorem asinPosZ_dir (hm : m.Dir) {x : F64} (hx : x.isFinite = true) (x0 : 0 ≤ x.real) (h : x.val ≤ 1) :
    (asinPosZ x : Z m b64).v.isFinite = true ∧ 0 ≤ (asinPosZ x : Z m b64).v.real ∧
    |(asinPosZ x : Z m b64).v.real - Real.arcsin x.real| ≤ 6.4 * 2 ^ (-53 : ℤ) * Real.arcsin x.real ∧
    |(asinPosZ x : Z m b64).v.real - Real.arcsin x.real| ≤ 5.2 * 2 ^ (-53 : ℤ) := by
  have L : (lit 0.625 : F64).isFinite = true ∧ (lit 0.625 : F64).val = 0.625 ∧ (lit 1e-8 : F64).isFinite = true ∧ 1 / 10 ^ 9 ≤ (lit 1e-8 : F64).val ∧
      (lit 1e-8 : F64).val ≤ 1.01 / 10 ^ 8 := by decide +kernel
  obtain ⟨l1, l2, l3, l4, l5⟩ := L
  unfold asinPosZ
  simp only [Mode.lt, hm.arg]
  rw [lt_fin hx l3, lt_fin hx l1, l2]
  rcases lt_or_ge x.val (lit 1e-8 : F64).val with c | c
  · simp only [c, decide_true, if_true]
    have r := real_le_iff.2 (c.le.trans l5)
    push_cast at r
    have t := arcsin_tiny x0 (r.trans (by norm_num))
    have u := arcsin_upper x0 (r.trans (by norm_num))
    have lo := le_arcsin_self x0 (r.trans (by norm_num))
    have sq : x.real * x.real ≤ (1.01 / 10 ^ 8) * (1.01 / 10 ^ 8) := mul_self_le_mul_self x0 r
    refine ⟨hx, x0, t.trans (mul_le_mul_of_nonneg_right (by norm_num at *; linarith) (by linarith)), t.trans ?_⟩
    generalize Real.arcsin x.real = A at *
    norm_num at *
    nlinarith
  · have r1 := le_real_iff.2 (l4.trans c)
    push_cast at r1
    have xp : 0 < x.real := lt_of_lt_of_le (by norm_num) r1
    rcases lt_or_ge x.val 0.625 with d | d
    · simp only [d, not_lt.2 c, decide_true, decide_false, if_true, Bool.false_eq_true, if_false]
      have r2 := real_le_iff.2 d.le
      push_cast at r2
      have r2' : x.real ≤ 5 / 8 := r2.trans (by norm_num)
      obtain ⟨a1, a2⟩ := asin_small_dir hm hx r1 r2'
      have u := arcsin_upper x0 r2'
      have lo := le_arcsin_self x0 (r2'.trans (by norm_num))
      generalize Real.arcsin x.real = A at *
      have p : 0 < (asinSmall (of x) : Z m b64).v.real := pos_of_acc a2 (by norm_num at *; linarith) (by norm_num)
      refine ⟨a1, p.le, a2, a2.trans ?_⟩
      norm_num at *
      linarith
    · simp only [not_lt.2 d, not_lt.2 c, decide_false, Bool.false_eq_true, if_false]
      obtain ⟨a1, a2, a3, a4⟩ := asin_large_dir hm hx d h
      have p : 0 < (asinLarge (of x) : Z m b64).v.real := pos_of_acc a3 (by linarith) (by norm_num)
      exact ⟨a1, p.le, a3.trans (mul_le_mul_of_nonneg_right (by norm_num) (by linarith)), a2⟩

theorem asin_eq (m : Mode) (x : F64) : fast_asin m x = dpORuint64 (asinPosZ (FP.abs x) : Z m b64).v (getSignMask x) := (rfl)

theorem asin_dir (hm : m.Dir) {x : F64} (hx : x.isFinite = true) (h : |x.real| ≤ 1) :
    (fast_asin m x).isFinite = true ∧ |(fast_asin m x).real - Real.arcsin x.real| ≤ 6.4 * 2 ^ (-53 : ℤ) * |Real.arcsin x.real| ∧
    |(fast_asin m x).real - Real.arcsin x.real| ≤ 5.2 * 2 ^ (-53 : ℤ) := by
  have ea : (FP.abs x).real = |x.real| := by unfold FP.real; rw [val_abs]; push_cast; rfl
  obtain ⟨a1, a2, a5, a6⟩ := asinPosZ_dir hm (x := FP.abs x) (by simpa using hx) (by rw [ea]; exact abs_nonneg _)
    (real_le_iff.1 (by rw [ea]; push_cast; exact h))
  rw [ea] at a5 a6
  have A0 : 0 ≤ Real.arcsin |x.real| := Real.arcsin_nonneg.2 (abs_nonneg _)
  have eA : Real.arcsin |x.real| = |Real.arcsin x.real| := by rw [← odd_abs Real.arcsin_neg, abs_of_nonneg A0]
  have a5 : |(asinPosZ (FP.abs x) : Z m b64).v.real - Real.arcsin (|x.real|)| ≤ 6.4 * 2 ^ (-53 : ℤ) * |Real.arcsin x.real| := by rw [← eA]; exact a5
  rw [asin_eq, dpOR_signMask]
  exact ⟨a1, signed_dir0 (x := x) Real.arcsin_neg a2 (by rfl) (by rfl) a5, signed_dir0 (x := x) Real.arcsin_neg a2 (by rfl) (by rfl) a6⟩

theorem acos_dir (hm : m.Dir) {x : F64} (hx : x.isFinite = true) (h : |x.real| ≤ 1) :
    (fast_acos m x).isFinite = true ∧ |(fast_acos m x).real - Real.arccos x.real| ≤ 9.8 * 2 ^ (-53 : ℤ) := by
  obtain ⟨a1, -, a2⟩ := asin_dir hm hx h
  have P : PIO2.isFinite = true ∧ |PIO2.val - 1.5707963267948966| ≤ 1 / 10 ^ 15 ∧ 4 ≤ b64.big ∧ 2 * hulp b64 3.5 = 4 * 2 ^ (-53 : ℤ) := by decide +kernel
  obtain ⟨p1, p2, p3, p4⟩ := P
  have pc := pi2_const
  have mb : |MOREBITS.real| ≤ 0.56 * 2 ^ (-53 : ℤ) := by
    have : |MOREBITS.val| ≤ 0.56 * 2 ^ (-53 : ℤ) := by decide +kernel
    have := (Rat.cast_le (K := ℝ)).2 this
    unfold FP.real
    push_cast at this; exact this
  have A1 := Real.arcsin_le_pi_div_two x.real
  have A2 := Real.neg_pi_div_two_le_arcsin x.real
  have pb := pi_bounds
  have sb : |(fast_asin m x).val| ≤ 1.6 := by
    apply (Rat.cast_le (K := ℝ)).1
    push_cast
    change |(fast_asin m x).real| ≤ 1.6
    rw [abs_le] at *
    norm_num at *
    constructor <;> linarith [a2.1, a2.2]
  have db : |PIO2.val - (fast_asin m x).val| ≤ 3.5 := by
    rw [abs_le] at *
    norm_num at *
    constructor <;> linarith [sb.1, sb.2, p2.1, p2.2]
  have d := sub_dir hm (a := of PIO2) (b := of (fast_asin m x)) p1 a1 (db.trans (le_trans (by norm_num) p3))
  refine ⟨d.1, ?_⟩
  have k := d.err db (le_trans (by norm_num) p3)
  rw [p4] at k
  have k' := (Rat.cast_le (K := ℝ)).2 k
  push_cast at k'
  change |(fast_acos m x).real - (PIO2.real - (fast_asin m x).real)| ≤ _ at k'
  rw [Real.arccos_eq_pi_div_two_sub_arcsin]
  generalize (fast_acos m x).real = w at *
  generalize (fast_asin m x).real = s at *
  generalize Real.arcsin x.real = A at *
  rw [abs_le] at k' a2 pc mb ⊢
  norm_num at *
  constructor <;> linarith [k'.1, k'.2, a2.1, a2.2, pc.1, pc.2, mb.1, mb.2]

/-! ## Single precision -/

theorem asinfSmallE_okD : covers (okLinD b32 asinfSmallE (2.5 * 2 ^ (-24 : ℤ)) 10) [0, 0.5] = true := by decide +kernel
theorem asinfLargeE_okD : covers (okRelSD b32 1 asinfLargeE (7.4 * 2 ^ (-24 : ℤ)) (14 * 2 ^ (-24 : ℤ))) [0, 15 / 32, 1 / 2] = true := by decide +kernel
theorem asinfPolyE_okD : (anSD b32 1 (asinfPolyE (.var 0) (.var 1)) 0 (1 / 2)).isSome = true := by decide +kernel

/-- Selection by multiplying with one and zero. -/
theorem select_dir [f.Ok] (hm : m.Dir) {T S : Z m f} {o n : FP f} (hT : T.v.isFinite = true) (hS : S.v.isFinite = true) (hb : |T.v.val| ≤ f.big)
    (ho : o.isFinite = true ∧ o.val = 1) (hn : n.isFinite = true ∧ n.val = 0) :
    ((T * of o + of n * S).v.isFinite = true ∧ (T * of o + of n * S).v.val = T.v.val) ∧
    ((S * of n + of o * T).v.isFinite = true ∧ (S * of n + of o * T).v.val = T.v.val) := by
  have z : Rep f 0 := ⟨0, f.emin - f.mb, by simp, by simp, le_rfl⟩
  have e1 : T.v.val * (of o : Z m f).v.val = T.v.val := by show T.v.val * o.val = _; rw [ho.2, mul_one]
  have e2 : (of o : Z m f).v.val * T.v.val = T.v.val := by rw [mul_comm]; exact e1
  have e3 : S.v.val * (of n : Z m f).v.val = 0 := by show S.v.val * n.val = _; rw [hn.2, mul_zero]
  have e4 : (of n : Z m f).v.val * S.v.val = 0 := by rw [mul_comm]; exact e3
  have b0 : |(0 : ℚ)| ≤ f.big := by rw [abs_zero]; exact f.big_pos.le
  have t1 := mul_dir hm (a := T) (b := of o) hT ho.1 (by rw [e1]; exact hb)
  have t2 := mul_dir hm (a := of o) (b := T) ho.1 hT (by rw [e2]; exact hb)
  have t3 := mul_dir hm (a := S) (b := of n) hS hn.1 (by rw [e3]; exact b0)
  have t4 := mul_dir hm (a := of n) (b := S) hn.1 hS (by rw [e4]; exact b0)
  rw [e1] at t1; rw [e2] at t2; rw [e3] at t3; rw [e4] at t4
  have v1 := t1.exactQ (val_rep T.v) hb
  have v2 := t2.exactQ (val_rep T.v) hb
  have v3 := t3.exactQ z b0
  have v4 := t4.exactQ z b0
  constructor
  · have k := add_dir hm t1.1 t4.1 (by rw [v1, v4, add_zero]; exact hb)
    rw [v1, v4, add_zero] at k
    exact ⟨k.1, k.exactQ (val_rep T.v) hb⟩
  · have k := add_dir hm t3.1 t2.1 (by rw [v3, v2, zero_add]; exact hb)
    rw [v3, v2, zero_add] at k
    exact ⟨k.1, k.exactQ (val_rep T.v) hb⟩

/-- include/asin.h:178-183 -/
def asinfPolyZ (z x : Z m b32) : Z m b32 :=
  ((((of (lit 4.2163199048E-2) * z
    + of (lit 2.4181311049E-2)) * z
    + of (lit 4.5470025998E-2)) * z
    + of (lit 7.4953002686E-2)) * z
    + of (lit 1.6666752422E-1)) * z * x
    + x

theorem asinfRest_eq (z x : Z m b32) (a b : F32) : asinfRest z x a b = (of PIO2F - (asinfPolyZ z x + asinfPolyZ z x)) * of a + of b * asinfPolyZ z x := (rfl)
theorem asinfPoly_Z (z x : Z m b32) : asinfPolyZ z x = evalZ m (two z.v x.v) (asinfPolyE (.var 0) (.var 1)) := (rfl)
theorem asinfPolySmall_Z (x : F32) : (asinfPolyZ (of x * of x) (of x) : Z m b32) = evalZ m (fun _ => x) asinfSmallE := (rfl)
theorem asinfLarge_Z (z x : Z m b32) : of PIO2F - (asinfPolyZ z x + asinfPolyZ z x) = evalZ m (two z.v x.v) asinfLargeE := (rfl)

theorem flags_dir : ((ofInt 1 : F32).isFinite = true ∧ (ofInt 1 : F32).val = 1) ∧ (ofInt 0 : F32).isFinite = true ∧ (ofInt 0 : F32).val = 0 := by decide +kernel

theorem asinf_small_dir (hm : m.Dir) {x : F32} (hx : x.isFinite = true) (h1 : 1 / 10 ^ 5 ≤ x.real) (h2 : x.real ≤ 1 / 2) :
    (asinfRest (of x * of x) (of x) (ofInt 0) (ofInt 1) : Z m b32).v.isFinite = true ∧
    |(asinfRest (of x * of x) (of x) (ofInt 0) (ofInt 1) : Z m b32).v.real - Real.arcsin x.real| ≤ 2.8 * 2 ^ (-24 : ℤ) * Real.arcsin x.real := by
  have x0 : 0 ≤ x.real := le_trans (by norm_num) h1
  obtain ⟨s, t, hst, g1, g2⟩ := covers_spans asinfSmallE_okD (a := 0) (b := 0.5) (by decide +kernel) (x := x.real) (by push_cast; exact x0)
    (by push_cast; norm_num; exact h2)
  have rn := okLinD_sound hm hst hx g1 g2
  have eR : asinfSmallE.evalR (fun _ => x.real) = x.real * pev (1 :: asinfPl) (x.real * x.real) := by
    unfold asinfSmallE; rw [asinfPolyE_real]; rfl
  rw [eR, ← asinfPolySmall_Z] at rn
  have sq : x.real * x.real ≤ 0.25 := by norm_num; nlinarith
  have ap := asinf_approx (mul_self_nonneg x.real) sq
  have tay := asin_taylor x0 (h2.trans (by norm_num))
  have lo := le_arcsin_self x0 (h2.trans (by norm_num))
  have up := arcsin_upper x0 (h2.trans (by norm_num))
  have hR : |x.real * pev (1 :: asinfPl) (x.real * x.real) - Real.arcsin x.real| ≤ 0.21 * 2 ^ (-24 : ℤ) * Real.arcsin x.real := by
    have : |x.real * pev (1 :: asinfPl) (x.real * x.real) - x.real * pev asinT (x.real * x.real)| ≤ x.real * (0.2 * 2 ^ (-24 : ℤ)) := by
      rw [← mul_sub, abs_mul, abs_of_nonneg x0]
      exact mul_le_mul_of_nonneg_left ap x0
    refine (abs_sub_le _ _ _).trans ((add_le_add this tay).trans ?_)
    norm_num at *
    linarith
  have r2 := rn.2
  rw [abs_of_nonneg x0] at r2
  push_cast at r2
  have k : |(asinfPolyZ (of x * of x) (of x) : Z m b32).v.real - Real.arcsin x.real| ≤ 2.8 * 2 ^ (-24 : ℤ) * Real.arcsin x.real := by
    refine (abs_sub_le _ _ _).trans ((add_le_add r2 hR).trans ?_)
    have et := eta32_le
    generalize (b32.eta : ℝ) = η at *
    generalize Real.arcsin x.real = A at *
    norm_num at *
    linarith
  have pf := rn.1
  clear rn r2 hR ap tay eR
  rw [asinfRest_eq]
  generalize (asinfPolyZ (of x * of x) (of x) : Z m b32) = q at *
  have q1 : |q.v.real| ≤ 1 := by
    rw [abs_le] at *
    generalize Real.arcsin x.real = A at *
    norm_num at *
    constructor <;> linarith [k.1, k.2]
  have q1' : |q.v.val| ≤ 1 := by unfold FP.real at q1; exact_mod_cast q1
  have L : PIO2F.isFinite = true ∧ |PIO2F.val| ≤ 2 ∧ 8 ≤ b32.big ∧ 2 * hulp b32 2 ≤ 1 := by decide +kernel
  obtain ⟨l1, l2, l3, l4⟩ := L
  have qq : |q.v.val + q.v.val| ≤ 2 := (abs_add_le _ _).trans (by linarith)
  have a := add_dir hm pf pf (by linarith)
  have ae := a.err qq (by linarith)
  have av : |(q + q).v.val| ≤ 3 := by
    rw [abs_le] at *
    constructor <;> linarith [ae.1, ae.2, qq.1, qq.2]
  have d := sub_dir hm (a := of PIO2F) (b := q + q) l1 a.1 (by
    show |PIO2F.val - (q + q).v.val| ≤ _
    refine (abs_sub _ _).trans ?_
    linarith)
  obtain ⟨-, e1, e2⟩ := select_dir hm (T := q) (S := of PIO2F - (q + q)) pf d.1 (by linarith) flags_dir.1 flags_dir.2
  refine ⟨e1, ?_⟩
  unfold FP.real at k ⊢
  rw [e2]; exact k

theorem asinf_large_dir (hm : m.Dir) {a : F32} (ha : a.isFinite = true) (h1 : 0.5 ≤ a.val) (h2 : a.val ≤ 1) :
    (asinfRest (of (lit 0.5) * (of (lit 1) - of a)) ((of (lit 0.5) * (of (lit 1) - of a)).sqrt) (ofInt 1) (ofInt 0) : Z m b32).v.isFinite = true ∧
    |(asinfRest (of (lit 0.5) * (of (lit 1) - of a)) ((of (lit 0.5) * (of (lit 1) - of a)).sqrt) (ofInt 1) (ofInt 0) : Z m b32).v.real - Real.arcsin a.real| ≤ 8.4 * 2 ^ (-24 : ℤ) ∧
    |(asinfRest (of (lit 0.5) * (of (lit 1) - of a)) ((of (lit 0.5) * (of (lit 1) - of a)).sqrt) (ofInt 1) (ofInt 0) : Z m b32).v.real - Real.arcsin a.real| ≤
      16 * 2 ^ (-24 : ℤ) * Real.arcsin a.real ∧ 0.51 ≤ Real.arcsin a.real := by
  have r1 := le_real_iff.2 h1
  have r2 := real_le_iff.2 h2
  push_cast at r1 r2
  have h1' : 1 / 2 ≤ a.val := le_trans (by norm_num) h1
  obtain ⟨l1, l2, -, m1, m2, -, -⟩ := lits32
  have b1 : (1 : ℚ) < b32.big := by decide +kernel
  have dw : (of (lit 1) : Z m b32).v.val - (of a : Z m b32).v.val = 1 - a.val := by show (lit 1 : F32).val - a.val = _; rw [l2]
  have d := sub_dir hm (a := of (lit 1)) (b := of a) l1 ha (by rw [dw, abs_of_nonneg (by linarith)]; linarith)
  rw [dw] at d
  have dv := d.exactQ (rep_one_sub emin32 h1' h2) (by rw [abs_of_nonneg (by linarith)]; linarith)
  have df := d.1
  generalize (of (lit 1) - of a : Z m b32) = D at *
  have ew : (of (lit 0.5) : Z m b32).v.val * D.v.val = 1 / 2 * (1 - a.val) := by show (lit 0.5 : F32).val * D.v.val = _; rw [m2, dv]
  have e := mul_dir hm (a := of (lit 0.5)) (b := D) m1 df (by rw [ew, abs_of_nonneg (by linarith)]; linarith)
  rw [ew] at e
  have ev := e.exactQ (rep_one_sub_half emin32 h1' h2) (by rw [abs_of_nonneg (by linarith)]; linarith)
  have ef := e.1
  generalize (of (lit 0.5) * D : Z m b32) = G at *
  obtain ⟨s1, s2⟩ := sqrt_dir hm (a := G) ef (by rw [ev]; linarith) (by rw [ev]; linarith) b1 emin32
  have er : G.v.real = 1 / 2 * (1 - a.real) := by
    unfold FP.real; rw [ev]; push_cast; ring
  rw [er] at s2
  have ar := asinf_large_real r1 r2
  have z0 : 0 ≤ 1 / 2 * (1 - a.real) := by linarith
  have q0 := Real.sqrt_nonneg (1 / 2 * (1 - a.real))
  have q2 := Real.mul_self_sqrt z0
  have q1 : √(1 / 2 * (1 - a.real)) ≤ 0.5 := by
    by_contra hc
    push Not at hc
    norm_num at *
    nlinarith
  set σ := √(1 / 2 * (1 - a.real))
  obtain ⟨s, t, hst, g1, g2⟩ := covers_spans asinfLargeE_okD (a := 0) (b := 0.5) (by decide +kernel) (x := σ) (by push_cast; exact q0) (by push_cast; exact q1)
  have k := okRelSD_sound hm hst ef s1 (σ := σ) (by rw [er, q2]; push_cast; ring) s2 g1 g2
  obtain ⟨r, hr⟩ := Option.isSome_iff_exists.1 asinfPolyE_okD
  have kp := (anSD_sound hm hr ef s1 (σ := σ) (by rw [er, q2]; push_cast; ring) s2 (by push_cast; exact q0) (by push_cast; norm_num at q1; exact q1)).fin
  rw [er, two_pick (1 / 2 * (1 - a.real)), ← asinfLarge_Z] at k
  rw [← asinfPoly_Z] at kp
  have a51 := (asinf_large_acc (fun _ => false) ha h1 h2).2.2.2.1
  have A1 := Real.arcsin_le_pi_div_two a.real
  have pb := pi_bounds
  rw [asinfRest_eq]
  generalize asinfPolyZ G G.sqrt = p at *
  generalize asinfLargeE.evalR _ = R at *
  obtain ⟨k1, k2, k4⟩ := k
  generalize of PIO2F - (p + p) = T at *
  have T1 : |T.v.real| ≤ 2 := by
    push_cast at k2
    rw [abs_le] at *
    norm_num at *
    constructor <;> linarith [k2.1, k2.2, ar.1, ar.2]
  have T1' : |T.v.val| ≤ 2 := by unfold FP.real at T1; exact_mod_cast T1
  have b2 : (2 : ℚ) ≤ b32.big := by decide +kernel
  obtain ⟨⟨e1, e2⟩, -⟩ := select_dir hm (T := T) (S := p) k1 kp (by linarith) flags_dir.1 flags_dir.2
  have e3 : (T * of (ofInt 1) + of (ofInt 0) * p).v.real = T.v.real := by unfold FP.real; rw [e2]
  rw [e3]
  refine ⟨e1, ?_, ?_, a51⟩
  all_goals
    clear e1 e2 e3
    generalize Real.arcsin a.real = A at *
  · refine (abs_sub_le T.v.real R A).trans ((add_le_add k2 ar).trans ?_)
    push_cast; norm_num
  · have c1 : ((14 * 2 ^ (-24 : ℤ) : ℚ) : ℝ) = 14 * 2 ^ (-24 : ℤ) := by norm_num
    rw [c1] at k4
    have := rel_chain (D := 2 * 2 ^ (-24 : ℤ)) k4 ar (by positivity) (by norm_num at *; linarith)
    refine this.trans (le_of_eq ?_)
    norm_num

/-- The result before the sign is put back. -/
def asinfPosZ (a : F32) : Z m b32 :=
  let big := m.gt a (lit 0.5)
  let flag : BitVec 32 := if big then 1#32 else 0#32
  let z : Z m b32 := if big then of (lit 0.5) * (of (lit 1) - of a) else of a * of a
  let x := if big then z.sqrt else of a
  if m.lt a (lit 1e-4) then of a else asinfRest z x (ofInt flag.toNat) (ofInt (1#32 - flag).toNat)

theorem asinf_eq (m : Mode) (x : F32) : fast_asinf m x = spORuint32 (asinfPosZ (FP.abs x) : Z m b32).v (getSignMaskf x) := (rfl)

theorem asinfPosZ_dir (hm : m.Dir) {x : F32} (hx : x.isFinite = true) (x0 : 0 ≤ x.real) (h : x.val ≤ 1) :
    (asinfPosZ x : Z m b32).v.isFinite = true ∧ 0 ≤ (asinfPosZ x : Z m b32).v.real ∧
    |(asinfPosZ x : Z m b32).v.real - Real.arcsin x.real| ≤ 16 * 2 ^ (-24 : ℤ) * Real.arcsin x.real ∧
    |(asinfPosZ x : Z m b32).v.real - Real.arcsin x.real| ≤ 8.4 * 2 ^ (-24 : ℤ) := by
  have L : (lit 0.5 : F32).isFinite = true ∧ (lit 0.5 : F32).val = 0.5 ∧ (lit 1e-4 : F32).isFinite = true ∧ 1 / 10 ^ 5 ≤ (lit 1e-4 : F32).val ∧
      (lit 1e-4 : F32).val ≤ 1.01 / 10 ^ 4 := by decide +kernel
  obtain ⟨l1, l2, l3, l4, l5⟩ := L
  have n1 : ((1#32 : BitVec 32).toNat : ℤ) = 1 := by decide
  have n0 : ((1#32 - 1#32 : BitVec 32).toNat : ℤ) = 0 := by decide
  have z1 : ((1#32 - 0#32 : BitVec 32).toNat : ℤ) = 1 := by decide
  have z0 : ((0#32 : BitVec 32).toNat : ℤ) = 0 := by decide
  unfold asinfPosZ
  simp only [Mode.lt, Mode.gt, hm.arg]
  rw [lt_fin hx l3, gt_fin hx l1, l2]
  rcases lt_or_ge x.val (lit 1e-4 : F32).val with c | c
  · simp only [c, decide_true, if_true]
    have r := real_le_iff.2 (c.le.trans l5)
    push_cast at r
    have t := arcsin_small x0 (r.trans (by norm_num))
    have u := arcsin_upper x0 (r.trans (by norm_num))
    have lo := le_arcsin_self x0 (r.trans (by norm_num))
    have sq : x.real * x.real ≤ (1.01 / 10 ^ 4) * (1.01 / 10 ^ 4) := mul_self_le_mul_self x0 r
    have cu : x.real * (x.real * x.real) ≤ x.real * ((1.01 / 10 ^ 4) * (1.01 / 10 ^ 4)) := mul_le_mul_of_nonneg_left sq x0
    refine ⟨hx, x0, t.trans ?_, t.trans ?_⟩
    all_goals
      generalize Real.arcsin x.real = A at *
      norm_num at *
      linarith
  · have r1 := le_real_iff.2 (l4.trans c)
    push_cast at r1
    have xp : 0 < x.real := lt_of_lt_of_le (by norm_num) r1
    rcases le_or_gt x.val 0.5 with d | d
    · simp only [not_lt.2 c, not_lt.2 d, decide_false, Bool.false_eq_true, if_false]
      rw [z1, z0]
      have r2 := real_le_iff.2 d
      push_cast at r2
      have r2' : x.real ≤ 1 / 2 := r2.trans (by norm_num)
      obtain ⟨a1, a2⟩ := asinf_small_dir hm hx r1 r2'
      have u := arcsin_upper x0 (r2'.trans (by norm_num))
      have lo := le_arcsin_self x0 (r2'.trans (by norm_num))
      generalize (asinfRest (of x * of x) (of x) (ofInt 0) (ofInt 1) : Z m b32).v = w at *
      generalize Real.arcsin x.real = A at *
      have p : 0 < w.real := pos_of_acc a2 (by norm_num at *; linarith) (by norm_num)
      refine ⟨a1, p.le, a2.trans (mul_le_mul_of_nonneg_right (by norm_num) (by linarith)), a2.trans ?_⟩
      norm_num at *
      linarith
    · simp only [not_lt.2 c, d, decide_true, if_true, decide_false, Bool.false_eq_true, if_false]
      rw [n1, n0]
      obtain ⟨a1, a2, a3, a4⟩ := asinf_large_dir hm hx d.le h
      exact ⟨a1, (pos_of_acc a3 (by linarith) (by norm_num)).le, a3, a2⟩

theorem asinf_dir (hm : m.Dir) {x : F32} (hx : x.isFinite = true) (h : |x.real| ≤ 1) :
    (fast_asinf m x).isFinite = true ∧ |(fast_asinf m x).real - Real.arcsin x.real| ≤ 16 * 2 ^ (-24 : ℤ) * |Real.arcsin x.real| ∧
    |(fast_asinf m x).real - Real.arcsin x.real| ≤ 8.4 * 2 ^ (-24 : ℤ) := by
  have ea : (FP.abs x).real = |x.real| := by unfold FP.real; rw [val_abs]; push_cast; rfl
  obtain ⟨a1, a2, a5, a6⟩ := asinfPosZ_dir hm (x := FP.abs x) (by simpa using hx) (by rw [ea]; exact abs_nonneg _)
    (real_le_iff.1 (by rw [ea]; push_cast; exact h))
  rw [ea] at a5 a6
  have A0 : 0 ≤ Real.arcsin |x.real| := Real.arcsin_nonneg.2 (abs_nonneg _)
  have eA : Real.arcsin |x.real| = |Real.arcsin x.real| := by rw [← odd_abs Real.arcsin_neg, abs_of_nonneg A0]
  have a5 : |(asinfPosZ (FP.abs x) : Z m b32).v.real - Real.arcsin (|x.real|)| ≤ 16 * 2 ^ (-24 : ℤ) * |Real.arcsin x.real| := by rw [← eA]; exact a5
  rw [asinf_eq, spOR_signMask]
  exact ⟨a1, signed_dir0 (x := x) Real.arcsin_neg a2 (by rfl) (by rfl) a5, signed_dir0 (x := x) Real.arcsin_neg a2 (by rfl) (by rfl) a6⟩

theorem acosf_dir (hm : m.Dir) {x : F32} (hx : x.isFinite = true) (h : |x.real| ≤ 1) :
    (fast_acosf m x).isFinite = true ∧ |(fast_acosf m x).real - Real.arccos x.real| ≤ 13.2 * 2 ^ (-24 : ℤ) := by
  obtain ⟨a1, -, a2⟩ := asinf_dir hm hx h
  have P : PIO2F.isFinite = true ∧ |PIO2F.val - 1.5707963| ≤ 1 / 10 ^ 6 ∧ 4 ≤ b32.big ∧ 2 * hulp b32 3.5 = 4 * 2 ^ (-24 : ℤ) := by decide +kernel
  obtain ⟨p1, p2, p3, p4⟩ := P
  have pc := pi2f_near
  have A1 := Real.arcsin_le_pi_div_two x.real
  have A2 := Real.neg_pi_div_two_le_arcsin x.real
  have pb := pi_bounds
  have sb : |(fast_asinf m x).val| ≤ 1.6 := by
    apply (Rat.cast_le (K := ℝ)).1
    push_cast
    change |(fast_asinf m x).real| ≤ 1.6
    rw [abs_le] at *
    norm_num at *
    constructor <;> linarith [a2.1, a2.2]
  have db : |PIO2F.val - (fast_asinf m x).val| ≤ 3.5 := by
    rw [abs_le] at *
    norm_num at *
    constructor <;> linarith [sb.1, sb.2, p2.1, p2.2]
  have d := sub_dir hm (a := of PIO2F) (b := of (fast_asinf m x)) p1 a1 (db.trans (le_trans (by norm_num) p3))
  refine ⟨d.1, ?_⟩
  have k := d.err db (le_trans (by norm_num) p3)
  rw [p4] at k
  have k' := (Rat.cast_le (K := ℝ)).2 k
  push_cast at k'
  change |(fast_acosf m x).real - (PIO2F.real - (fast_asinf m x).real)| ≤ _ at k'
  rw [Real.arccos_eq_pi_div_two_sub_arcsin]
  generalize (fast_acosf m x).real = w at *
  generalize (fast_asinf m x).real = s at *
  generalize Real.arcsin x.real = A at *
  rw [abs_le] at k' a2 pc ⊢
  norm_num at *
  constructor <;> linarith [k'.1, k'.2, a2.1, a2.2, pc.1, pc.2]

end Vdt.Flush
