import Verif.Float.Analyse2
import Verif.Float.Fused

/-!
# Fused multiply-add

A compiler may replace `a*b + c` by one fused operation with a single rounding (GCC does so by
default when the target has such instructions, as with the option of CMakeLists.txt:77-79).  `E.con`
is the set of all results of an expression under all choices of such replacements; `con_sound` shows
that the error bounds of the analyser hold for every one of them.
-/

namespace Vdt
open FP
variable {f : Fmt}

namespace E

/-- All results of an expression.  The first component says which values it may take; the second
one, for products, which pairs of factors may be handed to a fused operation. -/
def con (env : ℕ → FP f) : E f → (FP f → Prop) × (FP f → FP f → Prop)
  | var i => (fun y => y = env i, fun _ _ => False)
  | const c => (fun y => y = c, fun _ _ => False)
  | add a b => (fun y =>
      (∃ u v, (con env a).1 u ∧ (con env b).1 v ∧ y = u + v) ∨
      (∃ p q v, (con env a).2 p q ∧ (con env b).1 v ∧ y = fma p q v) ∨
      (∃ p q u, (con env b).2 p q ∧ (con env a).1 u ∧ y = fma p q u), fun _ _ => False)
  | sub a b => (fun y =>
      (∃ u v, (con env a).1 u ∧ (con env b).1 v ∧ y = u - v) ∨
      (∃ p q v, (con env a).2 p q ∧ (con env b).1 v ∧ y = fma p q (-v)) ∨
      (∃ p q u, (con env b).2 p q ∧ (con env a).1 u ∧ y = fma (-p) q u), fun _ _ => False)
  | mul a b => (fun y => ∃ u v, (con env a).1 u ∧ (con env b).1 v ∧ y = u * v,
      fun p q => (con env a).1 p ∧ (con env b).1 q)
  | div a b => (fun y => ∃ u v, (con env a).1 u ∧ (con env b).1 v ∧ y = u / v, fun _ _ => False)
  | neg a => (fun y => ∃ u, (con env a).1 u ∧ y = -u, fun _ _ => False)
  | scale c a => (fun y => ∃ u, (con env a).1 u ∧ y = c * u, fun p q => p = c ∧ (con env a).1 q)
  | scaleR a c => (fun y => ∃ u, (con env a).1 u ∧ y = u * c, fun p q => (con env a).1 p ∧ q = c)

/-- `y` is a result of the expression under some choice of fused operations. -/
def Con (env : ℕ → FP f) (e : E f) (y : FP f) : Prop := (con env e).1 y

/-- The plain evaluation is one of the results. -/
theorem con_evalF (env : ℕ → FP f) (e : E f) : e.Con env (e.evalF env) := by
  unfold Con
  induction e with
  | var i => exact rfl
  | const c => exact rfl
  | add a b ha hb => exact Or.inl ⟨_, _, ha, hb, rfl⟩
  | sub a b ha hb => exact Or.inl ⟨_, _, ha, hb, rfl⟩
  | mul a b ha hb => exact ⟨_, _, ha, hb, rfl⟩
  | div a b ha hb => exact ⟨_, _, ha, hb, rfl⟩
  | neg a ha => exact ⟨_, ha, rfl⟩
  | scale c a ha => exact ⟨_, ha, rfl⟩
  | scaleR a c ha => exact ⟨_, ha, rfl⟩

/-! Building a result step by step. -/

section steps
variable {env : ℕ → FP f} {a b c d : E f} {u v w t : FP f} {k : FP f}

theorem Con.var (i : ℕ) : (E.var i : E f).Con env (env i) := rfl
theorem Con.const : (E.const k).Con env k := rfl
theorem Con.add (ha : a.Con env u) (hb : b.Con env v) : (E.add a b).Con env (u + v) := Or.inl ⟨_, _, ha, hb, rfl⟩
theorem Con.sub (ha : a.Con env u) (hb : b.Con env v) : (E.sub a b).Con env (u - v) := Or.inl ⟨_, _, ha, hb, rfl⟩
theorem Con.mul (ha : a.Con env u) (hb : b.Con env v) : (E.mul a b).Con env (u * v) := ⟨_, _, ha, hb, rfl⟩
theorem Con.div (ha : a.Con env u) (hb : b.Con env v) : (E.div a b).Con env (u / v) := ⟨_, _, ha, hb, rfl⟩
theorem Con.neg (ha : a.Con env u) : (E.neg a).Con env (-u) := ⟨_, ha, rfl⟩
theorem Con.scale (ha : a.Con env u) : (E.scale k a).Con env (k * u) := ⟨_, ha, rfl⟩
theorem Con.scaleR (ha : a.Con env u) : (E.scaleR a k).Con env (u * k) := ⟨_, ha, rfl⟩

theorem Con.mad {x : Bool} (ha : a.Con env u) (hb : b.Con env v) (hc : c.Con env w) :
    (E.add (E.mul a b) c).Con env (mad x u v w) := by
  cases x
  · rw [mad_false]; exact (ha.mul hb).add hc
  · exact Or.inr (Or.inl ⟨_, _, _, ⟨ha, hb⟩, hc, rfl⟩)

theorem Con.madR {x : Bool} (ha : a.Con env u) (hb : b.Con env v) (hc : c.Con env w) :
    (E.add c (E.mul a b)).Con env (madR x u v w) := by
  cases x
  · rw [madR_false]; exact hc.add (ha.mul hb)
  · exact Or.inr (Or.inr ⟨_, _, _, ⟨ha, hb⟩, hc, rfl⟩)

theorem Con.msub {x : Bool} (ha : a.Con env u) (hb : b.Con env v) (hc : c.Con env w) :
    (E.sub (E.mul a b) c).Con env (msub x u v w) := by
  cases x
  · rw [msub_false]; exact (ha.mul hb).sub hc
  · exact Or.inr (Or.inl ⟨_, _, _, ⟨ha, hb⟩, hc, rfl⟩)

theorem Con.nmad {x : Bool} (ha : a.Con env u) (hb : b.Con env v) (hc : c.Con env w) :
    (E.sub c (E.mul a b)).Con env (nmad x u v w) := by
  cases x
  · rw [nmad_false]; exact hc.sub (ha.mul hb)
  · exact Or.inr (Or.inr ⟨_, _, _, ⟨ha, hb⟩, hc, rfl⟩)

/-- the same with a constant factor -/
theorem Con.mad_scale {x : Bool} (hb : b.Con env v) (hc : c.Con env w) :
    (E.add (E.scale k b) c).Con env (FP.mad x k v w) := by
  cases x
  · rw [mad_false]; exact hb.scale.add hc
  · exact Or.inr (Or.inl ⟨_, _, _, ⟨rfl, hb⟩, hc, rfl⟩)

theorem Con.madR_scale {x : Bool} (hb : b.Con env v) (hc : c.Con env w) :
    (E.add c (E.scale k b)).Con env (FP.madR x k v w) := by
  cases x
  · rw [madR_false]; exact hc.add hb.scale
  · exact Or.inr (Or.inr ⟨_, _, _, ⟨rfl, hb⟩, hc, rfl⟩)

theorem Con.nmad_scale {x : Bool} (hb : b.Con env v) (hc : c.Con env w) :
    (E.sub c (E.scale k b)).Con env (FP.nmad x k v w) := by
  cases x
  · rw [nmad_false]; exact hc.sub hb.scale
  · exact Or.inr (Or.inr ⟨_, _, _, ⟨rfl, hb⟩, hc, rfl⟩)

theorem Con.nmad_scaleR {x : Bool} (ha : a.Con env u) (hc : c.Con env w) :
    (E.sub c (E.scaleR a k)).Con env (FP.nmad x u k w) := by
  cases x
  · rw [nmad_false]; exact hc.sub ha.scaleR
  · exact Or.inr (Or.inr ⟨_, _, _, ⟨ha, rfl⟩, hc, rfl⟩)

/-- two products -/
theorem Con.mad2 {x y : Bool} (ha : a.Con env u) (hb : b.Con env v) (hc : c.Con env w) (hd : d.Con env t) :
    (E.add (E.mul a b) (E.mul c d)).Con env (FP.mad2 x y u v w t) := by
  cases x
  · cases y
    · rw [mad2_false]; exact (ha.mul hb).add (hc.mul hd)
    · exact Or.inr (Or.inr ⟨_, _, _, ⟨hc, hd⟩, ha.mul hb, rfl⟩)
  · exact Or.inr (Or.inl ⟨_, _, _, ⟨ha, hb⟩, hc.mul hd, rfl⟩)

theorem Con.msub2 {x y : Bool} (ha : a.Con env u) (hb : b.Con env v) (hc : c.Con env w) (hd : d.Con env t) :
    (E.sub (E.mul a b) (E.mul c d)).Con env (FP.msub2 x y u v w t) := by
  cases x
  · cases y
    · rw [msub2_false]; exact (ha.mul hb).sub (hc.mul hd)
    · exact Or.inr (Or.inr ⟨_, _, _, ⟨hc, hd⟩, ha.mul hb, rfl⟩)
  · exact Or.inr (Or.inl ⟨_, _, _, ⟨ha, hb⟩, hc.mul hd, rfl⟩)

theorem Con.msub2_scale {x y : Bool} (ha : a.Con env u) (hb : b.Con env v) (hd : d.Con env t) :
    (E.sub (E.mul a b) (E.scale k d)).Con env (FP.msub2 x y u v k t) := by
  cases x
  · cases y
    · rw [msub2_false]; exact (ha.mul hb).sub hd.scale
    · exact Or.inr (Or.inr ⟨_, _, _, ⟨rfl, hd⟩, ha.mul hb, rfl⟩)
  · exact Or.inr (Or.inl ⟨_, _, _, ⟨ha, hb⟩, hd.scale, rfl⟩)
end steps

/-- follows the structure of an expression -/
macro "con" : tactic => `(tactic| repeat (with_reducible first
  | exact Con.var _ | exact Con.const
  | apply Con.mad | apply Con.madR | apply Con.msub | apply Con.nmad
  | apply Con.mad_scale | apply Con.madR_scale | apply Con.nmad_scale | apply Con.nmad_scaleR
  | apply Con.mad2 | apply Con.msub2 | apply Con.msub2_scale
  | apply Con.add | apply Con.sub | apply Con.mul | apply Con.div | apply Con.neg | apply Con.scale | apply Con.scaleR))

end E

namespace Ab
variable [f.Ok] {z : ℝ} {Z : ℚ}

theorem Pre.pack {a : Ab} {q : ℚ} {r : ℝ} (s : Pre f z a q r) :
    Pre f z (pack a.k a.lo a.hi a.err a.h) q r := by
  obtain ⟨v, hv, h1, h2⟩ := s.ex
  have e1 : (a.err : ℝ) ≤ (up a.err : ℝ) := by exact_mod_cast le_up _
  have e2 : (a.h : ℝ) ≤ (up a.h : ℝ) := by exact_mod_cast le_up _
  refine ⟨⟨v, hv, ?_, ?_⟩, s.err0.trans (le_up _), s.h0.trans (le_up _), ?_⟩
  · refine le_trans ?_ h1; exact_mod_cast dn_le _
  · refine h2.trans ?_; exact_mod_cast le_up _
  · refine s.bound.trans ?_
    exact add_le_add (mul_le_mul_of_nonneg_right e1 (by positivity)) (mul_le_mul_of_nonneg_right e2 (etaR_pos f).le)

/-- Larger error bounds. -/
theorem Pre.weaken {a : Ab} {q : ℚ} {r : ℝ} (s : Pre f z a q r) {e h : ℚ} (he : a.err ≤ e) (hh : a.h ≤ h) :
    Pre f z ⟨a.k, a.lo, a.hi, e, h⟩ q r := by
  have e1 : (a.err : ℝ) ≤ (e : ℝ) := by exact_mod_cast he
  have e2 : (a.h : ℝ) ≤ (h : ℝ) := by exact_mod_cast hh
  refine ⟨s.ex, s.err0.trans he, s.h0.trans hh, s.bound.trans ?_⟩
  exact add_le_add (mul_le_mul_of_nonneg_right e1 (by positivity)) (mul_le_mul_of_nonneg_right e2 (etaR_pos f).le)

/-- The bounds of a rounded value hold for the value before rounding. -/
theorem Pre.unround {a b : Ab} {q : ℚ} {r : ℝ} (s : Pre f z a q r) (hb : Ab.round f Z a = some b) : Pre f z b q r := by
  have e0 : 0 ≤ a.mag + a.err := add_nonneg (mag_nonneg a) s.err0
  unfold Ab.round at hb
  simp only at hb
  split at hb
  · split at hb
    · cases hb
      exact (s.weaken (e := a.err + hulp f (a.mag + a.err + a.h * etaUp + etaUp)) (h := a.h)
        (by have := hulp_pos f (a.mag + a.err + a.h * etaUp + etaUp); linarith) le_rfl).pack
    · cases hb
      exact (s.weaken (e := a.err + f.u * (a.mag + a.err)) (h := a.h + f.u * a.h + 1)
        (by have := mul_nonneg f.u_pos.le e0; linarith) (by have := mul_nonneg f.u_pos.le s.h0; linarith)).pack
  · cases hb

theorem Sound.pre {a : Ab} {x : FP f} {r : ℝ} (s : Sound f z a x r) : Pre f z a x.val r :=
  ⟨s.ex, s.err0, s.h0, s.bound⟩

theorem Pre.neg {a : Ab} {q : ℚ} {r : ℝ} (s : Pre f z a q r) : Pre f z (neg' a) (-q) (-r) := by
  obtain ⟨v, hv, h1, h2⟩ := s.ex
  refine ⟨⟨-v, by rw [hv]; simp [neg'], by simp [neg']; linarith, by simp [neg']; linarith⟩, s.err0, s.h0, ?_⟩
  have h3 : ((-q : ℚ) : ℝ) - -r = -((q : ℝ) - r) := by push_cast; ring
  rw [h3, abs_neg]
  exact s.bound

theorem Pre.lower {a : Ab} {q : ℚ} {r : ℝ} (s : Pre f z a q r) (hz : |z| ≤ Z) {d : ℕ} (hd : d ≤ a.k) :
    Pre f z (lower Z d a) q r ∧ (Ab.lower Z d a).k = a.k - d := by
  have hZ := Z_nonneg hz
  unfold Ab.lower
  by_cases h0 : d = 0
  · subst h0; simp only [if_true, Nat.sub_zero, and_true]; exact s
  · rw [if_neg h0]
    obtain ⟨v, hv, h1, h2⟩ := s.ex
    have hsplit : z ^ a.k = z ^ (a.k - d) * z ^ d := by rw [← pow_add]; congr 1; omega
    have hsplit' : |z| ^ a.k = |z| ^ (a.k - d) * |z| ^ d := by rw [← pow_add]; congr 1; omega
    have hzd := pow_le_Z hz d
    have hbound : |(q : ℝ) - r| ≤ ((a.err * Z ^ d : ℚ) : ℝ) * |z| ^ (a.k - d) + a.h * (f.eta : ℝ) := by
      refine s.bound.trans ?_
      rw [hsplit']
      push_cast
      have : (a.err : ℝ) * (|z| ^ (a.k - d) * |z| ^ d) ≤ a.err * Z ^ d * |z| ^ (a.k - d) := by
        have e0 : (0 : ℝ) ≤ a.err := by exact_mod_cast s.err0
        calc (a.err : ℝ) * (|z| ^ (a.k - d) * |z| ^ d) = a.err * |z| ^ d * |z| ^ (a.k - d) := by ring
          _ ≤ a.err * Z ^ d * |z| ^ (a.k - d) := by
            apply mul_le_mul_of_nonneg_right _ (by positivity)
            exact mul_le_mul_of_nonneg_left hzd e0
      linarith
    have hZ' : 0 ≤ Z := by exact_mod_cast hZ
    have herr : 0 ≤ a.err * Z ^ d := mul_nonneg s.err0 (pow_nonneg hZ' d)
    by_cases he : d % 2 = 0
    · rw [if_pos he]
      refine ⟨?_, rfl⟩
      refine Pre.pack (a := ⟨a.k - d, _, _, _, _⟩) ⟨⟨z ^ d * v, ?_, ?_, ?_⟩, herr, s.h0, hbound⟩
      · rw [hv, hsplit, mul_assoc]
      · have hev : Even d := Nat.even_iff.2 he
        have hz0 : 0 ≤ z ^ d := hev.pow_nonneg z
        have hzZ : z ^ d ≤ Z ^ d := by rw [← hev.pow_abs]; exact hzd
        push_cast
        rcases le_total 0 v with hv0 | hv0
        · exact (min_le_left _ _).trans (mul_nonneg hz0 hv0)
        · refine (min_le_right _ _).trans ?_
          calc (Z : ℝ) ^ d * a.lo ≤ Z ^ d * v := mul_le_mul_of_nonneg_left h1 (by positivity)
            _ ≤ z ^ d * v := mul_le_mul_of_nonpos_right hzZ hv0
      · have hev : Even d := Nat.even_iff.2 he
        have hz0 : 0 ≤ z ^ d := hev.pow_nonneg z
        have hzZ : z ^ d ≤ Z ^ d := by rw [← hev.pow_abs]; exact hzd
        push_cast
        rcases le_total 0 v with hv0 | hv0
        · refine le_trans ?_ (le_max_right _ _)
          calc z ^ d * v ≤ Z ^ d * v := mul_le_mul_of_nonneg_right hzZ hv0
            _ ≤ (Z : ℝ) ^ d * a.hi := mul_le_mul_of_nonneg_left h2 (by positivity)
        · exact (mul_nonpos_of_nonneg_of_nonpos hz0 hv0).trans (le_max_left _ _)
    · rw [if_neg he]
      refine ⟨?_, rfl⟩
      have hm : |z ^ d * v| ≤ Z ^ d * a.mag := by
        rw [abs_mul, abs_pow]
        exact mul_le_mul hzd (mag_bound h1 h2) (abs_nonneg _) (by positivity)
      refine Pre.pack (a := ⟨a.k - d, _, _, _, _⟩) ⟨⟨z ^ d * v, ?_, ?_, ?_⟩, herr, s.h0, hbound⟩
      · rw [hv, hsplit, mul_assoc]
      · push_cast; exact (abs_le.1 hm).1
      · push_cast; exact (abs_le.1 hm).2

theorem Pre.add {a b : Ab} {p q : ℚ} {r t : ℝ} (sa : Pre f z a p r) (sb : Pre f z b q t) (hk : a.k = b.k) :
    Pre f z (add' a b) (p + q) (r + t) := by
  obtain ⟨v, hv, h1, h2⟩ := sa.ex
  obtain ⟨w, hw, h3, h4⟩ := sb.ex
  refine ⟨⟨v + w, ?_, ?_, ?_⟩, add_nonneg sa.err0 sb.err0, add_nonneg sa.h0 sb.h0, ?_⟩
  · rw [hv, hw, ← hk]; simp [add']; ring
  · simp [add']; linarith
  · simp [add']; linarith
  · have h5 := sa.bound
    have h6 := sb.bound
    rw [← hk] at h6
    have : ((p + q : ℚ) : ℝ) - (r + t) = ((p : ℝ) - r) + ((q : ℝ) - t) := by push_cast; ring
    rw [this]
    refine (abs_add_le _ _).trans ?_
    simp only [add']
    push_cast
    linarith

/-- A sum rounded once, whatever the summands are. -/
theorem Pre.addL [EtaOk f] {a b c : Ab} {p q : ℚ} {y : FP f} {r t : ℝ} (sa : Pre f z a p r) (sb : Pre f z b q t)
    (hz : |z| ≤ Z) (h : Ab.addL f Z a b = some c)
    (hy : |p + q| ≤ f.big → y.isFinite = true ∧ y.val = rnd f (p + q)) : Sound f z c y (r + t) := by
  unfold Ab.addL at h
  obtain ⟨la, ka⟩ := sa.lower hz (d := a.k - b.k) (by omega)
  obtain ⟨lb, kb⟩ := sb.lower hz (d := b.k - a.k) (by omega)
  exact (la.add lb (by omega)).round hz h hy

/-- Before the rounding of a multiplication by a power of two. -/
theorem Sound.scale_pre {a d : Ab} {c x : FP f} {r : ℝ} (s : Sound f z a x r)
    (h : scale' f Z c.val a = some d) : Pre f z d (c.val * x.val) (c.real * r) := by
  unfold scale' at h
  simp only at h
  split at h
  · cases h
    obtain ⟨v, hv, h1, h2⟩ := s.ex
    have hb : |((c.val * x.val : ℚ) : ℝ) - c.real * r| ≤ ((|c.val| * a.err : ℚ) : ℝ) * |z| ^ a.k + ((|c.val| * a.h : ℚ) : ℝ) * f.eta := by
      have : ((c.val * x.val : ℚ) : ℝ) - c.real * r = c.real * (x.real - r) := by unfold FP.real; push_cast; ring
      rw [this, abs_mul]
      have := mul_le_mul_of_nonneg_left s.bound (abs_nonneg c.real)
      have hc : ((|c.val| : ℚ) : ℝ) = |c.real| := by unfold FP.real; push_cast; rfl
      push_cast at hc ⊢
      rw [hc]
      linarith
    refine Pre.pack (a := ⟨a.k, _, _, |c.val| * a.err, |c.val| * a.h + 1⟩)
      ⟨⟨c.real * v, ?_, ?_, ?_⟩, mul_nonneg (abs_nonneg _) s.err0,
        add_nonneg (mul_nonneg (abs_nonneg _) s.h0) zero_le_one, hb.trans ?_⟩
    · rw [hv]; simp; ring
    · push_cast
      rcases le_total 0 c.real with h0 | h0
      · exact (min_le_left _ _).trans (mul_le_mul_of_nonneg_left h1 h0)
      · exact (min_le_right _ _).trans (mul_le_mul_of_nonpos_left h2 h0)
    · push_cast
      rcases le_total 0 c.real with h0 | h0
      · exact (mul_le_mul_of_nonneg_left h2 h0).trans (le_max_right _ _)
      · exact (mul_le_mul_of_nonpos_left h1 h0).trans (le_max_left _ _)
    · have := etaR_pos f
      push_cast
      linarith
  · cases h

end Ab

open Ab in
/-- The error bounds of the analyser hold under every choice of fused operations. -/
theorem con_sound [f.Ok] [EtaOk f] {z : ℝ} {Z : ℚ} (hz : |z| ≤ Z) {env : ℕ → Option Ab} {eF : ℕ → FP f} {eR : ℕ → ℝ}
    (henv : ∀ i a, env i = some a → Ab.Sound f z a (eF i) (eR i)) (e : E f) :
    ∀ a, an f Z env e = some a →
      (∀ y, (e.con eF).1 y → Ab.Sound f z a y (e.evalR eR)) ∧
      (∀ p q, (e.con eF).2 p q → p.isFinite = true ∧ q.isFinite = true ∧ Ab.Pre f z a (p.val * q.val) (e.evalR eR)) := by
  induction e with
  | var i =>
    refine fun a h => ⟨?_, fun _ _ h => h.elim⟩
    rintro y rfl
    exact henv i a h
  | const c =>
    intro a h
    refine ⟨?_, fun _ _ h => h.elim⟩
    rintro y rfl
    simp only [an] at h
    split at h
    · rename_i hf
      cases h
      refine ⟨hf, ⟨y.real, by simp [E.evalR], le_rfl, le_rfl⟩, le_rfl, le_rfl, ?_⟩
      simp [E.evalR]
    · cases h
  | add x y ihx ihy =>
    intro a h
    simp only [an, Option.bind_eq_bind, Option.bind_eq_some_iff] at h
    obtain ⟨p, hp, q, hq, h⟩ := h
    obtain ⟨x1, x2⟩ := ihx p hp
    obtain ⟨y1, y2⟩ := ihy q hq
    refine ⟨?_, fun _ _ h => h.elim⟩
    rintro w (⟨u, v, hu, hv, rfl⟩ | ⟨s, t, v, hst, hv, rfl⟩ | ⟨s, t, u, hst, hu, rfl⟩)
    · exact (x1 u hu).addL (y1 v hv) hz h
    · obtain ⟨fs, ft, hpre⟩ := x2 s t hst
      exact hpre.addL (y1 v hv).pre hz h (fun hb => fma_spec fs ft (y1 v hv).fin hb)
    · obtain ⟨fs, ft, hpre⟩ := y2 s t hst
      refine (x1 u hu).pre.addL hpre hz h (fun hb => ?_)
      rw [add_comm] at hb ⊢
      exact fma_spec fs ft (x1 u hu).fin hb
  | sub x y ihx ihy =>
    intro a h
    simp only [an, Option.bind_eq_bind, Option.bind_eq_some_iff] at h
    obtain ⟨p, hp, q, hq, h⟩ := h
    obtain ⟨x1, x2⟩ := ihx p hp
    obtain ⟨y1, y2⟩ := ihy q hq
    refine ⟨?_, fun _ _ h => h.elim⟩
    simp only [E.evalR]
    rintro w (⟨u, v, hu, hv, rfl⟩ | ⟨s, t, v, hst, hv, rfl⟩ | ⟨s, t, u, hst, hu, rfl⟩)
    · rw [sub_eq_add_neg]
      exact (x1 u hu).addL (y1 v hv).neg hz h
    · obtain ⟨fs, ft, hpre⟩ := x2 s t hst
      rw [sub_eq_add_neg]
      exact hpre.addL (y1 v hv).neg.pre hz h (fun hb => fma_spec fs ft (y1 v hv).neg.fin hb)
    · obtain ⟨fs, ft, hpre⟩ := y2 s t hst
      rw [sub_eq_add_neg]
      refine (x1 u hu).pre.addL hpre.neg hz h (fun hb => ?_)
      have hn : (-s).val * t.val + u.val = u.val + -(s.val * t.val) := by
        rw [neg_def, val_neg]; ring
      rw [← hn] at hb ⊢
      exact fma_spec (by simpa using fs) ft (x1 u hu).fin hb
  | mul x y ihx ihy =>
    intro a h
    simp only [an, Option.bind_eq_bind, Option.bind_eq_some_iff] at h
    obtain ⟨p, hp, q, hq, h⟩ := h
    obtain ⟨x1, x2⟩ := ihx p hp
    obtain ⟨y1, y2⟩ := ihy q hq
    constructor
    · rintro w ⟨u, v, hu, hv, rfl⟩
      exact (x1 u hu).mul (y1 v hv) hz h
    · rintro u v ⟨hu, hv⟩
      exact ⟨(x1 u hu).fin, (y1 v hv).fin, (mul_pre (x1 u hu) (y1 v hv) hz).unround h⟩
  | div x y ihx ihy =>
    intro a h
    simp only [an, Option.bind_eq_bind, Option.bind_eq_some_iff] at h
    obtain ⟨p, hp, q, hq, d, hd, h⟩ := h
    refine ⟨?_, fun _ _ h => h.elim⟩
    rintro w ⟨u, v, hu, hv, rfl⟩
    exact ((ihx p hp).1 u hu).div ((ihy q hq).1 v hv) hz hd h
  | neg x ihx =>
    intro a h
    simp only [an, Option.bind_eq_bind, Option.bind_eq_some_iff] at h
    obtain ⟨p, hp, h⟩ := h
    cases h
    refine ⟨?_, fun _ _ h => h.elim⟩
    rintro w ⟨u, hu, rfl⟩
    exact ((ihx p hp).1 u hu).neg
  | scale c x ihx =>
    intro a h
    simp only [an] at h
    split at h
    · rename_i hc
      simp only [Option.bind_eq_bind, Option.bind_eq_some_iff] at h
      obtain ⟨p, hp, h⟩ := h
      rw [Bool.and_eq_true] at hc
      obtain ⟨x1, _⟩ := ihx p hp
      constructor
      · rintro w ⟨u, hu, rfl⟩
        exact (x1 u hu).scale hz hc.2 h (fun hb => mul_spec hc.1 (x1 u hu).fin hb)
      · rintro s t ⟨rfl, ht⟩
        exact ⟨hc.1, (x1 t ht).fin, (x1 t ht).scale_pre h⟩
    · cases h
  | scaleR x c ihx =>
    intro a h
    simp only [an] at h
    split at h
    · rename_i hc
      simp only [Option.bind_eq_bind, Option.bind_eq_some_iff] at h
      obtain ⟨p, hp, h⟩ := h
      rw [Bool.and_eq_true] at hc
      obtain ⟨x1, _⟩ := ihx p hp
      simp only [E.evalR]
      rw [mul_comm (E.evalR eR x)]
      constructor
      · rintro w ⟨u, hu, rfl⟩
        exact (x1 u hu).scale hz hc.2 h (fun hb => by
          have := mul_spec (x1 u hu).fin hc.1 (by rwa [mul_comm]); rwa [mul_comm u.val] at this)
      · rintro s t ⟨hs, rfl⟩
        refine ⟨(x1 s hs).fin, hc.1, ?_⟩
        rw [mul_comm s.val]
        exact (x1 s hs).scale_pre h
    · cases h

open Ab in
theorem con1_sound [f.Ok] [EtaOk f] {e : E f} {a b : ℚ} {r : Ab} (h : an1 f e a b = some r) {x : FP f}
    (hx : x.isFinite = true) (h1 : (a : ℝ) ≤ x.real) (h2 : x.real ≤ b) {y : FP f} (hy : e.Con (fun _ => x) y) :
    Ab.Sound f x.real r y (e.evalR fun _ => x.real) := by
  refine (con_sound (abs_le_max h1 h2) ?_ e r h).1 y hy
  intro i s hs
  match i, hs with
  | 0, hs =>
    cases hs
    exact ⟨hx, ⟨x.real, by simp, h1, h2⟩, le_rfl, le_rfl, by simp⟩
  | 1, hs =>
    cases hs
    exact ⟨hx, ⟨1, by simp, by simp, by simp⟩, le_rfl, le_rfl, by simp⟩

open Ab in
theorem okAbs_con [f.Ok] [EtaOk f] {e : E f} {a b C : ℚ} (h : okAbs f e C a b = true) {x : FP f}
    (hx : x.isFinite = true) (h1 : (a : ℝ) ≤ x.real) (h2 : x.real ≤ b) {y : FP f} (hy : e.Con (fun _ => x) y) :
    y.isFinite = true ∧ |y.real - e.evalR fun _ => x.real| ≤ C := by
  unfold okAbs at h
  split at h
  · rename_i r hr
    simp only [decide_eq_true_eq] at h
    have s := con1_sound hr hx h1 h2 hy
    refine ⟨s.fin, s.bound.trans ?_⟩
    have h3 : ((r.err * (max |a| |b|) ^ r.k + r.h * etaUp : ℚ) : ℝ) ≤ C := by exact_mod_cast h
    rw [Rat.cast_add, Rat.cast_mul, Rat.cast_pow, Rat.cast_mul] at h3
    have h4 := pow_le_pow_left₀ (abs_nonneg _) (abs_le_max h1 h2) r.k
    have h5 := mul_le_mul_of_nonneg_left h4 (show (0 : ℝ) ≤ r.err by exact_mod_cast s.err0)
    have := mul_le_mul_of_nonneg_left (eta_le (f := f)) (show (0 : ℝ) ≤ r.h by exact_mod_cast s.h0)
    linarith
  · cases h

open Ab in
theorem okRel_con [f.Ok] [EtaOk f] {e : E f} {a b C : ℚ} (hC : 0 ≤ C) (h : okRel f e C a b = true) {x : FP f}
    (hx : x.isFinite = true) (h1 : (a : ℝ) ≤ x.real) (h2 : x.real ≤ b) {y : FP f} (hy : e.Con (fun _ => x) y) :
    y.isFinite = true ∧ |y.real - e.evalR fun _ => x.real| ≤ C * e.evalR fun _ => x.real := by
  unfold okRel at h
  split at h
  · rename_i r hr
    simp only [Bool.and_eq_true, beq_iff_eq, decide_eq_true_eq] at h
    have s := con1_sound hr hx h1 h2 hy
    refine ⟨s.fin, s.bound.trans ?_⟩
    rw [h.1, pow_zero, mul_one]
    have h3 : ((r.err + r.h * etaUp : ℚ) : ℝ) ≤ ((C * r.lo : ℚ) : ℝ) := by exact_mod_cast h.2
    push_cast at h3
    have := mul_le_mul_of_nonneg_left (eta_le (f := f)) (show (0 : ℝ) ≤ r.h by exact_mod_cast s.h0)
    obtain ⟨v, hv, hlo, _⟩ := s.ex
    rw [h.1, pow_zero, one_mul] at hv
    rw [hv]
    have h4 : (C : ℝ) * r.lo ≤ C * v := mul_le_mul_of_nonneg_left hlo (by exact_mod_cast hC)
    linarith
  · cases h

open Ab in
theorem okLin_con [f.Ok] [EtaOk f] {e : E f} {a b C H : ℚ} (h : okLin f e C H a b = true) {x : FP f}
    (hx : x.isFinite = true) (h1 : (a : ℝ) ≤ x.real) (h2 : x.real ≤ b) {y : FP f} (hy : e.Con (fun _ => x) y) :
    y.isFinite = true ∧ |y.real - e.evalR fun _ => x.real| ≤ C * |x.real| + H * f.eta := by
  unfold okLin at h
  split at h
  · rename_i r hr
    simp only [Bool.and_eq_true, beq_iff_eq, decide_eq_true_eq] at h
    have s := con1_sound hr hx h1 h2 hy
    refine ⟨s.fin, s.bound.trans ?_⟩
    rw [h.1.1, pow_one]
    have h3 : (r.err : ℝ) ≤ C := by exact_mod_cast h.1.2
    have h4 : (r.h : ℝ) ≤ H := by exact_mod_cast h.2
    exact add_le_add (mul_le_mul_of_nonneg_right h3 (abs_nonneg _)) (mul_le_mul_of_nonneg_right h4 (etaR_pos f).le)
  · cases h

open Ab in
theorem okRel1_con [f.Ok] [EtaOk f] {e : E f} {a b C H : ℚ} (hC : 0 ≤ C) (h : okRel1 f e C H a b = true) {x : FP f}
    (hx : x.isFinite = true) (h1 : (a : ℝ) ≤ x.real) (h2 : x.real ≤ b) {y : FP f} (hy : e.Con (fun _ => x) y) :
    y.isFinite = true ∧
      |y.real - e.evalR fun _ => x.real| ≤ C * |e.evalR fun _ => x.real| + H * f.eta := by
  unfold okRel1 at h
  split at h
  · rename_i r hr
    simp only [Bool.and_eq_true, beq_iff_eq, decide_eq_true_eq] at h
    obtain ⟨⟨⟨hk, hlo⟩, herr⟩, hh⟩ := h
    have s := con1_sound hr hx h1 h2 hy
    refine ⟨s.fin, s.bound.trans ?_⟩
    obtain ⟨v, hv, hl, _⟩ := s.ex
    rw [hk, pow_one] at hv ⊢
    have h3 : (r.err : ℝ) ≤ C * r.lo := by exact_mod_cast herr
    have h4 : (r.h : ℝ) ≤ H := by exact_mod_cast hh
    have h5 : (0 : ℝ) ≤ r.lo := by exact_mod_cast hlo
    have hC' : (0 : ℝ) ≤ C := by exact_mod_cast hC
    refine add_le_add ?_ (mul_le_mul_of_nonneg_right h4 (etaR_pos f).le)
    rw [hv, abs_mul, abs_of_nonneg (h5.trans hl)]
    calc (r.err : ℝ) * |x.real| ≤ C * r.lo * |x.real| := mul_le_mul_of_nonneg_right h3 (abs_nonneg _)
      _ ≤ C * v * |x.real| := mul_le_mul_of_nonneg_right (mul_le_mul_of_nonneg_left hl hC') (abs_nonneg _)
      _ = C * (|x.real| * v) := by ring
  · cases h

end Vdt
