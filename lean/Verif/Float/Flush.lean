import Verif.Float.Delta
import Verif.Model.Flush
import Verif.Lemmas.Fpe

/-!
# A verified analyser for flushing to zero

It follows the evaluation of straight-line code in ordinary arithmetic and in arithmetic that flushes small numbers to zero
side by side.  Both values are enclosed; the flushed value either is the ordinary one or both are small.  A small number that
is added to a large one is absorbed, so the difference usually disappears.
-/

namespace Vdt.Flush
open FP
variable {f : Fmt} {m : Mode}

/-- Evaluation in the mode `m`. -/
def evalZ (m : Mode) (env : ℕ → FP f) : E f → Z m f
  | .var i => of (env i)
  | .const c => of c
  | .add a b => evalZ m env a + evalZ m env b
  | .sub a b => evalZ m env a - evalZ m env b
  | .mul a b => evalZ m env a * evalZ m env b
  | .div a b => evalZ m env a / evalZ m env b
  | .neg a => (evalZ m env a).map fun r => -r
  | .scale c a => of c * evalZ m env a
  | .scaleR a c => evalZ m env a * of c

/-- Both values lie in `[lo, hi]`, the ordinary one is a multiple of `2^g`.  They are equal if `t = none` and equal or both at
most `2^k` if `t = some k`. -/
structure Az where
  lo : ℚ
  hi : ℚ
  g : ℤ
  t : Option ℤ
deriving Repr

def Rel (f : Fmt) : Option ℤ → FP f → FP f → Prop
  | none, v, w => w = v
  | some k, v, w => f.emin ≤ k ∧ (w = v ∨ |v.val| ≤ p2 k ∧ |w.val| ≤ p2 k)

namespace Az

structure Sound (a : Az) (v w : FP f) : Prop where
  fv : v.isFinite = true
  fw : w.isFinite = true
  lov : a.lo ≤ v.val
  hiv : v.val ≤ a.hi
  low : a.lo ≤ w.val
  hiw : w.val ≤ a.hi
  gv : ∃ n : ℤ, v.val = n * p2 a.g
  rel : Rel f a.t v w

/-- Nothing can be flushed: the value is zero or large. -/
def clear (f : Fmt) (a : Az) : Bool := a.t.isNone && 
  (decide (f.emin < a.g) || decide (p2 f.emin < Dl.away a.lo a.hi) || decide (a.lo = 0 ∧ a.hi = 0))

/-- What is known after a flush. -/
def mark (f : Fmt) (a : Az) : Az :=
  if clear f a then a else ⟨min a.lo 0, max a.hi 0, a.g, some (max (a.t.getD f.emin) f.emin)⟩

/-- Rounding of results that lie in `[lo, hi]` and are multiples of `2^g`. -/
def round (f : Fmt) (lo hi : ℚ) (g : ℤ) (t : Option ℤ) : Option Az :=
  if max |lo| |hi| ≤ f.big then some ⟨rnd f lo, rnd f hi, max (Dl.place f (Dl.away lo hi)) g, t⟩ else none

/-- A small difference in `a` added to `b`. -/
def absorb (f : Fmt) (k : ℤ) (a b : Az) : Option (Option ℤ) :=
  if p2 (k + f.mb + 3) ≤ Dl.away b.lo b.hi then some none
  else if a.lo = 0 ∧ a.hi = 0 ∧ 0 < Dl.away b.lo b.hi then some none
  else if k + f.mb + 3 ≤ b.g then some (some k) else none

def addT (f : Fmt) (a b : Az) : Option (Option ℤ) :=
  match a.t, b.t with
  | none, none => some none
  | some k, none => absorb f k a b
  | none, some k => absorb f k b a
  | some _, some _ => none

/-- All that is known is the size. -/
def size (f : Fmt) (lo hi : ℚ) : ℤ := let M := max |lo| |hi|; if 0 < M then max f.emin (ilog2 M + 1) else f.emin

def add (f : Fmt) (a b : Az) : Option Az :=
  round f (a.lo + b.lo) (a.hi + b.hi) (min a.g b.g) ((addT f a b).getD (some (size f (a.lo + b.lo) (a.hi + b.hi))))

def neg (a : Az) : Az := ⟨-a.hi, -a.lo, a.g, a.t⟩

/-- A power of two that is not below any of the values. -/
def top (a : Az) : ℤ := let M := max |a.lo| |a.hi|; if 0 < M then ilog2 M + 1 else 0

def mulT (f : Fmt) (a b : Az) : Option ℤ :=
  match a.t, b.t with
  | none, none => none
  | some k, none => some (max f.emin (k + b.top))
  | none, some k => some (max f.emin (k + a.top))
  | some k, some j => some (max f.emin (max (k + b.top) (j + a.top)))

def mul (f : Fmt) (a b : Az) : Option Az :=
  round f (Dl.min4 a.lo a.hi b.lo b.hi) (Dl.max4 a.lo a.hi b.lo b.hi) (a.g + b.g) (mulT f a b)

def div (f : Fmt) (a b : Az) : Option Az :=
  if 0 < Dl.away b.lo b.hi ∧ b.t = none then
    round f (Dl.min4 a.lo a.hi (1 / b.hi) (1 / b.lo)) (Dl.max4 a.lo a.hi (1 / b.hi) (1 / b.lo))
      (if a.lo = 0 ∧ a.hi = 0 then 0 else f.emin - f.mb)
      (a.t.map fun k => max f.emin (k - ilog2 (Dl.away b.lo b.hi)))
  else none

def const (c : FP f) : Option Az := if c.isFinite then some ⟨c.val, c.val, if c.val = 0 then 0 else Dl.place f |c.val|, none⟩ else none

end Az

/-- The analyser. -/
def anZ (f : Fmt) (env : ℕ → Option Az) : E f → Option Az
  | .var i => env i
  | .const c => Az.const c
  | .add a b => (anZ f env a).bind fun x => (anZ f env b).bind fun y => (Az.add f (x.mark f) (y.mark f)).map (Az.mark f)
  | .sub a b => (anZ f env a).bind fun x => (anZ f env b).bind fun y => (Az.add f (x.mark f) (y.mark f).neg).map (Az.mark f)
  | .mul a b => (anZ f env a).bind fun x => (anZ f env b).bind fun y => (Az.mul f (x.mark f) (y.mark f)).map (Az.mark f)
  | .div a b => (anZ f env a).bind fun x => (anZ f env b).bind fun y => (Az.div f (x.mark f) (y.mark f)).map (Az.mark f)
  | .neg a => (anZ f env a).map Az.neg
  | .scale c a => (Az.const c).bind fun x => (anZ f env a).bind fun y => (Az.mul f (x.mark f) (y.mark f)).map (Az.mark f)
  | .scaleR a c => (anZ f env a).bind fun x => (Az.const c).bind fun y => (Az.mul f (x.mark f) (y.mark f)).map (Az.mark f)

/-! ## Soundness -/

theorem minNormal_val (f : Fmt) : magVal f (2 ^ f.mb) = p2 f.emin := by
  have h := magVal_code f (e := f.emin) (k := 2 ^ f.mb) le_rfl (Nat.pow_le_pow_right (by norm_num) (Nat.le_succ _)) (Or.inl le_rfl)
  simp only [sub_self, Int.toNat_zero, zero_mul, zero_add] at h
  rw [h]
  push_cast
  rw [← p2_nat, ← p2_add]; congr 1; ring

theorem mag_le_of_val {x : FP f} (h : p2 f.emin < |x.val|) : ¬ x.mag ≤ 2 ^ f.mb := by
  intro c
  rw [abs_val, ← minNormal_val, magVal_lt] at h
  omega

theorem val_le_of_mag {x : FP f} (h : x.mag ≤ 2 ^ f.mb) : |x.val| ≤ p2 f.emin := by
  rw [abs_val, ← minNormal_val, magVal_le]; exact h

theorem zero_val (s : Bool) : (zero s : FP f).val = 0 := val_eq_zero.2 rfl

/-- A flush does nothing to zero and to large numbers. -/
theorem arg_same (hm : m.Ok) {x : FP f} (h : x.val = 0 ∨ p2 f.emin < |x.val|) : m.arg x = x := by
  rcases hm.arg x with a | ⟨a, b⟩
  · exact a
  · rcases h with h | h
    · rw [b]; exact (eq_zero' (by rw [isZero, decide_eq_true_eq]; exact val_eq_zero.1 h)).symm
    · exact absurd a.le (mag_le_of_val h)

theorem res_same (hm : m.Ok) {o : Op} {x y r : FP f} (h : r.val = 0 ∨ p2 f.emin < |r.val|) : m.res o x y r = r := by
  rcases hm.res o x y r with a | ⟨a, b⟩
  · exact a
  · rcases h with h | h
    · rw [b]; exact (eq_zero' (by rw [isZero, decide_eq_true_eq]; exact val_eq_zero.1 h)).symm
    · exact absurd a (mag_le_of_val h)

/-- What a flush leaves: the same number, or zero in place of a small one. -/
theorem arg_cases (hm : m.Ok) (x : FP f) : m.arg x = x ∨ |x.val| ≤ p2 f.emin ∧ m.arg x = zero x.sign := by
  rcases hm.arg x with a | ⟨a, b⟩
  · exact Or.inl a
  · exact Or.inr ⟨val_le_of_mag a.le, b⟩

theorem res_cases (hm : m.Ok) (o : Op) (x y r : FP f) : m.res o x y r = r ∨ |r.val| ≤ p2 f.emin ∧ m.res o x y r = zero r.sign := by
  rcases hm.res o x y r with a | ⟨a, b⟩
  · exact Or.inl a
  · exact Or.inr ⟨val_le_of_mag a, b⟩

namespace Az
variable {a b r : Az} {v w x y : FP f}

theorem clear_big (h : a.Sound v w) (hc : clear f a = true) : w = v ∧ (v.val = 0 ∨ p2 f.emin < |v.val|) := by
  unfold clear at hc
  rw [Bool.and_eq_true, Bool.or_eq_true, Bool.or_eq_true, decide_eq_true_eq, decide_eq_true_eq, decide_eq_true_eq, Option.isNone_iff_eq_none] at hc
  obtain ⟨t, hc⟩ := hc
  have e := h.rel
  rw [t] at e
  refine ⟨e, ?_⟩
  rcases hc with (g | g) | g
  · obtain ⟨n, hn⟩ := h.gv
    by_cases n0 : n = 0
    · left; rw [hn, n0]; simp
    · right
      rw [hn, abs_mul, abs_of_pos (p2_pos _)]
      have : (1 : ℚ) ≤ |(n : ℚ)| := by exact_mod_cast Int.one_le_abs n0
      nlinarith [p2_lt g, p2_pos a.g]
  · right; exact g.trans_le (Dl.away_le h.lov h.hiv)
  · left
    have l := h.lov
    have u := h.hiv
    rw [g.1] at l
    rw [g.2] at u
    exact le_antisymm u l

/-- Both the flush of an operand and that of a result. -/
theorem mark_sound [f.Ok] (h : a.Sound v w) {w' : FP f} (hw : w' = w ∨ |w.val| ≤ p2 f.emin ∧ w' = zero w.sign)
    (hs : w.val = 0 ∨ p2 f.emin < |w.val| → w' = w) : (mark f a).Sound v w' := by
  unfold mark
  split_ifs with hc
  · obtain ⟨e, c⟩ := clear_big h hc
    rw [hs (by rw [e]; exact c)]
    exact h
  · have fin : w'.isFinite = true := by
      rcases hw with q | ⟨_, q⟩
      · rw [q]; exact h.fw
      · rw [q]; exact zero_finite _
    have vals : w'.val = w.val ∨ w'.val = 0 := by
      rcases hw with q | ⟨_, q⟩
      · left; rw [q]
      · right; rw [q]; exact zero_val _
    refine ⟨h.fv, fin, (min_le_left _ _).trans h.lov, h.hiv.trans (le_max_left _ _), ?_, ?_, h.gv, le_max_right _ _, ?_⟩
    · rcases vals with q | q
      · rw [q]; exact (min_le_left _ _).trans h.low
      · rw [q]; exact min_le_right _ _
    · rcases vals with q | q
      · rw [q]; exact h.hiw.trans (le_max_left _ _)
      · rw [q]; exact le_max_right _ _
    · have r := h.rel
      have pe : p2 f.emin ≤ p2 (max (a.t.getD f.emin) f.emin) := p2_le (le_max_right _ _)
      cases ht : a.t with
      | none =>
        rw [ht] at r
        simp only [Rel] at r
        subst r
        rcases hw with q | ⟨s, q⟩
        · left; exact q
        · right
          rw [ht] at pe
          refine ⟨s.trans pe, ?_⟩
          rw [q, zero_val, abs_zero]; exact (p2_pos _).le
      | some k =>
        rw [ht] at r pe
        obtain ⟨_, r⟩ := r
        have pk : p2 k ≤ p2 (max ((some k).getD f.emin) f.emin) := p2_le (le_max_left _ _)
        have small : |w.val| ≤ p2 f.emin ∨ w' = w → |v.val| ≤ p2 k ∧ |w.val| ≤ p2 k → w' = v ∨ |v.val| ≤ p2 (max ((some k).getD f.emin) f.emin) ∧
            |w'.val| ≤ p2 (max ((some k).getD f.emin) f.emin) := by
          rintro _ ⟨b1, b2⟩
          refine Or.inr ⟨b1.trans pk, ?_⟩
          rcases vals with q | q
          · rw [q]; exact b2.trans pk
          · rw [q, abs_zero]; exact (p2_pos _).le
        rcases r with r | r
        · subst r
          rcases hw with q | ⟨s, q⟩
          · left; exact q
          · right
            refine ⟨s.trans pe, ?_⟩
            rw [q, zero_val, abs_zero]; exact (p2_pos _).le
        · exact small (by rcases hw with q | ⟨s, _⟩; exact Or.inr q; exact Or.inl s) r

theorem arg_sound [f.Ok] (hm : m.Ok) (h : a.Sound v w) : (mark f a).Sound v (m.arg w) :=
  mark_sound h (arg_cases hm w) fun c => arg_same hm c

theorem res_sound [f.Ok] (hm : m.Ok) {o : Op} {p q : FP f} (h : a.Sound v w) : (mark f a).Sound v (m.res o p q w) :=
  mark_sound h (res_cases hm o p q w) fun c => res_same hm c

/-- Rounding keeps multiples. -/
theorem rnd_mult [f.Ok] {q : ℚ} {g : ℤ} (hq : ∃ n : ℤ, q = n * p2 g) (hg : f.emin - f.mb ≤ g) (hb : |q| ≤ f.big) : ∃ n : ℤ, rnd f q = n * p2 g := by
  obtain ⟨n, hn⟩ := hq
  by_cases q0 : q = 0
  · exact ⟨0, by rw [q0, rnd_zero]; simp⟩
  have qp : 0 < |q| := abs_pos.2 q0
  rcases le_total g (rexp f |q| - f.mb) with c | c
  · have P : Dl.place f |q| = rexp f |q| - f.mb := by unfold Dl.place; rw [if_pos qp]
    have : ∃ i : ℤ, rnd f q = i * p2 (rexp f |q| - f.mb) := by
      have hv : (ofRat f false q).val = rnd f q := val_ofRat _ _
      rcases Dl.rnd_away (le_refl |q|) hb with z | z
      · obtain ⟨i, hi⟩ := Dl.place_sound (m := 0) (v := ofRat f false q) (abs_nonneg _)
        refine ⟨i, ?_⟩
        rw [← hv, hi, ← P, z]; unfold Dl.place; simp
      · rw [← hv] at z
        obtain ⟨i, hi⟩ := mult_of_ge z
        refine ⟨i, ?_⟩
        rw [← hv, hi, ← P]; congr 2; ring
    obtain ⟨i, hi⟩ := this
    refine ⟨i * 2 ^ (rexp f |q| - f.mb - g).toNat, ?_⟩
    rw [hi]
    push_cast
    rw [mul_assoc, ← p2_nat, ← p2_add]; congr 2; omega
  · refine ⟨n, ?_⟩
    rw [rnd_exact f ⟨n, g, hn, ?_, hg⟩ hb, hn]
    have t : |q| < p2 (rexp f |q| + 1) := (ilog2_spec qp).2.trans_le (p2_le (by unfold rexp; omega))
    have qe : |q| = |(n : ℚ)| * p2 g := by rw [hn, abs_mul, abs_of_pos (p2_pos g)]
    have s : p2 (rexp f |q| + 1) ≤ 2 ^ (f.mb + 1) * p2 g := by
      rw [← p2_nat, ← p2_add]; exact p2_le (by push_cast; omega)
    have := lt_of_mul_lt_mul_right (qe ▸ t.trans_le s) (p2_pos g).le
    have : ((|n| : ℤ) : ℚ) < ((2 ^ (f.mb + 1) : ℤ) : ℚ) := by push_cast; exact this
    exact (by exact_mod_cast this : |n| < 2 ^ (f.mb + 1)).le

theorem place_ge (f : Fmt) (q : ℚ) : f.emin - f.mb ≤ Dl.place f q := by
  unfold Dl.place
  split_ifs
  · have := rexp_ge f q; omega
  · exact le_rfl

theorem round_sound [f.Ok] {lo hi : ℚ} {g : ℤ} {t : Option ℤ} (h : round f lo hi g t = some r) {q p : ℚ}
    (h1 : lo ≤ q) (h2 : q ≤ hi) (h3 : lo ≤ p) (h4 : p ≤ hi) (hg : (∃ n : ℤ, q = n * p2 g) ∨ g ≤ f.emin - f.mb)
    (hv : |q| ≤ f.big → v.isFinite = true ∧ v.val = rnd f q) (hw : |p| ≤ f.big → w.isFinite = true ∧ w.val = rnd f p) (hr : Rel f t v w) :
    r.Sound v w := by
  unfold round at h
  split_ifs at h with c
  simp only [Option.some.injEq] at h
  subst h
  have aq := (Dl.abs_le_M h1 h2).trans c
  have ap := (Dl.abs_le_M h3 h4).trans c
  obtain ⟨v1, v2⟩ := hv aq
  obtain ⟨w1, w2⟩ := hw ap
  refine ⟨v1, w1, ?_, ?_, ?_, ?_, ?_, hr⟩
  · rw [v2]; exact rnd_mono f h1
  · rw [v2]; exact rnd_mono f h2
  · rw [w2]; exact rnd_mono f h3
  · rw [w2]; exact rnd_mono f h4
  · have P := place_ge f (Dl.away lo hi)
    have key : ∃ n : ℤ, v.val = n * p2 (Dl.place f (Dl.away lo hi)) := by
      rcases Dl.rnd_away (Dl.away_le h1 h2) aq with z | z
      · rw [z]
        obtain ⟨n, hn⟩ := Dl.place_sound (m := 0) (v := v) (abs_nonneg _)
        exact ⟨n, by rw [hn]; unfold Dl.place; simp⟩
      · rw [← v2] at z
        obtain ⟨n, hn⟩ := mult_of_ge z
        exact ⟨n, by rw [hn]; congr 2; ring⟩
    show ∃ n : ℤ, v.val = n * p2 (max _ _)
    rcases le_total g (Dl.place f (Dl.away lo hi)) with z | z
    · rw [max_eq_left z]; exact key
    · rw [max_eq_right z]
      rcases hg with hg | hg
      · rw [v2]; exact rnd_mult hg (P.trans z) aq
      · have : g = Dl.place f (Dl.away lo hi) := by omega
        rw [this]; exact key

/-- A small number added to a large one is absorbed. -/
theorem rnd_absorb [f.Ok] {X Y : ℚ} {k : ℤ} (hX : Rep f X) (hb : |X + Y| ≤ f.big) (hk : f.emin ≤ k) (h1 : |Y| ≤ p2 k) (h2 : p2 (k + f.mb + 3) ≤ |X|) :
    rnd f (X + Y) = X := by
  have X0 : 0 < |X| := (p2_pos _).trans_le h2
  obtain ⟨e1, e2⟩ := ilog2_spec X0
  set e := ilog2 |X| with he
  have ke : k + f.mb + 3 ≤ e := by
    by_contra c
    have := e2.trans_le ((p2_le (show e + 1 ≤ k + f.mb + 3 by omega)).trans h2)
    exact lt_irrefl _ this
  -- X is a multiple of the last place
  have mX : ∃ n : ℤ, X = n * p2 (e - f.mb) := by
    obtain ⟨n, j, hn, hs, hj⟩ := hX
    rcases le_total (e - f.mb) j with c | c
    · refine ⟨n * 2 ^ (j - (e - f.mb)).toNat, ?_⟩
      rw [hn]; push_cast
      rw [mul_assoc, ← p2_nat, ← p2_add]; congr 2; omega
    · -- the numerator is as large as possible
      have a : p2 e ≤ 2 ^ (f.mb + 1) * p2 j := by
        refine e1.trans ?_
        rw [hn, abs_mul, abs_of_pos (p2_pos j)]
        refine mul_le_mul_of_nonneg_right ?_ (p2_pos j).le
        exact_mod_cast hs
      rw [← p2_nat, ← p2_add] at a
      have jj : e ≤ ((f.mb + 1 : ℕ) : ℤ) + j := by
        by_contra c'
        exact absurd a (not_le.2 (p2_lt (by omega)))
      rcases Int.lt_or_eq_of_le c with c2 | c2
      · have ej : e - f.mb = j + 1 := by push_cast at jj; omega
        have full : |n| = 2 ^ (f.mb + 1) := by
          refine le_antisymm hs ?_
          by_contra c'
          have l : |n| < 2 ^ (f.mb + 1) := not_le.1 c'
          have l' : (|n| : ℚ) < 2 ^ (f.mb + 1) := by exact_mod_cast l
          have : |X| < p2 e := by
            rw [hn, abs_mul, abs_of_pos (p2_pos j)]
            have pe : p2 e = 2 ^ (f.mb + 1) * p2 j := by rw [← p2_nat, ← p2_add]; congr 1; push_cast; omega
            rw [pe]
            exact mul_lt_mul_of_pos_right l' (p2_pos j)
          exact absurd e1 (not_le.2 this)
        have dv : (2 : ℤ) ∣ n := by
          rw [← abs_dvd_abs, full, abs_two]; exact dvd_pow_self 2 (by omega)
        obtain ⟨i, hi⟩ := dv
        refine ⟨i, ?_⟩
        rw [hn, hi, ej, p2_succ]; push_cast; ring
      · exact ⟨n, by rw [hn, c2]⟩
  set q := X + Y with hq
  have dq : |q - X| ≤ p2 (e - f.mb - 3) := by
    rw [hq, add_sub_cancel_left]; exact h1.trans (p2_le (by omega))
  have q_lo : p2 (e - 1) ≤ |q| := by
    have t := abs_sub_abs_le_abs_sub X q
    rw [abs_sub_comm X q] at t
    have s : p2 (e - f.mb - 3) ≤ p2 (e - 1) := p2_le (by omega)
    have d : p2 e = 2 * p2 (e - 1) := by rw [← p2_succ]; congr 1; ring
    linarith
  have q0 : 0 < |q| := (p2_pos _).trans_le q_lo
  have q_hi : |q| < p2 (e + 1) := by
    obtain ⟨n, hn⟩ := mX
    have t := abs_sub_abs_le_abs_sub q X
    have : |X| ≤ p2 (e + 1) - p2 (e - f.mb) := by
      have a : |X| = |(n : ℚ)| * p2 (e - f.mb) := by rw [hn, abs_mul, abs_of_pos (p2_pos _)]
      have b : p2 (e + 1) = 2 ^ (f.mb + 1) * p2 (e - f.mb) := by rw [← p2_nat, ← p2_add]; congr 1; push_cast; ring
      rw [a, b] at e2
      have c := lt_of_mul_lt_mul_right e2 (p2_pos _).le
      have c' : |n| < 2 ^ (f.mb + 1) := by exact_mod_cast c
      have c'' : (|(n : ℚ)| : ℚ) ≤ 2 ^ (f.mb + 1) - 1 := by
        have : |n| ≤ 2 ^ (f.mb + 1) - 1 := by omega
        exact_mod_cast this
      rw [a, b]
      nlinarith [p2_pos (e - f.mb)]
    have : p2 (e - f.mb - 3) < p2 (e - f.mb) := p2_lt (by omega)
    linarith
  have r_lo : e - 1 ≤ ilog2 |q| := by
    have := ilog2_mono (p2_pos (e - 1)) q_lo
    rwa [ilog2_unique le_rfl (p2_lt (by omega))] at this
  have r_hi : ilog2 |q| ≤ e := by
    by_contra c
    have := (p2_le (show e + 1 ≤ ilog2 |q| by omega)).trans (ilog2_spec q0).1
    exact absurd q_hi (not_lt.2 this)
  have rq : rexp f |q| = ilog2 |q| := by unfold rexp; exact max_eq_left (by omega)
  have err := rnd_err f q0 le_rfl hb
  unfold hulp at err
  rw [rq] at err
  -- both are multiples of the last place of `q`
  obtain ⟨i, hi⟩ : ∃ i : ℤ, rnd f q = i * p2 (ilog2 |q| - f.mb) := by
    have hv : (ofRat f false q).val = rnd f q := val_ofRat _ _
    have P : Dl.place f |q| = ilog2 |q| - f.mb := by unfold Dl.place; rw [if_pos q0, rq]
    rcases Dl.rnd_away (le_refl |q|) hb with z | z
    · rw [P] at z; omega
    · rw [← hv] at z
      obtain ⟨i, hi⟩ := mult_of_ge z
      exact ⟨i, by rw [← hv, hi, ← P]; congr 2; ring⟩
  obtain ⟨n, hn⟩ := mX
  have hn' : X = (n * 2 ^ (e - ilog2 |q|).toNat : ℤ) * p2 (ilog2 |q| - f.mb) := by
    rw [hn]; push_cast
    rw [mul_assoc, ← p2_nat, ← p2_add]; congr 2; omega
  have d : |rnd f q - X| < p2 (ilog2 |q| - f.mb) := by
    have t : |rnd f q - X| ≤ |rnd f q - q| + |q - X| := by
      have := abs_add_le (rnd f q - q) (q - X); rwa [sub_add_sub_cancel] at this
    have s1 : p2 (ilog2 |q| - f.mb) = 2 * p2 (ilog2 |q| - f.mb - 1) := by rw [← p2_succ]; congr 1; ring
    have s2 : p2 (ilog2 |q| - f.mb - 1) = 2 * p2 (ilog2 |q| - f.mb - 2) := by rw [← p2_succ]; congr 1; ring
    have s3 : p2 (e - f.mb - 3) ≤ p2 (ilog2 |q| - f.mb - 2) := p2_le (by omega)
    have := p2_pos (ilog2 |q| - f.mb - 2)
    linarith
  rw [hi, hn', ← sub_mul, abs_mul, abs_of_pos (p2_pos _)] at d
  have d' : |((i - n * 2 ^ (e - ilog2 |q|).toNat : ℤ) : ℚ)| < 1 := by
    have := p2_pos (ilog2 |q| - f.mb)
    by_contra c
    rw [not_lt] at c
    push_cast at c d
    nlinarith
  have d'' : |i - n * 2 ^ (e - ilog2 |q|).toNat| < 1 := by exact_mod_cast d'
  have : i = n * 2 ^ (e - ilog2 |q|).toNat := by
    have := Int.abs_lt_one_iff.1 d''; omega
  rw [hi, this, ← hn']

theorem add_absorb [f.Ok] {k : ℤ} (hx : x.isFinite = true) (hy : y.isFinite = true) (hb : |x.val + y.val| ≤ f.big) (hk : f.emin ≤ k)
    (h1 : |y.val| ≤ p2 k) (h2 : p2 (k + f.mb + 3) ≤ |x.val|) : x + y = x := by
  have e := (addS hx hy hb).2
  rw [rnd_absorb (val_rep x) hb hk h1 h2] at e
  have x0 : x.val ≠ 0 := abs_pos.1 ((p2_pos _).trans_le h2)
  exact eq_of_val_ne (by rw [e]; exact x0) e

theorem add_absorb' [f.Ok] {k : ℤ} (hx : x.isFinite = true) (hy : y.isFinite = true) (hb : |y.val + x.val| ≤ f.big) (hk : f.emin ≤ k)
    (h1 : |y.val| ≤ p2 k) (h2 : p2 (k + f.mb + 3) ≤ |x.val|) : y + x = x := by
  have e := (addS hy hx hb).2
  rw [add_comm, rnd_absorb (val_rep x) (by rw [add_comm]; exact hb) hk h1 h2] at e
  have x0 : x.val ≠ 0 := abs_pos.1 ((p2_pos _).trans_le h2)
  exact eq_of_val_ne (by rw [e]; exact x0) e

theorem rnd_pow2 [f.Ok] {q : ℚ} {k : ℤ} (hk : f.emin ≤ k) (hb : |q| ≤ f.big) (h : |q| ≤ p2 k) : |rnd f q| ≤ p2 k := by
  rcases le_total (p2 k) f.big with c | c
  · have r : rnd f (p2 k) = p2 k := by
      refine rnd_exact f ⟨1, k, by simp, ?_, by omega⟩ (by rw [abs_of_pos (p2_pos _)]; exact c)
      simp only [abs_one]; exact one_le_pow₀ (by norm_num)
    obtain ⟨a, b⟩ := abs_le.1 h
    rw [abs_le]
    constructor
    · have := rnd_mono f a; rwa [rnd_neg, r] at this
    · have := rnd_mono f b; rwa [r] at this
  · have r : rnd f f.big = f.big := by
      refine rnd_exact f ⟨1, 1 - f.emin, by simp [Fmt.big], ?_, ?_⟩ (by rw [abs_of_pos f.big_pos])
      · simp only [abs_one]; exact one_le_pow₀ (by norm_num)
      · have : f.emin ≤ 0 := Fpe.emin_le
        omega
    refine le_trans ?_ c
    obtain ⟨a, b⟩ := abs_le.1 hb
    rw [abs_le]
    constructor
    · have := rnd_mono f a; rwa [rnd_neg, r] at this
    · have := rnd_mono f b; rwa [r] at this

theorem zero_vals (ha : a.Sound v w) (h1 : a.lo = 0) (h2 : a.hi = 0) : v.val = 0 ∧ w.val = 0 := by
  have a1 := ha.lov
  have a2 := ha.hiv
  have a3 := ha.low
  have a4 := ha.hiw
  rw [h1] at a1 a3
  rw [h2] at a2 a4
  exact ⟨le_antisymm a2 a1, le_antisymm a4 a3⟩

theorem add_nothing [f.Ok] (hx : x.isFinite = true) (hy : y.isFinite = true) (hb : |x.val + y.val| ≤ f.big) (h1 : y.val = 0) (h2 : 0 < |x.val|) :
    x + y = x := by
  have e := (addS hx hy hb).2
  rw [h1, add_zero] at e hb
  rw [rnd_exact f (val_rep x) hb] at e
  exact eq_of_val_ne (by rw [e]; exact abs_pos.1 h2) e

theorem add_nothing' [f.Ok] (hx : x.isFinite = true) (hy : y.isFinite = true) (hb : |y.val + x.val| ≤ f.big) (h1 : y.val = 0) (h2 : 0 < |x.val|) :
    y + x = x := by
  have e := (addS hy hx hb).2
  rw [h1, zero_add] at e hb
  rw [rnd_exact f (val_rep x) hb] at e
  exact eq_of_val_ne (by rw [e]; exact abs_pos.1 h2) e

/-- `x` is exact, `v` and `w` may be small. -/
theorem absorb_rel [f.Ok] {k : ℤ} {t : Option ℤ} (h : absorb f k a b = some t) (hk : f.emin ≤ k) (hb : b.Sound x x) (ha : a.Sound v w) (fv : v.isFinite = true)
    (fw : w.isFinite = true) (b1 : |v.val + x.val| ≤ f.big) (b2 : |w.val + x.val| ≤ f.big) (hs : |v.val| ≤ p2 k ∧ |w.val| ≤ p2 k) :
    Rel f t (v + x) (w + x) := by
  unfold absorb at h
  split_ifs at h with c1 c0 c2
  · simp only [Option.some.injEq] at h
    subst h
    have g := c1.trans (Dl.away_le hb.lov hb.hiv)
    show w + x = v + x
    rw [add_absorb' hb.fv fv b1 hk hs.1 g, add_absorb' hb.fv fw b2 hk hs.2 g]
  · simp only [Option.some.injEq] at h
    subst h
    have g := c0.2.2.trans_le (Dl.away_le hb.lov hb.hiv)
    obtain ⟨v0, w0⟩ := zero_vals ha c0.1 c0.2.1
    show w + x = v + x
    rw [add_nothing' hb.fv fv b1 v0 g, add_nothing' hb.fv fw b2 w0 g]
  · simp only [Option.some.injEq] at h
    subst h
    refine ⟨hk, ?_⟩
    obtain ⟨n, hn⟩ := hb.gv
    by_cases n0 : n = 0
    · right
      rw [n0] at hn
      have x0 : x.val = 0 := by rw [hn]; simp
      constructor
      · rw [(addS fv hb.fv b1).2]
        exact rnd_pow2 hk b1 (by rw [x0, add_zero]; exact hs.1)
      · rw [(addS fw hb.fv b2).2]
        exact rnd_pow2 hk b2 (by rw [x0, add_zero]; exact hs.2)
    · left
      have g : p2 (k + f.mb + 3) ≤ |x.val| := by
        rw [hn, abs_mul, abs_of_pos (p2_pos _)]
        have : (1 : ℚ) ≤ |(n : ℚ)| := by exact_mod_cast Int.one_le_abs n0
        nlinarith [p2_le c2, p2_pos b.g]
      rw [add_absorb' hb.fv fv b1 hk hs.1 g, add_absorb' hb.fv fw b2 hk hs.2 g]

theorem absorb_rel' [f.Ok] {k : ℤ} {t : Option ℤ} (h : absorb f k a b = some t) (hk : f.emin ≤ k) (hb : b.Sound x x) (ha : a.Sound v w) (fv : v.isFinite = true)
    (fw : w.isFinite = true) (b1 : |x.val + v.val| ≤ f.big) (b2 : |x.val + w.val| ≤ f.big) (hs : |v.val| ≤ p2 k ∧ |w.val| ≤ p2 k) :
    Rel f t (x + v) (x + w) := by
  unfold absorb at h
  split_ifs at h with c1 c0 c2
  · simp only [Option.some.injEq] at h
    subst h
    have g := c1.trans (Dl.away_le hb.lov hb.hiv)
    show x + w = x + v
    rw [add_absorb hb.fv fv b1 hk hs.1 g, add_absorb hb.fv fw b2 hk hs.2 g]
  · simp only [Option.some.injEq] at h
    subst h
    have g := c0.2.2.trans_le (Dl.away_le hb.lov hb.hiv)
    obtain ⟨v0, w0⟩ := zero_vals ha c0.1 c0.2.1
    show x + w = x + v
    rw [add_nothing hb.fv fv b1 v0 g, add_nothing hb.fv fw b2 w0 g]
  · simp only [Option.some.injEq] at h
    subst h
    refine ⟨hk, ?_⟩
    obtain ⟨n, hn⟩ := hb.gv
    by_cases n0 : n = 0
    · right
      rw [n0] at hn
      have x0 : x.val = 0 := by rw [hn]; simp
      constructor
      · rw [(addS hb.fv fv b1).2]
        exact rnd_pow2 hk b1 (by rw [x0, zero_add]; exact hs.1)
      · rw [(addS hb.fv fw b2).2]
        exact rnd_pow2 hk b2 (by rw [x0, zero_add]; exact hs.2)
    · left
      have g : p2 (k + f.mb + 3) ≤ |x.val| := by
        rw [hn, abs_mul, abs_of_pos (p2_pos _)]
        have : (1 : ℚ) ≤ |(n : ℚ)| := by exact_mod_cast Int.one_le_abs n0
        nlinarith [p2_le c2, p2_pos b.g]
      rw [add_absorb hb.fv fv b1 hk hs.1 g, add_absorb hb.fv fw b2 hk hs.2 g]

/-- Two equal results are related. -/
theorem Rel.same {t : Option ℤ} (v : FP f) (ht : ∀ k, t = some k → f.emin ≤ k) : Rel f t v v := by
  cases t with
  | none => rfl
  | some k => exact ⟨ht k rfl, Or.inl rfl⟩

theorem absorb_ge {k : ℤ} {t : Option ℤ} (h : absorb f k a b = some t) (hk : f.emin ≤ k) : ∀ j, t = some j → f.emin ≤ j := by
  unfold absorb at h
  split_ifs at h with c1 c0 c2
  · simp only [Option.some.injEq] at h; subst h; intro j hj; cases hj
  · simp only [Option.some.injEq] at h; subst h; intro j hj; cases hj
  · simp only [Option.some.injEq] at h; subst h; intro j hj; cases hj; exact hk

theorem le_size {q lo hi : ℚ} (h1 : lo ≤ q) (h2 : q ≤ hi) : |q| ≤ p2 (size f lo hi) := by
  have l := Dl.abs_le_M h1 h2
  unfold size
  simp only
  split_ifs with c
  · exact l.trans ((ilog2_spec c).2.le.trans (p2_le (le_max_right _ _)))
  · push Not at c
    exact (l.trans c).trans (p2_pos _).le

theorem size_ge (lo hi : ℚ) : f.emin ≤ size f lo hi := by
  unfold size
  simp only
  split_ifs
  · exact le_max_left _ _
  · exact le_rfl

theorem add_sound [f.Ok] (ha : a.Sound v w) (hb : b.Sound x y) (h : add f a b = some r) : r.Sound (v + x) (w + y) := by
  unfold add at h
  obtain ⟨t, ht, h⟩ : ∃ t, (addT f a b = some t ∨ t = some (size f (a.lo + b.lo) (a.hi + b.hi))) ∧
      round f (a.lo + b.lo) (a.hi + b.hi) (min a.g b.g) t = some r := by
    cases e : addT f a b with
    | none => rw [e] at h; exact ⟨_, Or.inr rfl, h⟩
    | some t => rw [e] at h; exact ⟨_, Or.inl rfl, h⟩
  have h1 : a.lo + b.lo ≤ v.val + x.val := by linarith [ha.lov, hb.lov]
  have h2 : v.val + x.val ≤ a.hi + b.hi := by linarith [ha.hiv, hb.hiv]
  have h3 : a.lo + b.lo ≤ w.val + y.val := by linarith [ha.low, hb.low]
  have h4 : w.val + y.val ≤ a.hi + b.hi := by linarith [ha.hiw, hb.hiw]
  have c : max |a.lo + b.lo| |a.hi + b.hi| ≤ f.big := by
    unfold round at h; by_contra c; rw [if_neg c] at h; cases h
  have b1 := (Dl.abs_le_M h1 h2).trans c
  have b2 := (Dl.abs_le_M h3 h4).trans c
  refine round_sound h h1 h2 h3 h4 (Or.inl (Dl.mult_add ha.gv hb.gv)) (fun hq => addS ha.fv hb.fv hq) (fun hq => addS ha.fw hb.fw hq) ?_
  rcases ht with ht | ht
  swap
  · subst ht
    refine ⟨size_ge _ _, Or.inr ⟨?_, ?_⟩⟩
    · rw [(addS ha.fv hb.fv b1).2]; exact rnd_pow2 (size_ge _ _) b1 (le_size h1 h2)
    · rw [(addS ha.fw hb.fw b2).2]; exact rnd_pow2 (size_ge _ _) b2 (le_size h3 h4)
  have ra := ha.rel
  have rb := hb.rel
  unfold addT at ht
  cases ta : a.t with
  | none =>
    rw [ta] at ht ra
    simp only [Rel] at ra
    subst ra
    cases tb : b.t with
    | none =>
      rw [tb] at ht rb
      simp only [Rel] at rb
      subst rb
      simp only [Option.some.injEq] at ht
      subst ht
      rfl
    | some k =>
      rw [tb] at ht rb
      obtain ⟨hk, rb⟩ := rb
      rcases rb with rb | rb
      · subst rb; exact Rel.same _ (absorb_ge ht hk)
      · exact absorb_rel' ht hk ⟨ha.fv, ha.fv, ha.lov, ha.hiv, ha.lov, ha.hiv, ha.gv, by rw [ta]; rfl⟩ hb hb.fv hb.fw b1 b2 rb
  | some k =>
    rw [ta] at ht ra
    cases tb : b.t with
    | some j => rw [tb] at ht; cases ht
    | none =>
      rw [tb] at ht rb
      simp only [Rel] at rb
      subst rb
      obtain ⟨hk, ra⟩ := ra
      rcases ra with ra | ra
      · subst ra; exact Rel.same _ (absorb_ge ht hk)
      · exact absorb_rel ht hk ⟨hb.fv, hb.fv, hb.lov, hb.hiv, hb.lov, hb.hiv, hb.gv, by rw [tb]; rfl⟩ ha ha.fv ha.fw b1 b2 ra

theorem neg_sound (h : a.Sound v w) : a.neg.Sound (-v) (-w) := by
  have e : ∀ z : FP f, (-z).val = -z.val := fun z => by rw [neg_def, val_neg]
  refine ⟨by rw [neg_def]; simpa using h.fv, by rw [neg_def]; simpa using h.fw, ?_, ?_, ?_, ?_, ?_, ?_⟩
  · simp only [neg, e]; linarith [h.hiv]
  · simp only [neg, e]; linarith [h.lov]
  · simp only [neg, e]; linarith [h.hiw]
  · simp only [neg, e]; linarith [h.low]
  · obtain ⟨n, hn⟩ := h.gv; exact ⟨-n, by rw [e, hn]; push_cast; simp only [neg]; ring⟩
  · have r := h.rel
    show Rel f a.t (-v) (-w)
    cases t : a.t with
    | none => rw [t] at r; simp only [Rel] at r ⊢; rw [r]
    | some k =>
      rw [t] at r
      obtain ⟨hk, r⟩ := r
      refine ⟨hk, ?_⟩
      rw [e, e, abs_neg, abs_neg]
      rcases r with r | r
      · left; rw [r]
      · right; exact r

theorem sub_sound [f.Ok] (ha : a.Sound v w) (hb : b.Sound x y) (h : add f a b.neg = some r) : r.Sound (v - x) (w - y) :=
  add_sound ha (neg_sound hb) h

theorem top_le (h1 : a.lo ≤ v.val) (h2 : v.val ≤ a.hi) : |v.val| ≤ p2 a.top := by
  have l := Dl.abs_le_M h1 h2
  unfold top
  simp only
  split_ifs with c
  · exact l.trans (ilog2_spec c).2.le
  · exact (l.trans (not_lt.1 c)).trans (p2_pos _).le

theorem mul_small [f.Ok] {k j : ℤ} (fv : v.isFinite = true) (fx : x.isFinite = true) (hb : |v.val * x.val| ≤ f.big) (h1 : |v.val| ≤ p2 k)
    (h2 : |x.val| ≤ p2 j) {n : ℤ} (he : f.emin ≤ n) (hn : k + j ≤ n) : |(v * x).val| ≤ p2 n := by
  rw [(mulS fv fx hb).2]
  refine rnd_pow2 he hb ?_
  rw [abs_mul]
  calc |v.val| * |x.val| ≤ p2 k * p2 j := mul_le_mul h1 h2 (abs_nonneg _) (p2_pos _).le
    _ = p2 (k + j) := (p2_add _ _).symm
    _ ≤ p2 n := p2_le hn

theorem mul_sound [f.Ok] (ha : a.Sound v w) (hb : b.Sound x y) (h : mul f a b = some r) : r.Sound (v * x) (w * y) := by
  have p1 := Dl.mul4 ha.lov ha.hiv hb.lov hb.hiv
  have p2' := Dl.mul4 ha.low ha.hiw hb.low hb.hiw
  have c : max |Dl.min4 a.lo a.hi b.lo b.hi| |Dl.max4 a.lo a.hi b.lo b.hi| ≤ f.big := by
    unfold mul round at h; by_contra c; rw [if_neg c] at h; cases h
  have b1 := (Dl.abs_le_M p1.1 p1.2).trans c
  have b2 := (Dl.abs_le_M p2'.1 p2'.2).trans c
  have g : ∃ n : ℤ, v.val * x.val = n * p2 (a.g + b.g) := by
    obtain ⟨n, hn⟩ := ha.gv
    obtain ⟨i, hi⟩ := hb.gv
    exact ⟨n * i, by rw [hn, hi, p2_add]; push_cast; ring⟩
  refine round_sound h p1.1 p1.2 p2'.1 p2'.2 (Or.inl g) (fun hq => mulS ha.fv hb.fv hq) (fun hq => mulS ha.fw hb.fw hq) ?_
  have ra := ha.rel
  have rb := hb.rel
  have tv := top_le ha.lov ha.hiv
  have tw := top_le ha.low ha.hiw
  have tx := top_le hb.lov hb.hiv
  have ty := top_le hb.low hb.hiw
  unfold mulT
  cases ta : a.t with
  | none =>
    rw [ta] at ra
    simp only [Rel] at ra
    subst ra
    cases tb : b.t with
    | none =>
      rw [tb] at rb
      simp only [Rel] at rb
      subst rb
      rfl
    | some k =>
      rw [tb] at rb
      obtain ⟨hk, rb⟩ := rb
      refine ⟨le_max_left _ _, ?_⟩
      rcases rb with rb | rb
      · left; rw [rb]
      · right
        exact ⟨mul_small ha.fv hb.fv b1 tv rb.1 (le_max_left _ _) (by rw [add_comm]; exact le_max_right _ _),
          mul_small ha.fv hb.fw b2 tv rb.2 (le_max_left _ _) (by rw [add_comm]; exact le_max_right _ _)⟩
  | some k =>
    rw [ta] at ra
    obtain ⟨hk, ra⟩ := ra
    cases tb : b.t with
    | none =>
      rw [tb] at rb
      simp only [Rel] at rb
      subst rb
      refine ⟨le_max_left _ _, ?_⟩
      rcases ra with ra | ra
      · left; rw [ra]
      · right
        exact ⟨mul_small ha.fv hb.fv b1 ra.1 tx (le_max_left _ _) (le_max_right _ _),
          mul_small ha.fw hb.fv b2 ra.2 tx (le_max_left _ _) (le_max_right _ _)⟩
    | some j =>
      rw [tb] at rb
      obtain ⟨hj, rb⟩ := rb
      refine ⟨le_max_left _ _, ?_⟩
      rcases ra with ra | ra
      · rcases rb with rb | rb
        · left; rw [ra, rb]
        · right
          have n : j + a.top ≤ max f.emin (max (k + b.top) (j + a.top)) := (le_max_right _ _).trans (le_max_right _ _)
          exact ⟨mul_small ha.fv hb.fv b1 tv rb.1 (le_max_left _ _) (by rw [add_comm]; exact n),
            mul_small ha.fw hb.fw b2 tw rb.2 (le_max_left _ _) (by rw [add_comm]; exact n)⟩
      · right
        have n : k + b.top ≤ max f.emin (max (k + b.top) (j + a.top)) := (le_max_left _ _).trans (le_max_right _ _)
        exact ⟨mul_small ha.fv hb.fv b1 ra.1 tx (le_max_left _ _) n, mul_small ha.fw hb.fw b2 ra.2 ty (le_max_left _ _) n⟩

theorem div_small [f.Ok] {k j : ℤ} (fv : v.isFinite = true) (fx : x.isFinite = true) (hb : |v.val / x.val| ≤ f.big) (h1 : |v.val| ≤ p2 k)
    (h2 : p2 j ≤ |x.val|) {n : ℤ} (he : f.emin ≤ n) (hn : k - j ≤ n) : |(v / x).val| ≤ p2 n := by
  have x0 : x.val ≠ 0 := abs_pos.1 ((p2_pos _).trans_le h2)
  rw [(divS fv fx x0 hb).2]
  refine rnd_pow2 he hb ?_
  rw [abs_div]
  calc |v.val| / |x.val| ≤ p2 k / p2 j := div_le_div₀ (p2_pos _).le h1 (p2_pos _) h2
    _ = p2 (k - j) := by rw [div_eq_iff (p2_ne _), ← p2_add]; congr 1; ring
    _ ≤ p2 n := p2_le hn

theorem div_sound [f.Ok] (ha : a.Sound v w) (hb : b.Sound x y) (h : div f a b = some r) : r.Sound (v / x) (w / y) := by
  unfold div at h
  by_cases c0 : 0 < Dl.away b.lo b.hi ∧ b.t = none
  · rw [if_pos c0] at h
    obtain ⟨c1, c2⟩ := c0
    have rb := hb.rel
    rw [c2] at rb
    simp only [Rel] at rb
    subst rb
    obtain ⟨x1, x2, x0⟩ := Dl.inv_between c1 hb.lov hb.hiv
    have q1 := Dl.mul4 ha.lov ha.hiv x1 x2
    have q2 := Dl.mul4 ha.low ha.hiw x1 x2
    rw [← div_eq_mul_one_div] at q1 q2
    have c : max |Dl.min4 a.lo a.hi (1 / b.hi) (1 / b.lo)| |Dl.max4 a.lo a.hi (1 / b.hi) (1 / b.lo)| ≤ f.big := by
      unfold round at h; by_contra c; rw [if_neg c] at h; cases h
    have b1 := (Dl.abs_le_M q1.1 q1.2).trans c
    have b2 := (Dl.abs_le_M q2.1 q2.2).trans c
    have lx : p2 (ilog2 (Dl.away b.lo b.hi)) ≤ |y.val| := (ilog2_spec c1).1.trans (Dl.away_le hb.lov hb.hiv)
    have g0 : (∃ n : ℤ, v.val / y.val = n * p2 (if a.lo = 0 ∧ a.hi = 0 then 0 else f.emin - f.mb)) ∨
        (if a.lo = 0 ∧ a.hi = 0 then 0 else f.emin - f.mb) ≤ f.emin - (f.mb : ℤ) := by
      by_cases c : a.lo = 0 ∧ a.hi = 0
      · left
        refine ⟨0, ?_⟩
        have l := ha.lov
        have u := ha.hiv
        rw [c.1] at l
        rw [c.2] at u
        rw [le_antisymm u l, zero_div, Int.cast_zero, zero_mul]
      · right; rw [if_neg c]
    refine round_sound h q1.1 q1.2 q2.1 q2.2 g0 (fun hq => divS ha.fv hb.fv x0 hq) (fun hq => divS ha.fw hb.fv x0 hq) ?_
    have ra := ha.rel
    cases ta : a.t with
    | none =>
      rw [ta] at ra
      simp only [Rel] at ra
      subst ra
      rfl
    | some k =>
      rw [ta] at ra
      obtain ⟨hk, ra⟩ := ra
      refine ⟨le_max_left _ _, ?_⟩
      rcases ra with ra | ra
      · left; rw [ra]
      · right
        exact ⟨div_small ha.fv hb.fv b1 ra.1 lx (le_max_left _ _) (le_max_right _ _),
          div_small ha.fw hb.fv b2 ra.2 lx (le_max_left _ _) (le_max_right _ _)⟩
  · rw [if_neg c0] at h; cases h

theorem const_sound [f.Ok] {c : FP f} (h : const c = some r) : r.Sound c c := by
  unfold const at h
  split_ifs at h with hc h0
  · simp only [Option.some.injEq] at h
    subst h
    exact ⟨hc, hc, le_rfl, le_rfl, le_rfl, le_rfl, ⟨0, by rw [h0]; simp⟩, rfl⟩
  · simp only [Option.some.injEq] at h
    subst h
    exact ⟨hc, hc, le_rfl, le_rfl, le_rfl, le_rfl, Dl.place_sound (v := c) (le_refl |c.val|), rfl⟩

end Az

theorem anZ_sound [f.Ok] (hm : m.Ok) {env : ℕ → Option Az} {s t : ℕ → FP f} (he : ∀ i r, env i = some r → r.Sound (s i) (t i)) :
    ∀ (e : E f) (r : Az), anZ f env e = some r → r.Sound (e.evalF s) (evalZ m t e).v := by
  intro e
  induction e with
  | var i => exact fun r h => he i r h
  | const c => exact fun r h => Az.const_sound h
  | add a b ha hb =>
    intro r h
    simp only [anZ, Option.bind_eq_some_iff, Option.map_eq_some_iff] at h
    obtain ⟨x, hx, y, hy, z, hz, h⟩ := h
    subst h
    exact Az.res_sound hm (Az.add_sound (Az.arg_sound hm (ha x hx)) (Az.arg_sound hm (hb y hy)) hz)
  | sub a b ha hb =>
    intro r h
    simp only [anZ, Option.bind_eq_some_iff, Option.map_eq_some_iff] at h
    obtain ⟨x, hx, y, hy, z, hz, h⟩ := h
    subst h
    exact Az.res_sound hm (Az.sub_sound (Az.arg_sound hm (ha x hx)) (Az.arg_sound hm (hb y hy)) hz)
  | mul a b ha hb =>
    intro r h
    simp only [anZ, Option.bind_eq_some_iff, Option.map_eq_some_iff] at h
    obtain ⟨x, hx, y, hy, z, hz, h⟩ := h
    subst h
    exact Az.res_sound hm (Az.mul_sound (Az.arg_sound hm (ha x hx)) (Az.arg_sound hm (hb y hy)) hz)
  | div a b ha hb =>
    intro r h
    simp only [anZ, Option.bind_eq_some_iff, Option.map_eq_some_iff] at h
    obtain ⟨x, hx, y, hy, z, hz, h⟩ := h
    subst h
    exact Az.res_sound hm (Az.div_sound (Az.arg_sound hm (ha x hx)) (Az.arg_sound hm (hb y hy)) hz)
  | neg a ha =>
    intro r h
    simp only [anZ, Option.map_eq_some_iff] at h
    obtain ⟨x, hx, h⟩ := h
    subst h
    exact Az.neg_sound (ha x hx)
  | scale c a ha =>
    intro r h
    simp only [anZ, Option.bind_eq_some_iff, Option.map_eq_some_iff] at h
    obtain ⟨x, hx, y, hy, z, hz, h⟩ := h
    subst h
    exact Az.res_sound hm (Az.mul_sound (Az.arg_sound hm (Az.const_sound hx)) (Az.arg_sound hm (ha y hy)) hz)
  | scaleR a c ha =>
    intro r h
    simp only [anZ, Option.bind_eq_some_iff, Option.map_eq_some_iff] at h
    obtain ⟨x, hx, y, hy, z, hz, h⟩ := h
    subst h
    exact Az.res_sound hm (Az.mul_sound (Az.arg_sound hm (ha x hx)) (Az.arg_sound hm (Az.const_sound hy)) hz)

/-- The result is the same with and without flushing. -/
theorem anZ_same [f.Ok] (hm : m.Ok) {env : ℕ → Option Az} {s t : ℕ → FP f} (he : ∀ i r, env i = some r → r.Sound (s i) (t i)) {e : E f}
    (h : (anZ f env e).any (fun r => r.t.isNone) = true) : (evalZ m t e).v = e.evalF s := by
  cases hr : anZ f env e with
  | none => rw [hr] at h; cases h
  | some r =>
    rw [hr] at h
    simp only [Option.any_some, Option.isNone_iff_eq_none] at h
    have := (anZ_sound hm he e r hr).rel
    rw [h] at this
    exact this

end Vdt.Flush
