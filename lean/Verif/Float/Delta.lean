import Verif.Float.Analyse
import Verif.Lemmas.AtanQuot

/-!
# A verified analyser for differences

Error bounds do not show that code is monotone between neighbouring arguments: two errors of half a
unit may add up.  This analyser follows two evaluations of the same straight-line code side by side.
It encloses both computed values and their difference, and remembers a power of two that divides
both values.  Rounding is monotone, so a difference keeps its sign, and a rounded difference is a
multiple of the last place.
-/

namespace Vdt
open FP
variable {f : Fmt}

/-- Both values lie in `[lo, hi]` and are multiples of `2^g`; the second minus the first lies in
`[dlo, dhi]`. -/
structure Dl where
  lo : ℚ
  hi : ℚ
  dlo : ℚ
  dhi : ℚ
  g : ℤ
deriving Repr

namespace Dl

structure Sound (r : Dl) (v w : FP f) : Prop where
  fv : v.isFinite = true
  fw : w.isFinite = true
  lov : r.lo ≤ v.val
  hiv : v.val ≤ r.hi
  low : r.lo ≤ w.val
  hiw : w.val ≤ r.hi
  dl : r.dlo ≤ w.val - v.val
  dh : w.val - v.val ≤ r.dhi
  gv : ∃ n : ℤ, v.val = n * p2 r.g
  gw : ∃ n : ℤ, w.val = n * p2 r.g

/-- The exponent of the last place of every number of at least this size. -/
def place (f : Fmt) (m : ℚ) : ℤ := (if 0 < m then rexp f m else f.emin) - f.mb

/-- How far an interval stays away from zero. -/
def away (lo hi : ℚ) : ℚ := if 0 < lo then lo else if hi < 0 then -hi else 0

/-- Rounding keeps the sign of a difference. -/
def capLo (d l : ℚ) : ℚ := if 0 ≤ d then max 0 l else l
def capHi (d h : ℚ) : ℚ := if d ≤ 0 then min 0 h else h

/-- Rounding of two results that lie in `[lo, hi]`; `g` is a common divisor if one is known. -/
def round (f : Fmt) (lo hi dlo dhi : ℚ) (g : Option ℤ) : Option Dl :=
  let M := max |lo| |hi|
  if 0 < M ∧ M ≤ f.big then
    let e := rexp f M - f.mb
    let exact := match g with
      | some g => decide (e ≤ g)
      | none => false
    if exact then some ⟨lo, hi, dlo, dhi, g.getD 0⟩
    else
      let k := place f (away lo hi)
      let u := p2 k
      let l := ⌈(dlo - p2 e) / u⌉ * u
      let h := ⌊(dhi + p2 e) / u⌋ * u
      some ⟨rnd f lo, rnd f hi, capLo dlo l, capHi dhi h, k⟩
  else none

def min4 (a b c d : ℚ) : ℚ := min (min (a * c) (a * d)) (min (b * c) (b * d))
def max4 (a b c d : ℚ) : ℚ := max (max (a * c) (a * d)) (max (b * c) (b * d))

def add (f : Fmt) (a b : Dl) : Option Dl := round f (a.lo + b.lo) (a.hi + b.hi) (a.dlo + b.dlo) (a.dhi + b.dhi) (some (min a.g b.g))
def neg (a : Dl) : Dl := ⟨-a.hi, -a.lo, -a.dhi, -a.dlo, a.g⟩
def mul (f : Fmt) (a b : Dl) : Option Dl :=
  round f (min4 a.lo a.hi b.lo b.hi) (max4 a.lo a.hi b.lo b.hi)
    (min4 a.lo a.hi b.dlo b.dhi + min4 b.lo b.hi a.dlo a.dhi) (max4 a.lo a.hi b.dlo b.dhi + max4 b.lo b.hi a.dlo a.dhi) (some (a.g + b.g))
def div (f : Fmt) (a b : Dl) : Option Dl :=
  if 0 < away b.lo b.hi then
    let il := 1 / b.hi
    let ih := 1 / b.lo
    let ql := min4 a.lo a.hi il ih
    let qh := max4 a.lo a.hi il ih
    let tl := min4 b.dlo b.dhi il ih
    let th := max4 b.dlo b.dhi il ih
    round f ql qh (min4 a.dlo a.dhi il ih - max4 tl th ql qh) (max4 a.dlo a.dhi il ih - min4 tl th ql qh) none
  else none
def const (c : FP f) : Option Dl := if c.isFinite then some ⟨c.val, c.val, 0, 0, place f |c.val|⟩ else none

end Dl

/-- The analyser. -/
def anD (f : Fmt) (env : ℕ → Option Dl) : E f → Option Dl
  | .var i => env i
  | .const c => Dl.const c
  | .add a b => (anD f env a).bind fun x => (anD f env b).bind fun y => Dl.add f x y
  | .sub a b => (anD f env a).bind fun x => (anD f env b).bind fun y => Dl.add f x y.neg
  | .mul a b => (anD f env a).bind fun x => (anD f env b).bind fun y => Dl.mul f x y
  | .div a b => (anD f env a).bind fun x => (anD f env b).bind fun y => Dl.div f x y
  | .neg a => (anD f env a).map Dl.neg
  | .scale c a => (Dl.const c).bind fun x => (anD f env a).bind fun y => Dl.mul f x y
  | .scaleR a c => (anD f env a).bind fun x => (Dl.const c).bind fun y => Dl.mul f x y

namespace Dl

theorem place_sound [f.Ok] {m : ℚ} {v : FP f} (h : m ≤ |v.val|) : ∃ n : ℤ, v.val = n * p2 (place f m) := by
  have hsub : ∃ n : ℤ, v.val = n * p2 (f.emin - f.mb) := by
    obtain ⟨e, k, he, hk, hn, hc⟩ := code_cases f v.mag
    have hv := magVal_code f he hk.le hn
    rw [← hc] at hv
    have hp : p2 (e - f.mb) = ((2 ^ (e - f.emin).toNat : ℤ) : ℚ) * p2 (f.emin - f.mb) := by
      rw [Int.cast_pow, Int.cast_ofNat, ← p2_nat, ← p2_add]; congr 1; omega
    unfold FP.val
    rw [hv, hp]
    cases v.sign
    · exact ⟨k * 2 ^ (e - f.emin).toNat, by simp only [Bool.false_eq_true, if_false]; push_cast; ring⟩
    · exact ⟨-(k * 2 ^ (e - f.emin).toNat), by simp only [if_true]; push_cast; ring⟩
  unfold place
  split_ifs with hm
  · unfold rexp
    rcases le_total (ilog2 m) f.emin with c | c
    · rw [max_eq_right c]; exact hsub
    · rw [max_eq_left c]
      exact mult_of_ge ((ilog2_spec hm).1.trans h)
  · exact hsub

theorem away_le {lo hi q : ℚ} (h1 : lo ≤ q) (h2 : q ≤ hi) : away lo hi ≤ |q| := by
  unfold away
  split_ifs with a b
  · exact h1.trans (le_abs_self q)
  · exact (neg_le_neg h2).trans (neg_le_abs q)
  · exact abs_nonneg q

theorem abs_le_M {lo hi q : ℚ} (h1 : lo ≤ q) (h2 : q ≤ hi) : |q| ≤ max |lo| |hi| := by
  rcases le_total 0 q with h | h
  · rw [abs_of_nonneg h]; exact h2.trans ((le_abs_self _).trans (le_max_right _ _))
  · rw [abs_of_nonpos h]; exact (neg_le_neg h1).trans ((neg_le_abs _).trans (le_max_left _ _))

/-- Rounding keeps a power of two in front of a number. -/
theorem rnd_away [f.Ok] {m q : ℚ} (h : m ≤ |q|) (hb : |q| ≤ f.big) :
    place f m = f.emin - f.mb ∨ p2 (place f m + f.mb) ≤ |rnd f q| := by
  unfold place
  split_ifs with hm
  · unfold rexp
    rcases le_total (ilog2 m) f.emin with c | c
    · left; rw [max_eq_right c]
    · right
      rw [max_eq_left c, sub_add_cancel]
      have k := (ilog2_spec hm).1.trans h
      have r : rnd f (p2 (ilog2 m)) = p2 (ilog2 m) := by
        refine rnd_exact f ⟨1, ilog2 m, by simp, ?_, by omega⟩ (by rw [abs_of_pos (p2_pos _)]; exact k.trans hb)
        simp only [abs_one]; exact one_le_pow₀ (by norm_num)
      rcases le_total 0 q with h0 | h0
      · rw [abs_of_nonneg h0] at k
        have := rnd_mono f k
        rw [r] at this
        exact this.trans (le_abs_self _)
      · rw [abs_of_nonpos h0] at k
        have := rnd_mono f k
        rw [r, rnd_neg] at this
        exact this.trans (neg_le_abs _)
  · left; rfl

theorem round_sound [f.Ok] {lo hi dlo dhi : ℚ} {g : Option ℤ} {r : Dl} (h : round f lo hi dlo dhi g = some r) {q p : ℚ} {v w : FP f}
    (h1 : lo ≤ q) (h2 : q ≤ hi) (h3 : lo ≤ p) (h4 : p ≤ hi) (h5 : dlo ≤ p - q) (h6 : p - q ≤ dhi)
    (hg : ∀ k, g = some k → (∃ n : ℤ, q = n * p2 k) ∧ ∃ n : ℤ, p = n * p2 k)
    (hv : |q| ≤ f.big → v.isFinite = true ∧ v.val = rnd f q) (hw : |p| ≤ f.big → w.isFinite = true ∧ w.val = rnd f p) : r.Sound v w := by
  unfold round at h
  simp only at h
  split_ifs at h with c1 c2
  · -- exact results
    obtain ⟨M0, Mb⟩ := c1
    have aq := abs_le_M h1 h2
    have ap := abs_le_M h3 h4
    obtain ⟨v1, v2⟩ := hv (aq.trans Mb)
    obtain ⟨w1, w2⟩ := hw (ap.trans Mb)
    cases g with
    | none => simp at c2
    | some k =>
      simp only [decide_eq_true_eq] at c2
      obtain ⟨⟨n, hn⟩, m, hm⟩ := hg k rfl
      have ex : ∀ {z : ℚ} {i : ℤ}, z = i * p2 k → |z| ≤ max |lo| |hi| → rnd f z = z := by
        intro z i hz hzM
        refine rnd_exact f ⟨i, k, hz, ?_, ?_⟩ (hzM.trans Mb)
        · have t : |z| < p2 (rexp f (max |lo| |hi|) + 1) := by
            refine hzM.trans_lt ((ilog2_spec M0).2.trans_le (p2_le ?_))
            unfold rexp; omega
          rw [hz, abs_mul, abs_of_pos (p2_pos k)] at t
          have s : p2 (rexp f (max |lo| |hi|) + 1) ≤ 2 ^ (f.mb + 1) * p2 k := by
            rw [← p2_nat, ← p2_add]; exact p2_le (by push_cast; omega)
          have := lt_of_mul_lt_mul_right (t.trans_le s) (p2_pos k).le
          have : ((|i| : ℤ) : ℚ) < ((2 ^ (f.mb + 1) : ℤ) : ℚ) := by push_cast; exact this
          exact (by exact_mod_cast this : |i| < 2 ^ (f.mb + 1)).le
        · have := rexp_ge f (max |lo| |hi|)
          omega
      rw [ex hn aq] at v2
      rw [ex hm ap] at w2
      simp only [Option.some.injEq] at h
      subst h
      exact ⟨v1, w1, v2 ▸ h1, v2 ▸ h2, w2 ▸ h3, w2 ▸ h4, by rw [v2, w2]; exact h5, by rw [v2, w2]; exact h6, ⟨n, by rw [v2]; exact hn⟩, ⟨m, by rw [w2]; exact hm⟩⟩
  · obtain ⟨M0, Mb⟩ := c1
    have aq := abs_le_M h1 h2
    have ap := abs_le_M h3 h4
    obtain ⟨v1, v2⟩ := hv (aq.trans Mb)
    obtain ⟨w1, w2⟩ := hw (ap.trans Mb)
    simp only [Option.some.injEq] at h
    subst h
    have mult : ∀ {z : ℚ} {x : FP f}, x.val = rnd f z → lo ≤ z → z ≤ hi → ∃ n : ℤ, x.val = n * p2 (place f (away lo hi)) := by
      intro z x hx a b
      rcases rnd_away (away_le a b) ((abs_le_M a b).trans Mb) with c | c
      · rw [c]
        obtain ⟨n, hn⟩ := place_sound (m := 0) (v := x) (abs_nonneg _)
        exact ⟨n, by rw [hn]; unfold place; simp⟩
      · rw [← hx] at c
        obtain ⟨n, hn⟩ := mult_of_ge c
        exact ⟨n, by rw [hn]; congr 2; ring⟩
    obtain ⟨n, hn⟩ := mult v2 h1 h2
    obtain ⟨m, hm⟩ := mult w2 h3 h4
    have he : p2 (rexp f (max |lo| |hi|) - f.mb) = 2 * hulp f (max |lo| |hi|) := by
      unfold hulp
      rw [← p2_succ]; congr 1; ring
    have e1 := abs_le.1 (rnd_err f M0 aq Mb)
    have e2 := abs_le.1 (rnd_err f M0 ap Mb)
    rw [← v2] at e1
    rw [← w2] at e2
    have u0 := p2_pos (place f (away lo hi))
    set u := p2 (place f (away lo hi)) with hu
    have L : ⌈(dlo - p2 (rexp f (max |lo| |hi|) - f.mb)) / u⌉ * u ≤ w.val - v.val := by
      rw [hn, hm, ← sub_mul]
      refine mul_le_mul_of_nonneg_right ?_ u0.le
      have : ⌈(dlo - p2 (rexp f (max |lo| |hi|) - f.mb)) / u⌉ ≤ m - n := by
        rw [Int.ceil_le, div_le_iff₀ u0]
        push_cast
        rw [sub_mul, ← hn, ← hm, he]; linarith
      exact_mod_cast this
    have H : w.val - v.val ≤ ⌊(dhi + p2 (rexp f (max |lo| |hi|) - f.mb)) / u⌋ * u := by
      rw [hn, hm, ← sub_mul]
      refine mul_le_mul_of_nonneg_right ?_ u0.le
      have : m - n ≤ ⌊(dhi + p2 (rexp f (max |lo| |hi|) - f.mb)) / u⌋ := by
        rw [Int.le_floor, le_div_iff₀ u0]
        push_cast
        rw [sub_mul, ← hn, ← hm, he]; linarith
      exact_mod_cast this
    refine ⟨v1, w1, ?_, ?_, ?_, ?_, ?_, ?_, ⟨n, hn⟩, ⟨m, hm⟩⟩
    · rw [v2]; exact rnd_mono f h1
    · rw [v2]; exact rnd_mono f h2
    · rw [w2]; exact rnd_mono f h3
    · rw [w2]; exact rnd_mono f h4
    · unfold capLo
      split_ifs with c
      · refine max_le ?_ L
        have := rnd_mono f (show q ≤ p by linarith)
        rw [v2, w2]; linarith
      · exact L
    · unfold capHi
      split_ifs with c
      · refine le_min ?_ H
        have := rnd_mono f (show p ≤ q by linarith)
        rw [v2, w2]; linarith
      · exact H

theorem mul4 {a b c d x y : ℚ} (h1 : a ≤ x) (h2 : x ≤ b) (h3 : c ≤ y) (h4 : y ≤ d) : min4 a b c d ≤ x * y ∧ x * y ≤ max4 a b c d := by
  unfold min4 max4
  constructor
  · rcases le_total 0 y with hy | hy
    · rcases le_total 0 a with ha | ha
      · exact ((min_le_left _ _).trans (min_le_left _ _)).trans (by nlinarith : a * c ≤ x * y)
      · exact ((min_le_left _ _).trans (min_le_right _ _)).trans (by nlinarith : a * d ≤ x * y)
    · rcases le_total 0 b with hb | hb
      · exact ((min_le_right _ _).trans (min_le_left _ _)).trans (by nlinarith : b * c ≤ x * y)
      · exact ((min_le_right _ _).trans (min_le_right _ _)).trans (by nlinarith : b * d ≤ x * y)
  · rcases le_total 0 y with hy | hy
    · rcases le_total 0 b with hb | hb
      · exact (by nlinarith : x * y ≤ b * d).trans ((le_max_right _ _).trans (le_max_right _ _))
      · exact (by nlinarith : x * y ≤ b * c).trans ((le_max_left _ _).trans (le_max_right _ _))
    · rcases le_total 0 a with ha | ha
      · exact (by nlinarith : x * y ≤ a * d).trans ((le_max_right _ _).trans (le_max_left _ _))
      · exact (by nlinarith : x * y ≤ a * c).trans ((le_max_left _ _).trans (le_max_left _ _))

theorem mult_add {k j : ℤ} {x y : ℚ} (hx : ∃ n : ℤ, x = n * p2 k) (hy : ∃ n : ℤ, y = n * p2 j) : ∃ n : ℤ, x + y = n * p2 (min k j) := by
  obtain ⟨n, rfl⟩ := hx
  obtain ⟨m, rfl⟩ := hy
  have e : ∀ i : ℤ, min k j ≤ i → p2 i = ((2 ^ (i - min k j).toNat : ℤ) : ℚ) * p2 (min k j) := by
    intro i hi
    rw [Int.cast_pow, Int.cast_ofNat, ← p2_nat, ← p2_add]; congr 1; omega
  refine ⟨n * 2 ^ (k - min k j).toNat + m * 2 ^ (j - min k j).toNat, ?_⟩
  rw [e k (min_le_left _ _), e j (min_le_right _ _)]
  push_cast; ring

variable {a b r : Dl} {v w x y : FP f}

theorem neg_sound (h : a.Sound v w) : a.neg.Sound (-v) (-w) := by
  have e : ∀ z : FP f, (-z).val = -z.val := fun z => by rw [neg_def, val_neg]
  refine ⟨by rw [neg_def]; simpa using h.fv, by rw [neg_def]; simpa using h.fw, ?_, ?_, ?_, ?_, ?_, ?_, ?_, ?_⟩
  all_goals simp only [neg, e]
  · linarith [h.hiv]
  · linarith [h.lov]
  · linarith [h.hiw]
  · linarith [h.low]
  · linarith [h.dh]
  · linarith [h.dl]
  · obtain ⟨n, hn⟩ := h.gv; exact ⟨-n, by rw [hn]; push_cast; ring⟩
  · obtain ⟨n, hn⟩ := h.gw; exact ⟨-n, by rw [hn]; push_cast; ring⟩

theorem add_sound [f.Ok] (ha : a.Sound v w) (hb : b.Sound x y) (h : add f a b = some r) : r.Sound (v + x) (w + y) := by
  refine round_sound h (q := v.val + x.val) (p := w.val + y.val) ?_ ?_ ?_ ?_ ?_ ?_ ?_ (fun hq => addS ha.fv hb.fv hq) (fun hq => addS ha.fw hb.fw hq)
  · linarith [ha.lov, hb.lov]
  · linarith [ha.hiv, hb.hiv]
  · linarith [ha.low, hb.low]
  · linarith [ha.hiw, hb.hiw]
  · linarith [ha.dl, hb.dl]
  · linarith [ha.dh, hb.dh]
  · intro k hk
    simp only [Option.some.injEq] at hk
    subst hk
    exact ⟨mult_add ha.gv hb.gv, mult_add ha.gw hb.gw⟩

theorem sub_sound [f.Ok] (ha : a.Sound v w) (hb : b.Sound x y) (h : add f a b.neg = some r) : r.Sound (v - x) (w - y) := by
  have hn := neg_sound hb
  have e : ∀ z : FP f, (-z).val = -z.val := fun z => by rw [neg_def, val_neg]
  refine round_sound h (q := v.val - x.val) (p := w.val - y.val) ?_ ?_ ?_ ?_ ?_ ?_ ?_ (fun hq => subS ha.fv hb.fv hq) (fun hq => subS ha.fw hb.fw hq)
  · have := hn.lov; rw [e] at this; linarith [ha.lov]
  · have := hn.hiv; rw [e] at this; linarith [ha.hiv]
  · have := hn.low; rw [e] at this; linarith [ha.low]
  · have := hn.hiw; rw [e] at this; linarith [ha.hiw]
  · have := hn.dl; rw [e, e] at this; linarith [ha.dl]
  · have := hn.dh; rw [e, e] at this; linarith [ha.dh]
  · intro k hk
    simp only [Option.some.injEq] at hk
    subst hk
    have a1 := mult_add ha.gv hn.gv
    have a2 := mult_add ha.gw hn.gw
    rw [e, ← sub_eq_add_neg] at a1 a2
    exact ⟨a1, a2⟩

theorem mul_sound [f.Ok] (ha : a.Sound v w) (hb : b.Sound x y) (h : mul f a b = some r) : r.Sound (v * x) (w * y) := by
  have p1 := mul4 ha.lov ha.hiv hb.lov hb.hiv
  have p2' := mul4 ha.low ha.hiw hb.low hb.hiw
  have d1 := mul4 ha.low ha.hiw hb.dl hb.dh
  have d2 := mul4 hb.lov hb.hiv ha.dl ha.dh
  have e : w.val * y.val - v.val * x.val = w.val * (y.val - x.val) + x.val * (w.val - v.val) := by ring
  refine round_sound h (q := v.val * x.val) (p := w.val * y.val) p1.1 p1.2 p2'.1 p2'.2 (by rw [e]; exact add_le_add d1.1 d2.1)
    (by rw [e]; exact add_le_add d1.2 d2.2) ?_ (fun hq => mulS ha.fv hb.fv hq) (fun hq => mulS ha.fw hb.fw hq)
  intro k hk
  simp only [Option.some.injEq] at hk
  subst hk
  have t : ∀ {s t : ℚ}, (∃ n : ℤ, s = n * p2 a.g) → (∃ n : ℤ, t = n * p2 b.g) → ∃ n : ℤ, s * t = n * p2 (a.g + b.g) := by
    rintro s t ⟨n, rfl⟩ ⟨m, rfl⟩
    exact ⟨n * m, by rw [p2_add]; push_cast; ring⟩
  exact ⟨t ha.gv hb.gv, t ha.gw hb.gw⟩

theorem inv_between {lo hi q : ℚ} (h : 0 < away lo hi) (h1 : lo ≤ q) (h2 : q ≤ hi) : 1 / hi ≤ 1 / q ∧ 1 / q ≤ 1 / lo ∧ q ≠ 0 := by
  unfold away at h
  split_ifs at h with a b
  · have q0 : 0 < q := by linarith
    exact ⟨one_div_le_one_div_of_le q0 h2, one_div_le_one_div_of_le a h1, q0.ne'⟩
  · have q0 : q < 0 := by linarith
    exact ⟨one_div_le_one_div_of_neg_of_le b h2, one_div_le_one_div_of_neg_of_le q0 h1, q0.ne⟩
  · exact absurd h (lt_irrefl _)

theorem div_sound [f.Ok] (ha : a.Sound v w) (hb : b.Sound x y) (h : div f a b = some r) : r.Sound (v / x) (w / y) := by
  unfold div at h
  simp only at h
  split_ifs at h with c
  obtain ⟨x1, x2, x0⟩ := inv_between c hb.lov hb.hiv
  obtain ⟨y1, y2, y0⟩ := inv_between c hb.low hb.hiw
  have q1 := mul4 ha.lov ha.hiv x1 x2
  have q2 := mul4 ha.low ha.hiw y1 y2
  have t := mul4 hb.dl hb.dh y1 y2
  have d1 := mul4 ha.dl ha.dh y1 y2
  have d2 := mul4 t.1 t.2 q1.1 q1.2
  have e : w.val / y.val - v.val / x.val = (w.val - v.val) * (1 / y.val) - (y.val - x.val) * (1 / y.val) * (v.val * (1 / x.val)) := by
    field_simp; ring
  refine round_sound h (q := v.val / x.val) (p := w.val / y.val) ?_ ?_ ?_ ?_ ?_ ?_ (fun k hk => by cases hk)
    (fun hq => divS ha.fv hb.fv x0 hq) (fun hq => divS ha.fw hb.fw y0 hq)
  · rw [div_eq_mul_one_div v.val]; exact q1.1
  · rw [div_eq_mul_one_div v.val]; exact q1.2
  · rw [div_eq_mul_one_div w.val]; exact q2.1
  · rw [div_eq_mul_one_div w.val]; exact q2.2
  · rw [e]; exact sub_le_sub d1.1 d2.2
  · rw [e]; exact sub_le_sub d1.2 d2.1

theorem const_sound [f.Ok] {c : FP f} (h : const c = some r) : r.Sound c c := by
  unfold const at h
  split_ifs at h with hc
  simp only [Option.some.injEq] at h
  subst h
  have g := place_sound (v := c) (le_refl |c.val|)
  exact ⟨hc, hc, le_rfl, le_rfl, le_rfl, le_rfl, by simp, by simp, g, g⟩

end Dl

theorem anD_sound [f.Ok] {env : ℕ → Option Dl} {s t : ℕ → FP f} (he : ∀ i r, env i = some r → r.Sound (s i) (t i)) :
    ∀ (e : E f) (r : Dl), anD f env e = some r → r.Sound (e.evalF s) (e.evalF t) := by
  intro e
  induction e with
  | var i => exact fun r h => he i r h
  | const c => exact fun r h => Dl.const_sound h
  | add a b ha hb =>
    intro r h
    simp only [anD, Option.bind_eq_some_iff] at h
    obtain ⟨x, hx, y, hy, h⟩ := h
    exact Dl.add_sound (ha x hx) (hb y hy) h
  | sub a b ha hb =>
    intro r h
    simp only [anD, Option.bind_eq_some_iff] at h
    obtain ⟨x, hx, y, hy, h⟩ := h
    exact Dl.sub_sound (ha x hx) (hb y hy) h
  | mul a b ha hb =>
    intro r h
    simp only [anD, Option.bind_eq_some_iff] at h
    obtain ⟨x, hx, y, hy, h⟩ := h
    exact Dl.mul_sound (ha x hx) (hb y hy) h
  | div a b ha hb =>
    intro r h
    simp only [anD, Option.bind_eq_some_iff] at h
    obtain ⟨x, hx, y, hy, h⟩ := h
    exact Dl.div_sound (ha x hx) (hb y hy) h
  | neg a ha =>
    intro r h
    simp only [anD, Option.map_eq_some_iff] at h
    obtain ⟨x, hx, h⟩ := h
    subst h
    exact Dl.neg_sound (ha x hx)
  | scale c a ha =>
    intro r h
    simp only [anD, Option.bind_eq_some_iff] at h
    obtain ⟨x, hx, y, hy, h⟩ := h
    exact Dl.mul_sound (Dl.const_sound hx) (ha y hy) h
  | scaleR a c ha =>
    intro r h
    simp only [anD, Option.bind_eq_some_iff] at h
    obtain ⟨x, hx, y, hy, h⟩ := h
    exact Dl.mul_sound (ha x hx) (Dl.const_sound hy) h

end Vdt
