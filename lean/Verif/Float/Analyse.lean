import Verif.Float.Ops
import Verif.Spec
import Mathlib.Tactic.Positivity
import Mathlib.Tactic.Linarith
import Mathlib.Algebra.Order.Field.Basic
import Mathlib.Data.Real.Basic
import Mathlib.Data.Rat.Cast.Order

/-!
# A verified rounding error analyser

Straight-line floating point code is reflected as an expression `E f`.  `an` computes an enclosure of
the *exact* value of the expression and a bound for the error of its floating point evaluation;
`an_sound` proves the bound.  All numbers are scaled by a power of a small quantity `z` so that
relative bounds near zero come out.
-/

namespace Vdt
open FP

/-- Straight-line expressions. -/
inductive E (f : Fmt) where
  | var : ℕ → E f
  | const : FP f → E f
  | add : E f → E f → E f
  | sub : E f → E f → E f
  | mul : E f → E f → E f
  | div : E f → E f → E f
  | neg : E f → E f
  /-- multiplication by a power of two -/
  | scale : FP f → E f → E f
  /-- the same on the right -/
  | scaleR : E f → FP f → E f

namespace E
variable {f : Fmt}

/-- Floating point evaluation. -/
def evalF (env : ℕ → FP f) : E f → FP f
  | var i => env i
  | const c => c
  | add a b => a.evalF env + b.evalF env
  | sub a b => a.evalF env - b.evalF env
  | mul a b => a.evalF env * b.evalF env
  | div a b => a.evalF env / b.evalF env
  | neg a => -a.evalF env
  | scale c a => c * a.evalF env
  | scaleR a c => a.evalF env * c

/-- Exact evaluation. -/
noncomputable def evalR (env : ℕ → ℝ) : E f → ℝ
  | var i => env i
  | const c => c.real
  | add a b => a.evalR env + b.evalR env
  | sub a b => a.evalR env - b.evalR env
  | mul a b => a.evalR env * b.evalR env
  | div a b => a.evalR env / b.evalR env
  | neg a => -a.evalR env
  | scale c a => c.real * a.evalR env
  | scaleR a c => a.evalR env * c.real

end E

/-- Abstract value: the exact value is `z^k * v` with `lo ≤ v ≤ hi`; the floating point value differs
from it by at most `err*|z|^k + h*eta`. -/
structure Ab where
  k : ℕ
  lo : ℚ
  hi : ℚ
  err : ℚ
  h : ℚ
deriving Repr

namespace Ab

/-- An upper bound for every `eta` (both formats). -/
def etaUp : ℚ := 1 / 2 ^ 100

def grain : ℕ := 2 ^ 120

/-- Outward rounding, keeps the numbers short. -/
def up (q : ℚ) : ℚ := mkRat ⌈q * grain⌉ grain
def dn (q : ℚ) : ℚ := mkRat ⌊q * grain⌋ grain

theorem le_up (q : ℚ) : q ≤ up q := by
  unfold up
  rw [Rat.mkRat_eq_div, le_div_iff₀ (by norm_num [grain])]
  exact Int.le_ceil _

theorem dn_le (q : ℚ) : dn q ≤ q := by
  unfold dn
  rw [Rat.mkRat_eq_div, div_le_iff₀ (by norm_num [grain])]
  exact Int.floor_le _

/-- Largest magnitude of `v`. -/
def mag (a : Ab) : ℚ := max |a.lo| |a.hi|

/-- Tidy up. -/
def pack (k : ℕ) (lo hi err h : ℚ) : Ab := ⟨k, dn lo, up hi, up err, up h⟩

/-- Write `z^(k+d) v` as `z^k v'`. -/
def lower (Z : ℚ) (d : ℕ) (a : Ab) : Ab :=
  if d = 0 then a
  else if d % 2 = 0 then
    pack (a.k - d) (min 0 (Z ^ d * a.lo)) (max 0 (Z ^ d * a.hi)) (a.err * Z ^ d) a.h
  else pack (a.k - d) (-(Z ^ d * a.mag)) (Z ^ d * a.mag) (a.err * Z ^ d) a.h

/-- Include the rounding of the result of an operation; `none` if overflow is possible. -/
def round (f : Fmt) (Z : ℚ) (a : Ab) : Option Ab :=
  let A := a.mag + a.err
  if A * Z ^ a.k + a.h * etaUp + etaUp ≤ f.big then
    if a.k = 0 then some (pack a.k a.lo a.hi (a.err + hulp f (A + a.h * etaUp + etaUp)) a.h)
    else some (pack a.k a.lo a.hi (a.err + f.u * A) (a.h + f.u * a.h + 1))
  else none

def add' (a b : Ab) : Ab := ⟨a.k, a.lo + b.lo, a.hi + b.hi, a.err + b.err, a.h + b.h⟩

def neg' (a : Ab) : Ab := ⟨a.k, -a.hi, -a.lo, a.err, a.h⟩

def addL (f : Fmt) (Z : ℚ) (a b : Ab) : Option Ab :=
  round f Z (add' (lower Z (a.k - b.k) a) (lower Z (b.k - a.k) b))

def mul' (Z : ℚ) (a b : Ab) : Ab :=
  let p1 := a.lo * b.lo
  let p2 := a.lo * b.hi
  let p3 := a.hi * b.lo
  let p4 := a.hi * b.hi
  ⟨a.k + b.k, min (min p1 p2) (min p3 p4), max (max p1 p2) (max p3 p4),
   a.err * (b.mag + b.err) + a.mag * b.err,
   (a.err + a.mag) * Z ^ a.k * b.h + a.h * ((b.mag + b.err) * Z ^ b.k) + a.h * b.h * etaUp⟩

/-- How far `v` stays away from zero. -/
def away (b : Ab) : ℚ := if 0 < b.lo then b.lo else -b.hi

/-- `none` unless the divisor has `k = 0` and stays away from zero. -/
def div' (Z : ℚ) (a b : Ab) : Option Ab :=
  let m := b.away
  let D := m - b.err - b.h * etaUp
  if b.k = 0 ∧ 0 < D ∧ 0 < m then
    let p1 := a.lo / b.lo
    let p2 := a.lo / b.hi
    let p3 := a.hi / b.lo
    let p4 := a.hi / b.hi
    some ⟨a.k, min (min p1 p2) (min p3 p4), max (max p1 p2) (max p3 p4),
      (a.err + a.mag / m * b.err) / D, (a.h + a.mag / m * Z ^ a.k * b.h) / D⟩
  else none

/-- Multiplication by a power of two `c`: exact up to underflow. -/
def scale' (f : Fmt) (Z : ℚ) (c : ℚ) (a : Ab) : Option Ab :=
  let lo := min (c * a.lo) (c * a.hi)
  let hi := max (c * a.lo) (c * a.hi)
  let r := pack a.k lo hi (|c| * a.err) (|c| * a.h + 1)
  if (r.mag + r.err) * Z ^ r.k + r.h * etaUp ≤ f.big then some r else none

/-- Is it `2^j` for some `j ∈ [-n, n]`? -/
def isPow2 (c : ℚ) : Bool :=
  (c.num = 1 && c.den = 2 ^ (Nat.log2 c.den)) || (c.den = 1 && 0 ≤ c.num && c.num.natAbs = 2 ^ (Nat.log2 c.num.natAbs))

end Ab

/-- The analyser.  `env` describes the variables. -/
def an (f : Fmt) (Z : ℚ) (env : ℕ → Option Ab) : E f → Option Ab
  | .var i => env i
  | .const c => if c.isFinite then some ⟨0, c.val, c.val, 0, 0⟩ else none
  | .add a b => do Ab.addL f Z (← an f Z env a) (← an f Z env b)
  | .sub a b => do Ab.addL f Z (← an f Z env a) (Ab.neg' (← an f Z env b))
  | .mul a b => do Ab.round f Z (Ab.mul' Z (← an f Z env a) (← an f Z env b))
  | .div a b => do Ab.round f Z (← Ab.div' Z (← an f Z env a) (← an f Z env b))
  | .neg a => do return Ab.neg' (← an f Z env a)
  | .scale c a => do
    if c.isFinite && Ab.isPow2 c.val then Ab.scale' f Z c.val (← an f Z env a) else none
  | .scaleR a c => do
    if c.isFinite && Ab.isPow2 c.val then Ab.scale' f Z c.val (← an f Z env a) else none

/-! ## Soundness -/

/-- Meaning of an abstract value for a floating point number and an exact value. -/
structure Ab.Sound (f : Fmt) (z : ℝ) (a : Ab) (x : FP f) (r : ℝ) : Prop where
  fin : x.isFinite = true
  ex : ∃ v : ℝ, r = z ^ a.k * v ∧ (a.lo : ℝ) ≤ v ∧ v ≤ (a.hi : ℝ)
  err0 : 0 ≤ a.err
  h0 : 0 ≤ a.h
  bound : |x.real - r| ≤ a.err * |z| ^ a.k + a.h * (f.eta : ℝ)

namespace Ab
variable {f : Fmt} [f.Ok] {z : ℝ} {Z : ℚ}

/-- `eta` is below `etaUp`. -/
class EtaOk (f : Fmt) : Prop where
  le : f.eta ≤ etaUp

instance : EtaOk b64 := ⟨by decide +kernel⟩
instance : EtaOk b32 := ⟨by decide +kernel⟩

theorem eta_le [EtaOk f] : (f.eta : ℝ) ≤ (etaUp : ℝ) := by exact_mod_cast EtaOk.le (f := f)

theorem etaR_pos (f : Fmt) : (0 : ℝ) < f.eta := by exact_mod_cast f.eta_pos

theorem mag_bound {a : Ab} {v : ℝ} (h1 : (a.lo : ℝ) ≤ v) (h2 : v ≤ (a.hi : ℝ)) : |v| ≤ (a.mag : ℝ) := by
  unfold mag
  push_cast
  rcases le_total 0 v with h | h
  · rw [abs_of_nonneg h]
    exact h2.trans ((le_abs_self _).trans (le_max_right _ _))
  · rw [abs_of_nonpos h]
    have : -v ≤ |(a.lo : ℝ)| := (neg_le_neg h1).trans (neg_le_abs _)
    exact this.trans (le_max_left _ _)

theorem mag_nonneg (a : Ab) : 0 ≤ a.mag := (abs_nonneg _).trans (le_max_left _ _)

/-- Bound of the exact value. -/
theorem Sound.r_bound {a : Ab} {x : FP f} {r : ℝ} (s : Sound f z a x r) : |r| ≤ a.mag * |z| ^ a.k := by
  obtain ⟨v, hv, h1, h2⟩ := s.ex
  rw [hv, abs_mul, abs_pow, mul_comm]
  exact mul_le_mul_of_nonneg_right (mag_bound h1 h2) (by positivity)

/-- Bound of the floating point value. -/
theorem Sound.x_bound {a : Ab} {x : FP f} {r : ℝ} (s : Sound f z a x r) :
    |x.real| ≤ (a.mag + a.err) * |z| ^ a.k + a.h * (f.eta : ℝ) := by
  have h1 := s.r_bound
  have h2 := s.bound
  have : |x.real| ≤ |r| + |x.real - r| := by
    have := abs_add_le r (x.real - r); rwa [add_sub_cancel] at this
  linarith

theorem Sound.pack {a : Ab} {x : FP f} {r : ℝ} (s : Sound f z a x r) :
    Sound f z (pack a.k a.lo a.hi a.err a.h) x r := by
  obtain ⟨v, hv, h1, h2⟩ := s.ex
  have e1 : (a.err : ℝ) ≤ (up a.err : ℝ) := by exact_mod_cast le_up _
  have e2 : (a.h : ℝ) ≤ (up a.h : ℝ) := by exact_mod_cast le_up _
  refine ⟨s.fin, ⟨v, hv, ?_, ?_⟩, s.err0.trans (le_up _), s.h0.trans (le_up _), ?_⟩
  · refine le_trans ?_ h1; exact_mod_cast dn_le _
  · refine h2.trans ?_; exact_mod_cast le_up _
  · refine s.bound.trans ?_
    exact add_le_add (mul_le_mul_of_nonneg_right e1 (by positivity)) (mul_le_mul_of_nonneg_right e2 (etaR_pos f).le)

theorem pow_le_Z (hz : |z| ≤ Z) (k : ℕ) : |z| ^ k ≤ (Z : ℝ) ^ k := pow_le_pow_left₀ (abs_nonneg _) hz k

theorem Z_nonneg (hz : |z| ≤ Z) : (0 : ℝ) ≤ Z := (abs_nonneg z).trans hz

theorem Sound.lower {a : Ab} {x : FP f} {r : ℝ} (s : Sound f z a x r) (hz : |z| ≤ Z) {d : ℕ} (hd : d ≤ a.k) :
    Sound f z (lower Z d a) x r ∧ (Ab.lower Z d a).k = a.k - d := by
  have hZ := Z_nonneg hz
  unfold Ab.lower
  by_cases h0 : d = 0
  · subst h0; simp only [if_true, Nat.sub_zero, and_true]; exact s
  · rw [if_neg h0]
    obtain ⟨v, hv, h1, h2⟩ := s.ex
    have hsplit : z ^ a.k = z ^ (a.k - d) * z ^ d := by rw [← pow_add]; congr 1; omega
    have hsplit' : |z| ^ a.k = |z| ^ (a.k - d) * |z| ^ d := by rw [← pow_add]; congr 1; omega
    have hzd := pow_le_Z hz d
    have hbound : |x.real - r| ≤ ((a.err * Z ^ d : ℚ) : ℝ) * |z| ^ (a.k - d) + a.h * (f.eta : ℝ) := by
      refine s.bound.trans ?_
      rw [hsplit']
      push_cast
      have : (a.err : ℝ) * (|z| ^ (a.k - d) * |z| ^ d) ≤ a.err * Z ^ d * |z| ^ (a.k - d) := by
        have e0 : (0 : ℝ) ≤ a.err := by exact_mod_cast s.err0
        calc (a.err : ℝ) * (|z| ^ (a.k - d) * |z| ^ d) = a.err * |z| ^ d * |z| ^ (a.k - d) := by ring
          _ ≤ a.err * Z ^ d * |z| ^ (a.k - d) := by
            apply mul_le_mul_of_nonneg_right _ (by positivity)
            exact mul_le_mul_of_nonneg_left hzd e0
      linarith
    have hZ' : 0 ≤ Z := by exact_mod_cast hZ
    have herr : 0 ≤ a.err * Z ^ d := mul_nonneg s.err0 (pow_nonneg hZ' d)
    by_cases he : d % 2 = 0
    · rw [if_pos he]
      refine ⟨?_, rfl⟩
      refine Sound.pack (a := ⟨a.k - d, _, _, _, _⟩) ⟨s.fin, ⟨z ^ d * v, ?_, ?_, ?_⟩, herr, s.h0, hbound⟩
      · rw [hv, hsplit, mul_assoc]
      · have hev : Even d := Nat.even_iff.2 he
        have hz0 : 0 ≤ z ^ d := hev.pow_nonneg z
        have hzZ : z ^ d ≤ Z ^ d := by rw [← hev.pow_abs]; exact hzd
        push_cast
        rcases le_total 0 v with hv0 | hv0
        · exact (min_le_left _ _).trans (mul_nonneg hz0 hv0)
        · refine (min_le_right _ _).trans ?_
          calc (Z : ℝ) ^ d * a.lo ≤ Z ^ d * v := mul_le_mul_of_nonneg_left h1 (by positivity)
            _ ≤ z ^ d * v := mul_le_mul_of_nonpos_right hzZ hv0
      · have hev : Even d := Nat.even_iff.2 he
        have hz0 : 0 ≤ z ^ d := hev.pow_nonneg z
        have hzZ : z ^ d ≤ Z ^ d := by rw [← hev.pow_abs]; exact hzd
        push_cast
        rcases le_total 0 v with hv0 | hv0
        · refine le_trans ?_ (le_max_right _ _)
          calc z ^ d * v ≤ Z ^ d * v := mul_le_mul_of_nonneg_right hzZ hv0
            _ ≤ (Z : ℝ) ^ d * a.hi := mul_le_mul_of_nonneg_left h2 (by positivity)
        · exact (mul_nonpos_of_nonneg_of_nonpos hz0 hv0).trans (le_max_left _ _)
    · rw [if_neg he]
      refine ⟨?_, rfl⟩
      have hm : |z ^ d * v| ≤ Z ^ d * a.mag := by
        rw [abs_mul, abs_pow]
        exact mul_le_mul hzd (mag_bound h1 h2) (abs_nonneg _) (by positivity)
      refine Sound.pack (a := ⟨a.k - d, _, _, _, _⟩) ⟨s.fin, ⟨z ^ d * v, ?_, ?_, ?_⟩, herr, s.h0, hbound⟩
      · rw [hv, hsplit, mul_assoc]
      · push_cast; exact (abs_le.1 hm).1
      · push_cast; exact (abs_le.1 hm).2

theorem Sound.neg {a : Ab} {x : FP f} {r : ℝ} (s : Sound f z a x r) : Sound f z (neg' a) (-x) (-r) := by
  obtain ⟨v, hv, h1, h2⟩ := s.ex
  refine ⟨by simpa using s.fin, ⟨-v, by rw [hv]; simp [neg'], by simp [neg']; linarith, by simp [neg']; linarith⟩, s.err0, s.h0, ?_⟩
  have : (-x).real = -x.real := by
    unfold FP.real; rw [neg_def, val_neg]; push_cast; rfl
  rw [this]
  have h3 : -x.real - -r = -(x.real - r) := by ring
  rw [h3, abs_neg]
  exact s.bound

/-- What is known before the rounding: the exact rational result `q` of the operation on the
floating point operands is close to the exact real value. -/
structure Pre (f : Fmt) (z : ℝ) (a : Ab) (q : ℚ) (r : ℝ) : Prop where
  ex : ∃ v : ℝ, r = z ^ a.k * v ∧ (a.lo : ℝ) ≤ v ∧ v ≤ (a.hi : ℝ)
  err0 : 0 ≤ a.err
  h0 : 0 ≤ a.h
  bound : |(q : ℝ) - r| ≤ a.err * |z| ^ a.k + a.h * (f.eta : ℝ)

theorem Pre.q_bound {a : Ab} {q : ℚ} {r : ℝ} (s : Pre f z a q r) :
    |(q : ℝ)| ≤ (a.mag + a.err) * |z| ^ a.k + a.h * (f.eta : ℝ) := by
  obtain ⟨v, hv, h1, h2⟩ := s.ex
  have h3 : |r| ≤ a.mag * |z| ^ a.k := by
    rw [hv, abs_mul, abs_pow, mul_comm]
    exact mul_le_mul_of_nonneg_right (mag_bound h1 h2) (by positivity)
  have h4 := s.bound
  have : |(q : ℝ)| ≤ |r| + |(q : ℝ) - r| := by
    have := abs_add_le r ((q : ℝ) - r); rwa [add_sub_cancel] at this
  linarith

theorem Pre.q_boundQ [EtaOk f] {a : Ab} {q : ℚ} {r : ℝ} (s : Pre f z a q r) (hz : |z| ≤ Z) :
    |q| ≤ (a.mag + a.err) * Z ^ a.k + a.h * etaUp := by
  have h1 := s.q_bound
  have e0 : (0 : ℝ) ≤ a.mag + a.err := by exact_mod_cast add_nonneg (mag_nonneg a) s.err0
  have h0 : (0 : ℝ) ≤ a.h := by exact_mod_cast s.h0
  have h2 : (a.mag + a.err : ℝ) * |z| ^ a.k + a.h * (f.eta : ℝ) ≤ (a.mag + a.err) * (Z : ℝ) ^ a.k + a.h * (etaUp : ℝ) :=
    add_le_add (mul_le_mul_of_nonneg_left (pow_le_Z hz _) e0) (mul_le_mul_of_nonneg_left eta_le h0)
  exact_mod_cast h1.trans h2

theorem Pre.round [EtaOk f] {a b : Ab} {q : ℚ} {r : ℝ} (s : Pre f z a q r) (hz : |z| ≤ Z) (hb : round f Z a = some b)
    {x : FP f} (hx : |q| ≤ f.big → x.isFinite = true ∧ x.val = rnd f q) : Sound f z b x r := by
  unfold Ab.round at hb
  simp only at hb
  have hq := s.q_boundQ hz
  have e0 : 0 ≤ a.mag + a.err := add_nonneg (mag_nonneg a) s.err0
  have hep : 0 < etaUp := by norm_num [etaUp]
  split at hb
  · rename_i hbig
    have hqb : |q| ≤ f.big := by linarith
    obtain ⟨hfin, hval⟩ := hx hqb
    have hreal : x.real - r = ((rnd f q - q : ℚ) : ℝ) + ((q : ℝ) - r) := by
      unfold FP.real; rw [hval]; push_cast; ring
    split at hb
    · rename_i hk
      cases hb
      have hM : 0 < a.mag + a.err + a.h * etaUp + etaUp := by
        have := mul_nonneg s.h0 hep.le; linarith
      have hqM : |q| ≤ a.mag + a.err + a.h * etaUp + etaUp := by
        rw [hk] at hq; simp at hq; linarith
      have hMb : a.mag + a.err + a.h * etaUp + etaUp ≤ f.big := by
        rw [hk] at hbig; simpa using hbig
      have hr := rnd_err f hM hqM hMb
      refine Sound.pack (a := ⟨a.k, a.lo, a.hi, a.err + hulp f (a.mag + a.err + a.h * etaUp + etaUp), a.h⟩)
        ⟨hfin, s.ex, add_nonneg s.err0 (hulp_pos _ _).le, s.h0, ?_⟩
      rw [hreal]
      refine (abs_add_le _ _).trans ?_
      have h1 : |((rnd f q - q : ℚ) : ℝ)| ≤ (hulp f (a.mag + a.err + a.h * etaUp + etaUp) : ℝ) := by exact_mod_cast hr
      have h2 := s.bound
      have h3 : |z| ^ a.k = 1 := by rw [hk]; simp
      rw [h3] at h2 ⊢
      push_cast at h1 ⊢
      linarith
    · cases hb
      refine Sound.pack (a := ⟨a.k, a.lo, a.hi, a.err + f.u * (a.mag + a.err), a.h + f.u * a.h + 1⟩)
        ⟨hfin, s.ex, ?_, ?_, ?_⟩
      · exact add_nonneg s.err0 (mul_nonneg f.u_pos.le e0)
      · have := mul_nonneg f.u_pos.le s.h0; have := s.h0; simp only; linarith
      · rw [hreal]
        refine (abs_add_le _ _).trans ?_
        have hr := rnd_err_add f hqb
        have h1 : |((rnd f q - q : ℚ) : ℝ)| ≤ (f.u : ℝ) * |(q : ℝ)| + (f.eta : ℝ) := by exact_mod_cast hr
        have h2 := s.bound
        have h3 : (f.u : ℝ) * |(q : ℝ)| ≤ f.u * ((a.mag + a.err) * |z| ^ a.k + a.h * (f.eta : ℝ)) :=
          mul_le_mul_of_nonneg_left s.q_bound (by exact_mod_cast f.u_pos.le)
        push_cast at h1 ⊢
        nlinarith
  · cases hb

theorem add_pre {a b : Ab} {x y : FP f} {r t : ℝ} (sa : Sound f z a x r) (sb : Sound f z b y t) (hk : a.k = b.k) :
    Pre f z (add' a b) (x.val + y.val) (r + t) := by
  obtain ⟨v, hv, h1, h2⟩ := sa.ex
  obtain ⟨w, hw, h3, h4⟩ := sb.ex
  refine ⟨⟨v + w, ?_, ?_, ?_⟩, add_nonneg sa.err0 sb.err0, add_nonneg sa.h0 sb.h0, ?_⟩
  · rw [hv, hw, ← hk]; simp [add']; ring
  · simp [add']; linarith
  · simp [add']; linarith
  · have h5 := sa.bound
    have h6 := sb.bound
    rw [← hk] at h6
    have : ((x.val + y.val : ℚ) : ℝ) - (r + t) = (x.real - r) + (y.real - t) := by
      unfold FP.real; push_cast; ring
    rw [this]
    refine (abs_add_le _ _).trans ?_
    simp only [add']
    push_cast
    linarith

theorem Sound.addL [EtaOk f] {a b c : Ab} {x y : FP f} {r t : ℝ} (sa : Sound f z a x r) (sb : Sound f z b y t) (hz : |z| ≤ Z)
    (h : addL f Z a b = some c) : Sound f z c (x + y) (r + t) := by
  unfold Ab.addL at h
  obtain ⟨la, ka⟩ := sa.lower hz (d := a.k - b.k) (by omega)
  obtain ⟨lb, kb⟩ := sb.lower hz (d := b.k - a.k) (by omega)
  have hp := add_pre la lb (by omega)
  exact hp.round hz h (fun hb => add_spec sa.fin sb.fin hb)

theorem interval_mul {a b c d v w : ℝ} (h1 : a ≤ v) (h2 : v ≤ b) (h3 : c ≤ w) (h4 : w ≤ d) :
    min (min (a * c) (a * d)) (min (b * c) (b * d)) ≤ v * w ∧ v * w ≤ max (max (a * c) (a * d)) (max (b * c) (b * d)) := by
  have key : ∀ s : ℝ, min (s * c) (s * d) ≤ s * w ∧ s * w ≤ max (s * c) (s * d) := by
    intro s
    rcases le_total 0 s with hs | hs
    · exact ⟨(min_le_left _ _).trans (mul_le_mul_of_nonneg_left h3 hs), (mul_le_mul_of_nonneg_left h4 hs).trans (le_max_right _ _)⟩
    · exact ⟨(min_le_right _ _).trans (mul_le_mul_of_nonpos_left h4 hs), (mul_le_mul_of_nonpos_left h3 hs).trans (le_max_left _ _)⟩
  have ka := key a
  have kb := key b
  rcases le_total 0 w with hw | hw
  · have e1 : a * w ≤ v * w := mul_le_mul_of_nonneg_right h1 hw
    have e2 : v * w ≤ b * w := mul_le_mul_of_nonneg_right h2 hw
    exact ⟨(min_le_left _ _).trans (ka.1.trans e1), e2.trans (kb.2.trans (le_max_right _ _))⟩
  · have e1 : b * w ≤ v * w := mul_le_mul_of_nonpos_right h2 hw
    have e2 : v * w ≤ a * w := mul_le_mul_of_nonpos_right h1 hw
    exact ⟨(min_le_right _ _).trans (kb.1.trans e1), e2.trans (ka.2.trans (le_max_left _ _))⟩

theorem mul_pre [EtaOk f] {a b : Ab} {x y : FP f} {r t : ℝ} (sa : Sound f z a x r) (sb : Sound f z b y t) (hz : |z| ≤ Z) :
    Pre f z (mul' Z a b) (x.val * y.val) (r * t) := by
  obtain ⟨v, hv, h1, h2⟩ := sa.ex
  obtain ⟨w, hw, h3, h4⟩ := sb.ex
  have ma := mag_nonneg a
  have mb := mag_nonneg b
  have hZ : 0 ≤ Z := by exact_mod_cast Z_nonneg hz
  have hep : 0 < etaUp := by norm_num [etaUp]
  have iv := interval_mul h1 h2 h3 h4
  refine ⟨⟨v * w, ?_, ?_, ?_⟩, ?_, ?_, ?_⟩
  · rw [hv, hw]; simp [mul', pow_add]; ring
  · simp only [mul']; push_cast; exact iv.1
  · simp only [mul']; push_cast; exact iv.2
  · exact add_nonneg (mul_nonneg sa.err0 (add_nonneg mb sb.err0)) (mul_nonneg ma sb.err0)
  · have := sa.h0; have := sb.h0; have := sa.err0; have := sb.err0
    simp only [mul']
    positivity
  · have h5 := sa.bound
    have h6 := sb.bound
    have r1 := sa.r_bound
    have r2 := sb.r_bound
    have key : ((x.val * y.val : ℚ) : ℝ) - r * t = (x.real - r) * (t + (y.real - t)) + r * (y.real - t) := by
      unfold FP.real; push_cast; ring
    rw [key]
    have hη := etaR_pos f
    have hηu := eta_le (f := f)
    have ea : (0 : ℝ) ≤ a.err := by exact_mod_cast sa.err0
    have eb : (0 : ℝ) ≤ b.err := by exact_mod_cast sb.err0
    have ha : (0 : ℝ) ≤ a.h := by exact_mod_cast sa.h0
    have hb : (0 : ℝ) ≤ b.h := by exact_mod_cast sb.h0
    have ma' : (0 : ℝ) ≤ a.mag := by exact_mod_cast ma
    have mb' : (0 : ℝ) ≤ b.mag := by exact_mod_cast mb
    have za := pow_le_Z hz a.k
    have zb := pow_le_Z hz b.k
    have za0 : 0 ≤ |z| ^ a.k := by positivity
    have zb0 : 0 ≤ |z| ^ b.k := by positivity
    have t1 : |t + (y.real - t)| ≤ (b.mag + b.err) * |z| ^ b.k + b.h * f.eta := by
      refine (abs_add_le _ _).trans ?_; linarith
    have s1 : |(x.real - r) * (t + (y.real - t))| ≤ (a.err * |z| ^ a.k + a.h * f.eta) * ((b.mag + b.err) * |z| ^ b.k + b.h * f.eta) := by
      rw [abs_mul]; exact mul_le_mul h5 t1 (abs_nonneg _) (by positivity)
    have s2 : |r * (y.real - t)| ≤ a.mag * |z| ^ a.k * (b.err * |z| ^ b.k + b.h * f.eta) := by
      rw [abs_mul]; exact mul_le_mul r1 h6 (abs_nonneg _) (by positivity)
    refine (abs_add_le _ _).trans ((add_le_add s1 s2).trans ?_)
    simp only [mul', pow_add]
    push_cast
    have c1 : a.err * |z| ^ a.k * (b.h * f.eta) ≤ a.err * (Z : ℝ) ^ a.k * (b.h * f.eta) :=
      mul_le_mul_of_nonneg_right (mul_le_mul_of_nonneg_left za ea) (by positivity)
    have c2 : a.h * f.eta * ((b.mag + b.err) * |z| ^ b.k) ≤ a.h * f.eta * ((b.mag + b.err) * (Z : ℝ) ^ b.k) :=
      mul_le_mul_of_nonneg_left (mul_le_mul_of_nonneg_left zb (by positivity)) (by positivity)
    have c3 : a.h * f.eta * (b.h * f.eta) ≤ a.h * f.eta * (b.h * (etaUp : ℝ)) :=
      mul_le_mul_of_nonneg_left (mul_le_mul_of_nonneg_left hηu hb) (by positivity)
    have c4 : a.mag * |z| ^ a.k * (b.h * f.eta) ≤ a.mag * (Z : ℝ) ^ a.k * (b.h * f.eta) :=
      mul_le_mul_of_nonneg_right (mul_le_mul_of_nonneg_left za ma') (by positivity)
    nlinarith

theorem Sound.mul [EtaOk f] {a b c : Ab} {x y : FP f} {r t : ℝ} (sa : Sound f z a x r) (sb : Sound f z b y t) (hz : |z| ≤ Z)
    (h : Ab.round f Z (mul' Z a b) = some c) : Sound f z c (x * y) (r * t) :=
  (mul_pre sa sb hz).round hz h (fun hb => mul_spec sa.fin sb.fin hb)

theorem Sound.div [EtaOk f] {a b d c : Ab} {x y : FP f} {r t : ℝ} (sa : Sound f z a x r) (sb : Sound f z b y t) (hz : |z| ≤ Z)
    (hd : div' Z a b = some d) (h : Ab.round f Z d = some c) : Sound f z c (x / y) (r / t) := by
  unfold div' at hd
  simp only at hd
  split at hd
  · rename_i hcond
    obtain ⟨hk, hD, hm⟩ := hcond
    have hd' := Option.some.inj hd
    clear hd
    obtain ⟨v, hv, h1, h2⟩ := sa.ex
    obtain ⟨w, hw, h3, h4⟩ := sb.ex
    rw [hk, pow_zero, one_mul] at hw
    subst hw
    have hmdef : b.away = if 0 < b.lo then b.lo else -b.hi := rfl
    generalize b.away = m at *
    have hmR : (0 : ℝ) < m := by exact_mod_cast hm
    have hep : 0 < etaUp := by norm_num [etaUp]
    -- the exact divisor stays away from zero
    have htm : (m : ℝ) ≤ |t| := by
      rw [hmdef]
      split
      · exact h3.trans (le_abs_self _)
      · push_cast; exact (neg_le_neg h4).trans (neg_le_abs _)
    have ht0 : t ≠ 0 := by intro h; rw [h, abs_zero] at htm; linarith
    have ea : (0 : ℝ) ≤ a.err := by exact_mod_cast sa.err0
    have eb : (0 : ℝ) ≤ b.err := by exact_mod_cast sb.err0
    have ha : (0 : ℝ) ≤ a.h := by exact_mod_cast sa.h0
    have hb : (0 : ℝ) ≤ b.h := by exact_mod_cast sb.h0
    have ma' : (0 : ℝ) ≤ a.mag := by exact_mod_cast mag_nonneg a
    have hη := etaR_pos f
    have hηu := eta_le (f := f)
    have hyt : |y.real - t| ≤ b.err + b.h * f.eta := by
      have := sb.bound; rw [hk] at this; simpa using this
    have hDR : (0 : ℝ) < (m : ℝ) - b.err - b.h * (etaUp : ℝ) := by exact_mod_cast hD
    have hyD : (m : ℝ) - b.err - b.h * (etaUp : ℝ) ≤ |y.real| := by
      have : |t| ≤ |y.real| + |y.real - t| := by
        have := abs_sub_abs_le_abs_sub t y.real
        rw [abs_sub_comm] at this; linarith
      have h7 : (b.h : ℝ) * f.eta ≤ b.h * (etaUp : ℝ) := mul_le_mul_of_nonneg_left hηu hb
      linarith
    have hy0 : y.real ≠ 0 := by
      intro h; rw [h, abs_zero] at hyD; linarith
    have hyv : y.val ≠ 0 := by
      intro h; apply hy0; unfold FP.real; rw [h]; simp
    have hp : Pre f z ⟨a.k, min (min (a.lo / b.lo) (a.lo / b.hi)) (min (a.hi / b.lo) (a.hi / b.hi)),
        max (max (a.lo / b.lo) (a.lo / b.hi)) (max (a.hi / b.lo) (a.hi / b.hi)),
        (a.err + a.mag / m * b.err) / (m - b.err - b.h * etaUp),
        (a.h + a.mag / m * Z ^ a.k * b.h) / (m - b.err - b.h * etaUp)⟩ (x.val / y.val) (r / t) := by
      -- interval of the quotient: 1/t lies between 1/b.hi and 1/b.lo
      have hinv : (1 / (b.hi : ℝ)) ≤ 1 / t ∧ 1 / t ≤ 1 / (b.lo : ℝ) := by
        by_cases hl : 0 < b.lo
        · have hl' : (0 : ℝ) < b.lo := by exact_mod_cast hl
          have ht : 0 < t := lt_of_lt_of_le hl' h3
          exact ⟨one_div_le_one_div_of_le ht h4, one_div_le_one_div_of_le hl' h3⟩
        · have hh : m = -b.hi := by rw [hmdef, if_neg hl]
          have hh' : (b.hi : ℝ) < 0 := by
            have : (m : ℝ) = -b.hi := by rw [hh]; push_cast; ring
            linarith
          have ht : t < 0 := lt_of_le_of_lt h4 hh'
          exact ⟨one_div_le_one_div_of_neg_of_le hh' h4, one_div_le_one_div_of_neg_of_le ht h3⟩
      have iv := interval_mul h1 h2 hinv.1 hinv.2
      refine ⟨⟨v / t, ?_, ?_, ?_⟩, ?_, ?_, ?_⟩
      · rw [hv, mul_div_assoc]
      · push_cast
        have := iv.1
        rw [div_eq_mul_one_div v t]
        simp only [div_eq_mul_one_div (a.lo : ℝ), div_eq_mul_one_div (a.hi : ℝ)]
        rw [min_comm ((a.lo : ℝ) * (1 / b.lo)), min_comm ((a.hi : ℝ) * (1 / b.lo))]
        exact this
      · push_cast
        have := iv.2
        rw [div_eq_mul_one_div v t]
        simp only [div_eq_mul_one_div (a.lo : ℝ), div_eq_mul_one_div (a.hi : ℝ)]
        rw [max_comm ((a.lo : ℝ) * (1 / b.lo)), max_comm ((a.hi : ℝ) * (1 / b.lo))]
        exact this
      · have := sa.err0; have := sb.err0; have := mag_nonneg a
        simp only; positivity
      · have := sa.h0; have := sb.h0; have := mag_nonneg a
        have hZ : 0 ≤ Z := by exact_mod_cast Z_nonneg hz
        simp only; positivity
      · have key : ((x.val / y.val : ℚ) : ℝ) - r / t = ((x.real - r) - r / t * (y.real - t)) / y.real := by
          have : ((x.val / y.val : ℚ) : ℝ) = x.real / y.real := by unfold FP.real; push_cast; rfl
          rw [this]
          field_simp
          ring
        rw [key, abs_div]
        have hrt : |r / t| ≤ a.mag / m * |z| ^ a.k := by
          rw [abs_div]
          have := sa.r_bound
          calc |r| / |t| ≤ (a.mag * |z| ^ a.k) / m := div_le_div₀ (by positivity) this hmR htm
            _ = a.mag / m * |z| ^ a.k := by ring
        have hnum : |(x.real - r) - r / t * (y.real - t)| ≤
            (a.err + a.mag / m * b.err) * |z| ^ a.k + (a.h + a.mag / m * (Z : ℝ) ^ a.k * b.h) * f.eta := by
          refine (abs_sub _ _).trans ?_
          rw [abs_mul]
          have g1 := sa.bound
          have g2 : |r / t| * |y.real - t| ≤ a.mag / m * |z| ^ a.k * (b.err + b.h * f.eta) :=
            mul_le_mul hrt hyt (abs_nonneg _) (by positivity)
          have g3 : a.mag / m * |z| ^ a.k * (b.h * f.eta) ≤ a.mag / m * (Z : ℝ) ^ a.k * (b.h * f.eta) :=
            mul_le_mul_of_nonneg_right (mul_le_mul_of_nonneg_left (pow_le_Z hz _) (by positivity)) (by positivity)
          nlinarith
        have hZ : (0 : ℝ) ≤ Z := Z_nonneg hz
        calc _ ≤ ((a.err + a.mag / m * b.err) * |z| ^ a.k + (a.h + a.mag / m * (Z : ℝ) ^ a.k * b.h) * f.eta) /
              ((m : ℝ) - b.err - b.h * (etaUp : ℝ)) := div_le_div₀ (by positivity) hnum hDR hyD
          _ = _ := by push_cast; ring
    rw [hd'] at hp
    exact hp.round hz h (fun hb => div_spec sa.fin sb.fin hyv hb)
  · cases hd

/-- A power of two times a floating point number is exact up to underflow. -/
theorem rnd_scaled {n j k : ℤ} {q : ℚ} (hq : q = n * p2 k) (hn : |n| ≤ 2 ^ (f.mb + 1)) (hb : |q| ≤ f.big) :
    |rnd f q - q| ≤ f.eta := by
  by_cases hk : f.emin - f.mb ≤ k
  · rw [rnd_exact f ⟨n, k, hq, hn, hk⟩ hb]; simp [f.eta_pos.le]
  · -- tiny: below the normal range, or exactly at its end
    have hle : |q| ≤ p2 f.emin := by
      rw [hq, abs_mul, abs_of_pos (p2_pos k)]
      have h1 : |(n : ℚ)| ≤ p2 (f.mb + 1) := by
        have : p2 ((f.mb : ℤ) + 1) = 2 ^ (f.mb + 1) := by
          rw [p2_eq]; exact_mod_cast rfl
        rw [this]; exact_mod_cast hn
      calc |(n : ℚ)| * p2 k ≤ p2 (f.mb + 1) * p2 k := mul_le_mul_of_nonneg_right h1 (p2_pos _).le
        _ = p2 (f.mb + 1 + k) := by rw [← p2_add]
        _ ≤ p2 f.emin := p2_le (by omega)
    have hM : p2 f.emin ≤ f.big := by
      unfold Fmt.big
      apply p2_le
      obtain ⟨d, _, hd, hd1⟩ := infMag_eq f
      omega
    refine (rnd_err f (p2_pos f.emin) hle hM).trans ?_
    unfold hulp Fmt.eta
    apply p2_le
    have : rexp f (p2 f.emin) = f.emin := by
      unfold rexp
      have : ilog2 (p2 f.emin) = f.emin := ilog2_unique le_rfl (p2_lt (by omega))
      rw [this]; simp
    omega

theorem isPow2_spec {c : ℚ} (h : isPow2 c = true) : ∃ j : ℤ, c = p2 j := by
  unfold isPow2 at h
  simp only [Bool.or_eq_true, Bool.and_eq_true, decide_eq_true_eq] at h
  rcases h with ⟨h1, h2⟩ | ⟨⟨h1, h2⟩, h3⟩
  · refine ⟨-(Nat.log2 c.den : ℤ), ?_⟩
    have e : c = 1 / (c.den : ℚ) := by
      conv_lhs => rw [← Rat.num_div_den c, h1]
      simp
    have : (c.den : ℚ) = 2 ^ (Nat.log2 c.den) := by exact_mod_cast h2
    rw [p2_eq, zpow_neg, zpow_natCast, ← this, ← one_div]
    exact e
  · refine ⟨(Nat.log2 c.num.natAbs : ℤ), ?_⟩
    rw [p2_eq, zpow_natCast]
    have e : (c.num : ℚ) = c := by
      conv_rhs => rw [← Rat.num_div_den c, h1]
      simp
    have e2 : (c.num : ℚ) = (c.num.natAbs : ℚ) := by
      have : c.num = (c.num.natAbs : ℤ) := by omega
      rw [← Int.cast_natCast (R := ℚ), ← this]
    rw [← e, e2]
    exact_mod_cast h3

theorem Sound.scale [EtaOk f] {a d : Ab} {c x y : FP f} {r : ℝ} (s : Sound f z a x r) (hz : |z| ≤ Z)
    (hp : isPow2 c.val = true) (h : scale' f Z c.val a = some d)
    (hy : |c.val * x.val| ≤ f.big → y.isFinite = true ∧ y.val = rnd f (c.val * x.val)) :
    Sound f z d y (c.real * r) := by
  unfold scale' at h
  simp only at h
  split at h
  · rename_i hbig
    cases h
    obtain ⟨v, hv, h1, h2⟩ := s.ex
    have hpre : Pre f z (Ab.pack a.k (min (c.val * a.lo) (c.val * a.hi)) (max (c.val * a.lo) (c.val * a.hi))
        (|c.val| * a.err) (|c.val| * a.h + 1)) (c.val * x.val) (c.real * r) ∧
        |((c.val * x.val : ℚ) : ℝ) - c.real * r| ≤ ((|c.val| * a.err : ℚ) : ℝ) * |z| ^ a.k + ((|c.val| * a.h : ℚ) : ℝ) * f.eta := by
      have hb : |((c.val * x.val : ℚ) : ℝ) - c.real * r| ≤ ((|c.val| * a.err : ℚ) : ℝ) * |z| ^ a.k + ((|c.val| * a.h : ℚ) : ℝ) * f.eta := by
        have : ((c.val * x.val : ℚ) : ℝ) - c.real * r = c.real * (x.real - r) := by unfold FP.real; push_cast; ring
        rw [this, abs_mul]
        have := mul_le_mul_of_nonneg_left s.bound (abs_nonneg c.real)
        have hc : ((|c.val| : ℚ) : ℝ) = |c.real| := by unfold FP.real; push_cast; rfl
        push_cast at hc ⊢
        rw [hc]
        linarith
      refine ⟨⟨⟨c.real * v, ?_, ?_, ?_⟩, ?_, ?_, ?_⟩, hb⟩
      · rw [hv]; simp [Ab.pack]; ring
      · simp only [Ab.pack]
        have : ((dn (min (c.val * a.lo) (c.val * a.hi)) : ℚ) : ℝ) ≤ ((min (c.val * a.lo) (c.val * a.hi) : ℚ) : ℝ) := by
          exact_mod_cast dn_le _
        refine this.trans ?_
        push_cast
        rcases le_total 0 c.real with h0 | h0
        · exact (min_le_left _ _).trans (mul_le_mul_of_nonneg_left h1 h0)
        · exact (min_le_right _ _).trans (mul_le_mul_of_nonpos_left h2 h0)
      · simp only [Ab.pack]
        have : ((max (c.val * a.lo) (c.val * a.hi) : ℚ) : ℝ) ≤ ((up (max (c.val * a.lo) (c.val * a.hi)) : ℚ) : ℝ) := by
          exact_mod_cast le_up _
        refine le_trans ?_ this
        push_cast
        rcases le_total 0 c.real with h0 | h0
        · exact (mul_le_mul_of_nonneg_left h2 h0).trans (le_max_right _ _)
        · exact (mul_le_mul_of_nonpos_left h1 h0).trans (le_max_left _ _)
      · exact (mul_nonneg (abs_nonneg _) s.err0).trans (le_up _)
      · exact (add_nonneg (mul_nonneg (abs_nonneg _) s.h0) zero_le_one).trans (le_up _)
      · refine hb.trans ?_
        simp only [Ab.pack]
        have g1 : ((|c.val| * a.err : ℚ) : ℝ) ≤ (up (|c.val| * a.err) : ℝ) := by exact_mod_cast le_up _
        have g2 : ((|c.val| * a.h : ℚ) : ℝ) ≤ (up (|c.val| * a.h + 1) : ℝ) := by
          exact_mod_cast (show |c.val| * a.h ≤ |c.val| * a.h + 1 by linarith).trans (le_up _)
        exact add_le_add (mul_le_mul_of_nonneg_right g1 (by positivity)) (mul_le_mul_of_nonneg_right g2 (etaR_pos f).le)
    obtain ⟨pre, hb⟩ := hpre
    have hqb : |c.val * x.val| ≤ f.big := (pre.q_boundQ hz).trans hbig
    obtain ⟨hfin, hval⟩ := hy hqb
    refine ⟨hfin, pre.ex, pre.err0, pre.h0, ?_⟩
    obtain ⟨j, hj⟩ := isPow2_spec hp
    obtain ⟨n, k, hx, hn, hk⟩ := val_rep x
    have hr := rnd_scaled (f := f) (j := j) (q := c.val * x.val) (n := n) (k := j + k)
      (by rw [hj, hx, p2_add]; ring) hn hqb
    have hreal : y.real - c.real * r = ((rnd f (c.val * x.val) - c.val * x.val : ℚ) : ℝ) + (((c.val * x.val : ℚ) : ℝ) - c.real * r) := by
      unfold FP.real; rw [hval]; push_cast; ring
    rw [hreal]
    refine (abs_add_le _ _).trans ?_
    have h1 : |((rnd f (c.val * x.val) - c.val * x.val : ℚ) : ℝ)| ≤ (f.eta : ℝ) := by exact_mod_cast hr
    simp only [Ab.pack]
    have g1 : ((|c.val| * a.err : ℚ) : ℝ) ≤ (up (|c.val| * a.err) : ℝ) := by exact_mod_cast le_up _
    have g2 : ((|c.val| * a.h + 1 : ℚ) : ℝ) ≤ (up (|c.val| * a.h + 1) : ℝ) := by exact_mod_cast le_up _
    have g3 := mul_le_mul_of_nonneg_right g1 (show (0:ℝ) ≤ |z| ^ a.k by positivity)
    have g4 := mul_le_mul_of_nonneg_right g2 (etaR_pos f).le
    push_cast at g4 hb g3 h1 ⊢
    linarith
  · cases h

end Ab

open Ab in
/-- The analyser is sound. -/
theorem an_sound {f : Fmt} [f.Ok] [EtaOk f] {z : ℝ} {Z : ℚ} (hz : |z| ≤ Z) {env : ℕ → Option Ab} {eF : ℕ → FP f} {eR : ℕ → ℝ}
    (henv : ∀ i a, env i = some a → Ab.Sound f z a (eF i) (eR i)) (e : E f) :
    ∀ a, an f Z env e = some a → Ab.Sound f z a (e.evalF eF) (e.evalR eR) := by
  induction e with
  | var i => exact fun a h => henv i a h
  | const c =>
    intro a h
    simp only [an] at h
    split at h
    · rename_i hf
      cases h
      refine ⟨hf, ⟨c.real, by simp [E.evalR], le_rfl, le_rfl⟩, le_rfl, le_rfl, ?_⟩
      simp [E.evalF, E.evalR]
    · cases h
  | add x y ihx ihy =>
    intro a h
    simp only [an, Option.bind_eq_bind, Option.bind_eq_some_iff] at h
    obtain ⟨p, hp, q, hq, h⟩ := h
    exact (ihx p hp).addL (ihy q hq) hz h
  | sub x y ihx ihy =>
    intro a h
    simp only [an, Option.bind_eq_bind, Option.bind_eq_some_iff] at h
    obtain ⟨p, hp, q, hq, h⟩ := h
    have := (ihx p hp).addL (ihy q hq).neg hz h
    simp only [E.evalF, E.evalR]
    rw [sub_eq_add_neg]
    exact this
  | mul x y ihx ihy =>
    intro a h
    simp only [an, Option.bind_eq_bind, Option.bind_eq_some_iff] at h
    obtain ⟨p, hp, q, hq, h⟩ := h
    exact (ihx p hp).mul (ihy q hq) hz h
  | div x y ihx ihy =>
    intro a h
    simp only [an, Option.bind_eq_bind, Option.bind_eq_some_iff] at h
    obtain ⟨p, hp, q, hq, d, hd, h⟩ := h
    exact (ihx p hp).div (ihy q hq) hz hd h
  | neg x ihx =>
    intro a h
    simp only [an, Option.bind_eq_bind, Option.bind_eq_some_iff] at h
    obtain ⟨p, hp, h⟩ := h
    cases h
    exact (ihx p hp).neg
  | scale c x ihx =>
    intro a h
    simp only [an] at h
    split at h
    · rename_i hc
      simp only [Option.bind_eq_bind, Option.bind_eq_some_iff] at h
      obtain ⟨p, hp, h⟩ := h
      rw [Bool.and_eq_true] at hc
      have s := ihx p hp
      exact s.scale hz hc.2 h (fun hb => mul_spec hc.1 s.fin hb)
    · cases h
  | scaleR x c ihx =>
    intro a h
    simp only [an] at h
    split at h
    · rename_i hc
      simp only [Option.bind_eq_bind, Option.bind_eq_some_iff] at h
      obtain ⟨p, hp, h⟩ := h
      rw [Bool.and_eq_true] at hc
      have s := ihx p hp
      simp only [E.evalF, E.evalR]
      rw [mul_comm (E.evalR eR x)]
      exact s.scale hz hc.2 h (fun hb => by
        have := mul_spec s.fin hc.1 (by rwa [mul_comm]); rwa [mul_comm (E.evalF eF x).val] at this)
    · cases h

end Vdt
