import Verif.Model.Fpe
import Verif.Lemmas.Special

/-!
# Exceptions: tools

Two ways to see that a value was computed without an exception.  Backwards (`Good`): sums, differences, products and roots that
are finite have finite operands, so a finite result shows that nothing happened before, up to the denominators.  Forwards
(`Sm`): bounds by powers of two.
-/

namespace Vdt.Fpe
open FP
variable {f : Fmt}

@[simp] theorem join_eq {a b : Exc} : a.join b = {} ↔ a = {} ∧ b = {} := by
  rcases a with ⟨a1, a2, a3⟩; rcases b with ⟨b1, b2, b3⟩
  simp only [Exc.join, Exc.mk.injEq, Bool.or_eq_false_iff]
  tauto

@[simp] theorem res_of (x : FP f) : (of x).res = x := rfl
@[simp] theorem exc_of (x : FP f) : (of x).exc = {} := rfl
@[simp] theorem res_add (a b : Ev f) : (a + b).res = a.res + b.res := rfl
@[simp] theorem res_sub (a b : Ev f) : (a - b).res = a.res - b.res := rfl
@[simp] theorem res_mul (a b : Ev f) : (a * b).res = a.res * b.res := rfl
@[simp] theorem res_div (a b : Ev f) : (a / b).res = a.res / b.res := rfl
@[simp] theorem res_sqrt (a : Ev f) : a.sqrt.res = FP.sqrt a.res := rfl
@[simp] theorem res_map (g : FP f → FP f) (a : Ev f) : (a.map g).res = g a.res := rfl
@[simp] theorem exc_map (g : FP f → FP f) (a : Ev f) : (a.map g).exc = a.exc := rfl
@[simp] theorem res_also (a : Ev f) (e : Exc) : (a.also e).res = a.res := rfl
@[simp] theorem exc_also (a : Ev f) (e : Exc) : (a.also e).exc = a.exc.join e := rfl
@[simp] theorem res_over (a b : Ev f) (t : Bool) : (a.over t b).res = if t then b.res else a.res := by
  unfold Ev.over; split <;> rfl
theorem exc_add (a b : Ev f) : (a + b).exc = (a.exc.join b.exc).join (raised (a.res + b.res) [a.res, b.res]) := rfl
theorem exc_sub (a b : Ev f) : (a - b).exc = (a.exc.join b.exc).join (raised (a.res - b.res) [a.res, b.res]) := rfl
theorem exc_mul (a b : Ev f) : (a * b).exc = (a.exc.join b.exc).join (raised (a.res * b.res) [a.res, b.res]) := rfl
theorem exc_div (a b : Ev f) : (a / b).exc = (a.exc.join b.exc).join (raisedDiv a.res b.res) := rfl
theorem exc_sqrt (a : Ev f) : a.sqrt.exc = a.exc.join (raised (FP.sqrt a.res) [a.res]) := rfl

theorem raised_fin {r : FP f} (h : r.isFinite = true) (l : List (FP f)) : raised r l = {} := by
  simp [raised, finite_not_nan h, finite_not_inf h]

theorem cmp_fin {x y : FP f} (hx : x.isFinite = true) (hy : y.isFinite = true) : raisedCmp x y = {} := by
  simp [raisedCmp, finite_not_nan hx, finite_not_nan hy]

theorem nan_not_finite [f.Ok] : (nan : FP f).isFinite = false := by
  have := nan_isNaN (f := f)
  by_contra h
  rw [Bool.not_eq_false] at h
  rw [finite_not_nan h] at this
  exact absurd this (by decide)

theorem inf_not_finite (s : Bool) : (inf s : FP f).isFinite = false := by simp [isFinite, inf]

/-- A finite sum has finite operands. -/
theorem add_args [f.Ok] {a b : FP f} (h : (a + b).isFinite = true) : a.isFinite = true ∧ b.isFinite = true := by
  change (FP.add a b).isFinite = true at h
  rw [finite_iff, finite_iff]
  unfold FP.add at h
  rcases ha : a.isNaN <;> rcases hb : b.isNaN <;> rcases ia : a.isInf <;> rcases ib : b.isInf <;>
    simp [ha, hb, ia, ib, nan_not_finite] at h ⊢
  · rw [finite_iff] at h; rw [h.2] at ib; cases ib
  · rw [finite_iff] at h; rw [h.2] at ia; cases ia
  · split at h
    · rw [finite_iff] at h; rw [h.2] at ia; cases ia
    · rw [nan_not_finite] at h; cases h

theorem neg_finite {a : FP f} : (-a).isFinite = a.isFinite := rfl

theorem sub_args [f.Ok] {a b : FP f} (h : (a - b).isFinite = true) : a.isFinite = true ∧ b.isFinite = true :=
  add_args (a := a) (b := -b) h

theorem mul_args [f.Ok] {a b : FP f} (h : (a * b).isFinite = true) : a.isFinite = true ∧ b.isFinite = true := by
  change (FP.mul a b).isFinite = true at h
  rw [finite_iff, finite_iff]
  unfold FP.mul at h
  rcases ha : a.isNaN <;> rcases hb : b.isNaN <;> rcases ia : a.isInf <;> rcases ib : b.isInf <;>
    simp [ha, hb, ia, ib, nan_not_finite] at h ⊢
  all_goals
    split at h
    · rw [nan_not_finite] at h; cases h
    · rw [inf_not_finite] at h; cases h

theorem zero_not_inf [f.Ok] {a : FP f} (h : a.isInf = true) : a.isZero = false := by
  have h0 : 0 < f.infMag := by
    have := Fmt.Ok.eb2 (f := f)
    have : 1 < 2 ^ f.eb := Nat.one_lt_two_pow (by omega)
    unfold Fmt.infMag
    exact Nat.mul_pos (by omega) (Nat.two_pow_pos _)
  simp only [isInf, isZero, decide_eq_true_eq, decide_eq_false_iff_not] at h ⊢
  omega

/-- A finite quotient has a finite numerator, and the division raised nothing. -/
theorem div_args [f.Ok] {a b : FP f} (h : (a / b).isFinite = true) : a.isFinite = true ∧ raisedDiv a b = {} := by
  have hr := h
  change (FP.div a b).isFinite = true at h
  unfold FP.div at h
  have e : (a.isFinite && !a.isZero && b.isZero) = false → raisedDiv a b = {} := by
    intro h
    unfold raisedDiv
    simp only [finite_not_nan hr, finite_not_inf hr, h, Bool.false_and]
  refine ⟨?_, e ?_⟩
  · rw [finite_iff]
    rcases ha : a.isNaN <;> rcases hb : b.isNaN <;> rcases ia : a.isInf <;> rcases ib : b.isInf <;>
      simp [ha, hb, ia, ib, nan_not_finite, inf_not_finite] at h ⊢
  · rcases zb : b.isZero
    · simp
    · rcases za : a.isZero
      · rcases ib : b.isInf
        · rcases ha : a.isNaN <;> rcases hb : b.isNaN <;> rcases ia : a.isInf <;>
            simp [ha, hb, ia, ib, za, zb, nan_not_finite, inf_not_finite] at h
        · rw [zero_not_inf ib] at zb; cases zb
      · simp

theorem sqrt_args [f.Ok] {a : FP f} (h : (FP.sqrt a).isFinite = true) : a.isFinite = true := by
  unfold FP.sqrt at h
  rw [finite_iff]
  rcases ha : a.isNaN <;> rcases ia : a.isInf <;> rcases za : a.isZero <;> rcases sa : a.sign <;>
    simp [ha, ia, za, sa, nan_not_finite] at h ⊢ <;> (rw [finite_iff] at h; rw [h.2] at ia; cases ia)

/-- If the result is finite, no exception was raised. -/
class Good (m : Ev f) : Prop where
  ok : m.res.isFinite = true → m.exc = {}

instance (x : FP f) : Good (of x) := ⟨fun _ => rfl⟩
instance [f.Ok] (a b : Ev f) [Good a] [Good b] : Good (a + b) :=
  ⟨fun h => by rw [exc_add, join_eq, join_eq]; exact ⟨⟨Good.ok (add_args h).1, Good.ok (add_args h).2⟩, raised_fin h _⟩⟩
instance [f.Ok] (a b : Ev f) [Good a] [Good b] : Good (a - b) :=
  ⟨fun h => by rw [exc_sub, join_eq, join_eq]; exact ⟨⟨Good.ok (sub_args h).1, Good.ok (sub_args h).2⟩, raised_fin h _⟩⟩
instance [f.Ok] (a b : Ev f) [Good a] [Good b] : Good (a * b) :=
  ⟨fun h => by rw [exc_mul, join_eq, join_eq]; exact ⟨⟨Good.ok (mul_args h).1, Good.ok (mul_args h).2⟩, raised_fin h _⟩⟩
instance [f.Ok] (a : Ev f) [Good a] : Good a.sqrt :=
  ⟨fun h => by rw [exc_sqrt, join_eq]; exact ⟨Good.ok (sqrt_args h), raised_fin h _⟩⟩
/-- For a division the denominator is to be looked at on its own. -/
theorem Good.div [f.Ok] (a b : Ev f) [Good a] (hb : b.exc = {}) : Good (a / b) :=
  ⟨fun h => by rw [exc_div, join_eq, join_eq]; exact ⟨⟨Good.ok (div_args h).1, hb⟩, (div_args h).2⟩⟩
theorem Good.of_exc {a : Ev f} (h : a.exc = {}) : Good a := ⟨fun _ => h⟩
instance (t : Bool) (a b : Ev f) [Good a] [Good b] : Good (if t then a else b) := by cases t <;> simpa
theorem Good.over {a b : Ev f} {t : Bool} (ha : a.exc = {}) (hb : t = true → b.exc = {}) : (a.over t b).exc = {} := by
  cases t
  · exact ha
  · show (a.exc.join b.exc) = _
    rw [join_eq]; exact ⟨ha, hb rfl⟩

/-- The largest `k` for which `2^k` is finite. -/
def top (f : Fmt) : ℕ := (1 - f.emin).toNat

/-- Computed without exception and at most `2^k`, unless `2^k` is too large. -/
class Sm (m : Ev f) (k : outParam ℕ) : Prop where
  ok : k ≤ top f → m.exc = {} ∧ m.res.isFinite = true ∧ |m.res.val| ≤ 2 ^ k

/-- A bound for a constant. -/
def kOf (x : FP f) : ℕ := if x.isFinite then (⌈|x.val|⌉.toNat).log2 + 1 else top f + 1

theorem emin_le [f.Ok] : f.emin ≤ 0 := by
  have := Fmt.Ok.eb2 (f := f)
  unfold Fmt.emin
  have h : (2 : ℤ) ^ 1 ≤ 2 ^ (f.eb - 1) := pow_le_pow_right₀ (by norm_num) (by omega)
  omega

theorem big_eq [f.Ok] : f.big = 2 ^ top f := by
  have := emin_le (f := f)
  unfold Fmt.big top
  rw [p2_eq, ← zpow_natCast]
  congr 1
  omega

theorem pow_le_big [f.Ok] {k : ℕ} (h : k ≤ top f) : (2 : ℚ) ^ k ≤ f.big := by
  rw [big_eq]; exact pow_le_pow_right₀ (by norm_num) h

theorem rnd_pow [f.Ok] {k : ℕ} (h : k ≤ top f) : rnd f (2 ^ k) = 2 ^ k := by
  refine rnd_exact f ?_ ?_
  · refine ⟨1, k, by rw [p2_nat]; push_cast; ring, ?_, ?_⟩
    · rw [abs_one]; exact one_le_pow₀ (by norm_num)
    · have := emin_le (f := f); omega
  · rw [abs_of_nonneg (by positivity)]; exact pow_le_big h

/-- Rounding keeps a bound by a power of two. -/
theorem rnd_le_pow [f.Ok] {q : ℚ} {k : ℕ} (h : k ≤ top f) (hq : |q| ≤ 2 ^ k) : |rnd f q| ≤ 2 ^ k := by
  have h1 := rnd_mono f (abs_le.1 hq).2
  have h2 := rnd_mono f (abs_le.1 hq).1
  rw [rnd_neg] at h2
  rw [rnd_pow h] at h1 h2
  exact abs_le.2 ⟨h2, h1⟩

instance (x : FP f) : Sm (of x) (kOf x) := ⟨fun h => by
  unfold kOf at h ⊢
  split
  · next hf =>
    refine ⟨rfl, hf, ?_⟩
    rw [res_of]
    have h1 : |x.val| ≤ (⌈|x.val|⌉.toNat : ℚ) := by
      have h0 : 0 ≤ ⌈|x.val|⌉ := Int.ceil_nonneg (abs_nonneg _)
      have h2 : ((⌈|x.val|⌉.toNat : ℤ) : ℚ) = (⌈|x.val|⌉ : ℚ) := by rw [Int.toNat_of_nonneg h0]
      calc |x.val| ≤ (⌈|x.val|⌉ : ℚ) := Int.le_ceil _
        _ = _ := by rw [← h2]; norm_cast
    refine h1.trans ?_
    exact_mod_cast (Nat.lt_log2_self (n := ⌈|x.val|⌉.toNat)).le
  · next hf => rw [if_neg hf] at h; omega⟩

instance [f.Ok] (a b : Ev f) (k l : ℕ) [ha : Sm a k] [hb : Sm b l] : Sm (a + b) (max k l + 1) := ⟨fun h => by
  obtain ⟨a1, a2, a3⟩ := ha.ok (by omega)
  obtain ⟨b1, b2, b3⟩ := hb.ok (by omega)
  have hk : (2 : ℚ) ^ k ≤ 2 ^ max k l := pow_le_pow_right₀ (by norm_num) (by omega)
  have hl : (2 : ℚ) ^ l ≤ 2 ^ max k l := pow_le_pow_right₀ (by norm_num) (by omega)
  have hs : |a.res.val + b.res.val| ≤ 2 ^ (max k l + 1) := by
    rw [pow_succ]; exact (abs_add_le _ _).trans (by linarith)
  obtain ⟨s1, s2⟩ := add_spec a2 b2 (hs.trans (pow_le_big h))
  refine ⟨?_, s1, ?_⟩
  · rw [exc_add, join_eq, join_eq]; exact ⟨⟨a1, b1⟩, raised_fin s1 _⟩
  · show |(FP.add a.res b.res).val| ≤ _
    rw [s2]; exact rnd_le_pow h hs⟩

instance [f.Ok] (a b : Ev f) (k l : ℕ) [ha : Sm a k] [hb : Sm b l] : Sm (a - b) (max k l + 1) := ⟨fun h => by
  obtain ⟨a1, a2, a3⟩ := ha.ok (by omega)
  obtain ⟨b1, b2, b3⟩ := hb.ok (by omega)
  have hk : (2 : ℚ) ^ k ≤ 2 ^ max k l := pow_le_pow_right₀ (by norm_num) (by omega)
  have hl : (2 : ℚ) ^ l ≤ 2 ^ max k l := pow_le_pow_right₀ (by norm_num) (by omega)
  have hs : |a.res.val - b.res.val| ≤ 2 ^ (max k l + 1) := by
    rw [pow_succ]; exact (abs_sub _ _).trans (by linarith)
  obtain ⟨s1, s2⟩ := sub_spec a2 b2 (hs.trans (pow_le_big h))
  refine ⟨?_, s1, ?_⟩
  · rw [exc_sub, join_eq, join_eq]; exact ⟨⟨a1, b1⟩, raised_fin s1 _⟩
  · show |(FP.sub a.res b.res).val| ≤ _
    rw [s2]; exact rnd_le_pow h hs⟩

instance [f.Ok] (a b : Ev f) (k l : ℕ) [ha : Sm a k] [hb : Sm b l] : Sm (a * b) (k + l) := ⟨fun h => by
  obtain ⟨a1, a2, a3⟩ := ha.ok (by omega)
  obtain ⟨b1, b2, b3⟩ := hb.ok (by omega)
  have hs : |a.res.val * b.res.val| ≤ 2 ^ (k + l) := by
    rw [abs_mul, pow_add]; exact mul_le_mul a3 b3 (abs_nonneg _) (by positivity)
  obtain ⟨s1, s2⟩ := mul_spec a2 b2 (hs.trans (pow_le_big h))
  refine ⟨?_, s1, ?_⟩
  · rw [exc_mul, join_eq, join_eq]; exact ⟨⟨a1, b1⟩, raised_fin s1 _⟩
  · show |(FP.mul a.res b.res).val| ≤ _
    rw [s2]; exact rnd_le_pow h hs⟩

theorem Sm.exc {m : Ev f} {k : ℕ} (h : Sm m k) (hk : k ≤ top f) : m.exc = {} := (h.ok hk).1
theorem Sm.fin {m : Ev f} {k : ℕ} (h : Sm m k) (hk : k ≤ top f) : m.res.isFinite = true := (h.ok hk).2.1
theorem Sm.of_val {x : FP f} {k : ℕ} (hx : x.isFinite = true) (h : |x.val| ≤ 2 ^ k) : Sm (of x) k := ⟨fun _ => ⟨rfl, hx, h⟩⟩
theorem Sm.mk' {m : Ev f} {k : ℕ} (he : m.exc = {}) (hx : m.res.isFinite = true) (h : |m.res.val| ≤ 2 ^ k) : Sm m k :=
  ⟨fun _ => ⟨he, hx, h⟩⟩

end Vdt.Fpe
