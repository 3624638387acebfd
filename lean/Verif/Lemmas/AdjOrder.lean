import Verif.Float.Delta

/-! # From neighbouring arguments to all arguments -/

namespace Vdt
open FP
variable {f : Fmt}

/-- The distance of a number to the next one. -/
theorem next_val {x y : FP f} {e : ℤ} (hx : x.sign = false) (hy : y.sign = false) (h : y.mag = x.mag + 1) (he : f.emin ≤ e)
    (h1 : p2 e ≤ x.val) (h2 : x.val < p2 (e + 1)) : y.val = x.val + p2 (e - f.mb) := by
  have ex : x.val = magVal f x.mag := by unfold FP.val; simp [hx]
  have ey : y.val = magVal f y.mag := by unfold FP.val; simp [hy]
  rw [ex] at h1 h2
  rw [ex, ey, h]
  obtain ⟨e', k, he', hk, hn, hc⟩ := code_cases f x.mag
  have v1 := magVal_code f he' hk.le hn
  have v2 := magVal_code f (e := e') (k := k + 1) he' (by omega) (by rcases hn with h | h; exact Or.inl (by omega); exact Or.inr h)
  rw [← hc] at v1
  rw [← Nat.add_assoc, ← hc] at v2
  have hk' : (k : ℚ) < 2 ^ (f.mb + 1) := by exact_mod_cast hk
  have up : magVal f x.mag < p2 (e' + 1) := by
    rw [v1, show e' + 1 = (e' - f.mb) + ((f.mb + 1 : ℕ) : ℤ) by push_cast; ring, p2_add, p2_nat, mul_comm]
    exact mul_lt_mul_of_pos_left hk' (p2_pos _)
  have a1 : e < e' + 1 := p2_lt_iff.1 (h1.trans_lt up)
  have a2 : e' ≤ e := by
    rcases hn with h | h
    · have : p2 e' ≤ magVal f x.mag := by
        rw [v1, show e' = (e' - f.mb) + (f.mb : ℤ) by ring, p2_add, p2_nat, mul_comm]
        simp only [add_sub_cancel_right]
        exact mul_le_mul_of_nonneg_right (by exact_mod_cast h) (p2_pos _).le
      have := p2_lt_iff.1 (this.trans_lt h2)
      omega
    · omega
  have ee : e = e' := by omega
  rw [v2, v1, ee]; push_cast; ring

/-- A function that does not decrease from a number to the next one does not decrease. -/
theorem adj_run {P : FP f → ℚ} {Q : FP f → Prop} (hP : ∀ a b : FP f, a.sign = false → b.sign = false → b.mag = a.mag + 1 → Q a → Q b → P a ≤ P b)
    {x y : FP f} (sx : x.sign = false) (sy : y.sign = false) (h : x.mag ≤ y.mag) (hQ : ∀ a : FP f, a.sign = false → x.mag ≤ a.mag → a.mag ≤ y.mag → Q a) :
    P x ≤ P y := by
  obtain ⟨n, hn⟩ : ∃ n, y.mag = x.mag + n := ⟨y.mag - x.mag, by omega⟩
  induction n generalizing y with
  | zero =>
    have : x = y := by
      ext
      · rw [sx, sy]
      · omega
    rw [this]
  | succ n ih =>
    let z : FP f := ⟨false, x.mag + n, by have := y.bound; omega⟩
    have k := ih (y := z) rfl (by show x.mag ≤ x.mag + n; omega) (fun a sa h1 h2 => hQ a sa h1 (h2.trans (by show x.mag + n ≤ y.mag; omega))) rfl
    refine k.trans (hP z y rfl sy (by show y.mag = x.mag + n + 1; omega) (hQ z rfl (by show x.mag ≤ x.mag + n; omega) (by show x.mag + n ≤ y.mag; omega))
      (hQ y sy h le_rfl))

/-- An argument and its square. -/
def withSq (x : FP f) : ℕ → FP f
  | 0 => x
  | _ => x * x
def envD1 (a : Dl) : ℕ → Option Dl
  | 0 => some a
  | _ => none
def envD2 (a b : Dl) : ℕ → Option Dl
  | 0 => some a
  | 1 => some b
  | _ => none

/-- From an argument in `[s, t]` to the next one, `2^k` further, the expression (in the argument and its
square) loses at most `2^k`; it stays in `[-1, 1]`. -/
def okD (f : Fmt) (k : ℤ) (e : E f) (s t : ℚ) : Bool :=
  match anD f (envD1 ⟨s, t + p2 k, p2 k, p2 k, k⟩) ((E.var 0).mul (.var 0)) with
  | some x => match anD f (envD2 ⟨s, t + p2 k, p2 k, p2 k, k⟩ x) e with
    | some r => decide (-p2 k ≤ r.dlo ∧ -1 ≤ r.lo ∧ r.hi ≤ 1)
    | none => false
  | none => false

theorem okD_sound [f.Ok] {k : ℤ} {e : E f} {s t : ℚ} (h : okD f k e s t = true) {x y : FP f} (hx : x.isFinite = true) (hy : y.isFinite = true)
    (h1 : s ≤ x.val) (h2 : x.val ≤ t) (hxy : y.val = x.val + p2 k) (hg : ∃ n : ℤ, x.val = n * p2 k) :
    (e.evalF (withSq x)).isFinite = true ∧ (e.evalF (withSq y)).isFinite = true ∧
      |(e.evalF (withSq x)).val| ≤ 1 ∧ |(e.evalF (withSq y)).val| ≤ 1 ∧ (e.evalF (withSq x)).val + x.val ≤ (e.evalF (withSq y)).val + y.val := by
  have hp := p2_pos k
  have base : (⟨s, t + p2 k, p2 k, p2 k, k⟩ : Dl).Sound x y := by
    refine ⟨hx, hy, h1, by simp only; linarith, by simp only; linarith, by simp only; linarith, by simp only; linarith, by simp only; linarith, hg, ?_⟩
    obtain ⟨n, hn⟩ := hg
    exact ⟨n + 1, by rw [hxy, hn]; push_cast; ring⟩
  unfold okD at h
  split at h
  · rename_i sq hsq
    have s1 := anD_sound (s := fun _ => x) (t := fun _ => y) (fun i r hr => by
      match i, hr with
      | 0, hr => cases hr; exact base
      | i + 1, hr => cases hr) _ _ hsq
    split at h
    · rename_i r hr
      have s2 := anD_sound (s := withSq x) (t := withSq y) (fun i q hq => by
        match i, hq with
        | 0, hq => cases hq; exact base
        | 1, hq => cases hq; exact s1
        | i + 2, hq => cases hq) _ _ hr
      have := of_decide_eq_true h
      exact ⟨s2.fv, s2.fw, abs_le.2 ⟨by linarith [s2.lov, this.2.1], by linarith [s2.hiv, this.2.2]⟩,
        abs_le.2 ⟨by linarith [s2.low, this.2.1], by linarith [s2.hiw, this.2.2]⟩, by linarith [s2.dl, this.1]⟩
    · cases h
  · cases h

end Vdt
