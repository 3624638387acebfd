import Mathlib.Analysis.Calculus.Deriv.Mul
import Mathlib.Analysis.Calculus.Deriv.Add
import Mathlib.Tactic.Linarith
import Mathlib.Tactic.Positivity
import Mathlib.Tactic.Ring
import Mathlib.Data.Real.Basic

/-!
# Polynomials with rational coefficients, evaluated at reals

Coefficient lists (lowest degree first) that the kernel can compute with, their derivative, and
verified bounds over intervals (Taylor shift to the centre, sum of the absolute coefficients).
-/

namespace Vdt

/-- Value of the polynomial with the given coefficients, lowest first. -/
noncomputable def pev : List ℚ → ℝ → ℝ
  | [], _ => 0
  | c :: p, x => c + x * pev p x

@[simp] theorem pev_nil (x : ℝ) : pev [] x = 0 := rfl
@[simp] theorem pev_cons (c : ℚ) (p : List ℚ) (x : ℝ) : pev (c :: p) x = c + x * pev p x := rfl

def padd : List ℚ → List ℚ → List ℚ
  | [], q => q
  | p, [] => p
  | a :: p, b :: q => (a + b) :: padd p q

def psmul (c : ℚ) (p : List ℚ) : List ℚ := p.map (c * ·)

def pneg (p : List ℚ) : List ℚ := p.map (-·)

def psub (p q : List ℚ) : List ℚ := padd p (pneg q)

def pmul : List ℚ → List ℚ → List ℚ
  | [], _ => []
  | a :: p, q => padd (psmul a q) (0 :: pmul p q)

def ppow (p : List ℚ) : ℕ → List ℚ
  | 0 => [1]
  | n + 1 => pmul p (ppow p n)

def pder : List ℚ → List ℚ
  | [] => []
  | _ :: p => padd p (0 :: pder p)

/-- `p(x²)` -/
def psq : List ℚ → List ℚ
  | [] => []
  | c :: p => c :: 0 :: psq p

/-- `p(c + t)` as a polynomial in `t`. -/
def pshift (c : ℚ) : List ℚ → List ℚ
  | [] => []
  | a :: p => let s := pshift c p; padd (a :: s) (psmul c s)

theorem pev_add (p q : List ℚ) (x : ℝ) : pev (padd p q) x = pev p x + pev q x := by
  induction p generalizing q with
  | nil => simp [padd]
  | cons a p ih =>
    cases q with
    | nil => simp [padd]
    | cons b q => simp [padd, ih]; ring

theorem pev_smul (c : ℚ) (p : List ℚ) (x : ℝ) : pev (psmul c p) x = c * pev p x := by
  induction p with
  | nil => simp [psmul]
  | cons a p ih =>
    have : psmul c (a :: p) = (c * a) :: psmul c p := rfl
    rw [this, pev_cons, ih, pev_cons]; push_cast; ring

theorem pev_neg (p : List ℚ) (x : ℝ) : pev (pneg p) x = -pev p x := by
  induction p with
  | nil => simp [pneg]
  | cons a p ih =>
    have : pneg (a :: p) = (-a) :: pneg p := rfl
    rw [this, pev_cons, ih, pev_cons]; push_cast; ring

theorem pev_sub (p q : List ℚ) (x : ℝ) : pev (psub p q) x = pev p x - pev q x := by
  unfold psub; rw [pev_add, pev_neg]; ring

theorem pev_mul (p q : List ℚ) (x : ℝ) : pev (pmul p q) x = pev p x * pev q x := by
  induction p with
  | nil => simp [pmul]
  | cons a p ih => simp [pmul, pev_add, pev_smul, ih]; ring

theorem pev_pow (p : List ℚ) (n : ℕ) (x : ℝ) : pev (ppow p n) x = pev p x ^ n := by
  induction n with
  | zero => simp [ppow]
  | succ n ih => simp [ppow, pev_mul, ih, pow_succ]; ring

theorem pev_sq (p : List ℚ) (x : ℝ) : pev (psq p) x = pev p (x * x) := by
  induction p with
  | nil => rfl
  | cons a p ih => simp [psq, ih]; ring

theorem pev_shift (c : ℚ) (p : List ℚ) (t : ℝ) : pev (pshift c p) t = pev p (c + t) := by
  induction p with
  | nil => rfl
  | cons a p ih => simp only [pshift, pev_add, pev_smul, pev_cons, ih]; ring

theorem hasDerivAt_pev (p : List ℚ) (x : ℝ) : HasDerivAt (pev p) (pev (pder p) x) x := by
  induction p with
  | nil => exact hasDerivAt_const x (0 : ℝ)
  | cons c p ih =>
    have h := ((hasDerivAt_id x).mul ih).const_add (c : ℝ)
    have e : pev (pder (c :: p)) x = 1 * pev p x + id x * pev (pder p) x := by
      simp [pder, pev_add]
    rw [e]
    exact h

/-- Sum of the absolute coefficients weighted with powers of `r`. -/
def pabs (r : ℚ) : List ℚ → ℚ
  | [] => 0
  | c :: p => |c| + r * pabs r p

theorem pabs_bound (p : List ℚ) {r : ℚ} {t : ℝ} (h : |t| ≤ r) : |pev p t| ≤ pabs r p := by
  have hr : (0 : ℝ) ≤ r := (abs_nonneg _).trans h
  induction p with
  | nil => simp [pabs]
  | cons c p ih =>
    simp only [pev_cons, pabs]
    push_cast
    refine (abs_add_le _ _).trans ?_
    rw [abs_mul]
    have : |t| * |pev p t| ≤ r * pabs r p := mul_le_mul h ih (abs_nonneg _) hr
    linarith

theorem centre {a b : ℚ} {x : ℝ} (h1 : (a : ℝ) ≤ x) (h2 : x ≤ b) :
    |x - ((a + b) / 2 : ℚ)| ≤ ((b - a) / 2 : ℚ) := by
  rw [abs_le]; push_cast; constructor <;> linarith

/-- `0 ≤ p` on `[a,b]`, by the values at the centre. -/
def pnonneg (p : List ℚ) (a b : ℚ) : Bool :=
  match pshift ((a + b) / 2) p with
  | [] => true
  | c :: q => decide ((b - a) / 2 * pabs ((b - a) / 2) q ≤ c)

theorem pnonneg_sound {p : List ℚ} {a b : ℚ} (h : pnonneg p a b = true) {x : ℝ} (h1 : (a : ℝ) ≤ x) (h2 : x ≤ b) :
    0 ≤ pev p x := by
  have hc := centre h1 h2
  have hs := pev_shift ((a + b) / 2) p (x - ((a + b) / 2 : ℚ))
  rw [add_sub_cancel] at hs
  rw [← hs]
  unfold pnonneg at h
  split at h
  · rename_i e; rw [e]; simp
  · rename_i c q e
    rw [e, pev_cons]
    simp only [decide_eq_true_eq] at h
    have hq := pabs_bound q hc
    set t := x - ((a + b) / 2 : ℚ)
    have h3 : |t * pev q t| ≤ ((b - a) / 2 : ℚ) * pabs ((b - a) / 2) q := by
      rw [abs_mul]
      exact mul_le_mul hc hq (abs_nonneg _) ((abs_nonneg _).trans hc)
    have h4 : (((b - a) / 2 * pabs ((b - a) / 2) q : ℚ) : ℝ) ≤ (c : ℝ) := by exact_mod_cast h
    push_cast at h3 h4
    have := (abs_le.1 h3).1
    linarith

/-- Run a check on consecutive break points. -/
def covers (P : ℚ → ℚ → Bool) : List ℚ → Bool
  | [] => true
  | [_] => true
  | a :: b :: l => P a b && covers P (b :: l)

theorem covers_sound {P : ℚ → ℚ → Bool} : ∀ {l : List ℚ} {a b : ℚ}, covers P (a :: l) = true → (a :: l).getLast? = some b →
    l ≠ [] → ∀ {x : ℝ}, (a : ℝ) ≤ x → x ≤ b → ∃ s t : ℚ, P s t = true ∧ (s : ℝ) ≤ x ∧ x ≤ t := by
  intro l
  induction l with
  | nil => intro a b _ _ h; exact absurd rfl h
  | cons c l ih =>
    intro a b h hl _ x h1 h2
    simp only [covers, Bool.and_eq_true] at h
    rcases le_total x c with hx | hx
    · exact ⟨a, c, h.1, h1, hx⟩
    · cases l with
      | nil =>
        simp at hl
        subst hl
        exact ⟨a, c, h.1, h1, h2⟩
      | cons d l => exact ih h.2 (by simpa using hl) (by simp) hx h2

/-- Equidistant break points. -/
def grid (a b : ℚ) (n : ℕ) : List ℚ := (List.range (n + 1)).map (fun i => a + (b - a) * i / n)

/-- `0 ≤ p` on `[a,b]`, with subdivision. -/
def pnonnegOn (p : List ℚ) (l : List ℚ) : Bool := covers (pnonneg p) l

/-- `a` is the first and `b` the last of at least two break points. -/
def spans (l : List ℚ) (a b : ℚ) : Bool := l.head? == some a && l.getLast? == some b && decide (2 ≤ l.length)

theorem covers_spans {P : ℚ → ℚ → Bool} {l : List ℚ} {a b : ℚ} (h : covers P l = true) (hs : spans l a b = true)
    {x : ℝ} (h1 : (a : ℝ) ≤ x) (h2 : x ≤ b) : ∃ s t : ℚ, P s t = true ∧ (s : ℝ) ≤ x ∧ x ≤ t := by
  unfold spans at hs
  simp only [Bool.and_eq_true, beq_iff_eq, decide_eq_true_eq] at hs
  cases l with
  | nil => simp at hs
  | cons c l =>
    simp only [List.head?_cons, Option.some.injEq] at hs
    obtain ⟨⟨rfl, h4⟩, h5⟩ := hs
    exact covers_sound h h4 (by rintro rfl; simp at h5) h1 h2

theorem pnonnegOn_sound {p l : List ℚ} {a b : ℚ} (h : pnonnegOn p l = true) (hs : spans l a b = true)
    {x : ℝ} (h1 : (a : ℝ) ≤ x) (h2 : x ≤ b) : 0 ≤ pev p x := by
  obtain ⟨s, t, hp, h3, h4⟩ := covers_spans h hs h1 h2
  exact pnonneg_sound hp h3 h4

/-- `|n| ≤ C d` for two polynomials on the whole interval. -/
def pratio (n d : List ℚ) (C : ℚ) (l : List ℚ) : Bool :=
  let cd := psmul C d
  covers (fun a b => pnonneg (psub cd n) a b && pnonneg (padd cd n) a b) l

theorem pratio_sound {n d l : List ℚ} {C a b : ℚ} (h : pratio n d C l = true) (hs : spans l a b = true)
    {x : ℝ} (h1 : (a : ℝ) ≤ x) (h2 : x ≤ b) : |pev n x| ≤ C * pev d x := by
  obtain ⟨s, t, hp, h3, h4⟩ := covers_spans h hs h1 h2
  rw [Bool.and_eq_true] at hp
  have g1 := pnonneg_sound hp.1 h3 h4
  have g2 := pnonneg_sound hp.2 h3 h4
  rw [pev_sub, pev_smul] at g1
  rw [pev_add, pev_smul] at g2
  rw [abs_le]; constructor <;> linarith

/-- `c ≤ p` on the whole interval. -/
theorem plower_sound {p l : List ℚ} {c a b : ℚ} (h : pnonnegOn (psub p [c]) l = true) (hs : spans l a b = true)
    {x : ℝ} (h1 : (a : ℝ) ≤ x) (h2 : x ≤ b) : (c : ℝ) ≤ pev p x := by
  have := pnonnegOn_sound h hs h1 h2
  rw [pev_sub] at this
  simpa using this

end Vdt
