import Verif.Real.Poly

/-!
# A faster sign check

The coefficients beyond a given degree, and the digits beyond a given precision, are moved into a
constant before the check on the grid.
-/

namespace Vdt

/-- Keep `k` coefficients, each with `M` binary digits after the point. -/
def ptrim (k M : ℕ) (p : List ℚ) : List ℚ := (p.take k).map fun c => (⌊c * 2 ^ M⌋ : ℚ) / 2 ^ M

/-- The trimmed polynomial minus a bound of what was removed, valid for `|x| ≤ R`. -/
def pbelow (k M : ℕ) (R : ℚ) (p : List ℚ) : List ℚ :=
  let q := ptrim k M p
  psub q [pabs R (psub p q)]

theorem pbelow_le (k M : ℕ) {R : ℚ} (p : List ℚ) {x : ℝ} (h : |x| ≤ R) : pev (pbelow k M R p) x ≤ pev p x := by
  have := pabs_bound (psub p (ptrim k M p)) h
  rw [pev_sub, abs_le] at this
  unfold pbelow
  simp only [pev_sub, pev_cons, pev_nil]
  linarith [this.1]

/-- `|n| ≤ C d` on the grid, by trimmed polynomials. -/
def pratioT (k M : ℕ) (R : ℚ) (n d : List ℚ) (C : ℚ) (l : List ℚ) : Bool :=
  let cd := psmul C d
  pnonnegOn (pbelow k M R (psub cd n)) l && pnonnegOn (pbelow k M R (padd cd n)) l

theorem pratioT_sound {k M : ℕ} {R : ℚ} {n d l : List ℚ} {C a b : ℚ} (h : pratioT k M R n d C l = true)
    (hs : spans l a b = true) (hR : (decide (-R ≤ a) && decide (b ≤ R)) = true)
    {x : ℝ} (h1 : (a : ℝ) ≤ x) (h2 : x ≤ b) : |pev n x| ≤ C * pev d x := by
  unfold pratioT at h
  simp only [Bool.and_eq_true, decide_eq_true_eq] at h hR
  have hx : |x| ≤ R := by
    have r1 : ((-R : ℚ) : ℝ) ≤ a := by exact_mod_cast hR.1
    have r2 : (b : ℝ) ≤ R := by exact_mod_cast hR.2
    push_cast at r1
    rw [abs_le]; constructor <;> linarith
  have g1 := (pnonnegOn_sound h.1 hs h1 h2).trans (pbelow_le k M _ hx)
  have g2 := (pnonnegOn_sound h.2 hs h1 h2).trans (pbelow_le k M _ hx)
  rw [pev_sub, pev_smul] at g1
  rw [pev_add, pev_smul] at g2
  rw [abs_le]; constructor <;> linarith

/-- `c ≤ p` on the grid, by a trimmed polynomial. -/
theorem plowerT_sound {k M : ℕ} {R : ℚ} {p l : List ℚ} {c a b : ℚ} (h : pnonnegOn (psub (pbelow k M R p) [c]) l = true)
    (hs : spans l a b = true) (hR : (decide (-R ≤ a) && decide (b ≤ R)) = true)
    {x : ℝ} (h1 : (a : ℝ) ≤ x) (h2 : x ≤ b) : (c : ℝ) ≤ pev p x := by
  simp only [Bool.and_eq_true, decide_eq_true_eq] at hR
  have hx : |x| ≤ R := by
    have r1 : ((-R : ℚ) : ℝ) ≤ a := by exact_mod_cast hR.1
    have r2 : (b : ℝ) ≤ R := by exact_mod_cast hR.2
    push_cast at r1
    rw [abs_le]; constructor <;> linarith
  exact (plower_sound h hs h1 h2).trans (pbelow_le k M _ hx)

end Vdt
