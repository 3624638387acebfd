import Verif.Float.Contract
import Verif.Float.Analyse2
import Verif.Float.Flush
import Verif.Lemmas.Nearest
import Verif.Lemmas.Reduce

/-!
# Other rounding directions

The operations of a mode `m` of `Model/Flush.lean` may also be taken as operations that round in another direction: `Mode.Dir` demands
of each result only that no floating point number lies between it and the exact result.  This covers the four directions of the
processor, mixtures of them, and results that are rounded twice.  The analyser of `Float/Analyse.lean` is repeated with the whole
distance of two neighbours as the error of an operation.
-/

namespace Vdt.Flush
open FP Ab
variable {f : Fmt} {m : Mode}

/-- `w` is `t`, or one of the two neighbours of `t`. -/
def Faithful (w : FP f) (t : ℝ) : Prop :=
  w.isFinite = true ∧ ∀ z : FP f, z.isFinite = true → (w.real ≤ z.real → z.real ≤ t → z.real = w.real) ∧ (t ≤ z.real → z.real ≤ w.real → z.real = w.real)

/-- Every operation returns a neighbour of the exact result (unless that is very large or the operands are no numbers).  The conversion
to float keeps the sign. -/
structure _root_.Vdt.Flush.Mode.Dir (m : Mode) : Prop where
  arg : ∀ {f : Fmt} (x : FP f), m.arg x = x
  add : ∀ {f : Fmt} [f.Ok] (x y : FP f), x.isFinite = true → y.isFinite = true → |x.val + y.val| ≤ f.big → Faithful (m.res .add x y (x + y)) (x.real + y.real)
  sub : ∀ {f : Fmt} [f.Ok] (x y : FP f), x.isFinite = true → y.isFinite = true → |x.val - y.val| ≤ f.big → Faithful (m.res .sub x y (x - y)) (x.real - y.real)
  mul : ∀ {f : Fmt} [f.Ok] (x y : FP f), x.isFinite = true → y.isFinite = true → |x.val * y.val| ≤ f.big → Faithful (m.res .mul x y (x * y)) (x.real * y.real)
  div : ∀ {f : Fmt} [f.Ok] (x y : FP f), x.isFinite = true → y.isFinite = true → y.val ≠ 0 → |x.val / y.val| ≤ f.big →
    Faithful (m.res .div x y (x / y)) (x.real / y.real)
  sqrt : ∀ {f : Fmt} [f.Ok] (x : FP f), f.emin ≤ -(f.mb : ℤ) - 2 → x.isFinite = true → 0 ≤ x.val → x.val ≤ f.big → Faithful (m.res .sqrt x x (FP.sqrt x)) (Real.sqrt x.real)
  cvt : ∀ (x : F64) (r : F32), r.sign = x.sign → (m.cvt x r).sign = x.sign

theorem Faithful.exact {w z : FP f} {t : ℝ} (h : Faithful w t) (hz : z.isFinite = true) (e : z.real = t) : w.real = t := by
  rcases le_total w.real t with l | l
  · rw [← e, (h.2 z hz).1 (by rw [e]; exact l) e.le]
  · rw [← e, (h.2 z hz).2 e.ge (by rw [e]; exact l)]

theorem Faithful.between {w a b : FP f} {t : ℝ} (h : Faithful w t) (ha : a.isFinite = true) (hb : b.isFinite = true) (h1 : a.real ≤ t) (h2 : t ≤ b.real) :
    a.real ≤ w.real ∧ w.real ≤ b.real := by
  rcases le_total w.real t with l | l
  · refine ⟨?_, l.trans h2⟩
    by_contra c
    rw [not_le] at c
    exact absurd ((h.2 a ha).1 c.le h1) c.ne'
  · refine ⟨h1.trans l, ?_⟩
    by_contra c
    rw [not_le] at c
    exact absurd ((h.2 b hb).2 h2 c.le) c.ne

theorem real_eq {w : FP f} {q : ℚ} (h : w.real = q) : w.val = q := by unfold FP.real at h; exact_mod_cast h

theorem Faithful.exactQ [f.Ok] {w : FP f} {q : ℚ} (h : Faithful w q) (hr : Rep f q) (hb : |q| ≤ f.big) : w.val = q := by
  refine real_eq (h.exact (z := ofRat f false q) (finite_ofRat _ hb) ?_)
  unfold FP.real
  rw [val_ofRat, rnd_exact f hr hb]

/-- The error is at most the distance of two neighbours. -/
theorem Faithful.err [hf : f.Ok] {w : FP f} {q M : ℚ} (h : Faithful w q) (hq : |q| ≤ M) (hb : M ≤ f.big) : |w.val - q| ≤ 2 * hulp f M := by
  have hp : 0 < 2 * hulp f M := mul_pos two_pos (hulp_pos f M)
  rcases eq_or_ne q 0 with rfl | q0
  · rw [h.exactQ ⟨0, f.emin - f.mb, by simp, by simp, le_rfl⟩ (by rw [abs_zero]; exact f.big_pos.le)]
    simpa using hp.le
  · have qp : 0 < |q| := abs_pos.2 q0
    obtain ⟨e, he⟩ : ∃ e, e = rexp f |q| := ⟨_, rfl⟩
    have e1 : f.emin ≤ e := by rw [he]; exact rexp_ge _ _
    have e2 : |q| < p2 (e + 1) := lt_of_lt_of_le (ilog2_spec qp).2 (p2_le (by rw [he]; unfold rexp; omega))
    have e3 : e ≤ rexp f M := by rw [he]; exact rexp_mono f qp hq
    have e4 : e ≤ 1 - f.emin := by
      rw [he]
      unfold rexp
      refine max_le ?_ ?_
      · by_contra c
        have c1 := (ilog2_spec qp).1
        have c2 : f.big < p2 (ilog2 |q|) := p2_lt (by omega)
        linarith
      · obtain ⟨d, -, hd, hd1⟩ := infMag_eq f
        omega
    have s0 := p2_pos (e - f.mb)
    have sh : p2 (e - f.mb) ≤ 2 * hulp f M := by
      have : 2 * hulp f M = p2 (rexp f M - f.mb) := by
        unfold hulp
        rw [show (2 : ℚ) = p2 1 by decide +kernel, ← p2_add]; congr 1; ring
      rw [this]; exact p2_le (by omega)
    have t1 : p2 (e + 1) = 2 ^ (f.mb + 1) * p2 (e - f.mb) := by
      rw [← p2_nat, ← p2_add]; congr 1; push_cast; ring
    have big1 : f.big = 2 ^ ((1 - f.emin - e + f.mb).toNat) * p2 (e - f.mb) := by
      unfold Fmt.big
      rw [← p2_nat, ← p2_add]; congr 1; omega
    rw [t1] at e2
    have qs : |q / p2 (e - f.mb)| < 2 ^ (f.mb + 1) := by rw [abs_div, abs_of_pos s0, div_lt_iff₀ s0]; exact e2
    have qb : |q / p2 (e - f.mb)| ≤ 2 ^ ((1 - f.emin - e + f.mb).toNat) := by
      rw [abs_div, abs_of_pos s0, div_le_iff₀ s0, ← big1]; exact hq.trans hb
    rw [abs_lt] at qs
    rw [abs_le] at qb
    -- multiples of the distance near `q`
    have rep : ∀ n : ℤ, |n| ≤ 2 ^ (f.mb + 1) → |(n : ℚ)| ≤ 2 ^ ((1 - f.emin - e + f.mb).toNat) →
        (ofRat f false (n * p2 (e - f.mb))).isFinite = true ∧ (ofRat f false (n * p2 (e - f.mb))).real = ((n * p2 (e - f.mb) : ℚ) : ℝ) := by
      intro n h1 h2
      have b : |(n : ℚ) * p2 (e - f.mb)| ≤ f.big := by
        rw [abs_mul, abs_of_pos s0, big1]; exact mul_le_mul_of_nonneg_right h2 s0.le
      refine ⟨finite_ofRat _ b, ?_⟩
      unfold FP.real
      rw [val_ofRat, rnd_exact f ⟨n, _, rfl, h1, by omega⟩ b]
    have fl1 := Int.floor_le (q / p2 (e - f.mb))
    have fl2 := Int.lt_floor_add_one (q / p2 (e - f.mb))
    have cl1 := Int.le_ceil (q / p2 (e - f.mb))
    have cl2 := Int.ceil_lt_add_one (q / p2 (e - f.mb))
    obtain ⟨a1, a2⟩ := rep ⌊q / p2 (e - f.mb)⌋ (by
        rw [abs_le]; constructor
        · exact Int.le_floor.2 (by push_cast; linarith)
        · exact Int.floor_le_iff.2 (by push_cast; linarith)) (by
        rw [abs_le]; constructor
        · exact_mod_cast Int.le_floor.2 (by push_cast; linarith [qb.1] : ((-2 ^ ((1 - f.emin - e + f.mb).toNat) : ℤ) : ℚ) ≤ _)
        · exact fl1.trans qb.2)
    obtain ⟨b1, b2⟩ := rep ⌈q / p2 (e - f.mb)⌉ (by
        rw [abs_le]; constructor
        · exact Int.le_ceil_iff.2 (by push_cast; linarith)
        · exact Int.ceil_le.2 (by push_cast; linarith)) (by
        rw [abs_le]; constructor
        · exact qb.1.trans cl1
        · exact_mod_cast Int.ceil_le.2 (by push_cast; linarith [qb.2] : q / p2 (e - f.mb) ≤ ((2 ^ ((1 - f.emin - e + f.mb).toNat) : ℤ) : ℚ)))
    have k1 : (⌊q / p2 (e - f.mb)⌋ : ℚ) * p2 (e - f.mb) ≤ q := (le_div_iff₀ s0).1 fl1
    have k2 : q < ((⌊q / p2 (e - f.mb)⌋ : ℚ) + 1) * p2 (e - f.mb) := (div_lt_iff₀ s0).1 fl2
    have k3 : q ≤ (⌈q / p2 (e - f.mb)⌉ : ℚ) * p2 (e - f.mb) := (div_le_iff₀ s0).1 cl1
    have k4 : (⌈q / p2 (e - f.mb)⌉ : ℚ) * p2 (e - f.mb) < q + p2 (e - f.mb) := by
      have := mul_lt_mul_of_pos_right cl2 s0
      rwa [add_mul, one_mul, div_mul_cancel₀ _ s0.ne'] at this
    obtain ⟨g1, g2⟩ := h.between a1 b1 (by rw [a2]; exact_mod_cast k1) (by rw [b2]; exact_mod_cast k3)
    rw [a2] at g1
    rw [b2] at g2
    have g1' : (⌊q / p2 (e - f.mb)⌋ : ℚ) * p2 (e - f.mb) ≤ w.val := by unfold FP.real at g1; exact_mod_cast g1
    have g2' : w.val ≤ (⌈q / p2 (e - f.mb)⌉ : ℚ) * p2 (e - f.mb) := by unfold FP.real at g2; exact_mod_cast g2
    rw [abs_le]
    constructor <;> linarith

theorem Faithful.err_add [f.Ok] {w : FP f} {q : ℚ} (h : Faithful w q) (hb : |q| ≤ f.big) : |w.val - q| ≤ 2 * f.u * |q| + 2 * f.eta := by
  have h1 := mul_nonneg f.u_pos.le (abs_nonneg q)
  have h2 := f.eta_pos
  rcases eq_or_ne q 0 with rfl | q0
  · rw [h.exactQ ⟨0, f.emin - f.mb, by simp, by simp, le_rfl⟩ hb]
    simp only [sub_zero, abs_zero, mul_zero, zero_add]; linarith
  · have a := h.err le_rfl hb
    have b := hulp_le f (abs_pos.2 q0)
    have : max (f.u * |q|) f.eta ≤ f.u * |q| + f.eta := max_le (by linarith) (by linarith)
    linarith

/-! ## The analyser -/

/-- As `Ab.round`, with twice the error. -/
def roundD (f : Fmt) (Z : ℚ) (a : Ab) : Option Ab :=
  let A := a.mag + a.err
  if A * Z ^ a.k + a.h * etaUp + etaUp ≤ f.big then
    if a.k = 0 then some (pack a.k a.lo a.hi (a.err + 2 * hulp f (A + a.h * etaUp + etaUp)) a.h)
    else some (pack a.k a.lo a.hi (a.err + 2 * f.u * A) (a.h + 2 * f.u * a.h + 2))
  else none

def addD (f : Fmt) (Z : ℚ) (a b : Ab) : Option Ab := roundD f Z (add' (lower Z (a.k - b.k) a) (lower Z (b.k - a.k) b))

def anD (f : Fmt) (Z : ℚ) (env : ℕ → Option Ab) : E f → Option Ab
  | .var i => env i
  | .const c => if c.isFinite then some ⟨0, c.val, c.val, 0, 0⟩ else none
  | .add a b => do addD f Z (← anD f Z env a) (← anD f Z env b)
  | .sub a b => do addD f Z (← anD f Z env a) (Ab.neg' (← anD f Z env b))
  | .mul a b => do roundD f Z (Ab.mul' Z (← anD f Z env a) (← anD f Z env b))
  | .div a b => do roundD f Z (← Ab.div' Z (← anD f Z env a) (← anD f Z env b))
  | .neg a => do return Ab.neg' (← anD f Z env a)
  | .scale c a => do
    if c.isFinite && Ab.isPow2 c.val then (Ab.scale' f Z c.val (← anD f Z env a)).map fun d => { d with h := d.h + 2 } else none
  | .scaleR a c => do
    if c.isFinite && Ab.isPow2 c.val then (Ab.scale' f Z c.val (← anD f Z env a)).map fun d => { d with h := d.h + 2 } else none

variable [f.Ok] {z : ℝ} {Z : ℚ}

theorem Pre.roundD [EtaOk f] {a b : Ab} {q : ℚ} {r : ℝ} (s : Pre f z a q r) (hz : |z| ≤ Z) (hb : roundD f Z a = some b)
    {x : FP f} (hx : |q| ≤ f.big → Faithful x q) : Sound f z b x r := by
  unfold Flush.roundD at hb
  simp only at hb
  have hq := s.q_boundQ hz
  have e0 : 0 ≤ a.mag + a.err := add_nonneg (mag_nonneg a) s.err0
  have hep : 0 < etaUp := by norm_num [etaUp]
  split at hb
  · rename_i hbig
    have hqb : |q| ≤ f.big := by linarith
    have hfx := hx hqb
    have hreal : x.real - r = ((x.val - q : ℚ) : ℝ) + ((q : ℝ) - r) := by
      unfold FP.real; push_cast; ring
    split at hb
    · rename_i hk
      cases hb
      have hqM : |q| ≤ a.mag + a.err + a.h * etaUp + etaUp := by
        rw [hk] at hq; simp at hq; linarith
      have hMb : a.mag + a.err + a.h * etaUp + etaUp ≤ f.big := by
        rw [hk] at hbig; simpa using hbig
      have hr := hfx.err hqM hMb
      refine Sound.pack (a := ⟨a.k, a.lo, a.hi, a.err + 2 * hulp f (a.mag + a.err + a.h * etaUp + etaUp), a.h⟩)
        ⟨hfx.1, s.ex, add_nonneg s.err0 (mul_nonneg two_pos.le (hulp_pos _ _).le), s.h0, ?_⟩
      rw [hreal]
      refine (abs_add_le _ _).trans ?_
      have h1 : |((x.val - q : ℚ) : ℝ)| ≤ ((2 * hulp f (a.mag + a.err + a.h * etaUp + etaUp) : ℚ) : ℝ) := by exact_mod_cast hr
      have h2 := s.bound
      have h3 : |z| ^ a.k = 1 := by rw [hk]; simp
      rw [h3] at h2 ⊢
      push_cast at h1 ⊢
      linarith
    · cases hb
      refine Sound.pack (a := ⟨a.k, a.lo, a.hi, a.err + 2 * f.u * (a.mag + a.err), a.h + 2 * f.u * a.h + 2⟩)
        ⟨hfx.1, s.ex, ?_, ?_, ?_⟩
      · exact add_nonneg s.err0 (mul_nonneg (mul_nonneg two_pos.le f.u_pos.le) e0)
      · have := mul_nonneg f.u_pos.le s.h0; have := s.h0; simp only; linarith
      · rw [hreal]
        refine (abs_add_le _ _).trans ?_
        have hr := hfx.err_add hqb
        have h1 : |((x.val - q : ℚ) : ℝ)| ≤ 2 * (f.u : ℝ) * |(q : ℝ)| + 2 * (f.eta : ℝ) := by exact_mod_cast hr
        have h2 := s.bound
        have h3 : (f.u : ℝ) * |(q : ℝ)| ≤ f.u * ((a.mag + a.err) * |z| ^ a.k + a.h * (f.eta : ℝ)) :=
          mul_le_mul_of_nonneg_left s.q_bound (by exact_mod_cast f.u_pos.le)
        push_cast at h1 ⊢
        nlinarith
  · cases hb

theorem Pre.addD [EtaOk f] {a b c : Ab} {p q : ℚ} {y : FP f} {r t : ℝ} (sa : Pre f z a p r) (sb : Pre f z b q t)
    (hz : |z| ≤ Z) (h : addD f Z a b = some c) (hy : |p + q| ≤ f.big → Faithful y ((p + q : ℚ) : ℝ)) : Sound f z c y (r + t) := by
  unfold Flush.addD at h
  obtain ⟨la, ka⟩ := sa.lower hz (d := a.k - b.k) (by omega)
  obtain ⟨lb, kb⟩ := sb.lower hz (d := b.k - a.k) (by omega)
  exact Pre.roundD (la.add lb (by omega)) hz h hy

/-- Before the rounding of a quotient. -/
theorem div_pre [EtaOk f] {a b d : Ab} {x y : FP f} {r t : ℝ} (sa : Sound f z a x r) (sb : Sound f z b y t) (hz : |z| ≤ Z)
    (hd : div' Z a b = some d) : y.val ≠ 0 ∧ Pre f z d (x.val / y.val) (r / t) := by
  unfold div' at hd
  simp only at hd
  split at hd
  · rename_i hcond
    obtain ⟨hk, hD, hm⟩ := hcond
    have hd' := Option.some.inj hd
    clear hd
    obtain ⟨v, hv, h1, h2⟩ := sa.ex
    obtain ⟨w, hw, h3, h4⟩ := sb.ex
    rw [hk, pow_zero, one_mul] at hw
    subst hw
    have hmdef : b.away = if 0 < b.lo then b.lo else -b.hi := rfl
    generalize b.away = m at *
    have hmR : (0 : ℝ) < m := by exact_mod_cast hm
    have hep : 0 < etaUp := by norm_num [etaUp]
    have htm : (m : ℝ) ≤ |t| := by
      rw [hmdef]
      split
      · exact h3.trans (le_abs_self _)
      · push_cast; exact (neg_le_neg h4).trans (neg_le_abs _)
    have ht0 : t ≠ 0 := by intro h; rw [h, abs_zero] at htm; linarith
    have ea : (0 : ℝ) ≤ a.err := by exact_mod_cast sa.err0
    have eb : (0 : ℝ) ≤ b.err := by exact_mod_cast sb.err0
    have ha : (0 : ℝ) ≤ a.h := by exact_mod_cast sa.h0
    have hb : (0 : ℝ) ≤ b.h := by exact_mod_cast sb.h0
    have ma' : (0 : ℝ) ≤ a.mag := by exact_mod_cast mag_nonneg a
    have hη := etaR_pos f
    have hηu := eta_le (f := f)
    have hyt : |y.real - t| ≤ b.err + b.h * f.eta := by
      have := sb.bound; rw [hk] at this; simpa using this
    have hDR : (0 : ℝ) < (m : ℝ) - b.err - b.h * (etaUp : ℝ) := by exact_mod_cast hD
    have hyD : (m : ℝ) - b.err - b.h * (etaUp : ℝ) ≤ |y.real| := by
      have : |t| ≤ |y.real| + |y.real - t| := by
        have := abs_sub_abs_le_abs_sub t y.real
        rw [abs_sub_comm] at this; linarith
      have h7 : (b.h : ℝ) * f.eta ≤ b.h * (etaUp : ℝ) := mul_le_mul_of_nonneg_left hηu hb
      linarith
    have hy0 : y.real ≠ 0 := by
      intro h; rw [h, abs_zero] at hyD; linarith
    have hyv : y.val ≠ 0 := by
      intro h; apply hy0; unfold FP.real; rw [h]; simp
    refine ⟨hyv, ?_⟩
    rw [← hd']
    have hinv : (1 / (b.hi : ℝ)) ≤ 1 / t ∧ 1 / t ≤ 1 / (b.lo : ℝ) := by
      by_cases hl : 0 < b.lo
      · have hl' : (0 : ℝ) < b.lo := by exact_mod_cast hl
        have ht : 0 < t := lt_of_lt_of_le hl' h3
        exact ⟨one_div_le_one_div_of_le ht h4, one_div_le_one_div_of_le hl' h3⟩
      · have hh : m = -b.hi := by rw [hmdef, if_neg hl]
        have hh' : (b.hi : ℝ) < 0 := by
          have : (m : ℝ) = -b.hi := by rw [hh]; push_cast; ring
          linarith
        have ht : t < 0 := lt_of_le_of_lt h4 hh'
        exact ⟨one_div_le_one_div_of_neg_of_le hh' h4, one_div_le_one_div_of_neg_of_le ht h3⟩
    have iv := interval_mul h1 h2 hinv.1 hinv.2
    refine ⟨⟨v / t, ?_, ?_, ?_⟩, ?_, ?_, ?_⟩
    · rw [hv, mul_div_assoc]
    · push_cast
      have := iv.1
      rw [div_eq_mul_one_div v t]
      simp only [div_eq_mul_one_div (a.lo : ℝ), div_eq_mul_one_div (a.hi : ℝ)]
      rw [min_comm ((a.lo : ℝ) * (1 / b.lo)), min_comm ((a.hi : ℝ) * (1 / b.lo))]
      exact this
    · push_cast
      have := iv.2
      rw [div_eq_mul_one_div v t]
      simp only [div_eq_mul_one_div (a.lo : ℝ), div_eq_mul_one_div (a.hi : ℝ)]
      rw [max_comm ((a.lo : ℝ) * (1 / b.lo)), max_comm ((a.hi : ℝ) * (1 / b.lo))]
      exact this
    · have := sa.err0; have := sb.err0; have := mag_nonneg a
      simp only; positivity
    · have := sa.h0; have := sb.h0; have := mag_nonneg a
      have hZ : 0 ≤ Z := by exact_mod_cast Z_nonneg hz
      simp only; positivity
    · have key : ((x.val / y.val : ℚ) : ℝ) - r / t = ((x.real - r) - r / t * (y.real - t)) / y.real := by
        have : ((x.val / y.val : ℚ) : ℝ) = x.real / y.real := by unfold FP.real; push_cast; rfl
        rw [this]
        field_simp
        ring
      rw [key, abs_div]
      have hrt : |r / t| ≤ a.mag / m * |z| ^ a.k := by
        rw [abs_div]
        have := sa.r_bound
        calc |r| / |t| ≤ (a.mag * |z| ^ a.k) / m := div_le_div₀ (by positivity) this hmR htm
          _ = a.mag / m * |z| ^ a.k := by ring
      have hnum : |(x.real - r) - r / t * (y.real - t)| ≤
          (a.err + a.mag / m * b.err) * |z| ^ a.k + (a.h + a.mag / m * (Z : ℝ) ^ a.k * b.h) * f.eta := by
        refine (abs_sub _ _).trans ?_
        rw [abs_mul]
        have g1 := sa.bound
        have g2 : |r / t| * |y.real - t| ≤ a.mag / m * |z| ^ a.k * (b.err + b.h * f.eta) :=
          mul_le_mul hrt hyt (abs_nonneg _) (by positivity)
        have g3 : a.mag / m * |z| ^ a.k * (b.h * f.eta) ≤ a.mag / m * (Z : ℝ) ^ a.k * (b.h * f.eta) :=
          mul_le_mul_of_nonneg_right (mul_le_mul_of_nonneg_left (pow_le_Z hz _) (by positivity)) (by positivity)
        nlinarith
      have hZ : (0 : ℝ) ≤ Z := Z_nonneg hz
      calc _ ≤ ((a.err + a.mag / m * b.err) * |z| ^ a.k + (a.h + a.mag / m * (Z : ℝ) ^ a.k * b.h) * f.eta) /
            ((m : ℝ) - b.err - b.h * (etaUp : ℝ)) := div_le_div₀ (by positivity) hnum hDR hyD
        _ = _ := by push_cast; ring
  · cases hd

/-- A power of two times a floating point number is exact up to underflow. -/
theorem Faithful.scaled {w : FP f} {n k : ℤ} {q : ℚ} (h : Faithful w q) (hq : q = n * p2 k) (hn : |n| ≤ 2 ^ (f.mb + 1)) (hb : |q| ≤ f.big) :
    |w.val - q| ≤ 2 * f.eta := by
  by_cases hk : f.emin - f.mb ≤ k
  · rw [h.exactQ ⟨n, k, hq, hn, hk⟩ hb]; simp [f.eta_pos.le]
  · have hle : |q| ≤ p2 f.emin := by
      rw [hq, abs_mul, abs_of_pos (p2_pos k)]
      have h1 : |(n : ℚ)| ≤ p2 (f.mb + 1) := by
        have : p2 ((f.mb : ℤ) + 1) = 2 ^ (f.mb + 1) := by
          rw [p2_eq]; exact_mod_cast rfl
        rw [this]; exact_mod_cast hn
      calc |(n : ℚ)| * p2 k ≤ p2 (f.mb + 1) * p2 k := mul_le_mul_of_nonneg_right h1 (p2_pos _).le
        _ = p2 (f.mb + 1 + k) := by rw [← p2_add]
        _ ≤ p2 f.emin := p2_le (by omega)
    have hM : p2 f.emin ≤ f.big := by
      unfold Fmt.big
      apply p2_le
      obtain ⟨d, _, hd, hd1⟩ := infMag_eq f
      omega
    refine (h.err hle hM).trans ?_
    refine mul_le_mul_of_nonneg_left ?_ two_pos.le
    unfold hulp Fmt.eta
    apply p2_le
    have : rexp f (p2 f.emin) = f.emin := by
      unfold rexp
      have : ilog2 (p2 f.emin) = f.emin := ilog2_unique le_rfl (p2_lt (by omega))
      rw [this]; simp
    omega

theorem Sound.scaleD [EtaOk f] {a d : Ab} {c x y : FP f} {r : ℝ} (s : Sound f z a x r) (hz : |z| ≤ Z) (hp : isPow2 c.val = true)
    (h : scale' f Z c.val a = some d) (hy : |c.val * x.val| ≤ f.big → Faithful y ((c.val * x.val : ℚ) : ℝ)) :
    Sound f z { d with h := d.h + 2 } y (c.real * r) := by
  have pre := s.scale_pre h
  have hqb : |c.val * x.val| ≤ f.big := by
    refine (pre.q_boundQ hz).trans ?_
    unfold scale' at h
    simp only at h
    split at h
    · cases h; assumption
    · cases h
  obtain ⟨j, hj⟩ := isPow2_spec hp
  obtain ⟨n, k, hx, hn, hk⟩ := val_rep x
  have hf := hy hqb
  have e := hf.scaled (n := n) (k := j + k) (by rw [hj, hx, p2_add]; ring) hn hqb
  have e' : |((y.val - c.val * x.val : ℚ) : ℝ)| ≤ 2 * (f.eta : ℝ) := by exact_mod_cast e
  refine ⟨hf.1, pre.ex, pre.err0, by have := pre.h0; simp only; linarith, ?_⟩
  have hreal : y.real - c.real * r = ((y.val - c.val * x.val : ℚ) : ℝ) + (((c.val * x.val : ℚ) : ℝ) - c.real * r) := by
    unfold FP.real; push_cast; ring
  rw [hreal]
  refine (abs_add_le _ _).trans ?_
  have := pre.bound
  push_cast at this e' ⊢
  linarith

/-- The analyser is sound for every mode. -/
theorem anD_sound [EtaOk f] (hm : m.Dir) (hz : |z| ≤ Z) {env : ℕ → Option Ab} {eF : ℕ → FP f} {eR : ℕ → ℝ}
    (henv : ∀ i a, env i = some a → Ab.Sound f z a (eF i) (eR i)) (e : E f) :
    ∀ a, anD f Z env e = some a → Ab.Sound f z a (evalZ m eF e).v (e.evalR eR) := by
  induction e with
  | var i => exact fun a h => henv i a h
  | const c =>
    intro a h
    simp only [anD] at h
    split at h
    · rename_i hf
      cases h
      refine ⟨hf, ⟨c.real, by simp [E.evalR], le_rfl, le_rfl⟩, le_rfl, le_rfl, ?_⟩
      simp [evalZ, of, E.evalR]
    · cases h
  | add x y ihx ihy =>
    intro a h
    simp only [anD, Option.bind_eq_bind, Option.bind_eq_some_iff] at h
    obtain ⟨p, hp, q, hq, h⟩ := h
    have sx := ihx p hp
    have sy := ihy q hq
    refine Pre.addD sx.pre sy.pre hz h fun hb => ?_
    show Faithful (m.res .add (m.arg _) (m.arg _) (m.arg _ + m.arg _)) _
    rw [hm.arg, hm.arg]
    have := hm.add _ _ sx.fin sy.fin hb
    unfold FP.real at this
    push_cast
    exact this
  | sub x y ihx ihy =>
    intro a h
    simp only [anD, Option.bind_eq_bind, Option.bind_eq_some_iff] at h
    obtain ⟨p, hp, q, hq, h⟩ := h
    have sx := ihx p hp
    have sy := ihy q hq
    simp only [E.evalR]
    rw [sub_eq_add_neg]
    refine Pre.addD sx.pre sy.pre.neg hz h fun hb => ?_
    show Faithful (m.res .sub (m.arg _) (m.arg _) (m.arg _ - m.arg _)) _
    rw [hm.arg, hm.arg]
    rw [← sub_eq_add_neg] at hb ⊢
    have := hm.sub _ _ sx.fin sy.fin hb
    unfold FP.real at this
    push_cast
    exact this
  | mul x y ihx ihy =>
    intro a h
    simp only [anD, Option.bind_eq_bind, Option.bind_eq_some_iff] at h
    obtain ⟨p, hp, q, hq, h⟩ := h
    have sx := ihx p hp
    have sy := ihy q hq
    refine Pre.roundD (mul_pre sx sy hz) hz h fun hb => ?_
    show Faithful (m.res .mul (m.arg _) (m.arg _) (m.arg _ * m.arg _)) _
    rw [hm.arg, hm.arg]
    have := hm.mul _ _ sx.fin sy.fin hb
    unfold FP.real at this
    push_cast
    exact this
  | div x y ihx ihy =>
    intro a h
    simp only [anD, Option.bind_eq_bind, Option.bind_eq_some_iff] at h
    obtain ⟨p, hp, q, hq, d, hd, h⟩ := h
    have sx := ihx p hp
    have sy := ihy q hq
    obtain ⟨y0, pre⟩ := div_pre sx sy hz hd
    refine Pre.roundD pre hz h fun hb => ?_
    show Faithful (m.res .div (m.arg _) (m.arg _) (m.arg _ / m.arg _)) _
    rw [hm.arg, hm.arg]
    have := hm.div _ _ sx.fin sy.fin y0 hb
    unfold FP.real at this
    push_cast
    exact this
  | neg x ihx =>
    intro a h
    simp only [anD, Option.bind_eq_bind, Option.bind_eq_some_iff] at h
    obtain ⟨p, hp, h⟩ := h
    cases h
    exact (ihx p hp).neg
  | scale c x ihx =>
    intro a h
    simp only [anD] at h
    split at h
    · rename_i hc
      simp only [Option.bind_eq_bind, Option.bind_eq_some_iff] at h
      obtain ⟨p, hp, h⟩ := h
      obtain ⟨d, hd, rfl⟩ := Option.map_eq_some_iff.1 h
      rw [Bool.and_eq_true] at hc
      have s := ihx p hp
      refine Sound.scaleD s hz hc.2 hd fun hb => ?_
      show Faithful (m.res .mul (m.arg c) (m.arg _) (m.arg c * m.arg _)) _
      rw [hm.arg, hm.arg]
      have := hm.mul _ _ hc.1 s.fin hb
      unfold FP.real at this
      push_cast
      exact this
    · cases h
  | scaleR x c ihx =>
    intro a h
    simp only [anD] at h
    split at h
    · rename_i hc
      simp only [Option.bind_eq_bind, Option.bind_eq_some_iff] at h
      obtain ⟨p, hp, h⟩ := h
      obtain ⟨d, hd, rfl⟩ := Option.map_eq_some_iff.1 h
      rw [Bool.and_eq_true] at hc
      have s := ihx p hp
      simp only [E.evalR]
      rw [mul_comm (E.evalR eR x)]
      refine Sound.scaleD s hz hc.2 hd fun hb => ?_
      show Faithful (m.res .mul (m.arg _) (m.arg c) (m.arg _ * m.arg c)) _
      rw [hm.arg, hm.arg]
      rw [mul_comm] at hb
      have := hm.mul _ _ s.fin hc.1 hb
      unfold FP.real at this
      push_cast
      rw [mul_comm (c.val : ℝ)]
      exact this
    · cases h

/-! ## One input -/

def anD1 (f : Fmt) (e : E f) (a b : ℚ) : Option Ab := anD f (max |a| |b|) (Vdt.env1 a b) e

theorem anD1_sound [EtaOk f] (hm : m.Dir) {e : E f} {a b : ℚ} {r : Ab} (h : anD1 f e a b = some r) {x : FP f}
    (hx : x.isFinite = true) (h1 : (a : ℝ) ≤ x.real) (h2 : x.real ≤ b) :
    Ab.Sound f x.real r (evalZ m (fun _ => x) e).v (e.evalR fun _ => x.real) := by
  refine anD_sound hm (abs_le_max h1 h2) ?_ e r h
  intro i s hs
  match i, hs with
  | 0, hs =>
    cases hs
    exact ⟨hx, ⟨x.real, by simp, h1, h2⟩, le_rfl, le_rfl, by simp⟩
  | 1, hs =>
    cases hs
    exact ⟨hx, ⟨1, by simp, by simp, by simp⟩, le_rfl, le_rfl, by simp⟩

def okAbsD (f : Fmt) (e : E f) (C : ℚ) (a b : ℚ) : Bool :=
  match anD1 f e a b with
  | some r => decide (r.err * (max |a| |b|) ^ r.k + r.h * etaUp ≤ C)
  | none => false

theorem okAbsD_sound [EtaOk f] (hm : m.Dir) {e : E f} {a b C : ℚ} (h : okAbsD f e C a b = true) {x : FP f}
    (hx : x.isFinite = true) (h1 : (a : ℝ) ≤ x.real) (h2 : x.real ≤ b) :
    (evalZ m (fun _ => x) e).v.isFinite = true ∧ |(evalZ m (fun _ => x) e).v.real - e.evalR fun _ => x.real| ≤ C := by
  unfold okAbsD at h
  split at h
  · rename_i r hr
    simp only [decide_eq_true_eq] at h
    have s := anD1_sound hm hr hx h1 h2
    refine ⟨s.fin, s.bound.trans ?_⟩
    have h3 : ((r.err * (max |a| |b|) ^ r.k + r.h * etaUp : ℚ) : ℝ) ≤ C := by exact_mod_cast h
    rw [Rat.cast_add, Rat.cast_mul, Rat.cast_pow, Rat.cast_mul] at h3
    have h4 := pow_le_pow_left₀ (abs_nonneg _) (abs_le_max h1 h2) r.k
    have h5 := mul_le_mul_of_nonneg_left h4 (show (0 : ℝ) ≤ r.err by exact_mod_cast s.err0)
    have := mul_le_mul_of_nonneg_left (eta_le (f := f)) (show (0 : ℝ) ≤ r.h by exact_mod_cast s.h0)
    linarith
  · cases h

def okRelD (f : Fmt) (e : E f) (C : ℚ) (a b : ℚ) : Bool :=
  match anD1 f e a b with
  | some r => r.k == 0 && decide (r.err + r.h * etaUp ≤ C * r.lo)
  | none => false

theorem okRelD_sound [EtaOk f] (hm : m.Dir) {e : E f} {a b C : ℚ} (hC : 0 ≤ C) (h : okRelD f e C a b = true) {x : FP f}
    (hx : x.isFinite = true) (h1 : (a : ℝ) ≤ x.real) (h2 : x.real ≤ b) :
    (evalZ m (fun _ => x) e).v.isFinite = true ∧ |(evalZ m (fun _ => x) e).v.real - e.evalR fun _ => x.real| ≤ C * e.evalR fun _ => x.real := by
  unfold okRelD at h
  split at h
  · rename_i r hr
    simp only [Bool.and_eq_true, beq_iff_eq, decide_eq_true_eq] at h
    have s := anD1_sound hm hr hx h1 h2
    refine ⟨s.fin, s.bound.trans ?_⟩
    rw [h.1, pow_zero, mul_one]
    have h3 : ((r.err + r.h * etaUp : ℚ) : ℝ) ≤ ((C * r.lo : ℚ) : ℝ) := by exact_mod_cast h.2
    push_cast at h3
    have := mul_le_mul_of_nonneg_left (eta_le (f := f)) (show (0 : ℝ) ≤ r.h by exact_mod_cast s.h0)
    obtain ⟨v, hv, hlo, _⟩ := s.ex
    rw [h.1, pow_zero, one_mul] at hv
    rw [hv]
    have h4 : (C : ℝ) * r.lo ≤ C * v := mul_le_mul_of_nonneg_left hlo (by exact_mod_cast hC)
    linarith
  · cases h

def okLinD (f : Fmt) (e : E f) (C H : ℚ) (a b : ℚ) : Bool :=
  match anD1 f e a b with
  | some r => r.k == 1 && decide (r.err ≤ C) && decide (r.h ≤ H)
  | none => false

theorem okLinD_sound [EtaOk f] (hm : m.Dir) {e : E f} {a b C H : ℚ} (h : okLinD f e C H a b = true) {x : FP f}
    (hx : x.isFinite = true) (h1 : (a : ℝ) ≤ x.real) (h2 : x.real ≤ b) :
    (evalZ m (fun _ => x) e).v.isFinite = true ∧ |(evalZ m (fun _ => x) e).v.real - e.evalR fun _ => x.real| ≤ C * |x.real| + H * f.eta := by
  unfold okLinD at h
  split at h
  · rename_i r hr
    simp only [Bool.and_eq_true, beq_iff_eq, decide_eq_true_eq] at h
    have s := anD1_sound hm hr hx h1 h2
    refine ⟨s.fin, s.bound.trans ?_⟩
    rw [h.1.1, pow_one]
    have h3 : (r.err : ℝ) ≤ C := by exact_mod_cast h.1.2
    have h4 : (r.h : ℝ) ≤ H := by exact_mod_cast h.2
    exact add_le_add (mul_le_mul_of_nonneg_right h3 (abs_nonneg _)) (mul_le_mul_of_nonneg_right h4 (etaR_pos f).le)
  · cases h

end Vdt.Flush
