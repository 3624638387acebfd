import Verif.Lemmas.Sqrt
import Verif.Lemmas.AtanPos
import Verif.Lemmas.Atan2
import Verif.Real.Asin
import Verif.Real.PolyFast
import Verif.Model.Asin

/-! # Rounding and approximation errors of the arcsine -/

namespace Vdt
open FP details Ab
variable {f : Fmt}

/-! ## The analyser for a number and a rounded square root -/

/-- Variable 1 is a rounded number with exact value `σ` in `[a,b]`, variable 0 is exactly `c σ²`. -/
def envS (f : Fmt) (c a b : ℚ) : ℕ → Option Ab
  | 0 => some ⟨0, c * (a * a), c * (b * b), 0, 0⟩
  | 1 => some ⟨0, a, b, f.u * b, 0⟩
  | _ => none

/-- The two variables. -/
def pick {α : Type} (x y : α) : ℕ → α
  | 0 => x
  | _ => y

def anS (f : Fmt) (c : ℚ) (e : E f) (a b : ℚ) : Option Ab :=
  if 0 ≤ a ∧ 0 ≤ c then an f 0 (envS f c a b) e else none

theorem conS_sound [f.Ok] [EtaOk f] {c : ℚ} {e : E f} {a b : ℚ} {r : Ab} (h : anS f c e a b = some r) {x s : FP f} {σ : ℝ}
    (hx : x.isFinite = true) (hs : s.isFinite = true) (he : x.real = c * (σ * σ)) (hσ : |s.real - σ| ≤ f.u * σ) (h1 : (a : ℝ) ≤ σ) (h2 : σ ≤ b)
    {y : FP f} (hy : e.Con (pick x s) y) :
    Ab.Sound f 0 r y (e.evalR (pick x.real σ)) := by
  unfold anS at h
  split at h
  · rename_i h0
    obtain ⟨a0, c0⟩ := h0
    have a0' : (0 : ℝ) ≤ a := by exact_mod_cast a0
    have c0' : (0 : ℝ) ≤ c := by exact_mod_cast c0
    have b0 : (0 : ℝ) ≤ b := by linarith
    have u0 : (0 : ℝ) ≤ f.u := by exact_mod_cast (p2_pos _).le
    refine (con_sound (f := f) (z := 0) (Z := 0) (by simp) (env := envS f c a b) (eF := pick x s) (eR := pick x.real σ) ?_ e r h).1 y hy
    intro i t ht
    match i, ht with
    | 0, ht =>
      cases ht
      refine ⟨hx, ⟨x.real, by simp [pick], ?_, ?_⟩, le_rfl, le_rfl, by simp [pick]⟩
      · rw [he]; push_cast
        exact mul_le_mul_of_nonneg_left (mul_self_le_mul_self a0' h1) c0'
      · rw [he]; push_cast
        exact mul_le_mul_of_nonneg_left (mul_self_le_mul_self (a0'.trans h1) h2) c0'
    | 1, ht =>
      cases ht
      refine ⟨hs, ⟨σ, by simp [pick], h1, h2⟩, ?_, le_rfl, ?_⟩
      · have : (0 : ℝ) ≤ ((f.u * b : ℚ) : ℝ) := by push_cast; positivity
        exact_mod_cast this
      · simp only [pick, pow_zero, mul_one]
        push_cast
        have := mul_le_mul_of_nonneg_left h2 u0
        linarith
  · cases h

/-- Error at most `C`, exact value at least `L`. -/
def okAbsS (f : Fmt) (c : ℚ) (e : E f) (C L : ℚ) (a b : ℚ) : Bool :=
  match anS f c e a b with
  | some r => r.k == 0 && decide (r.err + r.h * etaUp ≤ C) && decide (L ≤ r.lo)
  | none => false

/-- Error at most `K` relative to the exact value and at most `C`. -/
def okRelS (f : Fmt) (c : ℚ) (e : E f) (C K L : ℚ) (a b : ℚ) : Bool :=
  match anS f c e a b with
  | some r => r.k == 0 && decide (r.err + r.h * etaUp ≤ C) && decide (L ≤ r.lo) && decide (r.err + r.h * etaUp ≤ K * r.lo) && decide (0 ≤ K)
  | none => false

theorem okAbsS_con [f.Ok] [EtaOk f] {c : ℚ} {e : E f} {a b C L : ℚ} (h : okAbsS f c e C L a b = true) {x s : FP f} {σ : ℝ}
    (hx : x.isFinite = true) (hs : s.isFinite = true) (he : x.real = c * (σ * σ)) (hσ : |s.real - σ| ≤ f.u * σ) (h1 : (a : ℝ) ≤ σ) (h2 : σ ≤ b)
    {y : FP f} (hy : e.Con (pick x s) y) :
    y.isFinite = true ∧ |y.real - e.evalR (pick x.real σ)| ≤ C ∧ (L : ℝ) ≤ e.evalR (pick x.real σ) := by
  unfold okAbsS at h
  split at h
  · rename_i r hr
    simp only [Bool.and_eq_true, beq_iff_eq, decide_eq_true_eq] at h
    obtain ⟨⟨hk, hC⟩, hL⟩ := h
    have S := conS_sound hr hx hs he hσ h1 h2 hy
    obtain ⟨v, hv, hl, _⟩ := S.ex
    have B := S.bound
    rw [hk] at hv B
    simp only [pow_zero, one_mul, mul_one] at hv B
    have hC' := (Rat.cast_le (K := ℝ)).2 hC
    push_cast at hC'
    have := mul_le_mul_of_nonneg_left (eta_le (f := f)) (show (0 : ℝ) ≤ r.h by exact_mod_cast S.h0)
    refine ⟨S.fin, by linarith, ?_⟩
    rw [hv]
    exact le_trans (by exact_mod_cast hL) hl
  · cases h

theorem okRelS_con [f.Ok] [EtaOk f] {c : ℚ} {e : E f} {a b C K L : ℚ} (h : okRelS f c e C K L a b = true) {x s : FP f} {σ : ℝ}
    (hx : x.isFinite = true) (hs : s.isFinite = true) (he : x.real = c * (σ * σ)) (hσ : |s.real - σ| ≤ f.u * σ) (h1 : (a : ℝ) ≤ σ) (h2 : σ ≤ b)
    {y : FP f} (hy : e.Con (pick x s) y) :
    y.isFinite = true ∧ |y.real - e.evalR (pick x.real σ)| ≤ C ∧ (L : ℝ) ≤ e.evalR (pick x.real σ) ∧
      |y.real - e.evalR (pick x.real σ)| ≤ K * e.evalR (pick x.real σ) := by
  unfold okRelS at h
  split at h
  · rename_i r hr
    simp only [Bool.and_eq_true, beq_iff_eq, decide_eq_true_eq] at h
    obtain ⟨⟨⟨⟨hk, hC⟩, hL⟩, hK⟩, hK0⟩ := h
    have S := conS_sound hr hx hs he hσ h1 h2 hy
    obtain ⟨v, hv, hl, _⟩ := S.ex
    have B := S.bound
    rw [hk] at hv B
    simp only [pow_zero, one_mul, mul_one] at hv B
    have hC' := (Rat.cast_le (K := ℝ)).2 hC
    have hK' := (Rat.cast_le (K := ℝ)).2 hK
    have hK0' : (0 : ℝ) ≤ K := by exact_mod_cast hK0
    push_cast at hC' hK'
    have := mul_le_mul_of_nonneg_left (eta_le (f := f)) (show (0 : ℝ) ≤ r.h by exact_mod_cast S.h0)
    have := mul_le_mul_of_nonneg_left hl hK0'
    rw [hv] at B ⊢
    exact ⟨S.fin, by linarith, le_trans (by exact_mod_cast hL) hl, by linarith⟩
  · cases h

/-- The square root of a nonnegative number, in the form required above. -/
theorem sqrt_nonneg_err [f.Ok] (hE : f.emin ≤ -(f.mb : ℤ) - 2) {x : FP f} (hx : x.isFinite = true) (hs : x.sign = false) :
    (FP.sqrt x).isFinite = true ∧ (FP.sqrt x).sign = false ∧ |(FP.sqrt x).real - √x.real| ≤ f.u * √x.real := by
  rcases (val_nonneg_of_sign hs).eq_or_lt with h0 | h0
  · have hz := zero_of_val h0.symm
    have e : FP.sqrt x = x := by
      unfold FP.sqrt; rw [finite_not_nan hx, hz]; rfl
    have r0 : x.real = 0 := by unfold FP.real; rw [← h0]; simp
    rw [e, r0]
    exact ⟨hx, hs, by simp⟩
  · exact sqrt_err hE hx h0

/-! ## The arcsine near one -/

theorem arcsin_half {a : ℝ} (h0 : -1 ≤ a) (h1 : a ≤ 1) : Real.arcsin a = Real.pi / 2 - 2 * Real.arcsin √((1 - a) / 2) := by
  have hw : 0 ≤ (1 - a) / 2 := by linarith
  have w0 := Real.sqrt_nonneg ((1 - a) / 2)
  have w1 : √((1 - a) / 2) ≤ 1 := by
    exact Real.sqrt_le_one.2 (by linarith)
  set w := √((1 - a) / 2)
  have w2 : w * w = (1 - a) / 2 := Real.mul_self_sqrt hw
  have t0 := Real.arcsin_nonneg.2 w0
  have t1 := Real.arcsin_le_pi_div_two w
  have c : Real.cos (2 * Real.arcsin w) = a := by
    rw [Real.cos_two_mul, Real.cos_sq', Real.sin_arcsin (by linarith) w1]
    nlinarith
  have k : Real.arccos a = 2 * Real.arcsin w := by
    rw [← c, Real.arccos_cos (by linarith) (by linarith)]
  have := Real.arccos_eq_pi_div_two_sub_arcsin a
  linarith

/-! ## Double precision -/

/-- include/asin.h:60-71 -/
def asinRE (x : E b64) : E b64 := (((((((E.const RX1asin).mul x).add (.const RX2asin)).mul x).add (.const RX3asin)).mul x).add (.const RX4asin)).mul x |>.add (.const RX5asin)
/-- include/asin.h:72-82 -/
def asinSE (x : E b64) : E b64 := ((((((x.add (.const SX1asin)).mul x).add (.const SX2asin)).mul x).add (.const SX3asin)).mul x).add (.const SX4asin)
/-- include/asin.h:84-97 -/
def asinPE (x : E b64) : E b64 := ((((((((((E.const PX1asin).mul x).add (.const PX2asin)).mul x).add (.const PX3asin)).mul x).add (.const PX4asin)).mul x).add (.const PX5asin)).mul x).add (.const PX6asin)
/-- include/asin.h:99-111 -/
def asinQE (x : E b64) : E b64 := ((((((((x.add (.const QX1asin)).mul x).add (.const QX2asin)).mul x).add (.const QX3asin)).mul x).add (.const QX4asin)).mul x).add (.const QX5asin)
/-- include/asin.h:140-144; the argument as a number (`v`) and as a small quantity (`z`). -/
def asinSmallE (v z : E b64) : E b64 := (z.mul (((v.mul v).mul (asinPE (v.mul v))).div (asinQE (v.mul v)))).add z
/-- include/asin.h:135: the correction, from `1 - a` and the square root. -/
def asinCorrE : E b64 := ((E.var 1).mul (((E.var 0).mul (asinRE (.var 0))).div (asinSE (.var 0)))).sub (.const MOREBITS)
/-- include/asin.h:134-137 -/
def asinLargeE : E b64 := (((E.const PIO4).sub (.var 1)).sub asinCorrE).add (.const PIO4)

/-- include/asin.h:135 on `1 - a` and the square root -/
def asinCorrC (p : Policy) (d s : F64) : F64 := msub (p 7) s (d * getRXC p d / getSXC p d) MOREBITS

theorem asinSmall_con (p : Policy) (a : F64) : (asinSmallE (.var 0) (.var 1)).Con (fun _ => a) (asinSmallC p a) := by
  unfold asinSmallE asinPE asinQE asinSmallC getPXC getQXC; con
theorem asinCorr_con (p : Policy) (d s : F64) : asinCorrE.Con (pick d s) (asinCorrC p d s) := by
  have h0 : (E.var 0 : E b64).Con (pick d s) d := E.Con.var _
  have h1 : (E.var 1 : E b64).Con (pick d s) s := E.Con.var _
  unfold asinCorrE asinRE asinSE asinCorrC getRXC getSXC
  repeat (with_reducible first
    | exact h0 | exact h1 | exact E.Con.const | apply E.Con.mad | apply E.Con.msub | apply E.Con.add | apply E.Con.mul | apply E.Con.div)
theorem asinLarge_con (p : Policy) (d s : F64) : asinLargeE.Con (pick d s) (((PIO4 - s) - asinCorrC p d s) + PIO4) :=
  .add (.sub (.sub .const (.var 1)) (asinCorr_con p d s)) .const
theorem asinLargeC_eq (p : Policy) (a : F64) : asinLargeC p a =
    ((PIO4 - FP.sqrt ((lit 1.0 - a) + (lit 1.0 - a))) - asinCorrC p (lit 1.0 - a) (FP.sqrt ((lit 1.0 - a) + (lit 1.0 - a)))) + PIO4 := by
  simp only [asinLargeC, asinCorrC]

def asinRl : List ℚ := [RX5asin.val, RX4asin.val, RX3asin.val, RX2asin.val, RX1asin.val]
def asinSl : List ℚ := [SX4asin.val, SX3asin.val, SX2asin.val, SX1asin.val, 1]
def asinPl : List ℚ := [PX6asin.val, PX5asin.val, PX4asin.val, PX3asin.val, PX2asin.val, PX1asin.val]
def asinQl : List ℚ := [QX5asin.val, QX4asin.val, QX3asin.val, QX2asin.val, QX1asin.val, 1]

theorem asinRE_real (x : E b64) (env : ℕ → ℝ) : (asinRE x).evalR env = pev asinRl (x.evalR env) := by
  simp only [asinRE, E.evalR, asinRl, pev_cons, pev_nil, FP.real]; ring
theorem asinSE_real (x : E b64) (env : ℕ → ℝ) : (asinSE x).evalR env = pev asinSl (x.evalR env) := by
  simp only [asinSE, E.evalR, asinSl, pev_cons, pev_nil, FP.real]; push_cast; ring
theorem asinPE_real (x : E b64) (env : ℕ → ℝ) : (asinPE x).evalR env = pev asinPl (x.evalR env) := by
  simp only [asinPE, E.evalR, asinPl, pev_cons, pev_nil, FP.real]; ring
theorem asinQE_real (x : E b64) (env : ℕ → ℝ) : (asinQE x).evalR env = pev asinQl (x.evalR env) := by
  simp only [asinQE, E.evalR, asinQl, pev_cons, pev_nil, FP.real]; push_cast; ring

theorem asinQ_neg {s : ℝ} (h0 : 0 ≤ s) (h : s ≤ 0.390625) : 13 ≤ -pev asinQl s := by
  have := plower_sound (p := pneg asinQl) (c := 13) (l := grid 0 0.390625 8) (a := 0) (b := 0.390625) (by decide +kernel) (by decide +kernel) (x := s) (by push_cast; exact h0) (by push_cast; exact h)
  rw [pev_neg] at this
  push_cast at this
  exact this

theorem asinS_pos {s : ℝ} (h0 : 0 ≤ s) (h : s ≤ 0.375) : 200 ≤ pev asinSl s := by
  have := plower_sound (p := asinSl) (c := 200) (l := grid 0 0.375 8) (a := 0) (b := 0.375) (by decide +kernel) (by decide +kernel) (x := s) (by push_cast; exact h0) (by push_cast; exact h)
  push_cast at this
  exact this

/-- The rational function of the small branch. -/
theorem asin_small_approx {s : ℝ} (h0 : 0 ≤ s) (h : s ≤ 0.390625) :
    |1 + s * pev asinPl s / pev asinQl s - pev asinT s| ≤ 0.3 * 2 ^ (-53 : ℤ) := by
  have q := asinQ_neg h0 h
  have k := pratioT_sound (k := 30) (M := 80) (R := 0.390625) (n := psub (padd asinQl (0 :: asinPl)) (pmul asinQl asinT)) (d := pneg asinQl) (C := 0.3 * 2 ^ (-53 : ℤ))
    (l := [0, 5 / 64, 49 / 256, 75 / 256, 23 / 64, 0.390625]) (a := 0) (b := 0.390625) (by decide +kernel) (by decide +kernel) (by decide +kernel) (x := s) (by push_cast; exact h0) (by push_cast; exact h)
  rw [pev_sub, pev_add, pev_mul, pev_neg, pev_cons] at k
  have hq : pev asinQl s ≠ 0 := by linarith
  have e : 1 + s * pev asinPl s / pev asinQl s - pev asinT s = (pev asinQl s + (((0 : ℚ) : ℝ) + s * pev asinPl s) - pev asinQl s * pev asinT s) / pev asinQl s := by
    push_cast; field_simp; ring
  rw [e, abs_div, abs_of_neg (by linarith : pev asinQl s < 0), div_le_iff₀ (by linarith)]
  push_cast at k ⊢
  exact k

/-- The rational function of the large branch. -/
theorem asin_large_approx {s : ℝ} (h0 : 0 ≤ s) (h : s ≤ 0.375) :
    |1 + s * pev asinRl s / pev asinSl s - pev asinT (s / 2)| ≤ 0.4 * 2 ^ (-53 : ℤ) := by
  have q := asinS_pos h0 h
  have k := pratioT_sound (k := 20) (M := 80) (R := 0.1875) (n := psub (padd (pdil 2 asinSl) (pdil 2 (0 :: asinRl))) (pmul (pdil 2 asinSl) asinT)) (d := pdil 2 asinSl) (C := 0.4 * 2 ^ (-53 : ℤ))
    (l := [0, 1 / 256, 3 / 256, 9 / 256, 19 / 256, 17 / 128, 0.1875]) (a := 0) (b := 0.1875) (by decide +kernel) (by decide +kernel) (by decide +kernel) (x := s / 2) (by push_cast; linarith) (by push_cast; norm_num; linarith)
  simp only [pev_sub, pev_add, pev_mul, pev_dil] at k
  rw [show ((2 : ℚ) : ℝ) * (s / 2) = s by push_cast; ring, pev_cons] at k
  have hq : pev asinSl s ≠ 0 := by linarith
  have e : 1 + s * pev asinRl s / pev asinSl s - pev asinT (s / 2) = (pev asinSl s + (((0 : ℚ) : ℝ) + s * pev asinRl s) - pev asinSl s * pev asinT (s / 2)) / pev asinSl s := by
    push_cast; field_simp; ring
  rw [e, abs_div, abs_of_pos (by linarith : 0 < pev asinSl s), div_le_iff₀ (by linarith)]
  push_cast at k ⊢
  exact k

theorem asinSmallE_ok : covers (okRel1 b64 (asinSmallE (.var 0) (.var 1)) (3.2 * 2 ^ (-53 : ℤ)) 4) [0, 31 / 64, 9 / 16, 19 / 32, 39 / 64, 5 / 8] = true := by decide +kernel
theorem asinLargeE_ok : covers (okRelS b64 (1/2) asinLargeE (2.4 * 2 ^ (-53 : ℤ)) (2.6 * 2 ^ (-53 : ℤ)) 0.66) [0, 3 / 8, 43 / 64, 27 / 32, 8661 / 10000] = true := by decide +kernel
theorem asinCorrE_ok : covers (okAbsS b64 (1/2) asinCorrE (4 / 10 ^ 17) (-7 / 10 ^ 17)) [0, 8661 / 10000] = true := by decide +kernel

end Vdt
