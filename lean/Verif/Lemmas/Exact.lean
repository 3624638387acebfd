import Verif.Lemmas.LogFloat
import Verif.Lemmas.LogNormal
import Verif.Lemmas.Atan2
import Verif.Lemmas.Nearest
import Verif.Float.IntRound

/-! # Arguments at which the functions give the nearest number -/

namespace Vdt
open FP details

variable {f : Fmt}

/-- The reals with the same nearest number form an interval. -/
theorem FP.Nearest.between {y : FP f} {a b r : ℝ} (ha : y.Nearest a) (hb : y.Nearest b) (h1 : a ≤ r) (h2 : r ≤ b) : y.Nearest r := by
  -- the middle between `y` and another number is not crossed
  have low : ∀ z : FP f, z.isFinite = true → z.real < y.real → (z.real + y.real) / 2 ≤ a := by
    intro z hz h
    have := ha.2.1 z hz
    by_contra hc
    rw [not_le] at hc
    have : |z.real - a| < |y.real - a| := by
      rw [abs_lt, abs_of_pos (by linarith)]
      constructor <;> linarith
    linarith
  have high : ∀ z : FP f, z.isFinite = true → y.real < z.real → b ≤ (z.real + y.real) / 2 := by
    intro z hz h
    have := hb.2.1 z hz
    by_contra hc
    rw [not_le] at hc
    have : |z.real - b| < |y.real - b| := by
      rw [abs_lt, abs_of_neg (by linarith)]
      constructor <;> linarith
    linarith
  refine ⟨ha.1, fun z hz => ?_, fun z hz hne heq => ?_⟩
  · rcases lt_trichotomy z.real y.real with h | h | h
    · have l := low z hz h
      rw [abs_of_nonpos (a := z.real - r) (by linarith), abs_le]
      constructor <;> linarith
    · rw [h]
    · have l := high z hz h
      rw [abs_of_nonneg (a := z.real - r) (by linarith), abs_le]
      constructor <;> linarith
  · have mid : r = (z.real + y.real) / 2 := by
      rcases abs_eq_abs.1 heq with h | h
      · exact absurd (by linarith) hne
      · linarith
    rcases lt_or_gt_of_ne hne with h | h
    · have l := low z hz h
      have e : r = a := by linarith
      exact ha.2.2 z hz hne (by rw [← e]; exact heq)
    · have l := high z hz h
      have e : r = b := by linarith
      exact hb.2.2 z hz hne (by rw [← e]; exact heq)

/-- A number equal to the rounded value is the nearest one. -/
theorem nearest_val [f.Ok] {y : FP f} {q : ℚ} (hy : y.isFinite = true) (hv : y.val = rnd f q) (hq : |q| ≤ f.big) : y.Nearest q := by
  have h := ofRat_nearest f false (hq.trans_lt ((rcode_lt_inf f f.big_pos).1 (rcode_big_lt f)))
  have e : y.real = (ofRat f false q).real := by unfold FP.real; rw [hv, val_ofRat]
  have m : y.mag = (ofRat f false q).mag := by
    apply magVal_inj.1
    rw [← abs_val, ← abs_val, hv, val_ofRat]
  obtain ⟨_, h2, h3⟩ := h
  refine ⟨hy, fun z hz => ?_, fun z hz => ?_⟩
  · rw [e]; exact h2 z hz
  · rw [e, m]; exact h3 z hz

theorem nearest_exact {y : FP f} {r : ℝ} (hy : y.isFinite = true) (h : y.real = r) : y.Nearest r := by
  refine ⟨hy, fun z _ => ?_, fun z _ hne heq => ?_⟩
  · rw [h, sub_self, abs_zero]; exact abs_nonneg _
  · rw [h, sub_self, abs_zero] at heq
    rw [h] at hne
    exact absurd (sub_eq_zero.1 (abs_eq_zero.1 heq.symm)) hne

/-- A product with zero leaves the other summand, fused or not. -/
theorem mad_pz [f.Ok] (b : Bool) {v z c : FP f} (hv : v.isFinite = true) (hz : z.isFinite = true) (hz0 : z.val = 0) (hc : c.isFinite = true) (h0 : c.val ≠ 0) :
    mad b v z c = c := by
  cases b
  · rw [mad_false, add_def, mul_def, mul_fin hv hz, hz0, mul_zero]
    have h1 : (ofRat f (v.sign ^^ z.sign) 0 : FP f).isFinite = true := finite_ofRat _ (by rw [abs_zero]; exact f.big_pos.le)
    rw [add_fin h1 hc, val_ofRat, rnd_zero, zero_add, ofRat_val_fin hc h0]
  · unfold mad
    rw [if_pos rfl, fma_fin hv hz hc, hz0, mul_zero, zero_add, ofRat_val_fin hc h0]

theorem madR_pz [f.Ok] (b : Bool) {v z c : FP f} (hv : v.isFinite = true) (hz : z.isFinite = true) (hz0 : v.val * z.val = 0) (hc : c.isFinite = true) (hb : |c.val| ≤ f.big) :
    (madR b v z c).isFinite = true ∧ (madR b v z c).val = c.val := by
  obtain ⟨w, hw, h⟩ := madR_split b hv hz hc (by rw [hz0, abs_zero]; exact f.big_pos.le)
  have w0 : w = 0 := by rcases hw with hw | hw <;> rw [hw, hz0]; exact rnd_zero f
  rw [w0, add_zero] at h
  rw [rnd_fin hc] at h
  exact h hb

theorem nmad_pz [f.Ok] (b : Bool) {v z c : FP f} (hv : v.isFinite = true) (hz : z.isFinite = true) (hz0 : v.val * z.val = 0) (hc : c.isFinite = true) (hb : |c.val| ≤ f.big) :
    (nmad b v z c).isFinite = true ∧ (nmad b v z c).val = c.val := by
  obtain ⟨w, hw, h⟩ := nmad_split b hv hz hc (by rw [hz0, abs_zero]; exact f.big_pos.le)
  have w0 : w = 0 := by rcases hw with hw | hw <;> rw [hw, hz0]; exact rnd_zero f
  rw [w0, sub_zero] at h
  rw [rnd_fin hc] at h
  exact h hb

/-- The core of the logarithm at `x - 1 = 0`, double precision. -/
theorem logCoreC_zero (p : Policy) {fe : F64} {k : ℤ} (hf : fe.isFinite = true) (hv : fe.val = k) (hk : |k| ≤ 1100) :
    (logCoreC p (lit 0) fe).isFinite = true ∧
      (logCoreC p (lit 0) fe).val = rnd b64 (k * 0.693359375 - rnd b64 (k * (lit 2.121944400546905827679e-4 : F64).val)) := by
  have px : get_log_pxC p (lit 0) = lit 7.70838733755885391666E0 := by
    unfold get_log_pxC
    dsimp only
    rw [mad_pz (p 0) (by decide +kernel) (by decide +kernel) (by decide +kernel) (by decide +kernel) (by decide +kernel),
      mad_pz (p 1) (by decide +kernel) (by decide +kernel) (by decide +kernel) (by decide +kernel) (by decide +kernel),
      mad_pz (p 2) (by decide +kernel) (by decide +kernel) (by decide +kernel) (by decide +kernel) (by decide +kernel),
      mad_pz (p 3) (by decide +kernel) (by decide +kernel) (by decide +kernel) (by decide +kernel) (by decide +kernel),
      mad_pz (p 4) (by decide +kernel) (by decide +kernel) (by decide +kernel) (by decide +kernel) (by decide +kernel)]
  have qx : get_log_qxC p (lit 0) = lit 2.31251620126765340583E1 := by
    unfold get_log_qxC
    dsimp only
    rw [mad_pz (p 5) (by decide +kernel) (by decide +kernel) (by decide +kernel) (by decide +kernel) (by decide +kernel),
      mad_pz (p 6) (by decide +kernel) (by decide +kernel) (by decide +kernel) (by decide +kernel) (by decide +kernel),
      mad_pz (p 7) (by decide +kernel) (by decide +kernel) (by decide +kernel) (by decide +kernel) (by decide +kernel),
      mad_pz (p 8) (by decide +kernel) (by decide +kernel) (by decide +kernel) (by decide +kernel) (by decide +kernel)]
  unfold logCoreC
  dsimp only
  rw [px, qx]
  have c : (lit 2.121944400546905827679e-4 : F64).isFinite = true ∧ 0 ≤ (lit 2.121944400546905827679e-4 : F64).val ∧
    (lit 2.121944400546905827679e-4 : F64).val ≤ 1 := by decide +kernel
  have q0 : (lit 7.70838733755885391666E0 * lit 0 * (lit 0 * lit 0) / lit 2.31251620126765340583E1 : F64).isFinite = true ∧
    (lit 7.70838733755885391666E0 * lit 0 * (lit 0 * lit 0) / lit 2.31251620126765340583E1 : F64).val = 0 := by decide +kernel
  generalize (lit 7.70838733755885391666E0 * lit 0 * (lit 0 * lit 0) / lit 2.31251620126765340583E1 : F64) = z at *
  generalize (lit 2.121944400546905827679e-4 : F64) = C at *
  have big : (2200 : ℚ) ≤ b64.big := by decide +kernel
  have kq : |(k : ℚ)| ≤ 1100 := by exact_mod_cast hk
  have b1 : |fe.val * C.val| ≤ 1100 := by
    rw [hv, abs_mul, abs_of_nonneg c.2.1]
    calc |(k : ℚ)| * C.val ≤ 1100 * 1 := mul_le_mul kq c.2.2 c.2.1 (by norm_num)
      _ = 1100 := by norm_num
  have b2 : |rnd b64 (fe.val * C.val)| ≤ 1100 := by
    have r1 : rnd b64 1100 = 1100 := by decide +kernel
    rw [abs_le] at b1 ⊢
    have u := rnd_mono b64 b1.2
    have l := rnd_mono b64 b1.1
    rw [rnd_neg, r1] at l
    rw [r1] at u
    exact ⟨l, u⟩
  obtain ⟨w, hw, h⟩ := nmad_split (p 9) hf c.1 q0.1 (b1.trans (le_trans (by norm_num) big))
  have g : (nmad (p 9) fe C z).isFinite = true ∧ (nmad (p 9) fe C z).val = -rnd b64 (fe.val * C.val) := by
    rw [q0.2, zero_sub] at h
    rcases hw with rfl | rfl
    · have := h (by rw [abs_neg]; exact b1.trans (le_trans (by norm_num) big))
      rwa [rnd_neg] at this
    · have := h (by rw [abs_neg]; exact b2.trans (le_trans (by norm_num) big))
      rwa [rnd_neg, rnd_rnd (b2.trans (le_trans (by norm_num) big))] at this
  generalize nmad (p 9) fe C z = r1 at *
  obtain ⟨h1, h2⟩ := nmad_pz (p 10) (v := lit 0.5) (z := lit 0 * lit 0) (c := r1) (by decide +kernel) (by decide +kernel) (by decide +kernel) g.1
    (by rw [g.2, abs_neg]; exact b2.trans (le_trans (by norm_num) big))
  generalize nmad (p 10) (lit 0.5) (lit 0 * lit 0) r1 = r2 at *
  have z0 : (lit 0 : F64).isFinite = true ∧ (lit 0 : F64).val = 0 := by decide +kernel
  have a := add_spec z0.1 h1 (by rw [z0.2, zero_add, h2, g.2, abs_neg]; exact b2.trans (le_trans (by norm_num) big))
  rw [z0.2, zero_add, rnd_fin h1, h2, g.2, hv] at a
  rw [add_def]
  generalize add (lit 0) r2 = r3 at *
  rw [hv] at b2
  have d : (lit 0.693359375 : F64).isFinite = true ∧ (lit 0.693359375 : F64).val = 0.693359375 := by decide +kernel
  generalize (lit 0.693359375 : F64) = D at *
  have e : rnd b64 (fe.val * D.val) = fe.val * D.val := by
    refine rnd_exact b64 ⟨k * 355, -9, ?_, ?_, by decide⟩ ?_
    · rw [hv, d.2, show p2 (-9) = 1 / 512 by decide +kernel]; push_cast; ring
    · rw [abs_mul]
      have : |k| * |(355 : ℤ)| ≤ 1100 * 355 := mul_le_mul hk (by norm_num) (abs_nonneg _) (by norm_num)
      exact this.trans (by decide)
    · rw [hv, d.2, abs_mul]
      refine le_trans (mul_le_mul kq (by norm_num : |(0.693359375 : ℚ)| ≤ 1) (abs_nonneg _) (by norm_num)) (le_trans (by norm_num) big)
  have b3 : |fe.val * D.val| ≤ 1100 := by
    rw [hv, d.2, abs_mul]
    exact (mul_le_mul kq (by norm_num : |(0.693359375 : ℚ)| ≤ 1) (abs_nonneg _) (by norm_num)).trans (by norm_num)
  obtain ⟨w, hw, h⟩ := madR_split (p 11) hf d.1 a.1 (b3.trans (le_trans (by norm_num) big))
  rw [e, or_self] at hw
  rw [hw, a.2, hv, d.2] at h
  rw [hv, d.2] at b3
  have := h (by
    refine (abs_add_le _ _).trans ?_
    rw [abs_neg]
    linarith)
  rw [show (k : ℚ) * 0.693359375 - rnd b64 (k * C.val) = -rnd b64 (k * C.val) + k * 0.693359375 by ring]
  exact this

/-- A sum of two products the first of which vanishes. -/
theorem mad2_pz [f.Ok] (b c : Bool) {x y u v : FP f} (hx : x.isFinite = true) (hy : y.isFinite = true) (h0 : x.val * y.val = 0) (hu : u.isFinite = true)
    (hv : v.isFinite = true) (h1 : |u.val * v.val| ≤ f.big) (h2 : |rnd f (u.val * v.val)| ≤ f.big) :
    (mad2 b c x y u v).isFinite = true ∧ (mad2 b c x y u v).val = rnd f (u.val * v.val) := by
  have m1 := mul_spec hx hy (by rw [h0, abs_zero]; exact f.big_pos.le)
  have m2 := mul_spec hu hv h1
  rw [h0, rnd_zero] at m1
  unfold mad2
  cases b
  · cases c
    · simp only [Bool.false_eq_true, if_false, add_def, mul_def]
      have a := add_spec m1.1 m2.1 (by rw [m1.2, m2.2, zero_add]; exact h2)
      rw [m1.2, m2.2, zero_add, rnd_rnd h2] at a
      exact a
    · simp only [Bool.false_eq_true, if_false, if_true, mul_def]
      have a := fma_spec hu hv m1.1 (by rw [m1.2, add_zero]; exact h1)
      rw [m1.2, add_zero] at a
      exact a
  · simp only [if_true, mul_def]
    have a := fma_spec hx hy m2.1 (by rw [m2.2, h0, zero_add]; exact h2)
    rw [m2.2, h0, zero_add, rnd_rnd h2] at a
    exact a

/-- The core of the logarithm at `x - 1 = 0`, single precision. -/
theorem logfCoreC_zero (p : Policy) {fe : F32} {k : ℤ} (hf : fe.isFinite = true) (hv : fe.val = k) (hk : |k| ≤ 200) :
    (logfCoreC p (lit 0) fe).isFinite = true ∧
      (logfCoreC p (lit 0) fe).val = rnd b32 (k * 0.693359375 - rnd b32 (k * (lit 2.12194440e-4 : F32).val)) := by
  have px : get_log_polyC p (lit 0) = PX9logf := by
    unfold get_log_polyC
    dsimp only
    rw [show ∀ b, mad b (lit 0) PX1logf PX2logf = PX2logf by decide +kernel,
      mad_pz (p 1) (by decide +kernel) (by decide +kernel) (by decide +kernel) (by decide +kernel) (by decide +kernel),
      mad_pz (p 2) (by decide +kernel) (by decide +kernel) (by decide +kernel) (by decide +kernel) (by decide +kernel),
      mad_pz (p 3) (by decide +kernel) (by decide +kernel) (by decide +kernel) (by decide +kernel) (by decide +kernel),
      mad_pz (p 4) (by decide +kernel) (by decide +kernel) (by decide +kernel) (by decide +kernel) (by decide +kernel),
      mad_pz (p 5) (by decide +kernel) (by decide +kernel) (by decide +kernel) (by decide +kernel) (by decide +kernel),
      mad_pz (p 6) (by decide +kernel) (by decide +kernel) (by decide +kernel) (by decide +kernel) (by decide +kernel),
      mad_pz (p 7) (by decide +kernel) (by decide +kernel) (by decide +kernel) (by decide +kernel) (by decide +kernel)]
  unfold logfCoreC
  dsimp only
  rw [px]
  have c : (-lit 2.12194440e-4 : F32).isFinite = true ∧ (-lit 2.12194440e-4 : F32).val = -(lit 2.12194440e-4 : F32).val ∧
    0 ≤ (lit 2.12194440e-4 : F32).val ∧ (lit 2.12194440e-4 : F32).val ≤ 1 := by decide +kernel
  have q0 : PX9logf.isFinite = true ∧ (lit 0 * lit 0 * lit 0 : F32).isFinite = true ∧ PX9logf.val * (lit 0 * lit 0 * lit 0 : F32).val = 0 := by
    decide +kernel
  generalize (-lit 2.12194440e-4 : F32) = C' at *
  generalize (lit 2.12194440e-4 : F32).val = C at *
  have big : (2200 : ℚ) ≤ b32.big := by decide +kernel
  have kq : |(k : ℚ)| ≤ 200 := by exact_mod_cast hk
  have b1 : |k * C| ≤ 200 := by
    rw [abs_mul, abs_of_nonneg c.2.2.1]
    calc |(k : ℚ)| * C ≤ 200 * 1 := mul_le_mul kq c.2.2.2 c.2.2.1 (by norm_num)
      _ = 200 := by norm_num
  have b2 : |rnd b32 (k * C)| ≤ 200 := by
    have r1 : rnd b32 200 = 200 := by decide +kernel
    rw [abs_le] at b1 ⊢
    have u := rnd_mono b32 b1.2
    have l := rnd_mono b32 b1.1
    rw [rnd_neg, r1] at l
    rw [r1] at u
    exact ⟨l, u⟩
  have e0 : C'.val * fe.val = -(k * C) := by rw [c.2.1, hv]; ring
  have g := mad2_pz (p 8) (p 9) q0.1 q0.2.1 q0.2.2 c.1 hf (by rw [e0, abs_neg]; exact b1.trans (le_trans (by norm_num) big))
    (by rw [e0, rnd_neg, abs_neg]; exact b2.trans (le_trans (by norm_num) big))
  rw [e0, rnd_neg] at g
  generalize mad2 (p 8) (p 9) PX9logf (lit 0 * lit 0 * lit 0) C' fe = r1 at *
  obtain ⟨h1, h2⟩ := madR_pz (p 10) (v := -lit 0.5) (z := lit 0 * lit 0) (c := r1) (by decide +kernel) (by decide +kernel) (by decide +kernel) g.1
    (by rw [g.2, abs_neg]; exact b2.trans (le_trans (by norm_num) big))
  generalize madR (p 10) (-lit 0.5) (lit 0 * lit 0) r1 = r2 at *
  have z0 : (lit 0 : F32).isFinite = true ∧ (lit 0 : F32).val = 0 := by decide +kernel
  have a := add_spec z0.1 h1 (by rw [z0.2, zero_add, h2, g.2, abs_neg]; exact b2.trans (le_trans (by norm_num) big))
  rw [z0.2, zero_add, rnd_fin h1, h2, g.2] at a
  rw [add_def]
  generalize add (lit 0) r2 = r3 at *
  have d : (lit 0.693359375 : F32).isFinite = true ∧ (lit 0.693359375 : F32).val = 0.693359375 := by decide +kernel
  generalize (lit 0.693359375 : F32) = D at *
  have e1 : D.val * fe.val = k * 0.693359375 := by rw [d.2, hv]; ring
  have e : rnd b32 (D.val * fe.val) = D.val * fe.val := by
    refine rnd_exact b32 ⟨k * 355, -9, ?_, ?_, by decide⟩ ?_
    · rw [e1, show p2 (-9) = 1 / 512 by decide +kernel]; push_cast; ring
    · rw [abs_mul]
      have : |k| * |(355 : ℤ)| ≤ 200 * 355 := mul_le_mul hk (by norm_num) (abs_nonneg _) (by norm_num)
      exact this.trans (by decide)
    · rw [e1, abs_mul]
      refine le_trans (mul_le_mul kq (by norm_num : |(0.693359375 : ℚ)| ≤ 1) (abs_nonneg _) (by norm_num)) (le_trans (by norm_num) big)
  have b3 : |k * (0.693359375 : ℚ)| ≤ 200 := by
    rw [abs_mul]
    exact (mul_le_mul kq (by norm_num : |(0.693359375 : ℚ)| ≤ 1) (abs_nonneg _) (by norm_num)).trans (by norm_num)
  obtain ⟨w, hw, h⟩ := madR_split (p 11) d.1 hf a.1 (by rw [e1]; exact b3.trans (le_trans (by norm_num) big))
  rw [e, or_self] at hw
  rw [hw, a.2, e1] at h
  have := h (by
    refine (abs_add_le _ _).trans ?_
    rw [abs_neg]
    linarith)
  rw [show (k : ℚ) * 0.693359375 - rnd b32 (k * C) = -rnd b32 (k * C) + k * 0.693359375 by ring]
  exact this

/-- A power of two is given by its exponent field. -/
theorem pow_mag [f.Ok] {x : FP f} {k : ℤ} (h : x.val = 2 ^ k) (hk : f.emin ≤ k) : x.sign = false ∧ x.mag = (k - f.emin).toNat * 2 ^ f.mb + 2 ^ f.mb := by
  have hp : 0 < x.val := by rw [h]; positivity
  refine ⟨(val_pos_iff.1 hp).1, ?_⟩
  have h1 := magVal_code f (e := k) (k := 2 ^ f.mb) hk (by rw [pow_succ]; omega) (.inl le_rfl)
  have h2 : magVal f x.mag = 2 ^ k := by rw [← abs_val, h, abs_of_pos (by positivity)]
  refine magVal_inj.1 (h2.trans (Eq.trans ?_ h1.symm))
  rw [← p2_eq, show (((2 ^ f.mb : ℕ) : ℕ) : ℚ) = p2 f.mb by rw [p2_nat]; push_cast; rfl, ← p2_add]
  congr 1; ring

/-- The test for the logarithm of a power of two: the three steps of the core and the two neighbours of
the exact value, as integers. -/
def logNear (mb c d l k : ℕ) : Bool :=
  nf (rndF mb (Nat.mul k c)) fun u => nf (Nat.mul k d) fun w => Nat.ble u w && nf (rndF mb (Nat.sub w u)) fun v =>
    Nat.beq v (rndF mb (Nat.mul k l)) && Nat.beq v (rndF mb (Nat.mul k (Nat.succ l)))

theorem logNear64 : ∀ k < 1023, logNear 52 1002059911565562880 3274297073083445411840 3273295013171879848905 k = true := by
  have : (List.range 1023).all (logNear 52 1002059911565562880 3274297073083445411840 3273295013171879848905) = true := by decide +kernel
  intro i hi
  exact List.all_eq_true.1 this i (List.mem_range.2 hi)

theorem logNear32 : ∀ k < 128, logNear 23 14931856384 48790828482560 48775896626291 k = true := by
  have : (List.range 128).all (logNear 23 14931856384 48790828482560 48775896626291) = true := by decide +kernel
  intro i hi
  exact List.all_eq_true.1 this i (List.mem_range.2 hi)

theorem logNear_sound [f.Ok] {c d l k s t : ℕ} {C : ℚ} {y : FP f} (h : logNear f.mb c d l k = true) (hy : y.isFinite = true)
    (hv : y.val = rnd f (k * 0.693359375 - rnd f (k * C))) (hC : C = c * p2 (-s)) (hd : (0.693359375 : ℚ) = d * p2 (-s))
    (hl : ((l * p2 (-s) : ℚ) : ℝ) ≤ Real.log 2) (hu : Real.log 2 ≤ (((l + 1 : ℕ) * p2 (-s) : ℚ) : ℝ)) (hs : f.emin ≤ -(s : ℤ))
    (ht : p2 t ≤ f.big) (hst : s + t < f.mb + 32) (hk : k ≤ p2 t) (h1 : c * p2 (-s) ≤ 1) (h2 : (l + 1 : ℕ) * p2 (-s) ≤ 1) :
    y.Nearest (k * Real.log 2) := by
  unfold logNear at h
  simp only [nf_eq, Bool.and_eq_true, Nat.ble_eq, Nat.beq_eq, Nat.mul_eq, Nat.sub_eq, Nat.succ_eq_add_one] at h
  obtain ⟨hle, e1, e2⟩ := h
  have p0 := p2_pos (-(s : ℤ))
  have k0 : (0 : ℚ) ≤ k := Nat.cast_nonneg k
  -- integer evaluation
  have ev : ∀ n : ℕ, (n : ℚ) * p2 (-s) ≤ p2 t → rnd f (n * p2 (-s)) = rndF f.mb n * p2 (-s) := by
    intro n hn
    have g : |((n : ℤ) : ℚ) * p2 (-s)| ≤ p2 t := by
      rw [Int.cast_natCast, abs_of_nonneg (mul_nonneg (Nat.cast_nonneg n) p0.le)]
      exact hn
    have e := (rnd_eval f (n : ℤ) s t hs ht hst g).1
    have e' : rndFZ f.mb (n : ℤ) = ((rndF f.mb n : ℕ) : ℤ) := rndFZ_ofNat _ _
    rwa [e', Int.cast_natCast, Int.cast_natCast] at e
  have bd : ∀ n : ℕ, (n : ℚ) * p2 (-s) ≤ 1 → ((k * n : ℕ) : ℚ) * p2 (-s) ≤ p2 t := by
    intro n hn
    have : (k : ℚ) * (n * p2 (-s)) ≤ k * 1 := mul_le_mul_of_nonneg_left hn k0
    push_cast; linarith
  have d1 : (d : ℚ) * p2 (-s) ≤ 1 := by rw [← hd]; norm_num
  have l1 : (l : ℚ) * p2 (-s) ≤ 1 := le_trans (mul_le_mul_of_nonneg_right (by exact_mod_cast Nat.le_succ l) p0.le) h2
  have q1 := ev _ (bd c h1)
  have q2 : y.val = rndF f.mb (k * d - rndF f.mb (k * c)) * p2 (-s) := by
    rw [hv, hC, show (k : ℚ) * (c * p2 (-s)) = ((k * c : ℕ) : ℚ) * p2 (-s) by push_cast; ring, q1, hd,
      show (k : ℚ) * (d * p2 (-s)) - rndF f.mb (k * c) * p2 (-s) = ((k * d - rndF f.mb (k * c) : ℕ) : ℚ) * p2 (-s) by
        rw [Nat.cast_sub hle]; push_cast; ring]
    apply ev
    refine le_trans (mul_le_mul_of_nonneg_right ?_ p0.le) (bd d d1)
    exact_mod_cast Nat.sub_le _ _
  have ab : ∀ n : ℕ, (n : ℚ) * p2 (-s) ≤ 1 → |((k * n : ℕ) : ℚ) * p2 (-s)| ≤ f.big := by
    intro n hn
    rw [abs_of_nonneg (mul_nonneg (Nat.cast_nonneg _) p0.le)]
    exact (bd n hn).trans ht
  have n1 := nearest_val hy (by rw [q2, e1, ev _ (bd l l1)]) (ab l l1)
  have n2 := nearest_val hy (by rw [q2, e2, ev _ (bd (l + 1) h2)]) (ab (l + 1) h2)
  have kr : (0 : ℝ) ≤ k := Nat.cast_nonneg k
  refine n1.between n2 ?_ ?_
  · have := mul_le_mul_of_nonneg_left hl kr
    push_cast at this ⊢
    linarith
  · have := mul_le_mul_of_nonneg_left hu kr
    push_cast at this ⊢
    linarith

end Vdt
