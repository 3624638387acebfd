import Verif.Lemmas.Exact
import Verif.Props.Direction

/-!
# C98: distinguished arguments give the nearest number
-/

namespace Vdt
open FP details

variable {f : Fmt}

/-- The core's value at a power of two, for exponents of either sign. -/
theorem log_pow_nearest [f.Ok] {c d l s t : ℕ} {C : ℚ} {k : ℤ} {y : FP f} (h : logNear f.mb c d l k.natAbs = true) (hy : y.isFinite = true)
    (hv : y.val = rnd f (k * 0.693359375 - rnd f (k * C))) (hC : C = c * p2 (-s)) (hd : (0.693359375 : ℚ) = d * p2 (-s))
    (hl : ((l * p2 (-s) : ℚ) : ℝ) ≤ Real.log 2) (hu : Real.log 2 ≤ (((l + 1 : ℕ) * p2 (-s) : ℚ) : ℝ)) (hs : f.emin ≤ -(s : ℤ))
    (ht : p2 t ≤ f.big) (hst : s + t < f.mb + 32) (hk : k.natAbs ≤ p2 t) (h1 : c * p2 (-s) ≤ 1) (h2 : (l + 1 : ℕ) * p2 (-s) ≤ 1) :
    y.Nearest (k * Real.log 2) := by
  rcases Int.natAbs_eq k with e | e
  · have ek : (k : ℚ) = (k.natAbs : ℕ) := by rw [← Int.cast_natCast, ← e]
    have er : (k : ℝ) = (k.natAbs : ℕ) := by rw [← Int.cast_natCast, ← e]
    rw [ek] at hv
    rw [er]
    exact logNear_sound h hy hv hC hd hl hu hs ht hst hk h1 h2
  · have ek : (k : ℚ) = -((k.natAbs : ℕ) : ℚ) := by
      rw [← Int.cast_natCast, ← Int.cast_neg, ← e]
    have er : (k : ℝ) = -((k.natAbs : ℕ) : ℝ) := by
      rw [← Int.cast_natCast, ← Int.cast_neg, ← e]
    have hv' : (FP.neg y).val = rnd f ((k.natAbs : ℕ) * 0.693359375 - rnd f ((k.natAbs : ℕ) * C)) := by
      rw [val_neg, hv, ek]
      generalize (0.693359375 : ℚ) = D
      generalize ((k.natAbs : ℕ) : ℚ) = n
      rw [neg_mul, neg_mul, rnd_neg, show -(n * D) - -rnd f (n * C) = -(n * D - rnd f (n * C)) by ring, rnd_neg, neg_neg]
    have n := nearest_neg (logNear_sound h (by simpa using hy) hv' hC hd hl hu hs ht hst hk h1 h2)
    rw [neg_neg'] at n
    rw [er, neg_mul]
    exact n

theorem log_pow (p : Policy) {x : F64} {k : ℤ} (h1 : -1022 ≤ k) (h2 : k ≤ 1019) (hx : x.val = 2 ^ k) :
    fast_logC p x = logCoreC p (lit 0) (ofInt k) ∧ (ofInt k : F64).isFinite = true ∧ (ofInt k : F64).val = k := by
  have em : b64.emin = -1022 ∧ b64.mb = 52 := by decide
  obtain ⟨s, m⟩ := pow_mag hx (by rw [em.1]; exact h1)
  rw [em.1, em.2] at m
  have xf : x.isFinite = true := by
    have : x.mag < b64.infMag := by
      rw [m, show b64.infMag = 2047 * 2 ^ 52 by decide]
      omega
    simpa [isFinite] using this
  have lim : LOG_UPPER_LIMIT.isFinite = true ∧ p2 1019 ≤ LOG_UPPER_LIMIT.val ∧ LOG_LOWER_LIMIT.isFinite = true ∧ LOG_LOWER_LIMIT.val = 0 := by
    decide +kernel
  have le : x.val ≤ p2 1019 := by rw [hx, ← p2_eq]; exact p2_le h2
  have pos : 0 < x.val := by rw [hx]; positivity
  rw [fast_logC_eq p (by rw [gt_fin xf lim.1]; exact decide_eq_false (not_lt.2 (le.trans lim.2.1)))
    (by rw [lt_fin xf lim.2.2.1, lim.2.2.2]; exact decide_eq_false (not_lt.2 pos.le)), getMantExponent_eq]
  have q1 : x.mag % 2 ^ 52 = 0 := by rw [m]; omega
  have q2 : ((x.mag / 2 ^ 52 : ℕ) : ℤ) + (if x.sign then 2048 else 0) - 1023 = k := by
    rw [m, s]
    simp only [Bool.false_eq_true, if_false]
    omega
  have half : ∀ fe : F64, logBlend ⟨false, 1022 * 2 ^ 52, by decide⟩ fe = (lit 0, fe) := by
    intro fe
    rw [logBlend_eq, if_neg (by decide +kernel)]
    have : (⟨false, 1022 * 2 ^ 52, by decide⟩ + ⟨false, 1022 * 2 ^ 52, by decide⟩ - lit 1 : F64) = lit 0 := by decide +kernel
    exact Prod.ext this rfl
  have e0 : (⟨x.sign, 1022 * 2 ^ 52 + x.mag % 2 ^ 52, mant_bound64 _⟩ : F64) = ⟨false, 1022 * 2 ^ 52, by decide⟩ := by
    ext
    · exact s
    · show 1022 * 2 ^ 52 + x.mag % 2 ^ 52 = 1022 * 2 ^ 52
      rw [q1, Nat.add_zero]
  rw [e0, q2, half]
  exact ⟨rfl, ofInt_spec64 (by rw [abs_le]; constructor <;> omega)⟩

theorem logf_pow (p : Policy) {x : F32} {k : ℤ} (h1 : -126 ≤ k) (h2 : k ≤ 127) (hx : x.val = 2 ^ k) :
    fast_logfC p x = logfCoreC p (lit 0) (ofInt k) ∧ (ofInt k : F32).isFinite = true ∧ (ofInt k : F32).val = k := by
  have em : b32.emin = -126 ∧ b32.mb = 23 := by decide
  obtain ⟨s, m⟩ := pow_mag hx (by rw [em.1]; exact h1)
  rw [em.1, em.2] at m
  have xf : x.isFinite = true := by
    have : x.mag < b32.infMag := by
      rw [m, show b32.infMag = 255 * 2 ^ 23 by decide]
      omega
    simpa [isFinite] using this
  have lim : LOGF_UPPER_LIMIT.isFinite = true ∧ p2 127 ≤ LOGF_UPPER_LIMIT.val ∧ LOGF_LOWER_LIMIT.isFinite = true ∧ LOGF_LOWER_LIMIT.val = 0 := by
    decide +kernel
  have le : x.val ≤ p2 127 := by rw [hx, ← p2_eq]; exact p2_le h2
  have pos : 0 < x.val := by rw [hx]; positivity
  rw [fast_logfC_eq p (by rw [gt_fin xf lim.1]; exact decide_eq_false (not_lt.2 (le.trans lim.2.1)))
    (by rw [lt_fin xf lim.2.2.1, lim.2.2.2]; exact decide_eq_false (not_lt.2 pos.le)), getMantExponentf_eq]
  have q1 : x.mag % 2 ^ 23 = 0 := by rw [m]; omega
  have q2 : ((x.mag / 2 ^ 23 : ℕ) : ℤ) + (if x.sign then 256 else 0) - 127 = k := by
    rw [m, s]
    simp only [Bool.false_eq_true, if_false]
    omega
  have half : ∀ fe : F32, logfBlend ⟨false, 126 * 2 ^ 23, by decide⟩ fe = (lit 0, fe) := by
    intro fe
    rw [logfBlend_eq, if_neg (by decide +kernel)]
    have : (⟨false, 126 * 2 ^ 23, by decide⟩ + ⟨false, 126 * 2 ^ 23, by decide⟩ - lit 1 : F32) = lit 0 := by decide +kernel
    exact Prod.ext this rfl
  have e0 : (⟨x.sign, 126 * 2 ^ 23 + x.mag % 2 ^ 23, mant_bound32 _⟩ : F32) = ⟨false, 126 * 2 ^ 23, by decide⟩ := by
    ext
    · exact s
    · show 126 * 2 ^ 23 + x.mag % 2 ^ 23 = 126 * 2 ^ 23
      rw [q1, Nat.add_zero]
  rw [e0, q2, half]
  exact ⟨rfl, ofInt_spec32 (by rw [abs_le]; constructor <;> omega)⟩

theorem real_pow {x : FP f} {k : ℤ} (hx : x.val = 2 ^ k) : Real.log x.real = k * Real.log 2 := by
  unfold FP.real
  rw [hx]
  push_cast
  exact Real.log_zpow 2 k

theorem ln2_between {a b : ℚ} (ha : a ≤ ln2Q - 1 / 10 ^ 38) (hb : ln2Q + 1 / 10 ^ 38 ≤ b) : (a : ℝ) ≤ Real.log 2 ∧ Real.log 2 ≤ (b : ℝ) := by
  have h := abs_le.1 ln2_near
  have a' : (a : ℝ) ≤ ((ln2Q - 1 / 10 ^ 38 : ℚ) : ℝ) := (Rat.cast_le (K := ℝ)).2 ha
  have b' : ((ln2Q + 1 / 10 ^ 38 : ℚ) : ℝ) ≤ b := (Rat.cast_le (K := ℝ)).2 hb
  push_cast at a' b'
  constructor <;> linarith [h.1, h.2]

/-- **C98.**  The logarithm of a power of two is the double nearest to the exact value, whatever is fused: the polynomial has no part in it, and
the two-part constant for `log 2` is exact enough for every exponent the function treats. -/
theorem C98_log (p : Policy) (x : F64) (k : ℤ) (hx : x.val = 2 ^ k) (h1 : -1022 ≤ k) (h2 : k ≤ 1019) : (fast_logC p x).Nearest (Real.log x.real) := by
  obtain ⟨e, hf, hv⟩ := log_pow p h1 h2 hx
  obtain ⟨g1, g2⟩ := logCoreC_zero p hf hv (by rw [abs_le]; constructor <;> omega)
  rw [e, real_pow hx]
  have c : (lit 2.121944400546905827679e-4 : F64).val = (1002059911565562880 : ℕ) * p2 (-(72 : ℕ)) ∧
    (0.693359375 : ℚ) = (3274297073083445411840 : ℕ) * p2 (-(72 : ℕ)) ∧ b64.emin ≤ -((72 : ℕ) : ℤ) ∧ p2 (11 : ℕ) ≤ b64.big ∧
    72 + 11 < b64.mb + 32 ∧ (1002059911565562880 : ℕ) * p2 (-(72 : ℕ)) ≤ 1 ∧ (3273295013171879848905 + 1 : ℕ) * p2 (-(72 : ℕ)) ≤ 1 ∧
    (3273295013171879848905 : ℕ) * p2 (-(72 : ℕ)) ≤ ln2Q - 1 / 10 ^ 38 ∧ ln2Q + 1 / 10 ^ 38 ≤ (3273295013171879848905 + 1 : ℕ) * p2 (-(72 : ℕ)) ∧
    (2000 : ℚ) ≤ p2 (11 : ℕ) := by
    decide +kernel
  obtain ⟨c1, c2, c3, c4, c5, c6, c7, c8, c9, c10⟩ := c
  obtain ⟨L, U⟩ := ln2_between c8 c9
  have kb : k.natAbs < 1023 := by omega
  refine log_pow_nearest (logNear64 _ kb) g1 g2 c1 c2 L U c3 c4 c5 ?_ c6 c7
  have : ((k.natAbs : ℕ) : ℚ) ≤ 2000 := by exact_mod_cast (by omega : k.natAbs ≤ 2000)
  exact this.trans c10

/-- The same for floats, and every positive normal power of two. -/
theorem C98_logf (p : Policy) (x : F32) (k : ℤ) (hx : x.val = 2 ^ k) (h1 : -126 ≤ k) (h2 : k ≤ 127) : (fast_logfC p x).Nearest (Real.log x.real) := by
  obtain ⟨e, hf, hv⟩ := logf_pow p h1 h2 hx
  obtain ⟨g1, g2⟩ := logfCoreC_zero p hf hv (by rw [abs_le]; constructor <;> omega)
  rw [e, real_pow hx]
  have c : (lit 2.12194440e-4 : F32).val = (14931856384 : ℕ) * p2 (-(46 : ℕ)) ∧
    (0.693359375 : ℚ) = (48790828482560 : ℕ) * p2 (-(46 : ℕ)) ∧ b32.emin ≤ -((46 : ℕ) : ℤ) ∧ p2 (8 : ℕ) ≤ b32.big ∧
    46 + 8 < b32.mb + 32 ∧ (14931856384 : ℕ) * p2 (-(46 : ℕ)) ≤ 1 ∧ (48775896626291 + 1 : ℕ) * p2 (-(46 : ℕ)) ≤ 1 ∧
    (48775896626291 : ℕ) * p2 (-(46 : ℕ)) ≤ ln2Q - 1 / 10 ^ 38 ∧ ln2Q + 1 / 10 ^ 38 ≤ (48775896626291 + 1 : ℕ) * p2 (-(46 : ℕ)) ∧
    (200 : ℚ) ≤ p2 (8 : ℕ) := by
    decide +kernel
  obtain ⟨c1, c2, c3, c4, c5, c6, c7, c8, c9, c10⟩ := c
  obtain ⟨L, U⟩ := ln2_between c8 c9
  have kb : k.natAbs < 128 := by omega
  refine log_pow_nearest (logNear32 _ kb) g1 g2 c1 c2 L U c3 c4 c5 ?_ c6 c7
  have : ((k.natAbs : ℕ) : ℚ) ≤ 200 := by exact_mod_cast (by omega : k.natAbs ≤ 200)
  exact this.trans c10

example : (fast_log (lit 1024)).Nearest (10 * Real.log 2) ∧ (fast_logf (lit 0.125)).Nearest (-3 * Real.log 2) := by
  have h1 := C98_log (fun _ => false) (lit 1024) 10 (by decide +kernel) (by norm_num) (by norm_num)
  have h2 := C98_logf (fun _ => false) (lit 0.125) (-3) (by decide +kernel) (by norm_num) (by norm_num)
  have e1 : (lit 1024 : F64).val = 2 ^ (10 : ℤ) := by decide +kernel
  have e2 : (lit 0.125 : F32).val = 2 ^ (-3 : ℤ) := by decide +kernel
  rw [fast_log_plain, real_pow e1] at h1
  rw [fast_logf_plain, real_pow e2] at h2
  push_cast at h1 h2
  exact ⟨h1, h2⟩

/-- Multiples of `π`. -/
theorem nearest_pi [f.Ok] {y : FP f} {a : ℚ} (ha : |a| ≤ 1) (hb : 4 ≤ f.big) (hy : y.isFinite = true)
    (h1 : y.val = rnd f (a * piQ - 1 / 10 ^ 38)) (h2 : y.val = rnd f (a * piQ + 1 / 10 ^ 38)) : y.Nearest (a * Real.pi) := by
  have pq : 0 ≤ piQ ∧ piQ ≤ 3.5 := by decide +kernel
  have b : |a * piQ| ≤ 3.5 := by
    rw [abs_mul, abs_of_nonneg pq.1]
    calc |a| * piQ ≤ 1 * 3.5 := mul_le_mul ha pq.2 pq.1 (by norm_num)
      _ = 3.5 := by norm_num
  have e : (1 : ℚ) / 10 ^ 38 ≤ 0.5 := by norm_num
  have e0 : (0 : ℚ) ≤ 1 / 10 ^ 38 := by norm_num
  rw [abs_le] at b
  have n1 := nearest_val hy h1 (by rw [abs_le]; constructor <;> linarith)
  have n2 := nearest_val hy h2 (by rw [abs_le]; constructor <;> linarith)
  have d : |(a : ℝ) * Real.pi - a * (piQ : ℝ)| ≤ 1 / 10 ^ 38 := by
    rw [← mul_sub, abs_mul]
    have ar : |(a : ℝ)| ≤ 1 := by exact_mod_cast ha
    calc |(a : ℝ)| * |Real.pi - piQ| ≤ 1 * (1 / 10 ^ 38) := mul_le_mul ar pi_near (abs_nonneg _) (by norm_num)
      _ = 1 / 10 ^ 38 := by norm_num
  rw [abs_le] at d
  refine n1.between n2 ?_ ?_ <;> push_cast <;> linarith [d.1, d.2]

theorem atanCoreC_zero (p : Policy) : atanCoreC p (lit 0) = lit 0 := by
  have z : (lit 0 * lit 0 : F64) = lit 0 := by decide +kernel
  have px : get_atan_pxC p (lit 0) = -lit 6.485021904942025371773E1 := by
    unfold get_atan_pxC
    dsimp only
    rw [mad_pz (p 0) (by decide +kernel) (by decide +kernel) (by decide +kernel) (by decide +kernel) (by decide +kernel),
      mad_pz (p 1) (by decide +kernel) (by decide +kernel) (by decide +kernel) (by decide +kernel) (by decide +kernel),
      mad_pz (p 2) (by decide +kernel) (by decide +kernel) (by decide +kernel) (by decide +kernel) (by decide +kernel),
      mad_pz (p 3) (by decide +kernel) (by decide +kernel) (by decide +kernel) (by decide +kernel) (by decide +kernel)]
  have qx : get_atan_qxC p (lit 0) (lit 0) = lit 1.945506571482613964425E2 := by
    unfold get_atan_qxC
    dsimp only
    rw [mad_pz (p 4) (by decide +kernel) (by decide +kernel) (by decide +kernel) (by decide +kernel) (by decide +kernel),
      mad_pz (p 5) (by decide +kernel) (by decide +kernel) (by decide +kernel) (by decide +kernel) (by decide +kernel),
      mad_pz (p 6) (by decide +kernel) (by decide +kernel) (by decide +kernel) (by decide +kernel) (by decide +kernel),
      mad_pz (p 7) (by decide +kernel) (by decide +kernel) (by decide +kernel) (by decide +kernel) (by decide +kernel),
      mad_pz (p 8) (by decide +kernel) (by decide +kernel) (by decide +kernel) (by decide +kernel) (by decide +kernel)]
  unfold atanCoreC
  dsimp only
  rw [z, px, qx, z]
  have : ∀ b, mad b (lit 0) (-lit 6.485021904942025371773E1 / lit 1.945506571482613964425E2) (lit 0) = (lit 0 : F64) := by decide +kernel
  exact this _

theorem atanfCoreC_zero (p : Policy) : atanfCoreC p (lit 0) = lit 0 := by
  have h : ∀ b0 b1 b2 b3 : Bool, mad b3 (msub b2 (mad b1 (msub b0 (lit 8.05374449538e-2) (lit 0 * lit 0) (lit 1.38776856032E-1)) (lit 0 * lit 0) (lit 1.99777106478E-1))
      (lit 0 * lit 0) (lit 3.33329491539E-1) * (lit 0 * lit 0)) (lit 0) (lit 0) = (lit 0 : F32) := by decide +kernel
  exact h _ _ _ _

/-- The eight combinations on the unit diagonals. -/
theorem diag64 (p : Policy) (a b : Bool) : fast_atan2C p (if b then -lit 1 else lit 1) (if a then -lit 1 else lit 1) =
    quad PIO2 PI (PIO4 + MOREBITSO2) false a b := by
  rw [fast_atan2C_eq]
  have e : ∀ c : Bool, FP.abs (if c then -lit 1 else lit 1 : F64) = lit 1 ∧ FP.lt (if c then -lit 1 else lit 1 : F64) (ofInt 0) = c ∧
    FP.eq (if c then -lit 1 else lit 1 : F64) (ofInt 0) = false := by decide +kernel
  rw [(e a).1, (e b).1, (e a).2.1, (e b).2.1, show FP.gt (lit 1 : F64) (lit 1) = false by decide +kernel, if_neg (by decide)]
  congr 1
  unfold oct64C atanPosC
  dsimp only
  rw [(e b).2.2, if_neg (by decide)]
  have r : atanReduce (lit 1 / (lit 1 + ofBool (FP.eq (lit 1 : F64) (lit 0)))) = (PIO4, MOREBITSO2, lit 0) := by decide +kernel
  rw [r]
  dsimp only
  rw [atanCoreC_zero]
  decide +kernel

theorem diag32 (p : Policy) (a b : Bool) : fast_atan2fC p (if b then -lit 1 else lit 1) (if a then -lit 1 else lit 1) =
    quad PIO2F PIF PIO4F false a b := by
  rw [fast_atan2fC_eq]
  have e : ∀ c : Bool, FP.abs (if c then -lit 1 else lit 1 : F32) = lit 1 ∧ FP.lt (if c then -lit 1 else lit 1 : F32) (lit 0) = c ∧
    FP.eq (if c then -lit 1 else lit 1 : F32) (lit 0) = false := by decide +kernel
  rw [(e a).1, (e b).1, (e a).2.1, (e b).2.1, show FP.gt (lit 1 : F32) (lit 1) = false by decide +kernel, if_neg (by decide)]
  congr 1
  unfold oct32C
  dsimp only
  have g : FP.gt (lit 1 / lit 1 : F32) (lit 0.4142135623730950) = true := by decide +kernel
  rw [(e b).2.2, g]
  simp only [if_true, Bool.false_eq_true, if_false]
  have r : ((lit 1 / lit 1 - lit 1) / (lit 1 / lit 1 + lit 1) : F32) = lit 0 := by decide +kernel
  rw [r, atanfCoreC_zero]
  decide +kernel

/-- The angle of the diagonals. -/
def diagAngle (a b : Bool) : ℚ := (if b then -1 else 1) * (if a then 3 / 4 else 1 / 4)

theorem arg_diag {x y : ℝ} {a b : Bool} {c : ℝ} (hc : 0 < c) (hx : x = if a then -c else c) (hy : y = if b then -c else c) :
    Complex.arg ⟨x, y⟩ = (diagAngle a b : ℚ) * Real.pi := by
  have pp := Real.pi_pos
  have s2 : 0 < Real.sqrt 2 := by positivity
  have ss : Real.sqrt 2 * Real.sqrt 2 = 2 := Real.mul_self_sqrt (by norm_num)
  have key : ∀ θ : ℝ, θ ∈ Set.Ioc (-Real.pi) Real.pi → x = c * Real.sqrt 2 * Real.cos θ → y = c * Real.sqrt 2 * Real.sin θ →
      Complex.arg ⟨x, y⟩ = θ := by
    intro θ hθ h1 h2
    have e : (⟨x, y⟩ : ℂ) = ((c * Real.sqrt 2 : ℝ) : ℂ) * (Complex.cos θ + Complex.sin θ * Complex.I) := by
      apply Complex.ext
      · rw [Complex.re_ofReal_mul]; simp [h1, ← Complex.ofReal_cos, ← Complex.ofReal_sin]
      · rw [Complex.im_ofReal_mul]; simp [h2, ← Complex.ofReal_cos, ← Complex.ofReal_sin]
    rw [e]
    exact Complex.arg_mul_cos_add_sin_mul_I (by positivity) hθ
  have h34c : Real.cos (3 / 4 * Real.pi) = -(Real.sqrt 2 / 2) := by
    rw [show 3 / 4 * Real.pi = Real.pi - Real.pi / 4 by ring, Real.cos_pi_sub, Real.cos_pi_div_four]
  have h34s : Real.sin (3 / 4 * Real.pi) = Real.sqrt 2 / 2 := by
    rw [show 3 / 4 * Real.pi = Real.pi - Real.pi / 4 by ring, Real.sin_pi_sub, Real.sin_pi_div_four]
  have h14c : Real.cos (1 / 4 * Real.pi) = Real.sqrt 2 / 2 := by
    rw [show 1 / 4 * Real.pi = Real.pi / 4 by ring, Real.cos_pi_div_four]
  have h14s : Real.sin (1 / 4 * Real.pi) = Real.sqrt 2 / 2 := by
    rw [show 1 / 4 * Real.pi = Real.pi / 4 by ring, Real.sin_pi_div_four]
  have v : c * Real.sqrt 2 * (Real.sqrt 2 / 2) = c := by
    rw [show c * Real.sqrt 2 * (Real.sqrt 2 / 2) = c * (Real.sqrt 2 * Real.sqrt 2) / 2 by ring, ss]; ring
  cases a <;> cases b <;> simp only [Bool.false_eq_true, if_false, if_true] at hx hy <;>
    (apply key <;> norm_num [diagAngle, neg_mul, Real.cos_neg, Real.sin_neg, h34c, h34s, h14c, h14s, hx, hy, v] <;> try (constructor <;> linarith))

/-- **C98.**  On the two diagonals `fast_atan2` gives the double nearest to the odd multiple of `π/4`, and `fast_atan2f` the nearest float,
for vectors of any length and whatever is fused. -/
theorem C98_diagonal (p : Policy) :
    (∀ y x : F64, x.isFinite = true → y.isFinite = true → x.val ≠ 0 → |y.val| = |x.val| → (fast_atan2C p y x).Nearest (Complex.arg ⟨x.real, y.real⟩)) ∧
    ∀ y x : F32, x.isFinite = true → y.isFinite = true → x.val ≠ 0 → |y.val| = |x.val| → (fast_atan2fC p y x).Nearest (Complex.arg ⟨x.real, y.real⟩) := by
  have sg : ∀ {g : Fmt} {x : FP g} {c : ℚ}, |x.val| = c → ∃ a : Bool, x.val = if a then -c else c := by
    intro g x c h
    rcases abs_choice x.val with e | e
    · exact ⟨false, by rw [← h, e]; simp⟩
    · exact ⟨true, by rw [← h, e]; simp⟩
  have rl : ∀ {g : Fmt} {x : FP g} {c : ℚ} {a : Bool}, x.val = (if a then -c else c) → x.real = if a then -(c : ℝ) else (c : ℝ) := by
    intro g x c a h
    unfold FP.real
    rw [h]
    split <;> push_cast <;> rfl
  constructor
  · intro y x hx hy h0 h
    have c0 : 0 < |x.val| := abs_pos.2 h0
    obtain ⟨c, hc⟩ : ∃ c, |x.val| = c := ⟨_, rfl⟩
    rw [hc] at c0 h
    obtain ⟨a, ea⟩ := sg hc
    obtain ⟨b, eb⟩ := sg h
    have u : ∀ c : Bool, (if c then -lit 1 else lit 1 : F64).isFinite = true ∧ (if c then -lit 1 else lit 1 : F64).val = if c then -1 else 1 := by
      decide +kernel
    have dir : SameDirection (if a then -lit 1 else lit 1 : F64).val (if b then -lit 1 else lit 1 : F64).val x.val y.val := by
      refine ⟨c, c0, ?_, ?_⟩
      · rw [(u a).2, ea]; cases a <;> simp
      · rw [(u b).2, eb]; cases b <;> simp
    rw [← fast_atan2C_direction p _ _ x y (u a).1 (u b).1 hx hy dir, diag64, arg_diag (by exact_mod_cast c0) (rl ea) (rl eb)]
    have t : ∀ a b : Bool, |diagAngle a b| ≤ 1 ∧ (quad PIO2 PI (PIO4 + MOREBITSO2) false a b).isFinite = true ∧
        (quad PIO2 PI (PIO4 + MOREBITSO2) false a b).val = rnd b64 (diagAngle a b * piQ - 1 / 10 ^ 38) ∧
        (quad PIO2 PI (PIO4 + MOREBITSO2) false a b).val = rnd b64 (diagAngle a b * piQ + 1 / 10 ^ 38) := by decide +kernel
    obtain ⟨t1, t2, t3, t4⟩ := t a b
    exact nearest_pi t1 (by decide +kernel) t2 t3 t4
  · intro y x hx hy h0 h
    have c0 : 0 < |x.val| := abs_pos.2 h0
    obtain ⟨c, hc⟩ : ∃ c, |x.val| = c := ⟨_, rfl⟩
    rw [hc] at c0 h
    obtain ⟨a, ea⟩ := sg hc
    obtain ⟨b, eb⟩ := sg h
    have u : ∀ c : Bool, (if c then -lit 1 else lit 1 : F32).isFinite = true ∧ (if c then -lit 1 else lit 1 : F32).val = if c then -1 else 1 := by
      decide +kernel
    have dir : SameDirection (if a then -lit 1 else lit 1 : F32).val (if b then -lit 1 else lit 1 : F32).val x.val y.val := by
      refine ⟨c, c0, ?_, ?_⟩
      · rw [(u a).2, ea]; cases a <;> simp
      · rw [(u b).2, eb]; cases b <;> simp
    rw [← fast_atan2fC_direction p _ _ x y (u a).1 (u b).1 hx hy dir, diag32, arg_diag (by exact_mod_cast c0) (rl ea) (rl eb)]
    have t : ∀ a b : Bool, |diagAngle a b| ≤ 1 ∧ (quad PIO2F PIF PIO4F false a b).isFinite = true ∧
        (quad PIO2F PIF PIO4F false a b).val = rnd b32 (diagAngle a b * piQ - 1 / 10 ^ 38) ∧
        (quad PIO2F PIF PIO4F false a b).val = rnd b32 (diagAngle a b * piQ + 1 / 10 ^ 38) := by decide +kernel
    obtain ⟨t1, t2, t3, t4⟩ := t a b
    exact nearest_pi t1 (by decide +kernel) t2 t3 t4

/-- The vector (-3, 3), and the largest finite numbers. -/
example : (fast_atan2 (lit 3) (-lit 3)).Nearest (3 / 4 * Real.pi) ∧
    ∀ p, (fast_atan2C p (ofBits 0x7fefffffffffffff#64) (ofBits 0x7fefffffffffffff#64)).Nearest (1 / 4 * Real.pi) := by
  constructor
  · have h := (C98_diagonal (fun _ => false)).1 (lit 3) (-lit 3) (by decide +kernel) (by decide +kernel) (by decide +kernel) (by decide +kernel)
    have v : (lit 3 : F64).val = 3 ∧ (-lit 3 : F64).val = -3 := by decide +kernel
    have r1 : (lit 3 : F64).real = 3 := by unfold FP.real; rw [v.1]; norm_num
    have r2 : (-lit 3 : F64).real = -3 := by unfold FP.real; rw [v.2]; norm_num
    rw [fast_atan2_plain, r1, r2, arg_diag (a := true) (b := false) (c := 3) (by norm_num) (by simp) (by simp)] at h
    simpa [diagAngle] using h
  · intro p
    have h := (C98_diagonal p).1 (ofBits 0x7fefffffffffffff#64) (ofBits 0x7fefffffffffffff#64) (by decide +kernel) (by decide +kernel)
      (by decide +kernel) rfl
    have pos : 0 < (ofBits 0x7fefffffffffffff#64 : F64).real := by
      have : 0 < (ofBits 0x7fefffffffffffff#64 : F64).val := by decide +kernel
      unfold FP.real; exact_mod_cast this
    rw [arg_diag (a := false) (b := false) pos (by simp) (by simp)] at h
    simpa [diagAngle] using h

/-- A test that settles `nearest_pi`. -/
def nearPi (y : FP f) (a : ℚ) : Prop :=
  |a| ≤ 1 ∧ y.isFinite = true ∧ y.val = rnd f (a * piQ - 1 / 10 ^ 38) ∧ y.val = rnd f (a * piQ + 1 / 10 ^ 38)

instance (y : FP f) (a : ℚ) : Decidable (nearPi y a) := by unfold nearPi; infer_instance

theorem nearPi64 {y : F64} {a : ℚ} (h : nearPi y a) : y.Nearest (a * Real.pi) := nearest_pi h.1 (by decide +kernel) h.2.1 h.2.2.1 h.2.2.2

theorem nearPi32 {y : F32} {a : ℚ} (h : nearPi y a) : y.Nearest (a * Real.pi) := nearest_pi h.1 (by decide +kernel) h.2.1 h.2.2.1 h.2.2.2

/-- The values of the inverse functions at the arguments where they are simple fractions of `π`, double precision. -/
theorem C98_fractions : (fast_atan (lit 1)).Nearest (Real.pi / 4) ∧ (fast_atan (inf false)).Nearest (Real.pi / 2) ∧ (fast_asin (lit 1)).Nearest (Real.pi / 2) ∧
    (fast_asin (lit 0.5)).Nearest (Real.pi / 6) ∧ (fast_acos (lit 0)).Nearest (Real.pi / 2) ∧ (fast_acos (-lit 1)).Nearest Real.pi ∧
    (fast_acos (-lit 0.5)).Nearest (2 * Real.pi / 3) ∧ (fast_acos (lit 1)).Nearest 0 := by
  have c : ∀ {y : F64} (a : ℚ) {r : ℝ}, nearPi y a → a * Real.pi = r → y.Nearest r := fun a r h e => e ▸ nearPi64 h
  refine ⟨c (1 / 4) (by decide +kernel) (by push_cast; ring), c (1 / 2) (by decide +kernel) (by push_cast; ring), c (1 / 2) (by decide +kernel) (by push_cast; ring),
    c (1 / 6) (by decide +kernel) (by push_cast; ring), c (1 / 2) (by decide +kernel) (by push_cast; ring), c 1 (by decide +kernel) (by push_cast; ring),
    c (2 / 3) (by decide +kernel) (by push_cast; ring), nearest_zero (by decide +kernel)⟩

/-- Single precision, where the arccosine of `1/2` joins the list. -/
theorem C98_fractionsf : (fast_atanf (lit 1)).Nearest (Real.pi / 4) ∧ (fast_atanf (inf false)).Nearest (Real.pi / 2) ∧ (fast_asinf (lit 1)).Nearest (Real.pi / 2) ∧
    (fast_asinf (lit 0.5)).Nearest (Real.pi / 6) ∧ (fast_acosf (lit 0)).Nearest (Real.pi / 2) ∧ (fast_acosf (-lit 1)).Nearest Real.pi ∧
    (fast_acosf (-lit 0.5)).Nearest (2 * Real.pi / 3) ∧ (fast_acosf (lit 1)).Nearest 0 ∧ (fast_acosf (lit 0.5)).Nearest (Real.pi / 3) := by
  have c : ∀ {y : F32} (a : ℚ) {r : ℝ}, nearPi y a → a * Real.pi = r → y.Nearest r := fun a r h e => e ▸ nearPi32 h
  refine ⟨c (1 / 4) (by decide +kernel) (by push_cast; ring), c (1 / 2) (by decide +kernel) (by push_cast; ring), c (1 / 2) (by decide +kernel) (by push_cast; ring),
    c (1 / 6) (by decide +kernel) (by push_cast; ring), c (1 / 2) (by decide +kernel) (by push_cast; ring), c 1 (by decide +kernel) (by push_cast; ring),
    c (2 / 3) (by decide +kernel) (by push_cast; ring), nearest_zero (by decide +kernel), c (1 / 3) (by decide +kernel) (by push_cast; ring)⟩

/-- In double precision the arccosine of `1/2` is not the nearest number: `1.04719755119659763` is closer to `π/3`. -/
theorem C98_sharp : ¬ (fast_acos (lit 0.5)).Nearest (Real.pi / 3) := by
  intro h
  have c : (ofBits 0x3ff0c152382d7366#64 : F64).isFinite = true ∧ (fast_acos (lit 0.5)).val < (ofBits 0x3ff0c152382d7366#64 : F64).val ∧
    ((fast_acos (lit 0.5)).val + (ofBits 0x3ff0c152382d7366#64 : F64).val) / 2 < (piQ - 1 / 10 ^ 38) / 3 := by decide +kernel
  obtain ⟨c1, c2, c3⟩ := c
  have n := h.2.1 _ c1
  have d2 : (fast_acos (lit 0.5)).real < (ofBits 0x3ff0c152382d7366#64 : F64).real := (Rat.cast_lt (K := ℝ)).2 c2
  have d3 := (Rat.cast_lt (K := ℝ)).2 c3
  push_cast at d3
  have pn := (abs_le.1 pi_near).1
  unfold FP.real at n d2
  generalize ((fast_acos (lit 0.5)).val : ℝ) = u at *
  generalize ((ofBits 0x3ff0c152382d7366#64 : F64).val : ℝ) = v at *
  have key : |v - Real.pi / 3| < |u - Real.pi / 3| := by
    rw [abs_of_neg (a := u - Real.pi / 3) (by linarith), abs_lt]
    constructor <;> linarith
  linarith

end Vdt
