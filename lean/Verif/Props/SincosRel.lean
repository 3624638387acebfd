import Verif.Lemmas.SincosRel
import Verif.Props.SincosAcc

/-!
# Sine and cosine: relative accuracy, also near their zeros (C69)
-/

namespace Vdt
open FP details

/-! ## C69, double precision -/


/-- From the distance between the numbers and the multiples of `π/2` to a relative error. -/
theorem rel_of_dist {m : ℕ} {v r t κ ρ U ε : ℝ} (h : |v - r| ≤ 5.2 * U * |r| + 1.001 * (m * κ)) (hρ : 0 < ρ)
    (hd : 1 ≤ m → ρ * (m * κ) ≤ |t| ∧ 0.87 * |t| ≤ |r|) (hε : 5.2 * U + 1.151 / ρ ≤ ε) :
    |v - r| ≤ ε * |r| := by
  have hr := abs_nonneg r
  refine le_trans ?_ (mul_le_mul_of_nonneg_right hε hr)
  rw [add_mul]
  refine h.trans (add_le_add le_rfl ?_)
  rcases Nat.eq_zero_or_pos m with h0 | h0
  · rw [h0]
    have : 0 ≤ 1.151 / ρ * |r| := by positivity
    simpa using this
  · obtain ⟨h1, h2⟩ := hd h0
    rw [div_mul_eq_mul_div, le_div_iff₀ hρ]
    nlinarith

theorem sincosC_rel_of (p : Policy) {x : F64} (hx : x.isFinite = true) {X ρ : ℚ} {l : List ℚ} (h : |x.val| ≤ X) (hX : X ≤ 2 ^ 27) (hρ : 1 ≤ ρ)
    (ok : covers (distCheck64 ρ) l = true) (hs : spans l (1 / 2) X = true) {ε : ℝ} (hε : 5.2 * 2 ^ (-53 : ℤ) + 1.151 / (ρ : ℝ) ≤ ε) :
    ∃ s c, fast_sincosC p x = some (s, c) ∧ CloseRel s (Real.sin x.real) ε ∧ CloseRel c (Real.cos x.real) ε := by
  obtain ⟨s, c, m, e, f1, f2, g0, g1, g2, h1, h2⟩ := sincosC_rel p hx (h.trans hX)
  have hρ' : (0 : ℝ) < ρ := by
    have : (0 : ℚ) < ρ := by linarith
    exact_mod_cast this
  have hd : 1 ≤ m → ρ * (m * (1 / 2 ^ 106)) ≤ |(|x.real| - m * (Real.pi / 2))| := fun hm =>
    dist64 hρ ok hs (g0.resolve_left (by omega)) h hm g1
  exact ⟨s, c, e, ⟨f1, rel_of_dist h1 hρ' (fun hm => ⟨hd hm, (g2 hm).1⟩) hε⟩,
    ⟨f2, rel_of_dist h2 hρ' (fun hm => ⟨hd hm, (g2 hm).2⟩) hε⟩⟩

theorem sincos_rel_of {x : F64} (hx : x.isFinite = true) {X ρ : ℚ} {l : List ℚ} (h : |x.val| ≤ X) (hX : X ≤ 2 ^ 27) (hρ : 1 ≤ ρ)
    (ok : covers (distCheck64 ρ) l = true) (hs : spans l (1 / 2) X = true) {ε : ℝ} (hε : 5.2 * 2 ^ (-53 : ℤ) + 1.151 / (ρ : ℝ) ≤ ε) :
    ∃ s c, fast_sin x = some s ∧ fast_cos x = some c ∧ CloseRel s (Real.sin x.real) ε ∧ CloseRel c (Real.cos x.real) ε := by
  obtain ⟨s, c, e, h1, h2⟩ := sincosC_rel_of (fun _ => false) hx h hX hρ ok hs hε
  rw [fast_sincos_plain] at e
  have := fast_sin_of_sincos e
  exact ⟨s, c, this.1, this.2, h1, h2⟩

/-- Every double with `|x| ≤ 2^27`: relative error at most `2^-23`. -/
theorem C69_relative (x : F64) (hx : x.isFinite = true) (h : |x.val| ≤ 2 ^ 27) :
    ∃ s c, fast_sin x = some s ∧ fast_cos x = some c ∧
      CloseRel s (Real.sin x.real) (2 ^ (-23 : ℤ)) ∧ CloseRel c (Real.cos x.real) (2 ^ (-23 : ℤ)) :=
  sincos_rel_of hx h (by norm_num) (by norm_num) distCover64_27 (by decide +kernel) (by push_cast; norm_num)

/-- `2^-32` up to `2^20`. -/
theorem C69_relative_to_2_20 (x : F64) (hx : x.isFinite = true) (h : |x.val| ≤ 2 ^ 20) :
    ∃ s c, fast_sin x = some s ∧ fast_cos x = some c ∧
      CloseRel s (Real.sin x.real) (2 ^ (-32 : ℤ)) ∧ CloseRel c (Real.cos x.real) (2 ^ (-32 : ℤ)) :=
  sincos_rel_of hx h (by norm_num) (by norm_num) distCover64_20 (by decide +kernel) (by push_cast; norm_num)

/-- `2^-38` up to 8192. -/
theorem C69_relative_to_8192 (x : F64) (hx : x.isFinite = true) (h : |x.val| ≤ 8192) :
    ∃ s c, fast_sin x = some s ∧ fast_cos x = some c ∧
      CloseRel s (Real.sin x.real) (2 ^ (-38 : ℤ)) ∧ CloseRel c (Real.cos x.real) (2 ^ (-38 : ℤ)) :=
  sincos_rel_of hx h (by norm_num) (by norm_num) distCover64_13 (by decide +kernel) (by push_cast; norm_num)

/-- `2^-48` up to 32. -/
theorem C69_relative_to_32 (x : F64) (hx : x.isFinite = true) (h : |x.val| ≤ 32) :
    ∃ s c, fast_sin x = some s ∧ fast_cos x = some c ∧
      CloseRel s (Real.sin x.real) (2 ^ (-48 : ℤ)) ∧ CloseRel c (Real.cos x.real) (2 ^ (-48 : ℤ)) :=
  sincos_rel_of hx h (by norm_num) (by norm_num) distCover64_5 (by decide +kernel) (by push_cast; norm_num)

/-- The two parts of the error: `2^-50` of the value, and `2^-105` of the argument from the reduction. -/
theorem C69_mixed (x : F64) (hx : x.isFinite = true) (h : |x.val| ≤ 2 ^ 27) :
    ∃ s c, fast_sin x = some s ∧ fast_cos x = some c ∧
      |s.real - Real.sin x.real| ≤ 2 ^ (-50 : ℤ) * |Real.sin x.real| + 2 ^ (-105 : ℤ) * |x.real| ∧
      |c.real - Real.cos x.real| ≤ 2 ^ (-50 : ℤ) * |Real.cos x.real| + 2 ^ (-105 : ℤ) * |x.real| := by
  obtain ⟨s, c, m, e, f1, f2, g0, g1, -, h1, h2⟩ := sincos_rel hx h
  have := fast_sin_of_sincos e
  have hpi : (1.57 : ℝ) ≤ Real.pi / 2 := by
    have h1 := pi_near
    have h2 : ((piQ : ℚ) : ℝ) ≥ 3.1415 := by norm_num [piQ]
    rw [abs_le] at h1
    have h3 : (1 : ℝ) / 10 ^ 38 ≤ 0.0001 := by norm_num
    norm_num at h2 h3 ⊢
    linarith [h1.1]
  have hm : (m : ℝ) * 1.57 ≤ |x.real| + 0.7863 := by
    rw [abs_le] at g1
    have : (m : ℝ) * 1.57 ≤ m * (Real.pi / 2) := mul_le_mul_of_nonneg_left hpi (by positivity)
    linarith [g1.1]
  have hmx : (m : ℝ) ≤ 1.8 * |x.real| := by
    rcases Nat.eq_zero_or_pos m with h0 | h0
    · rw [h0]; have := abs_nonneg x.real; push_cast; linarith
    · have h2 : (1 : ℝ) ≤ m := by exact_mod_cast h0
      nlinarith
  have hk : 1.001 * ((m : ℝ) * (1 / 2 ^ 106)) ≤ 2 ^ (-105 : ℤ) * |x.real| := by
    have : 1.001 * ((m : ℝ) * (1 / 2 ^ 106)) ≤ 1.001 * (1.8 * |x.real| * (1 / 2 ^ 106)) :=
      mul_le_mul_of_nonneg_left (mul_le_mul_of_nonneg_right hmx (by positivity)) (by norm_num)
    refine this.trans ?_
    have e : (1.001 : ℝ) * (1.8 * |x.real| * (1 / 2 ^ 106)) = (1.001 * 1.8 * (1 / 2 ^ 106)) * |x.real| := by ring
    rw [e]
    exact mul_le_mul_of_nonneg_right (by norm_num) (abs_nonneg _)
  exact ⟨s, c, this.1, this.2,
    h1.trans (add_le_add (mul_le_mul_of_nonneg_right (by norm_num) (abs_nonneg _)) hk),
    h2.trans (add_le_add (mul_le_mul_of_nonneg_right (by norm_num) (abs_nonneg _)) hk)⟩

theorem closeRel_sign {f : Fmt} {x : FP f} {r ε : ℝ} (h : CloseRel x r ε) (hε : ε < 1) :
    (0 < x.real ↔ 0 < r) ∧ (x.real < 0 ↔ r < 0) := by
  have h := h.2
  rw [abs_le] at h
  rcases lt_trichotomy r 0 with hr | hr | hr
  · rw [abs_of_neg hr] at h
    have : x.real < 0 := by nlinarith
    exact ⟨⟨fun h => by linarith, fun h => by linarith⟩, ⟨fun _ => hr, fun _ => this⟩⟩
  · rw [hr] at h ⊢
    simp only [abs_zero, mul_zero, neg_zero, sub_zero] at h
    have : x.real = 0 := le_antisymm h.2 h.1
    rw [this]; exact ⟨Iff.rfl, Iff.rfl⟩
  · rw [abs_of_pos hr] at h
    have : 0 < x.real := by nlinarith
    exact ⟨⟨fun _ => hr, fun _ => this⟩, ⟨fun h => by linarith, fun h => by linarith⟩⟩

/-- Both functions have the sign of the real sine and cosine, however close to a zero. -/
theorem C69_sign (x : F64) (hx : x.isFinite = true) (h : |x.val| ≤ 2 ^ 27) :
    ∃ s c, fast_sin x = some s ∧ fast_cos x = some c ∧
      (0 < s.real ↔ 0 < Real.sin x.real) ∧ (s.real < 0 ↔ Real.sin x.real < 0) ∧
      (0 < c.real ↔ 0 < Real.cos x.real) ∧ (c.real < 0 ↔ Real.cos x.real < 0) := by
  obtain ⟨s, c, e1, e2, h1, h2⟩ := C69_relative x hx h
  exact ⟨s, c, e1, e2, (closeRel_sign h1 (by norm_num)).1, (closeRel_sign h1 (by norm_num)).2, (closeRel_sign h2 (by norm_num)).1, (closeRel_sign h2 (by norm_num)).2⟩

/-- The double nearest to `29π/2`, the one nearest to `3712π/2`, and a subnormal number. -/
example : (ofBits 0x4046c6cbc45dc8de#64 : F64).isFinite = true ∧ |(ofBits 0x4046c6cbc45dc8de#64 : F64).val| ≤ 8192 ∧
    fast_cos (ofBits 0x4046c6cbc45dc8de#64) = some (ofBits 0xbc26d61b58c99800#64 : F64) ∧
    |(ofBits 0x40b6c6cbc45dc8de#64 : F64).val| ≤ 8192 ∧
    fast_sin (ofBits 0x40b6c6cbc45dc8de#64) = some (ofBits 0x3c96d61b58c99800#64 : F64) ∧
    fast_sin (ofBits 0x0000000000000123#64) = some (ofBits 0x0000000000000123#64 : F64) ∧
    |(lit 22 : F64).val| ≤ 32 ∧ fast_sin (lit 22) = some (ofBits 0xbf8220a29f6eb9f4#64 : F64) := by decide +kernel

/-- How far a number `C` is from the cosine of a number `X` close to `m π/2`, `m ≡ 1 (mod 4)`. -/
theorem cos_far {X C T d ε : ℚ} {m : ℕ} (hm : m % 4 = 1) (hT : T = X - m * (piQ / 2)) (hd : d = m / 10 ^ 38 + (|T| + m / 10 ^ 38) ^ 3)
    (hε : 0 ≤ ε) (h : ε * (|T| + d) + d < |C + T|) : (ε : ℝ) * |Real.cos X| < |(C : ℝ) - Real.cos X| := by
  obtain ⟨t, ht⟩ : ∃ t : ℝ, t = X - m * (Real.pi / 2) := ⟨_, rfl⟩
  have hc : Real.cos X = -Real.sin t := by
    have := (quadrant_trig t m).2
    rw [ht, sub_add_cancel, ← ht] at this
    rw [this]; simp [hm]
  have htT : |t - T| ≤ m / 10 ^ 38 := by
    have hp := pi_near
    have e : t - T = -(m / 2 * (Real.pi - piQ)) := by rw [ht, hT]; push_cast; ring
    rw [e, abs_neg, abs_mul, abs_of_nonneg (by positivity : (0 : ℝ) ≤ m / 2)]
    have := mul_le_mul_of_nonneg_left hp (by positivity : (0 : ℝ) ≤ m / 2)
    refine this.trans ?_
    have e2 : (m : ℝ) / 2 * (1 / 10 ^ 38) = m / 10 ^ 38 / 2 := by ring
    have h1 : (0 : ℝ) ≤ m / 10 ^ 38 := by positivity
    rw [e2]; linarith
  have ha : |t| ≤ |(T : ℝ)| + m / 10 ^ 38 := by
    have := abs_add_le (T : ℝ) (t - T); rw [add_sub_cancel] at this; linarith
  have hs : |t - Real.sin t| ≤ |t| ^ 3 := by
    have main : ∀ t : ℝ, 0 ≤ t → |t - Real.sin t| ≤ t ^ 3 := by
      intro t h0
      rw [abs_of_nonneg (by linarith [Real.sin_le h0])]
      rcases h0.eq_or_lt with h | h
      · rw [← h]; simp
      · have := Real.sin_gt_sub_cube h
        have h3 : 0 ≤ t ^ 3 := by positivity
        linarith
    rcases le_total 0 t with h0 | h0
    · have := main t h0; rwa [abs_of_nonneg h0]
    · have := main (-t) (by linarith)
      rw [Real.sin_neg, ← abs_neg] at this
      rw [abs_of_nonpos h0]
      refine le_trans (le_of_eq ?_) this
      congr 1; ring
  have hs' : |t - Real.sin t| ≤ (|(T : ℝ)| + m / 10 ^ 38) ^ 3 := hs.trans (pow_le_pow_left₀ (abs_nonneg _) ha 3)
  have hdR : (d : ℝ) = m / 10 ^ 38 + (|(T : ℝ)| + m / 10 ^ 38) ^ 3 := by rw [hd]; push_cast; ring
  have hTd : |(T : ℝ) - Real.sin t| ≤ d := by
    have := abs_sub_le (T : ℝ) t (Real.sin t)
    rw [abs_sub_comm (T : ℝ) t] at this
    rw [hdR]; linarith
  have hR : ((ε * (|T| + d) + d : ℚ) : ℝ) < ((|C + T| : ℚ) : ℝ) := Rat.cast_lt.2 h
  push_cast at hR
  rw [hc]
  have h1 : |(-Real.sin t)| ≤ |(T : ℝ)| + d := by
    rw [abs_neg]
    have := abs_sub_le (Real.sin t) T 0
    rw [sub_zero, sub_zero, abs_sub_comm] at this
    linarith
  have h2 : |(C : ℝ) + T| ≤ |(C : ℝ) - -Real.sin t| + d := by
    have := abs_add_le ((C : ℝ) - -Real.sin t) (T - Real.sin t)
    have e : (C : ℝ) - -Real.sin t + (T - Real.sin t) = C + T := by ring
    rw [e] at this
    linarith
  have hε' : (0 : ℝ) ≤ ε := by exact_mod_cast hε
  have := mul_le_mul_of_nonneg_left h1 hε'
  linarith

/-- `2^-43` is not reached below 64: the relative error of the cosine of the double nearest to `29π/2` is larger. -/
theorem C69_sharp : ∃ x c : F64, |x.val| ≤ 64 ∧ fast_cos x = some c ∧
    2 ^ (-43 : ℤ) * |Real.cos x.real| < |c.real - Real.cos x.real| := by
  refine ⟨ofBits 0x4046c6cbc45dc8de#64, ofBits 0xbc26d61b58c99800#64, by decide +kernel, by decide +kernel, ?_⟩
  have := cos_far (X := (ofBits 0x4046c6cbc45dc8de#64 : F64).val) (C := (ofBits 0xbc26d61b58c99800#64 : F64).val) (ε := 1 / 2 ^ 43) (m := 29)
    (by decide) rfl rfl (by norm_num) (by decide +kernel)
  unfold FP.real
  refine lt_of_eq_of_lt ?_ this
  push_cast
  norm_num

/-! ## C69, single precision -/


theorem sincosfC_rel_of (p : Policy) {x : F32} (hx : x.isFinite = true) {X ρ : ℚ} {l : List ℚ} (h : |x.val| ≤ X) (hX : X ≤ 8192) (hρ : 1 ≤ ρ)
    (ok : covers (distCheck32 ρ) l = true) (hs : spans l (1 / 2) X = true) {ε : ℝ} (hε : 5.2 * 2 ^ (-24 : ℤ) + 1.151 / (ρ : ℝ) ≤ ε) :
    ∃ s c, fast_sincosfC p x = some (s, c) ∧ CloseRel s (Real.sin x.real) ε ∧ CloseRel c (Real.cos x.real) ε := by
  obtain ⟨s, c, m, e, f1, f2, g0, g1, g2, h1, h2⟩ := sincosfC_rel p hx (h.trans hX)
  have hρ' : (0 : ℝ) < ρ := by
    have : (0 : ℚ) < ρ := by linarith
    exact_mod_cast this
  have hd : 1 ≤ m → ρ * (m * (0.9 / 2 ^ 47)) ≤ |(|x.real| - m * (Real.pi / 2))| := fun hm =>
    dist32 hρ ok hs (g0.resolve_left (by omega)) h hm g1
  exact ⟨s, c, e, ⟨f1, rel_of_dist h1 hρ' (fun hm => ⟨hd hm, (g2 hm).1⟩) hε⟩,
    ⟨f2, rel_of_dist h2 hρ' (fun hm => ⟨hd hm, (g2 hm).2⟩) hε⟩⟩

theorem sincosf_rel_of {x : F32} (hx : x.isFinite = true) {X ρ : ℚ} {l : List ℚ} (h : |x.val| ≤ X) (hX : X ≤ 8192) (hρ : 1 ≤ ρ)
    (ok : covers (distCheck32 ρ) l = true) (hs : spans l (1 / 2) X = true) {ε : ℝ} (hε : 5.2 * 2 ^ (-24 : ℤ) + 1.151 / (ρ : ℝ) ≤ ε) :
    ∃ s c, fast_sinf x = some s ∧ fast_cosf x = some c ∧ CloseRel s (Real.sin x.real) ε ∧ CloseRel c (Real.cos x.real) ε := by
  obtain ⟨s, c, e, h1, h2⟩ := sincosfC_rel_of (fun _ => false) hx h hX hρ ok hs hε
  rw [fast_sincosf_plain] at e
  have := fast_sinf_of_sincosf e
  exact ⟨s, c, this.1, this.2, h1, h2⟩

/-- Every float with `|x| ≤ 8192`: relative error at most `2^-10`. -/
theorem C69_relativef (x : F32) (hx : x.isFinite = true) (h : |x.val| ≤ 8192) :
    ∃ s c, fast_sinf x = some s ∧ fast_cosf x = some c ∧
      CloseRel s (Real.sin x.real) (2 ^ (-10 : ℤ)) ∧ CloseRel c (Real.cos x.real) (2 ^ (-10 : ℤ)) :=
  sincosf_rel_of hx h (by norm_num) (by norm_num) distCover32_13 (by decide +kernel) (by push_cast; norm_num)

/-- `2^-11` up to 4096. -/
theorem C69_relativef_to_4096 (x : F32) (hx : x.isFinite = true) (h : |x.val| ≤ 4096) :
    ∃ s c, fast_sinf x = some s ∧ fast_cosf x = some c ∧
      CloseRel s (Real.sin x.real) (2 ^ (-11 : ℤ)) ∧ CloseRel c (Real.cos x.real) (2 ^ (-11 : ℤ)) :=
  sincosf_rel_of hx h (by norm_num) (by norm_num) distCover32_12 (by decide +kernel) (by push_cast; norm_num)

/-- `2^-15` up to 128. -/
theorem C69_relativef_to_128 (x : F32) (hx : x.isFinite = true) (h : |x.val| ≤ 128) :
    ∃ s c, fast_sinf x = some s ∧ fast_cosf x = some c ∧
      CloseRel s (Real.sin x.real) (2 ^ (-15 : ℤ)) ∧ CloseRel c (Real.cos x.real) (2 ^ (-15 : ℤ)) :=
  sincosf_rel_of hx h (by norm_num) (by norm_num) distCover32_7 (by decide +kernel) (by push_cast; norm_num)

theorem C69_signf (x : F32) (hx : x.isFinite = true) (h : |x.val| ≤ 8192) :
    ∃ s c, fast_sinf x = some s ∧ fast_cosf x = some c ∧
      (0 < s.real ↔ 0 < Real.sin x.real) ∧ (s.real < 0 ↔ Real.sin x.real < 0) ∧
      (0 < c.real ↔ 0 < Real.cos x.real) ∧ (c.real < 0 ↔ Real.cos x.real < 0) := by
  obtain ⟨s, c, e1, e2, h1, h2⟩ := C69_relativef x hx h
  exact ⟨s, c, e1, e2, (closeRel_sign h1 (by norm_num)).1, (closeRel_sign h1 (by norm_num)).2,
    (closeRel_sign h2 (by norm_num)).1, (closeRel_sign h2 (by norm_num)).2⟩

/-- `2^-15` is not reached below 256: the cosine of the float nearest to `161π/2`. -/
theorem C69_sharpf : ∃ x c : F32, |x.val| ≤ 256 ∧ fast_cosf x = some c ∧
    2 ^ (-15 : ℤ) * |Real.cos x.real| < |c.real - Real.cos x.real| := by
  refine ⟨ofBits 0x437ce5f1#32, ofBits 0xb18fd000#32, by decide +kernel, by decide +kernel, ?_⟩
  have := cos_far (X := (ofBits 0x437ce5f1#32 : F32).val) (C := (ofBits 0xb18fd000#32 : F32).val) (ε := 1 / 2 ^ 15) (m := 161)
    (by decide) rfl rfl (by norm_num) (by decide +kernel)
  unfold FP.real
  refine lt_of_eq_of_lt ?_ this
  push_cast
  norm_num

/-- The float nearest to `161π/2`, and a subnormal number. -/
example : (ofBits 0x437ce5f1#32 : F32).isFinite = true ∧ |(ofBits 0x437ce5f1#32 : F32).val| ≤ 4096 ∧
    fast_cosf (ofBits 0x437ce5f1#32) = some (ofBits 0xb18fd000#32 : F32) ∧
    fast_sinf (ofBits 0x00000123#32) = some (ofBits 0x00000123#32 : F32) ∧
    |(lit 100 : F32).val| ≤ 128 ∧ fast_sinf (lit 100) = some (ofBits 0xbf01a12e#32 : F32) := by decide +kernel

end Vdt
