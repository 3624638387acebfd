import Mathlib.Analysis.Real.Pi.Irrational
import Verif.Props.Directed

/-!
# C117: computing an interval by running a function twice

A caller that wants an interval runs the inline function once rounding downward and once rounding upward (`fesetround`).  C117: the
two results enclose the real value.  Violated by sine, cosine, hyperbolic tangent, arc sine, arc cosine and the angle of two arguments,
where the upward result can even be below the downward one: these functions subtract, divide or change signs inside.  What holds is the
enclosure after widening both results by the bounds below, in whatever directions the two runs are made.
-/

namespace Vdt
open FP details Flush

/-- The two results enclose the real value `t`. -/
def Encloses {f : Fmt} (lo hi : FP f) (t : ℝ) : Prop := lo.real ≤ t ∧ t ≤ hi.real

theorem Encloses.le {f : Fmt} {lo hi : FP f} {t : ℝ} (h : Encloses lo hi t) : lo.val ≤ hi.val := by
  have := h.1.trans h.2
  unfold FP.real at this
  exact_mod_cast this

/-- The full statement of C117 in double precision. -/
def C117_statement : Prop :=
  (∀ x s c s' c' : F64, x.isFinite = true → |x.val| ≤ 2 ^ 27 → Flush.fast_sincos downward x = some (s, c) → Flush.fast_sincos upward x = some (s', c') →
    Encloses s s' (Real.sin x.real) ∧ Encloses c c' (Real.cos x.real)) ∧
  (∀ x : F64, x.isFinite = true → Encloses (Flush.fast_tanh downward x) (Flush.fast_tanh upward x) (Real.tanh x.real)) ∧
  (∀ x : F64, x.isFinite = true → |x.real| ≤ 1 → Encloses (Flush.fast_asin downward x) (Flush.fast_asin upward x) (Real.arcsin x.real) ∧
    Encloses (Flush.fast_acos downward x) (Flush.fast_acos upward x) (Real.arccos x.real)) ∧
  (∀ y x : F64, y.isFinite = true → x.isFinite = true → Encloses (Flush.fast_atan2 downward y x) (Flush.fast_atan2 upward y x) (Complex.arg ⟨x.real, y.real⟩)) ∧
  (∀ x y y' : F64, x.isFinite = true → |x.val| ≤ 708 → Flush.fast_exp downward x = some y → Flush.fast_exp upward x = some y' →
    Encloses y y' (Real.exp x.real)) ∧
  (∀ x : F64, x.Normal → 0 < x.val → Encloses (Flush.fast_log downward x) (Flush.fast_log upward x) (Real.log x.real)) ∧
  (∀ x : F64, x.isFinite = true → Encloses (Flush.fast_atan downward x) (Flush.fast_atan upward x) (Real.arctan x.real)) ∧
  (∀ x y y' : F64, x.isFinite = true → |x.val| ≤ 2 ^ 27 → Flush.fast_tan downward x = some y → Flush.fast_tan upward x = some y' →
    Encloses y y' (Real.tan x.real)) ∧
  (∀ x : F64, x.Normal → 0 < x.val →
    Encloses (Flush.fast_isqrt_general downward x 4).v (Flush.fast_isqrt_general upward x 4).v (1 / Real.sqrt x.real)) ∧
  (∀ x : F64, x.Normal → (2 : ℚ) ^ b64.emin ≤ |x.val|⁻¹ →
    Encloses (Flush.fast_inv_general downward x 4).v (Flush.fast_inv_general upward x 4).v (1 / x.real))

/-- Results of rounding upward that are below the results of rounding downward. -/
theorem C117_witness :
    (∃ s c s' c', Flush.fast_sincos downward (lit 2.375) = some (s, c) ∧ Flush.fast_sincos upward (lit 2.375) = some (s', c') ∧ s'.val < s.val) ∧
    (∃ s c s' c', Flush.fast_sincos downward (lit 0.8125) = some (s, c) ∧ Flush.fast_sincos upward (lit 0.8125) = some (s', c') ∧ c'.val < c.val) ∧
    (Flush.fast_tanh upward (lit 0.0625)).val < (Flush.fast_tanh downward (lit 0.0625)).val ∧
    (Flush.fast_asin upward (lit 0.68)).val < (Flush.fast_asin downward (lit 0.68)).val ∧
    (Flush.fast_acos upward (lit 1)).val < (Flush.fast_acos downward (lit 1)).val ∧
    (Flush.fast_atan2 upward (lit 1.0625) (lit 1)).val < (Flush.fast_atan2 downward (lit 1.0625) (lit 1)).val := by
  have split : ∀ {o o' : Option (F64 × F64)} {P : F64 × F64 → F64 × F64 → Prop} [DecidableRel P],
      (match o, o' with | some p, some p' => decide (P p p') | _, _ => false) = true → ∃ s c s' c', o = some (s, c) ∧ o' = some (s', c') ∧ P (s, c) (s', c') := by
    intro o o' P _ h
    rcases o with _ | ⟨s, c⟩
    · cases h
    · rcases o' with _ | ⟨s', c'⟩
      · cases h
      · exact ⟨s, c, s', c', rfl, rfl, of_decide_eq_true h⟩
  refine ⟨split (P := fun p p' => p'.1.val < p.1.val) (by decide +kernel), split (P := fun p p' => p'.2.val < p.2.val) (by decide +kernel), ?_, ?_, ?_, ?_⟩ <;>
    decide +kernel

/-- Each part of the statement fails, for sine and cosine, the hyperbolic tangent, the arc sine, the arc cosine and the angle. -/
theorem C117_violated : ¬ C117_statement ∧
    ¬ (∀ x s c s' c' : F64, x.isFinite = true → |x.val| ≤ 2 ^ 27 → Flush.fast_sincos downward x = some (s, c) → Flush.fast_sincos upward x = some (s', c') →
      Encloses s s' (Real.sin x.real)) ∧
    ¬ (∀ x s c s' c' : F64, x.isFinite = true → |x.val| ≤ 2 ^ 27 → Flush.fast_sincos downward x = some (s, c) → Flush.fast_sincos upward x = some (s', c') →
      Encloses c c' (Real.cos x.real)) ∧
    ¬ (∀ x : F64, x.isFinite = true → Encloses (Flush.fast_tanh downward x) (Flush.fast_tanh upward x) (Real.tanh x.real)) ∧
    ¬ (∀ x : F64, x.isFinite = true → |x.real| ≤ 1 → Encloses (Flush.fast_asin downward x) (Flush.fast_asin upward x) (Real.arcsin x.real)) ∧
    ¬ (∀ x : F64, x.isFinite = true → |x.real| ≤ 1 → Encloses (Flush.fast_acos downward x) (Flush.fast_acos upward x) (Real.arccos x.real)) ∧
    ¬ (∀ y x : F64, y.isFinite = true → x.isFinite = true →
      Encloses (Flush.fast_atan2 downward y x) (Flush.fast_atan2 upward y x) (Complex.arg ⟨x.real, y.real⟩)) := by
  obtain ⟨⟨s, c, s', c', e1, e2, h1⟩, ⟨t, d, t', d', e3, e4, h2⟩, h3, h4, h5, h6⟩ := C117_witness
  have one : ∀ {x : F64}, |x.val| ≤ 1 → |x.real| ≤ 1 := fun h => by unfold FP.real; exact_mod_cast h
  have hs : ¬ _ := fun h : ∀ x s c s' c' : F64, x.isFinite = true → |x.val| ≤ 2 ^ 27 → Flush.fast_sincos downward x = some (s, c) →
      Flush.fast_sincos upward x = some (s', c') → Encloses s s' (Real.sin x.real) =>
    absurd (h _ _ _ _ _ (by decide +kernel) (by decide +kernel) e1 e2).le (not_le.2 h1)
  refine ⟨fun h => hs fun x s c s' c' a b e e' => (h.1 x s c s' c' a b e e').1, hs, fun h => ?_, fun h => ?_, fun h => ?_, fun h => ?_, fun h => ?_⟩
  · exact absurd (h _ _ _ _ _ (by decide +kernel) (by decide +kernel) e3 e4).le (not_le.2 h2)
  · exact absurd (h _ (by decide +kernel)).le (not_le.2 h3)
  · exact absurd (h _ (by decide +kernel) (one (by decide +kernel))).le (not_le.2 h4)
  · exact absurd (h _ (by decide +kernel) (one (by decide +kernel))).le (not_le.2 h5)
  · exact absurd (h _ _ (by decide +kernel) (by decide +kernel)).le (not_le.2 h6)

/-- The same in single precision. -/
theorem C117_float :
    ¬ (∀ x : F32, x.isFinite = true → Encloses (Flush.fast_tanhf downward x) (Flush.fast_tanhf upward x) (Real.tanh x.real)) ∧
    ¬ (∀ x : F32, x.isFinite = true → |x.real| ≤ 1 → Encloses (Flush.fast_asinf downward x) (Flush.fast_asinf upward x) (Real.arcsin x.real)) := by
  refine ⟨fun h => ?_, fun h => ?_⟩
  · exact absurd (h (lit 0.25) (by decide +kernel)).le (by decide +kernel)
  · refine absurd (h (lit 0.75) (by decide +kernel) ?_).le (by decide +kernel)
    have : |(lit 0.75 : F32).val| ≤ 1 := by decide +kernel
    unfold FP.real
    exact_mod_cast this

/-- Also without a crossing: the two runs agree on the arc cosine of one half, and a third of π is no rational number. -/
theorem C117_acos_half : (Flush.fast_acos downward (lit 0.5)) = Flush.fast_acos upward (lit 0.5) ∧
    ¬ Encloses (Flush.fast_acos downward (lit 0.5)) (Flush.fast_acos upward (lit 0.5)) (Real.arccos (lit 0.5 : F64).real) := by
  have e : (Flush.fast_acos downward (lit 0.5)) = Flush.fast_acos upward (lit 0.5) := by decide +kernel
  refine ⟨e, fun h => ?_⟩
  rw [e] at h
  have hx : (lit 0.5 : F64).real = 1 / 2 := by
    have : (lit 0.5 : F64).val = 1 / 2 := by decide +kernel
    unfold FP.real
    rw [this]
    norm_num
  have ha : Real.arccos (lit 0.5 : F64).real = Real.pi / 3 := by
    rw [hx, ← Real.cos_pi_div_three, Real.arccos_cos (by positivity) (by linarith [Real.pi_pos])]
  rw [ha] at h
  have hp : Real.pi = ((3 * (Flush.fast_acos upward (lit 0.5)).val : ℚ) : ℝ) := by
    have := le_antisymm h.1 h.2
    unfold FP.real at this
    push_cast
    linarith
  exact irrational_pi ⟨_, hp.symm⟩

/-- A relative bound in terms of the computed result, which is what a caller has. -/
theorem encl_rel {y y' t c d : ℝ} (h : |y - t| ≤ c * |t|) (h' : |y' - t| ≤ c * |t|) (c1 : c ≤ 1 / 8) (c0 : 0 ≤ c) (hd : c * (1 + 2 * c) ≤ d) :
    y - d * |y| ≤ t ∧ t ≤ y' + d * |y'| := by
  have key : ∀ {y : ℝ}, |y - t| ≤ c * |t| → |y - t| ≤ d * |y| := by
    intro y h
    have a := abs_sub_abs_le_abs_sub t y
    rw [abs_sub_comm] at a
    have n := abs_nonneg y
    have n' := abs_nonneg t
    have b : |t| ≤ (1 + 2 * c) * |y| := by nlinarith [mul_nonneg c0 n, mul_nonneg c0 n']
    calc |y - t| ≤ c * |t| := h
      _ ≤ c * ((1 + 2 * c) * |y|) := mul_le_mul_of_nonneg_left b c0
      _ = c * (1 + 2 * c) * |y| := by ring
      _ ≤ d * |y| := mul_le_mul_of_nonneg_right hd n
  exact ⟨by linarith [(abs_le.1 (key h)).2], by linarith [(abs_le.1 (key h')).1]⟩

theorem encl_abs {y y' t c : ℝ} (h : |y - t| ≤ c) (h' : |y' - t| ≤ c) : y - c ≤ t ∧ t ≤ y' + c :=
  ⟨by linarith [(abs_le.1 h).2], by linarith [(abs_le.1 h').1]⟩

/-- Two runs of the exponential in any directions enclose the real value after widening by `7.1*2^-53` (float: `6.1*2^-24`) of the results. -/
theorem C117_exp_partial {m m' : Mode} (hm : m.Dir) (hm' : m'.Dir) :
    (∀ x : F64, x.isFinite = true → |x.val| ≤ 708 → ∃ y y', Flush.fast_exp m x = some y ∧ Flush.fast_exp m' x = some y' ∧
      y.real - 7.1 * 2 ^ (-53 : ℤ) * |y.real| ≤ Real.exp x.real ∧ Real.exp x.real ≤ y'.real + 7.1 * 2 ^ (-53 : ℤ) * |y'.real|) ∧
    (∀ x : F32, x.isFinite = true → |x.val| ≤ 86.5 → ∃ y y', Flush.fast_expf m x = some y ∧ Flush.fast_expf m' x = some y' ∧
      y.real - 6.1 * 2 ^ (-24 : ℤ) * |y.real| ≤ Real.exp x.real ∧ Real.exp x.real ≤ y'.real + 6.1 * 2 ^ (-24 : ℤ) * |y'.real|) := by
  have key : ∀ {y y' t c d : ℝ}, 0 < t → |y - t| ≤ c * t → |y' - t| ≤ c * t → c ≤ 1 / 8 → 0 ≤ c → c * (1 + 2 * c) ≤ d →
      y - d * |y| ≤ t ∧ t ≤ y' + d * |y'| := fun {y y' t c d} ht a a' => encl_rel (by rwa [abs_of_pos ht]) (by rwa [abs_of_pos ht])
  refine ⟨fun x hx h => ?_, fun x hx h => ?_⟩
  · obtain ⟨y, e, -, a⟩ := C115_exp hm hx h
    obtain ⟨y', e', -, a'⟩ := C115_exp hm' hx h
    exact ⟨y, y', e, e', key (Real.exp_pos _) a a' (by norm_num) (by norm_num) (by norm_num)⟩
  · obtain ⟨y, e, -, a⟩ := C115_expf hm hx h
    obtain ⟨y', e', -, a'⟩ := C115_expf hm' hx h
    exact ⟨y, y', e, e', key (Real.exp_pos _) a a' (by norm_num) (by norm_num) (by norm_num)⟩

/-- The same for the logarithm: `10.1*2^-53` (float: `10.1*2^-24`) of the results. -/
theorem C117_log_partial {m m' : Mode} (hm : m.Dir) (hm' : m'.Dir) :
    (∀ x : F64, x.Normal → x.sign = false → x.val ≤ 10 ^ 307 → x.val ≠ 1 →
      (Flush.fast_log m x).real - 10.1 * 2 ^ (-53 : ℤ) * |(Flush.fast_log m x).real| ≤ Real.log x.real ∧
      Real.log x.real ≤ (Flush.fast_log m' x).real + 10.1 * 2 ^ (-53 : ℤ) * |(Flush.fast_log m' x).real|) ∧
    (∀ x : F32, x.Normal → x.sign = false → x.val ≠ 1 →
      (Flush.fast_logf m x).real - 10.1 * 2 ^ (-24 : ℤ) * |(Flush.fast_logf m x).real| ≤ Real.log x.real ∧
      Real.log x.real ≤ (Flush.fast_logf m' x).real + 10.1 * 2 ^ (-24 : ℤ) * |(Flush.fast_logf m' x).real|) :=
  ⟨fun _ a b c d => encl_rel (C115_log hm a b c d).2 (C115_log hm' a b c d).2 (by norm_num) (by norm_num) (by norm_num),
    fun _ a b c => encl_rel (C115_logf hm a b c).2 (C115_logf hm' a b c).2 (by norm_num) (by norm_num) (by norm_num)⟩

/-- Arc tangent: `6.5*2^-53` (float: `10.1*2^-24`) of the results. -/
theorem C117_atan_partial {m m' : Mode} (hm : m.Dir) (hm' : m'.Dir) :
    (∀ x : F64, x.isFinite = true → 2 ^ (-1000 : ℤ) ≤ |x.real| →
      (Flush.fast_atan m x).real - 6.5 * 2 ^ (-53 : ℤ) * |(Flush.fast_atan m x).real| ≤ Real.arctan x.real ∧
      Real.arctan x.real ≤ (Flush.fast_atan m' x).real + 6.5 * 2 ^ (-53 : ℤ) * |(Flush.fast_atan m' x).real|) ∧
    (∀ x : F32, x.isFinite = true → 2 ^ (-110 : ℤ) ≤ |x.real| →
      (Flush.fast_atanf m x).real - 10.1 * 2 ^ (-24 : ℤ) * |(Flush.fast_atanf m x).real| ≤ Real.arctan x.real ∧
      Real.arctan x.real ≤ (Flush.fast_atanf m' x).real + 10.1 * 2 ^ (-24 : ℤ) * |(Flush.fast_atanf m' x).real|) :=
  ⟨fun _ a b => encl_rel (C115_atan hm a b).2 (C115_atan hm' a b).2 (by norm_num) (by norm_num) (by norm_num),
    fun _ a b => encl_rel (C115_atanf hm a b).2 (C115_atanf hm' a b).2 (by norm_num) (by norm_num) (by norm_num)⟩

/-- Arc sine: `6.5*2^-53` (float: `16.1*2^-24`) of the results; arc cosine: `9.8*2^-53` (float: `13.2*2^-24`). -/
theorem C117_asin_partial {m m' : Mode} (hm : m.Dir) (hm' : m'.Dir) :
    (∀ x : F64, x.isFinite = true → |x.real| ≤ 1 →
      ((Flush.fast_asin m x).real - 6.5 * 2 ^ (-53 : ℤ) * |(Flush.fast_asin m x).real| ≤ Real.arcsin x.real ∧
        Real.arcsin x.real ≤ (Flush.fast_asin m' x).real + 6.5 * 2 ^ (-53 : ℤ) * |(Flush.fast_asin m' x).real|) ∧
      (Flush.fast_acos m x).real - 9.8 * 2 ^ (-53 : ℤ) ≤ Real.arccos x.real ∧ Real.arccos x.real ≤ (Flush.fast_acos m' x).real + 9.8 * 2 ^ (-53 : ℤ)) ∧
    (∀ x : F32, x.isFinite = true → |x.real| ≤ 1 →
      ((Flush.fast_asinf m x).real - 16.1 * 2 ^ (-24 : ℤ) * |(Flush.fast_asinf m x).real| ≤ Real.arcsin x.real ∧
        Real.arcsin x.real ≤ (Flush.fast_asinf m' x).real + 16.1 * 2 ^ (-24 : ℤ) * |(Flush.fast_asinf m' x).real|) ∧
      (Flush.fast_acosf m x).real - 13.2 * 2 ^ (-24 : ℤ) ≤ Real.arccos x.real ∧ Real.arccos x.real ≤ (Flush.fast_acosf m' x).real + 13.2 * 2 ^ (-24 : ℤ)) :=
  ⟨fun _ a b => ⟨encl_rel (C115_asin hm a b).1.2 (C115_asin hm' a b).1.2 (by norm_num) (by norm_num) (by norm_num),
      encl_abs (C115_asin hm a b).2.2 (C115_asin hm' a b).2.2⟩,
    fun _ a b => ⟨encl_rel (C115_asinf hm a b).1.2 (C115_asinf hm' a b).1.2 (by norm_num) (by norm_num) (by norm_num),
      encl_abs (C115_asinf hm a b).2.2 (C115_asinf hm' a b).2.2⟩⟩

/-- Hyperbolic tangent: `31.1*2^-53` (float: `26.4*2^-24`) of the results. -/
theorem C117_tanh_partial {m m' : Mode} (hm : m.Dir) (hm' : m'.Dir) :
    (∀ x : F64, x.isFinite = true → 2 ^ (-1000 : ℤ) ≤ |x.real| →
      (Flush.fast_tanh m x).real - 31.1 * 2 ^ (-53 : ℤ) * |(Flush.fast_tanh m x).real| ≤ Real.tanh x.real ∧
      Real.tanh x.real ≤ (Flush.fast_tanh m' x).real + 31.1 * 2 ^ (-53 : ℤ) * |(Flush.fast_tanh m' x).real|) ∧
    (∀ x : F32, x.isFinite = true → 2 ^ (-110 : ℤ) ≤ |x.real| →
      (Flush.fast_tanhf m x).real - 26.4 * 2 ^ (-24 : ℤ) * |(Flush.fast_tanhf m x).real| ≤ Real.tanh x.real ∧
      Real.tanh x.real ≤ (Flush.fast_tanhf m' x).real + 26.4 * 2 ^ (-24 : ℤ) * |(Flush.fast_tanhf m' x).real|) :=
  ⟨fun _ a b => encl_rel (C115_tanh hm a b).2 (C115_tanh hm' a b).2 (by norm_num) (by norm_num) (by norm_num),
    fun _ a b => encl_rel (C115_tanhf hm a b).2 (C115_tanhf hm' a b).2 (by norm_num) (by norm_num) (by norm_num)⟩

/-- Sine and cosine: `5.7*2^-53` (float: `4.1*2^-24`). -/
theorem C117_sincos_partial {m m' : Mode} (hm : m.Dir) (hm' : m'.Dir) :
    (∀ x : F64, x.isFinite = true → |x.val| ≤ 2 ^ 27 → ∃ s c s' c', Flush.fast_sincos m x = some (s, c) ∧ Flush.fast_sincos m' x = some (s', c') ∧
      (s.real - 5.7 * 2 ^ (-53 : ℤ) ≤ Real.sin x.real ∧ Real.sin x.real ≤ s'.real + 5.7 * 2 ^ (-53 : ℤ)) ∧
      c.real - 5.7 * 2 ^ (-53 : ℤ) ≤ Real.cos x.real ∧ Real.cos x.real ≤ c'.real + 5.7 * 2 ^ (-53 : ℤ)) ∧
    (∀ x : F32, x.isFinite = true → |x.val| ≤ 8192 → ∃ s c s' c', Flush.fast_sincosf m x = some (s, c) ∧ Flush.fast_sincosf m' x = some (s', c') ∧
      (s.real - 4.1 * 2 ^ (-24 : ℤ) ≤ Real.sin x.real ∧ Real.sin x.real ≤ s'.real + 4.1 * 2 ^ (-24 : ℤ)) ∧
      c.real - 4.1 * 2 ^ (-24 : ℤ) ≤ Real.cos x.real ∧ Real.cos x.real ≤ c'.real + 4.1 * 2 ^ (-24 : ℤ)) := by
  refine ⟨fun x hx h => ?_, fun x hx h => ?_⟩
  · obtain ⟨s, c, e, -, -, a, b⟩ := C115_sincos hm hx h
    obtain ⟨s', c', e', -, -, a', b'⟩ := C115_sincos hm' hx h
    exact ⟨s, c, s', c', e, e', encl_abs a a', encl_abs b b'⟩
  · obtain ⟨s, c, e, -, -, a, b⟩ := C115_sincosf hm hx h
    obtain ⟨s', c', e', -, -, a', b'⟩ := C115_sincosf hm' hx h
    exact ⟨s, c, s', c', e, e', encl_abs a a', encl_abs b b'⟩

/-- The angle of two arguments: `13.8*2^-53` (float: `15.8*2^-24`). -/
theorem C117_atan2_partial {m m' : Mode} (hm : m.Dir) (hm' : m'.Dir) :
    (∀ y x : F64, y.isFinite = true → x.isFinite = true → (x.val ≠ 0 ∨ y.val ≠ 0) → |y.val| ≤ 2 ^ (1023 : ℤ) → |x.val| ≤ 2 ^ (1023 : ℤ) →
      (Flush.fast_atan2 m y x).real - 13.8 * 2 ^ (-53 : ℤ) ≤ Complex.arg ⟨x.real, y.real⟩ ∧
      Complex.arg ⟨x.real, y.real⟩ ≤ (Flush.fast_atan2 m' y x).real + 13.8 * 2 ^ (-53 : ℤ)) ∧
    (∀ y x : F32, y.isFinite = true → x.isFinite = true → (x.val ≠ 0 ∨ y.val ≠ 0) →
      (Flush.fast_atan2f m y x).real - 15.8 * 2 ^ (-24 : ℤ) ≤ Complex.arg ⟨x.real, y.real⟩ ∧
      Complex.arg ⟨x.real, y.real⟩ ≤ (Flush.fast_atan2f m' y x).real + 15.8 * 2 ^ (-24 : ℤ)) :=
  ⟨fun y x a b c d e => encl_abs (C115_atan2 hm y x a b c d e).2.1 (C115_atan2 hm' y x a b c d e).2.1,
    fun y x a b c => encl_abs (C115_atan2f hm y x a b c).2.1 (C115_atan2f hm' y x a b c).2.1⟩

/-- Tangent: `1.01*2^-21` (float: `1.01*2^-8`) of the results, whatever the distance to the poles and the zeros. -/
theorem C117_tan_partial {m m' : Mode} (hm : m.Dir) (hm' : m'.Dir) :
    (∀ x : F64, x.isFinite = true → 1 / 2 ^ 100 ≤ |x.val| → |x.val| ≤ 2 ^ 27 → ∃ y y', Flush.fast_tan m x = some y ∧ Flush.fast_tan m' x = some y' ∧
      y.real - 1.01 * 2 ^ (-21 : ℤ) * |y.real| ≤ Real.tan x.real ∧ Real.tan x.real ≤ y'.real + 1.01 * 2 ^ (-21 : ℤ) * |y'.real|) ∧
    (∀ x : F32, x.isFinite = true → 1 / 2 ^ 100 ≤ |x.val| → |x.val| ≤ 8192 → ∃ y y', Flush.fast_tanf m x = some y ∧ Flush.fast_tanf m' x = some y' ∧
      y.real - 1.01 * 2 ^ (-8 : ℤ) * |y.real| ≤ Real.tan x.real ∧ Real.tan x.real ≤ y'.real + 1.01 * 2 ^ (-8 : ℤ) * |y'.real|) := by
  refine ⟨fun x hx h0 h => ?_, fun x hx h0 h => ?_⟩
  · obtain ⟨y, e, -, -, a, -⟩ := C115_tan hm hx h0 h
    obtain ⟨y', e', -, -, a', -⟩ := C115_tan hm' hx h0 h
    exact ⟨y, y', e, e', encl_rel a a' (by norm_num) (by norm_num) (by norm_num)⟩
  · obtain ⟨y, e, -, -, a⟩ := C115_tanf hm hx h0 h
    obtain ⟨y', e', -, -, a'⟩ := C115_tanf hm' hx h0 h
    exact ⟨y, y', e, e', encl_rel a a' (by norm_num) (by norm_num) (by norm_num)⟩

/-- Reciprocal square root: `11.1*2^-53` (float: `1.01*2^-17`) of the results; reciprocal: `25.1*2^-53` (float: `1.01*2^-16`). -/
theorem C117_newton_partial {m m' : Mode} (hm : m.Dir) (hm' : m'.Dir) :
    (∀ x : F64, x.Normal → 0 < x.val →
      (Flush.fast_isqrt_general m x 4).v.real - 11.1 * 2 ^ (-53 : ℤ) * |(Flush.fast_isqrt_general m x 4).v.real| ≤ 1 / Real.sqrt x.real ∧
      1 / Real.sqrt x.real ≤ (Flush.fast_isqrt_general m' x 4).v.real + 11.1 * 2 ^ (-53 : ℤ) * |(Flush.fast_isqrt_general m' x 4).v.real|) ∧
    (∀ x : F32, x.Normal → 0 < x.val →
      (Flush.fast_isqrtf_general m x 2).v.real - 1.01 * 2 ^ (-17 : ℤ) * |(Flush.fast_isqrtf_general m x 2).v.real| ≤ 1 / Real.sqrt x.real ∧
      1 / Real.sqrt x.real ≤ (Flush.fast_isqrtf_general m' x 2).v.real + 1.01 * 2 ^ (-17 : ℤ) * |(Flush.fast_isqrtf_general m' x 2).v.real|) ∧
    (∀ x : F64, x.Normal → (2 : ℚ) ^ b64.emin ≤ |x.val|⁻¹ →
      (Flush.fast_inv_general m x 4).v.real - 25.1 * 2 ^ (-53 : ℤ) * |(Flush.fast_inv_general m x 4).v.real| ≤ 1 / x.real ∧
      1 / x.real ≤ (Flush.fast_inv_general m' x 4).v.real + 25.1 * 2 ^ (-53 : ℤ) * |(Flush.fast_inv_general m' x 4).v.real|) ∧
    (∀ x : F32, x.Normal → (2 : ℚ) ^ b32.emin ≤ |x.val|⁻¹ →
      (Flush.fast_invf_general m x 2).v.real - 1.01 * 2 ^ (-16 : ℤ) * |(Flush.fast_invf_general m x 2).v.real| ≤ 1 / x.real ∧
      1 / x.real ≤ (Flush.fast_invf_general m' x 2).v.real + 1.01 * 2 ^ (-16 : ℤ) * |(Flush.fast_invf_general m' x 2).v.real|) :=
  ⟨fun _ a b => encl_rel (C115_isqrt hm a b).1.2 (C115_isqrt hm' a b).1.2 (by norm_num) (by norm_num) (by norm_num),
    fun _ a b => encl_rel (C115_isqrtf hm a b).1.2 (C115_isqrtf hm' a b).1.2 (by norm_num) (by norm_num) (by norm_num),
    fun _ a b => encl_rel (C115_inv hm a b).1.2 (C115_inv hm' a b).1.2 (by norm_num) (by norm_num) (by norm_num),
    fun _ a b => encl_rel (C115_invf hm a b).1.2 (C115_invf hm' a b).1.2 (by norm_num) (by norm_num) (by norm_num)⟩

example : 1 / Real.sqrt (lit 3 : F64).real ≤
    (Flush.fast_isqrt_general upward (lit 3) 4).v.real + 11.1 * 2 ^ (-53 : ℤ) * |(Flush.fast_isqrt_general upward (lit 3) 4).v.real| :=
  ((C117_newton_partial downward_dir upward_dir).1 _ (by unfold FP.Normal; decide +kernel) (by decide +kernel)).2

example : ∃ y y', Flush.fast_tan downward (lit 1.5) = some y ∧ Flush.fast_tan upward (lit 1.5) = some y' ∧
    y.real - 1.01 * 2 ^ (-21 : ℤ) * |y.real| ≤ Real.tan (lit 1.5 : F64).real ∧ Real.tan (lit 1.5 : F64).real ≤ y'.real + 1.01 * 2 ^ (-21 : ℤ) * |y'.real| :=
  (C117_tan_partial downward_dir upward_dir).1 _ (by decide +kernel) (by decide +kernel) (by decide +kernel)

example : ∃ y y', Flush.fast_exp downward (lit 1) = some y ∧ Flush.fast_exp upward (lit 1) = some y' ∧
    y.real - 7.1 * 2 ^ (-53 : ℤ) * |y.real| ≤ Real.exp (lit 1 : F64).real ∧ Real.exp (lit 1 : F64).real ≤ y'.real + 7.1 * 2 ^ (-53 : ℤ) * |y'.real| :=
  (C117_exp_partial downward_dir upward_dir).1 _ (by decide +kernel) (by decide +kernel)

example : (Flush.fast_log downward (lit 10)).real - 10.1 * 2 ^ (-53 : ℤ) * |(Flush.fast_log downward (lit 10)).real| ≤ Real.log (lit 10 : F64).real :=
  ((C117_log_partial downward_dir upward_dir).1 _ (by unfold FP.Normal; decide +kernel) (by decide +kernel) (by decide +kernel) (by decide +kernel)).1

/-- At the crossings the widened results do enclose the value. -/
example : Real.arcsin (lit 0.68 : F64).real ≤ (Flush.fast_asin upward (lit 0.68)).real + 6.5 * 2 ^ (-53 : ℤ) * |(Flush.fast_asin upward (lit 0.68)).real| ∧
    Real.arccos (lit 0.68 : F64).real ≤ (Flush.fast_acos upward (lit 0.68)).real + 9.8 * 2 ^ (-53 : ℤ) := by
  have h : |(lit 0.68 : F64).val| ≤ 1 := by decide +kernel
  have := (C117_asin_partial downward_dir upward_dir).1 (lit 0.68) (by decide +kernel) (by unfold FP.real; exact_mod_cast h)
  exact ⟨this.1.2, this.2.2⟩

example : Complex.arg ⟨(lit 1 : F64).real, (lit 1.0625 : F64).real⟩ ≤ (Flush.fast_atan2 upward (lit 1.0625) (lit 1)).real + 13.8 * 2 ^ (-53 : ℤ) :=
  ((C117_atan2_partial downward_dir upward_dir).1 _ _ (by decide +kernel) (by decide +kernel) (by decide +kernel)
    (by rw [← p2_eq]; decide +kernel) (by rw [← p2_eq]; decide +kernel)).2

example : ∃ s c s' c', Flush.fast_sincos downward (lit 2.375) = some (s, c) ∧ Flush.fast_sincos upward (lit 2.375) = some (s', c') ∧
    Real.sin (lit 2.375 : F64).real ≤ s'.real + 5.7 * 2 ^ (-53 : ℤ) := by
  obtain ⟨s, c, s', c', e, e', h, -⟩ := (C117_sincos_partial downward_dir upward_dir).1 (lit 2.375) (by decide +kernel) (by decide +kernel)
  exact ⟨s, c, s', c', e, e', h.2⟩

end Vdt
