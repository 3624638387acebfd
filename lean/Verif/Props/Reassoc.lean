import Verif.Model.Reassoc
import Verif.Props.Contract
import Verif.Props.Build

/-!
# C108: the accuracy with the options each library is compiled with

What the CMake files pass to the compiler allows products and sums to be fused and nothing more, and this keeps the accuracy.
The bootstrap script of the numpy module passes `-Ofast`.
-/

namespace Vdt.Props.Reassoc
open Vdt.Fast FP details Build
open Vdt.Txt (Text)

/-- The value of an expression for real numbers. -/
noncomputable def evalR {f : Fmt} : Ar f → ℝ → ℝ → ℝ
  | .x, u, _ => u
  | .y, _, v => v
  | .c w, _, _ => w.real
  | .add a b, u, v => evalR a u v + evalR b u v
  | .sub a b, u, v => evalR a u v - evalR b u v
  | .mul a b, u, v => evalR a u v * evalR b u v

/-- The two expressions are equal for real numbers. -/
def Same {f : Fmt} (a b : Ar f) : Prop := ∀ u v, evalR a u v = evalR b u v

/-- The expressions are those of the functions. -/
theorem source : (fun x => fast_sincosBy sinRed.evalF x) = fast_sincos ∧ (fun x => fast_sincosfBy sinfRed.evalF x) = fast_sincosf ∧
    (fun x => fast_expBy expRed.evalF x) = fast_exp ∧ (fun x => fast_expfBy expfRed.evalF x) = fast_expf := by
  refine ⟨?_, ?_, ?_, ?_⟩ <;> funext x
  · simp only [fast_sincosBy, fast_sincos, fast_sincosM, reduce2quadrant, bind_assoc, pure_bind, sinRed, Ar.evalF, reduceWith]
  · simp only [fast_sincosfBy, fast_sincosf, fast_sincosfM, reduce2quadrantf, bind_assoc, pure_bind, sinfRed, Ar.evalF, reduceWithf]
  · rfl
  · rfl

/-- The results that a compiler with these options may let the function deliver: products and sums may be fused in any way,
and if the options allow it, the expression of the argument reduction may be replaced by one that is the same for real
numbers. -/
def SinResult (flags : List Text) (x : F64) (r : F64 × F64) : Prop :=
  (∃ p, fast_sincosC p x = some r) ∨ (reassociates flags = true ∧ ∃ e, Same e sinRed ∧ fast_sincosBy e.evalF x = some r)
def SinfResult (flags : List Text) (x : F32) (r : F32 × F32) : Prop :=
  (∃ p, fast_sincosfC p x = some r) ∨ (reassociates flags = true ∧ ∃ e, Same e sinfRed ∧ fast_sincosfBy e.evalF x = some r)
def ExpResult (flags : List Text) (x y : F64) : Prop :=
  (∃ p, fast_expC p x = some y) ∨ (reassociates flags = true ∧ ∃ e, Same e expRed ∧ fast_expBy e.evalF x = some y)
def ExpfResult (flags : List Text) (x y : F32) : Prop :=
  (∃ p, fast_expfC p x = some y) ∨ (reassociates flags = true ∧ ∃ e, Same e expfRed ∧ fast_expfBy e.evalF x = some y)

/-- The accuracy of C01, C03, C08 and C10. -/
def SinOk (flags : List Text) : Prop := ∀ x : F64, x.isFinite = true → |x.val| ≤ 2 ^ 27 → ∀ r, SinResult flags x r →
  CloseAbs r.1 (Real.sin x.real) (2 ^ (-51 : ℤ)) ∧ CloseAbs r.2 (Real.cos x.real) (2 ^ (-51 : ℤ))
def SinfOk (flags : List Text) : Prop := ∀ x : F32, x.isFinite = true → |x.val| ≤ 8192 → ∀ r, SinfResult flags x r →
  CloseAbs r.1 (Real.sin x.real) (2 ^ (-22 : ℤ)) ∧ CloseAbs r.2 (Real.cos x.real) (2 ^ (-22 : ℤ))
def ExpOk (flags : List Text) : Prop := ∀ x : F64, x.isFinite = true → |x.val| ≤ 708 → ∀ y, ExpResult flags x y →
  CloseRel y (Real.exp x.real) (2 ^ (-51 : ℤ))
def ExpfOk (flags : List Text) : Prop := ∀ x : F32, x.isFinite = true → -87.25 ≤ x.val → x.val ≤ 88.35 → ∀ y, ExpfResult flags x y →
  CloseRel y (Real.exp x.real) (2 ^ (-22 : ℤ))

/-- Statement of **C108**: with the flags of every configuration without `USERFLAGS`, and with those of the bootstrap script, the
functions keep their accuracy. -/
def C108_statement : Prop :=
  (∀ (ex : String → Bool) (e : Env) (t : State), Untouched e → configure.run ex ⟨e, []⟩ = some t →
    wants e "USERFLAGS" "OFF" = false → SinOk (words (libFlags t.env).toList) ∧ SinfOk (words (libFlags t.env).toList) ∧
      ExpOk (words (libFlags t.env).toList) ∧ ExpfOk (words (libFlags t.env).toList)) ∧
  SinOk (words bootstrapLine) ∧ SinfOk (words bootstrapLine) ∧ ExpOk (words bootstrapLine) ∧ ExpfOk (words bootstrapLine)

/-- Without the options that allow replacements the accuracy is kept. -/
theorem ok_of_strict {flags : List Text} (h : reassociates flags = false) :
    SinOk flags ∧ SinfOk flags ∧ ExpOk flags ∧ ExpfOk flags := by
  refine ⟨?_, ?_, ?_, ?_⟩
  · rintro x hx hb r (⟨p, hp⟩ | ⟨hr, -⟩)
    · obtain ⟨s, c, e, h1, h2, -⟩ := C76_sincos p x hx hb
      rw [e] at hp; cases hp; exact ⟨h1, h2⟩
    · rw [h] at hr; cases hr
  · rintro x hx hb r (⟨p, hp⟩ | ⟨hr, -⟩)
    · obtain ⟨s, c, e, h1, h2, -⟩ := C76_sincosf p x hx hb
      rw [e] at hp; cases hp; exact ⟨h1, h2⟩
    · rw [h] at hr; cases hr
  · rintro x hx hb r (⟨p, hp⟩ | ⟨hr, -⟩)
    · obtain ⟨y, e, -, h1⟩ := C75_exp p x hx hb
      rw [e] at hp; cases hp; exact h1
    · rw [h] at hr; cases hr
  · rintro x hx h1 h2 r (⟨p, hp⟩ | ⟨hr, -⟩)
    · obtain ⟨y, e, -, h3⟩ := C75_expf p x hx h1 h2
      rw [e] at hp; cases hp; exact h3
    · rw [h] at hr; cases hr

/-- **C108** (partial: the CMake configurations only; missing: the bootstrap script, see `C108_violated`). -/
theorem C108_cmake_partial (ex : String → Bool) (e : Env) (t : State) (h : Untouched e) (hr : configure.run ex ⟨e, []⟩ = some t)
    (hu : wants e "USERFLAGS" "OFF" = false) :
    SinOk (words (libFlags t.env).toList) ∧ SinfOk (words (libFlags t.env).toList) ∧
      ExpOk (words (libFlags t.env).toList) ∧ ExpfOk (words (libFlags t.env).toList) := by
  refine ok_of_strict ?_
  have h1 := (C99_meaning ex e t h hr hu).2.1
  rw [reassociates, Bool.eq_false_iff]
  intro hc
  obtain ⟨w, hw, hm⟩ := List.any_eq_true.1 hc
  obtain ⟨g1, g2⟩ := h1 w hw
  have hm := of_decide_eq_true hm
  simp only [List.map_cons, List.map_nil, List.mem_cons, List.not_mem_nil, or_false] at hm
  rcases hm with rfl | rfl | rfl | rfl
  · exact g2 rfl
  all_goals exact g1 (by decide)

/-! ## The common factor taken out -/

def sinRed' : Ar b64 := .sub .x (.mul .y (.add (.add (.c DP1) (.c DP2)) (.c DP3)))
def sinfRed' : Ar b32 := .sub .x (.mul .y (.add (.add (.c DP1F) (.c DP2F)) (.c DP3F)))
def expRed' : Ar b64 := .sub .x (.mul .y (.add (.c (lit 6.93145751953125E-1)) (.c (lit 1.42860682030941723212E-6))))
def expfRed' : Ar b32 := .sub .x (.mul .y (.add (.c C1F) (.c C2F)))

/-- `x - y a - y b - y c` and `x - y (a + b + c)` are the same for real numbers. -/
theorem same : Same sinRed' sinRed ∧ Same sinfRed' sinfRed ∧ Same expRed' expRed ∧ Same expfRed' expfRed := by
  refine ⟨?_, ?_, ?_, ?_⟩ <;> intro u v
  · simp only [sinRed', sinRed, evalR]; ring
  · simp only [sinfRed', sinfRed, evalR]; ring
  · simp only [expRed', expRed, evalR]; ring
  · simp only [expfRed', expfRed, evalR]; ring

theorem bootstrap_flags : reassociates (words bootstrapLine) = true := by decide

/-- If a result is far from an accurate one, it is not accurate. -/
theorem far_abs {f : Fmt} {a b : FP f} {r : ℝ} {ε δ : ℚ} (h : |a.val - b.val| > δ + ε) (hb : |b.real - r| ≤ ((ε : ℚ) : ℝ)) :
    ((δ : ℚ) : ℝ) < |a.real - r| := by
  have h1 : ((δ + ε : ℚ) : ℝ) < |a.real - b.real| := by
    have := (Rat.cast_lt (K := ℝ)).2 h
    rw [Rat.cast_abs, Rat.cast_sub] at this
    exact this
  have h2 : |a.real - b.real| ≤ |a.real - r| + |b.real - r| := by
    have := abs_sub_le a.real r b.real
    rw [abs_sub_comm r] at this
    exact this
  push_cast at h1
  linarith

theorem far_rel {f : Fmt} {a b : FP f} {r : ℝ} {ε δ : ℚ} (hr : 0 < r) (he : ε < 1) (hd : 0 ≤ δ) (he0 : 0 ≤ ε)
    (h : |a.val - b.val| * (1 - ε) > (δ + ε) * b.val) (hb : |b.real - r| ≤ ((ε : ℚ) : ℝ) * |r|) :
    ((δ : ℚ) : ℝ) * |r| < |a.real - r| := by
  have h1 : ((δ : ℝ) + ε) * b.real < |a.real - b.real| * (1 - ε) := by
    have := (Rat.cast_lt (K := ℝ)).2 h
    push_cast at this
    exact this
  have h2 : |a.real - b.real| ≤ |a.real - r| + |b.real - r| := by
    have := abs_sub_le a.real r b.real
    rw [abs_sub_comm r] at this
    exact this
  rw [abs_of_pos hr] at hb ⊢
  have e1 : (ε : ℝ) < 1 := by exact_mod_cast he
  have e0 : (0 : ℝ) ≤ ε := by exact_mod_cast he0
  have d0 : (0 : ℝ) ≤ δ := by exact_mod_cast hd
  have h3 : r * (1 - ε) ≤ b.real := by linarith [(abs_le.1 hb).1]
  have h4 : ((δ : ℝ) + ε) * (r * (1 - ε)) < |a.real - b.real| * (1 - ε) :=
    lt_of_le_of_lt (mul_le_mul_of_nonneg_left h3 (by linarith)) h1
  have h5 : ((δ : ℝ) + ε) * r < |a.real - b.real| := by
    have : (((δ : ℝ) + ε) * r) * (1 - ε) < |a.real - b.real| * (1 - ε) := by linarith [h4, mul_assoc ((δ : ℝ) + ε) r (1 - ε)]
    exact lt_of_mul_lt_mul_right this (by linarith)
  linarith

/-- Taking out the common factor, which `-Ofast` allows, the sine of 134217000 loses 24 of the 52 digits, the cosine of the
float 8000 loses ten, and the exponentials lose six and three. -/
theorem C108_loss :
    (∃ r, SinResult (words bootstrapLine) (lit 134217000) r ∧ 2 ^ (-27 : ℤ) < |r.1.real - Real.sin (lit 134217000 : F64).real|) ∧
    (∃ r, SinfResult (words bootstrapLine) (lit 8000) r ∧ 2 ^ (-13 : ℤ) < |r.2.real - Real.cos (lit 8000 : F32).real|) ∧
    (∃ y, ExpResult (words bootstrapLine) (lit 707) y ∧
      2 ^ (-45 : ℤ) * |Real.exp (lit 707 : F64).real| < |y.real - Real.exp (lit 707 : F64).real|) ∧
    (∃ y, ExpfResult (words bootstrapLine) (lit 87) y ∧
      2 ^ (-19 : ℤ) * |Real.exp (lit 87 : F32).real| < |y.real - Real.exp (lit 87 : F32).real|) := by
  refine ⟨?_, ?_, ?_, ?_⟩
  · obtain ⟨s, c, e, h1, -⟩ := C76_sincos (fun _ => false) (lit 134217000) (by decide +kernel) (by decide +kernel)
    rw [fast_sincos_plain] at e
    have hb : ((fast_sincosBy sinRed'.evalF (lit 134217000)).bind fun a => (fast_sincos (lit 134217000)).map fun b =>
        decide (|a.1.val - b.1.val| > 2 ^ (-27 : ℤ) + 2 ^ (-51 : ℤ))) = some true := by decide +kernel
    rw [e] at hb
    obtain ⟨r, h2, h3⟩ := Option.bind_eq_some_iff.1 hb
    refine ⟨r, Or.inr ⟨bootstrap_flags, _, same.1, h2⟩, ?_⟩
    have := far_abs (of_decide_eq_true (Option.some.inj h3)) (by push_cast; exact h1.2)
    push_cast at this
    exact this
  · obtain ⟨s, c, e, -, h1, -⟩ := C76_sincosf (fun _ => false) (lit 8000) (by decide +kernel) (by decide +kernel)
    rw [fast_sincosf_plain] at e
    have hb : ((fast_sincosfBy sinfRed'.evalF (lit 8000)).bind fun a => (fast_sincosf (lit 8000)).map fun b =>
        decide (|a.2.val - b.2.val| > 2 ^ (-13 : ℤ) + 2 ^ (-22 : ℤ))) = some true := by decide +kernel
    rw [e] at hb
    obtain ⟨r, h2, h3⟩ := Option.bind_eq_some_iff.1 hb
    refine ⟨r, Or.inr ⟨bootstrap_flags, _, same.2.1, h2⟩, ?_⟩
    have := far_abs (of_decide_eq_true (Option.some.inj h3)) (by push_cast; exact h1.2)
    push_cast at this
    exact this
  · obtain ⟨b, e, -, h1⟩ := C75_exp (fun _ => false) (lit 707) (by decide +kernel) (by decide +kernel)
    rw [fast_exp_plain] at e
    have hb : ((fast_expBy expRed'.evalF (lit 707)).bind fun a => (fast_exp (lit 707)).map fun b =>
        decide (|a.val - b.val| * (1 - 2 ^ (-51 : ℤ)) > (2 ^ (-45 : ℤ) + 2 ^ (-51 : ℤ)) * b.val)) = some true := by decide +kernel
    rw [e] at hb
    obtain ⟨r, h2, h3⟩ := Option.bind_eq_some_iff.1 hb
    refine ⟨r, Or.inr ⟨bootstrap_flags, _, same.2.2.1, h2⟩, ?_⟩
    have := far_rel (Real.exp_pos _) (by norm_num) (by norm_num) (by norm_num) (of_decide_eq_true (Option.some.inj h3))
      (by push_cast; exact h1.2)
    push_cast at this
    exact this
  · obtain ⟨b, e, -, h1⟩ := C75_expf (fun _ => false) (lit 87) (by decide +kernel) (by decide +kernel) (by decide +kernel)
    rw [fast_expf_plain] at e
    have hb : ((fast_expfBy expfRed'.evalF (lit 87)).bind fun a => (fast_expf (lit 87)).map fun b =>
        decide (|a.val - b.val| * (1 - 2 ^ (-22 : ℤ)) > (2 ^ (-19 : ℤ) + 2 ^ (-22 : ℤ)) * b.val)) = some true := by decide +kernel
    rw [e] at hb
    obtain ⟨r, h2, h3⟩ := Option.bind_eq_some_iff.1 hb
    refine ⟨r, Or.inr ⟨bootstrap_flags, _, same.2.2.2, h2⟩, ?_⟩
    have := far_rel (Real.exp_pos _) (by norm_num) (by norm_num) (by norm_num) (of_decide_eq_true (Option.some.inj h3))
      (by push_cast; exact h1.2)
    push_cast at this
    exact this

/-- **C108** is violated: none of the four functions keeps its accuracy with the options of the bootstrap script. -/
theorem C108_violated : ¬ C108_statement ∧ ¬ SinOk (words bootstrapLine) ∧ ¬ SinfOk (words bootstrapLine) ∧
    ¬ ExpOk (words bootstrapLine) ∧ ¬ ExpfOk (words bootstrapLine) := by
  obtain ⟨⟨r1, a1, b1⟩, ⟨r2, a2, b2⟩, ⟨r3, a3, b3⟩, ⟨r4, a4, b4⟩⟩ := C108_loss
  have h1 : ¬ SinOk (words bootstrapLine) := by
    intro h
    have := (h _ (by decide +kernel) (by decide +kernel) r1 a1).1.2
    have : (2 : ℝ) ^ (-51 : ℤ) ≤ 2 ^ (-27 : ℤ) := by norm_num
    linarith
  refine ⟨fun h => h1 h.2.1, h1, ?_, ?_, ?_⟩
  · intro h
    have := (h _ (by decide +kernel) (by decide +kernel) r2 a2).2.2
    have : (2 : ℝ) ^ (-22 : ℤ) ≤ 2 ^ (-13 : ℤ) := by norm_num
    linarith
  · intro h
    have := (h _ (by decide +kernel) (by decide +kernel) r3 a3).2
    have h2 : (2 : ℝ) ^ (-51 : ℤ) * |Real.exp (lit 707 : F64).real| ≤ 2 ^ (-45 : ℤ) * |Real.exp (lit 707 : F64).real| :=
      mul_le_mul_of_nonneg_right (by norm_num) (abs_nonneg _)
    linarith
  · intro h
    have := (h _ (by decide +kernel) (by decide +kernel) (by decide +kernel) r4 a4).2
    have h2 : (2 : ℝ) ^ (-22 : ℤ) * |Real.exp (lit 87 : F32).real| ≤ 2 ^ (-19 : ℤ) * |Real.exp (lit 87 : F32).real| :=
      mul_le_mul_of_nonneg_right (by norm_num) (abs_nonneg _)
    linarith

/-- The sine next to pi: as written nearly exact, with the common factor taken out zero. -/
example : (fast_sincos (lit 3.141592653589793)).map (fun r => r.1.toBits) = some 0x3ca1a62633145c07#64 ∧
    (fast_sincosBy sinRed'.evalF (lit 3.141592653589793)).map (fun r => r.1.val) = some 0 := by decide +kernel

/-- The words of the flags of the bootstrap script, and a configuration to which the partial theorem applies. -/
example : (words bootstrapLine).take 3 = ["c++", "-Ofast", "-shared"].map String.toList := by decide
example : Untouched (fun _ => none) ∧ (configure.run (fun _ => false) ⟨fun _ => none, []⟩).isSome = true ∧
    wants (fun _ => none) "USERFLAGS" "OFF" = false := by
  refine ⟨fun _ _ => rfl, by decide +kernel, by decide⟩

end Vdt.Props.Reassoc
