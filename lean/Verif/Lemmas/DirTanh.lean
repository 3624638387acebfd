import Verif.Lemmas.DirTrig
import Verif.Props.Tanh

/-! # The hyperbolic tangent in every rounding direction -/

namespace Vdt.Flush
open FP details Ab
variable {f : Fmt} {m : Mode}

/-! ## Bounds by representable numbers -/

theorem Faithful.ge_rep [f.Ok] {w : FP f} {q r : ℚ} (h : Faithful w q) (hr : Rep f r) (hb : |r| ≤ f.big) (hle : r ≤ q) : r ≤ w.val := by
  by_contra c
  push Not at c
  have z : (ofRat f false r).real = r := by unfold FP.real; rw [val_ofRat, rnd_exact f hr hb]
  have c' : w.real < r := by unfold FP.real; exact_mod_cast c
  have := (h.2 (ofRat f false r) (finite_ofRat _ hb)).1 (by rw [z]; exact c'.le) (by rw [z]; exact_mod_cast hle)
  rw [z] at this
  exact absurd this.symm c'.ne

theorem Faithful.le_rep [f.Ok] {w : FP f} {q r : ℚ} (h : Faithful w q) (hr : Rep f r) (hb : |r| ≤ f.big) (hle : q ≤ r) : w.val ≤ r := by
  by_contra c
  push Not at c
  have z : (ofRat f false r).real = r := by unfold FP.real; rw [val_ofRat, rnd_exact f hr hb]
  have c' : r < w.real := by unfold FP.real; exact_mod_cast c
  have := (h.2 (ofRat f false r) (finite_ofRat _ hb)).2 (by rw [z]; exact_mod_cast hle) (by rw [z]; exact c'.le)
  rw [z] at this
  exact absurd this c'.ne

theorem rep_zero : Rep f 0 := ⟨0, f.emin - f.mb, by simp, by simp, le_rfl⟩

theorem rep_neg' {q : ℚ} (h : Rep f q) : Rep f (-q) := by
  obtain ⟨n, k, e, hn, hk⟩ := h
  exact ⟨-n, k, by rw [e]; push_cast; ring, by rw [abs_neg]; exact hn, hk⟩

/-! ## One doubling -/

theorem dblD_range [f.Ok] (hm : m.Dir) (ok : DblOk f) {t : Z m f} (ht : t.v.isFinite = true) (h : |t.v.val| ≤ 1) :
    (tanhDouble t).v.isFinite = true ∧ |(tanhDouble t).v.val| ≤ 1 ∧
      (0 ≤ t.v.val → 0 ≤ (tanhDouble t).v.val) ∧ (t.v.val ≤ 0 → (tanhDouble t).v.val ≤ 0) ∧
      ∃ s d : ℚ, 0 ≤ s ∧ 0 < d ∧ |s - |t.v.val| ^ 2| ≤ 2 * f.u * |t.v.val| ^ 2 + 2 * f.eta ∧ |d - (s + 1)| ≤ 2 * f.u * (s + 1) + 2 * f.eta ∧
        |(tanhDouble t).v.val - 2 * t.v.val / d| ≤ 2 * f.u * |2 * t.v.val / d| + 2 * f.eta := by
  have big := ok.big
  have r1 : Rep f 1 := by have := val_rep (ofInt 1 : FP f); rwa [ok.one.2] at this
  have r2 : Rep f 2 := by have := val_rep (ofInt 2 : FP f); rwa [ok.two.2.1] at this
  have hb1 : |(1 : ℚ)| ≤ f.big := by rw [abs_one]; linarith
  have hb0 : |(0 : ℚ)| ≤ f.big := by rw [abs_zero]; linarith
  set T := t.v.val with hT
  have T0 : 0 ≤ |T| := abs_nonneg T
  -- twice the argument
  have h2t : |(of (ofInt 2) : Z m f).v.val * T| ≤ f.big := by
    show |(ofInt 2 : FP f).val * T| ≤ _
    rw [ok.two.2.1, abs_mul, abs_of_pos (by norm_num : (0 : ℚ) < 2)]; linarith
  have p := mul_dir hm (a := of (ofInt 2)) (b := t) ok.two.1 ht h2t
  have e2 : (of (ofInt 2) : Z m f).v.val * t.v.val = 2 * T := by show (ofInt 2 : FP f).val * T = _; rw [ok.two.2.1]
  rw [e2] at p
  have pv := p.exactQ (rep_two_mul (val_rep t.v)) (by rw [abs_mul, abs_of_pos (by norm_num : (0 : ℚ) < 2)]; linarith)
  -- the square
  have sq1 : t.v.val * t.v.val = |T| ^ 2 := by rw [sq_abs, sq]
  have sqn : 0 ≤ |T| ^ 2 := by positivity
  have sql : |T| ^ 2 ≤ 1 := by nlinarith
  have q := mul_dir hm (a := t) (b := t) ht ht (by rw [sq1, abs_of_nonneg sqn]; linarith)
  rw [sq1] at q
  have qe := q.err_add (by rw [abs_of_nonneg sqn]; linarith)
  have q0 := q.ge_rep rep_zero hb0 sqn
  have q1 := q.le_rep r1 hb1 sql
  have q2 : 2 * |T| - 1 ≤ (t * t).v.val := by
    rcases le_or_gt (1 / 2) |T| with hh | hh
    · have ha : (FP.abs t.v).val = |T| := val_abs t.v
      have hrep := rep_two_mul_sub ok (x := FP.abs t.v) (by rw [ha]; exact hh) (by rw [ha]; exact h)
      rw [ha] at hrep
      exact q.ge_rep hrep (by rw [abs_le]; constructor <;> linarith) (by nlinarith [sq_nonneg (|T| - 1)])
    · linarith
  generalize hS : (t * t).v.val = S at *
  -- the denominator
  have e1 : (t * t).v.val + (of (ofInt 1) : Z m f).v.val = S + 1 := by rw [hS]; show S + (ofInt 1 : FP f).val = _; rw [ok.one.2]
  have d := add_dir hm (a := t * t) (b := of (ofInt 1)) q.1 ok.one.1 (by rw [e1, abs_of_nonneg (by linarith)]; linarith)
  rw [e1] at d
  have de := d.err_add (by rw [abs_of_nonneg (by linarith)]; linarith)
  have d1 := d.ge_rep r1 hb1 (by linarith)
  have d2 := d.ge_rep (r := 2 * |T|) (by rw [← val_abs t.v]; exact rep_two_mul (val_rep _)) (by rw [abs_of_nonneg (by linarith)]; linarith) (by linarith)
  generalize hD : (t * t + of (ofInt 1) : Z m f).v.val = D at *
  have D0 : 0 < D := by linarith
  have qq : |2 * T / D| ≤ 1 := by
    rw [abs_div, abs_of_pos D0, div_le_one D0, abs_mul, abs_of_pos (by norm_num : (0 : ℚ) < 2)]; exact d2
  -- the quotient
  have e3 : (of (ofInt 2) * t : Z m f).v.val / (t * t + of (ofInt 1) : Z m f).v.val = 2 * T / D := by rw [pv, hD]
  have r := div_dir hm (a := of (ofInt 2) * t) (b := t * t + of (ofInt 1)) p.1 d.1 (by rw [hD]; exact D0.ne') (by rw [e3]; linarith)
  rw [e3] at r
  change Faithful (tanhDouble t).v _ at r
  have re := r.err_add (qq.trans (by linarith))
  rw [abs_le] at qq
  refine ⟨r.1, abs_le.2 ⟨r.ge_rep (rep_neg' r1) (by rw [abs_neg]; exact hb1) qq.1, r.le_rep r1 hb1 qq.2⟩, fun h0 => ?_, fun h0 => ?_,
    S, D, q0, D0, ?_, ?_, re⟩
  · exact r.ge_rep rep_zero hb0 (div_nonneg (by linarith) D0.le)
  · exact r.le_rep rep_zero hb0 (div_nonpos_of_nonpos_of_nonneg (by linarith) D0.le)
  · rwa [abs_of_nonneg sqn] at qe
  · rwa [abs_of_nonneg (by linarith : (0 : ℚ) ≤ S + 1)] at de

/-- Size of the rounding unit for directed rounding. -/
structure SmallUD (f : Fmt) : Prop where
  u : 2 * f.u ≤ 1 / 1000
  eta : 2 * f.eta ≤ 2 * f.u / 1000

theorem smallUD64 : SmallUD b64 := ⟨by decide +kernel, by decide +kernel⟩
theorem smallUD32 : SmallUD b32 := ⟨by decide +kernel, by decide +kernel⟩

theorem dblD_err [f.Ok] (hm : m.Dir) (ok : DblOk f) (su : SmallUD f) {t : Z m f} {τ e h : ℝ} (ht : t.v.isFinite = true) (h1 : |t.v.val| ≤ 1)
    (hτ : 0 ≤ τ) (hτ1 : τ ≤ 1) (hh : 0 ≤ h) (he1 : e ≤ 1 / 100) (b : |(|t.v.real|) - τ| ≤ e * τ + h) :
    |(|(tanhDouble t).v.real|) - 2 * τ / (τ ^ 2 + 1)| ≤ (e + 5.12 * (f.u : ℝ)) * (2 * τ / (τ ^ 2 + 1)) + (2.01 * h + 2 * (f.eta : ℝ)) := by
  obtain ⟨-, -, -, -, s, d, s0, d0, es, ed, er⟩ := dblD_range hm ok ht h1
  have hu : (0 : ℝ) < f.u := by exact_mod_cast f.u_pos
  have heta : (0 : ℝ) < f.eta := by exact_mod_cast f.eta_pos
  have su1 : 2 * (f.u : ℝ) ≤ 1 / 1000 := by
    have := (Rat.cast_le (K := ℝ)).2 su.u
    push_cast at this; exact this
  have su2 : 2 * (f.eta : ℝ) ≤ 2 * f.u / 1000 := by
    have := (Rat.cast_le (K := ℝ)).2 su.eta
    push_cast at this; exact this
  have tr1 : |t.v.real| ≤ 1 := by unfold FP.real; exact_mod_cast h1
  have d0r : (0 : ℝ) < (d : ℝ) := by exact_mod_cast d0
  have esr := (Rat.cast_le (K := ℝ)).2 es
  have edr := (Rat.cast_le (K := ℝ)).2 ed
  have err := (Rat.cast_le (K := ℝ)).2 er
  push_cast at esr edr err
  change |(s : ℝ) - |t.v.real| ^ 2| ≤ 2 * f.u * |t.v.real| ^ 2 + 2 * f.eta at esr
  change |(tanhDouble t).v.real - 2 * t.v.real / d| ≤ 2 * f.u * |2 * t.v.real / d| + 2 * f.eta at err
  have eq : |2 * t.v.real / (d : ℝ)| = 2 * |t.v.real| / d := by
    rw [abs_div, abs_of_pos d0r, abs_mul, abs_of_pos (by norm_num : (0 : ℝ) < 2)]
  have key := dbl_round (U := 2 * f.u) (η := 2 * f.eta) (t := |t.v.real|) (s := s) (d := d) (q := 2 * |t.v.real| / d)
    (r := |(tanhDouble t).v.real|) (by linarith) su1 (by linarith) su2 (abs_nonneg _) tr1 esr (by exact_mod_cast s0) edr rfl d0r
    (by rw [← eq]; exact (abs_abs_sub_abs_le_abs_sub _ _).trans err)
  have pert := dbl_real (abs_nonneg _) tr1 hτ hτ1 hh b
  have g0 : 0 ≤ 2 * τ / (τ ^ 2 + 1) := by positivity
  generalize 2 * τ / (τ ^ 2 + 1) = G at *
  generalize 2 * |t.v.real| / (|t.v.real| ^ 2 + 1) = g at *
  have b1 := (abs_sub_le (|(tanhDouble t).v.real|) g G).trans (add_le_add key pert)
  have b2 : g ≤ G + (e * G + 2 * h) := by
    rw [abs_le] at pert; linarith [pert.2]
  have b3 : (f.u : ℝ) * g ≤ f.u * (G + (e * G + 2 * h)) := mul_le_mul_of_nonneg_left b2 hu.le
  have b4 : (f.u : ℝ) * (e * G) ≤ f.u * (1 / 100 * G) := mul_le_mul_of_nonneg_left (mul_le_mul_of_nonneg_right he1 g0) hu.le
  have b5 : 2 * (f.u : ℝ) * h ≤ 1 / 1000 * h := mul_le_mul_of_nonneg_right su1 hh
  have b6 : 0 ≤ (f.u : ℝ) * G := mul_nonneg hu.le g0
  nlinarith

/-- Three doublings. -/
theorem dblD_three [f.Ok] (hm : m.Dir) (ok : DblOk f) (su : SmallUD f) {t : Z m f} {a e h : ℝ} (ht : t.v.isFinite = true) (h1 : |t.v.val| ≤ 1)
    (ha : 0 ≤ a) (hh : 0 ≤ h) (he1 : e + 12 * (f.u : ℝ) ≤ 1 / 100) (b : |(|t.v.real|) - Real.tanh a| ≤ e * Real.tanh a + h) :
    let r := tanhDouble (tanhDouble (tanhDouble t))
    r.v.isFinite = true ∧ |r.v.val| ≤ 1 ∧ (0 ≤ t.v.val → 0 ≤ r.v.val) ∧ (t.v.val ≤ 0 → r.v.val ≤ 0) ∧
      |(|r.v.real|) - Real.tanh (8 * a)| ≤ (e + 15.36 * (f.u : ℝ)) * Real.tanh (8 * a) + (8.13 * h + 14.2 * (f.eta : ℝ)) := by
  have hu : (0 : ℝ) < f.u := by exact_mod_cast f.u_pos
  have heta : (0 : ℝ) < f.eta := by exact_mod_cast f.eta_pos
  obtain ⟨f1, m1, s1, n1, -⟩ := dblD_range hm ok ht h1
  obtain ⟨f2, m2, s2, n2, -⟩ := dblD_range hm ok f1 m1
  obtain ⟨f3, m3, s3, n3, -⟩ := dblD_range hm ok f2 m2
  have x1 := dblD_err hm ok su ht h1 (tanh_nonneg ha) (Real.tanh_lt_one a).le hh (by linarith) b
  rw [← tanh_double] at x1
  have x2 := dblD_err hm ok su f1 m1 (tanh_nonneg (by linarith)) (Real.tanh_lt_one _).le (by positivity) (by linarith) x1
  rw [← tanh_double] at x2
  have x3 := dblD_err hm ok su f2 m2 (tanh_nonneg (by linarith)) (Real.tanh_lt_one _).le (by positivity) (by linarith) x2
  rw [← tanh_double] at x3
  have e8 : 2 * (2 * (2 * a)) = 8 * a := by ring
  rw [e8] at x3
  refine ⟨f3, m3, fun h => s3 (s2 (s1 h)), fun h => n3 (n2 (n1 h)), x3.trans ?_⟩
  have t0 := tanh_nonneg (show 0 ≤ 8 * a by linarith)
  refine add_le_add (mul_le_mul_of_nonneg_right (by linarith) t0) ?_
  linarith

/-! ## The approximants -/

/-- The error relative to the exact value, which is proportional to the input, is at most `C` apart from underflow. -/
def okRel1D (f : Fmt) (e : E f) (C H : ℚ) (a b : ℚ) : Bool :=
  match anD1 f e a b with
  | some r => r.k == 1 && decide (0 ≤ r.lo) && decide (r.err ≤ C * r.lo) && decide (r.h ≤ H)
  | none => false

theorem okRel1D_sound [f.Ok] [EtaOk f] (hm : m.Dir) {e : E f} {a b C H : ℚ} (hC : 0 ≤ C) (h : okRel1D f e C H a b = true) {x : FP f}
    (hx : x.isFinite = true) (h1 : (a : ℝ) ≤ x.real) (h2 : x.real ≤ b) :
    (evalZ m (fun _ => x) e).v.isFinite = true ∧
      |(evalZ m (fun _ => x) e).v.real - e.evalR fun _ => x.real| ≤ C * |e.evalR fun _ => x.real| + H * f.eta := by
  unfold okRel1D at h
  split at h
  · rename_i r hr
    simp only [Bool.and_eq_true, beq_iff_eq, decide_eq_true_eq] at h
    obtain ⟨⟨⟨hk, hlo⟩, herr⟩, hh⟩ := h
    have s := anD1_sound hm hr hx h1 h2
    refine ⟨s.fin, s.bound.trans ?_⟩
    obtain ⟨v, hv, hl, _⟩ := s.ex
    rw [hk, pow_one] at hv ⊢
    have h3 : (r.err : ℝ) ≤ C * r.lo := by exact_mod_cast herr
    have h4 : (r.h : ℝ) ≤ H := by exact_mod_cast hh
    have h5 : (0 : ℝ) ≤ r.lo := by exact_mod_cast hlo
    have hC' : (0 : ℝ) ≤ C := by exact_mod_cast hC
    refine add_le_add ?_ (mul_le_mul_of_nonneg_right h4 (etaR_pos f).le)
    rw [hv, abs_mul, abs_of_nonneg (h5.trans hl)]
    calc (r.err : ℝ) * |x.real| ≤ C * r.lo * |x.real| := mul_le_mul_of_nonneg_right h3 (abs_nonneg _)
      _ ≤ C * v * |x.real| := mul_le_mul_of_nonneg_right (mul_le_mul_of_nonneg_left hl hC') (abs_nonneg _)
      _ = C * (|x.real| * v) := by ring
  · cases h

/-- An eighth of an argument that is not tiny, exactly. -/
theorem eighth_dir [f.Ok] (hm : m.Dir) {x c : FP f} (hx : x.isFinite = true) (hc : c.isFinite = true) (hv : c.val = 1 / 8)
    (h0 : p2 (f.emin + 3) ≤ |x.val|) (hb : |x.val| ≤ f.big) :
    (of x * of c : Z m f).v.isFinite = true ∧ (of x * of c : Z m f).v.val = x.val / 8 := by
  have e : (of x : Z m f).v.val * (of c : Z m f).v.val = x.val / 8 := by
    show x.val * c.val = _
    rw [hv]; ring
  have b8 : |x.val / 8| ≤ f.big := by
    rw [abs_div, abs_of_pos (by norm_num : (0 : ℚ) < 8)]
    have := abs_nonneg x.val
    linarith
  have t := mul_dir hm (a := of x) (b := of c) hx hc (by rw [e]; exact b8)
  rw [e] at t
  refine ⟨t.1, t.exactQ ?_ b8⟩
  obtain ⟨n, k, hk1, hk2, hk3⟩ := rep_of_ge h0
  refine ⟨n, k - 3, ?_, hk2, by omega⟩
  have h8 : p2 k = p2 (k - 3) * 8 := by
    have h8 : (8 : ℚ) = p2 3 := by rw [p2_eq]; norm_num
    rw [h8, ← p2_add]; congr 1; ring
  rw [hk1, h8]; ring

theorem tanhE_odd (w : ℝ) : tanhE.evalR (fun _ => -w) = -tanhE.evalR (fun _ => w) := by
  have e : ∀ w : ℝ, tanhE.evalR (fun _ => w) = w * tanhNumE.evalR (fun _ => w) / tanhDenE.evalR (fun _ => w) := fun _ => rfl
  rw [e, e, tanhNumE_real, tanhDenE_real, tanhNumE_real, tanhDenE_real, neg_mul_neg]
  ring

theorem tanhfE_odd (w : ℝ) : tanhfE.evalR (fun _ => -w) = -tanhfE.evalR (fun _ => w) := by
  have e : ∀ w : ℝ, tanhfE.evalR (fun _ => w) = w * tanhfNumE.evalR (fun _ => w) / tanhfDenE.evalR (fun _ => w) := fun _ => rfl
  rw [e, e, tanhfNumE_real, tanhfDenE_real, tanhfNumE_real, tanhfDenE_real, neg_mul_neg]
  ring

/-- An odd function at `|w|` is the function at `w` up to sign. -/
theorem odd_at {g : ℝ → ℝ} (odd : ∀ w, g (-w) = -g w) (pos : ∀ w, 0 ≤ w → 0 ≤ g w) (w : ℝ) : |g w| = g |w| ∧ (0 ≤ w → 0 ≤ g w) ∧ (w ≤ 0 → g w ≤ 0) := by
  rcases le_total 0 w with h | h
  · refine ⟨by rw [abs_of_nonneg h, abs_of_nonneg (pos w h)], pos w, fun h' => ?_⟩
    have : w = 0 := le_antisymm h' h
    have z := odd 0
    rw [neg_zero] at z
    rw [this]; linarith
  · have p := pos (-w) (by linarith)
    rw [odd] at p
    refine ⟨by rw [abs_of_nonpos h, odd, abs_of_nonpos (by linarith)], fun h' => ?_, fun _ => by linarith⟩
    have : w = 0 := le_antisymm h h'
    have z := odd 0
    rw [neg_zero] at z
    rw [this]; linarith

/-- Both sides have the sign of the argument. -/
theorem tanh_unsign {r x : ℝ} (hp : 0 ≤ x → 0 ≤ r) (hn : x ≤ 0 → r ≤ 0) : |r - Real.tanh x| = |(|r|) - Real.tanh (|x|)| := by
  rcases le_total 0 x with h | h
  · rw [abs_of_nonneg (hp h), abs_of_nonneg h]
  · rw [abs_of_nonpos (hn h), abs_of_nonpos h, Real.tanh_neg, ← abs_neg]
    congr 1; ring

/-- From the approximant to the result. -/
theorem tanh_gen [f.Ok] (hm : m.Dir) (ok : DblOk f) (su : SmallUD f) {t : Z m f} {g x a C H E δ : ℝ} (ht : t.v.isFinite = true)
    (rn : |t.v.real - g| ≤ C * |g| + H * f.eta) (ga : |g| = Real.tanh a) (gp : 0 ≤ x → 0 ≤ g) (gn : x ≤ 0 → g ≤ 0)
    (ha : 0 < a) (l : Real.tanh a ≤ 0.99) (hC : 0 ≤ C) (hH : 0 ≤ H) (hE : 0 ≤ E) (hC1 : C + 12 * (f.u : ℝ) ≤ 1 / 1000)
    (hη : H * (f.eta : ℝ) ≤ Real.tanh a / 1000) (sh : |Real.tanh (8 * a) - Real.tanh (|x|)| ≤ E * Real.tanh |x|)
    (hδ : (8.13 * H + 14.2) * (f.eta : ℝ) ≤ δ * Real.tanh |x|) :
    let r := tanhDouble (tanhDouble (tanhDouble t))
    r.v.isFinite = true ∧ |r.v.val| ≤ 1 ∧
      |r.v.real - Real.tanh x| ≤ ((C + 15.36 * (f.u : ℝ)) + E + (C + 15.36 * (f.u : ℝ)) * E + δ) * |Real.tanh x| := by
  have hu : (0 : ℝ) < f.u := by exact_mod_cast f.u_pos
  have heta : (0 : ℝ) < f.eta := by exact_mod_cast f.eta_pos
  have ta0 : 0 ≤ Real.tanh a := tanh_nonneg ha.le
  have rn' := rn
  rw [ga] at rn
  have rn2 : |(|t.v.real|) - Real.tanh a| ≤ C * Real.tanh a + H * f.eta := by
    rw [← ga] at rn ⊢; exact (abs_abs_sub_abs_le_abs_sub _ _).trans rn
  have c1 : C * Real.tanh a ≤ 1 / 1000 * Real.tanh a := mul_le_mul_of_nonneg_right (by linarith) ta0
  have t1r : |t.v.real| ≤ 1 := by
    have := (abs_le.1 rn2).2
    norm_num at l
    linarith
  have t1 : |t.v.val| ≤ 1 := by unfold FP.real at t1r; exact_mod_cast t1r
  have tp : 0 ≤ x → 0 ≤ t.v.val := fun h => by
    have g0 := gp h
    rw [abs_of_nonneg g0] at ga
    have : 0 ≤ t.v.real := by have := (abs_le.1 rn).1; rw [ga] at this; linarith
    unfold FP.real at this; exact_mod_cast this
  have tn : x ≤ 0 → t.v.val ≤ 0 := fun h => by
    have g0 := gn h
    rw [abs_of_nonpos g0] at ga
    have : t.v.real ≤ 0 := by have := (abs_le.1 rn).2; rw [show g = -Real.tanh a by linarith] at this; linarith
    unfold FP.real at this; exact_mod_cast this
  obtain ⟨r1, r2, r3, r4, r5⟩ := dblD_three hm ok su ht t1 ha.le (mul_nonneg hH heta.le) (by linarith) rn2
  refine ⟨r1, r2, ?_⟩
  have eT : |Real.tanh x| = Real.tanh |x| := (odd_at Real.tanh_neg (fun w => tanh_nonneg) x).1
  rw [tanh_unsign (fun h => by unfold FP.real; exact_mod_cast r3 (tp h)) (fun h => by unfold FP.real; exact_mod_cast r4 (tn h)), eT]
  have fin := tanh_assemble (d := 0) (Tx := Real.tanh |x|) (by positivity) hE r5 sh (by simp)
  refine fin.trans ?_
  rw [add_zero, add_zero]
  linarith

/-! ## Double precision -/

theorem tanhE_okD : covers (okRel1D b64 tanhE (15.2 * 2 ^ (-53 : ℤ)) 2.01) [-5 / 2, -153 / 64, -147 / 64, -71 / 32, -67 / 32, -127 / 64, -119 / 64, -107 / 64, -95 / 64, -21 / 16, -15 / 16,
    0, 15 / 16, 21 / 16, 95 / 64, 107 / 64, 119 / 64, 127 / 64, 67 / 32, 71 / 32, 147 / 64, 153 / 64, 5 / 2] = true := by decide +kernel

/-- The hyperbolic tangent of what is not tiny is not tiny. -/
theorem tanh_lower {k : ℤ} {x : ℝ} (hk : k ≤ 0) (h : 2 ^ k ≤ x) : 2 ^ k / 2 ≤ Real.tanh x := by
  have k1 : (2 : ℝ) ^ k ≤ 1 := zpow_le_one_of_nonpos₀ (by norm_num) hk
  exact (tanh_half_le (by positivity) k1).trans (tanh_mono h)

theorem tanhE_nonneg {w : ℝ} (h : 0 ≤ w) : 0 ≤ tanhE.evalR (fun _ => w) := by
  have e : tanhE.evalR (fun _ => w) = w * tanhNumE.evalR (fun _ => w) / tanhDenE.evalR (fun _ => w) := rfl
  rw [e, tanhNumE_real, tanhDenE_real]
  positivity

theorem tanhfE_nonneg {w : ℝ} (h : 0 ≤ w) : 0 ≤ tanhfE.evalR (fun _ => w) := by
  have e : tanhfE.evalR (fun _ => w) = w * tanhfNumE.evalR (fun _ => w) / tanhfDenE.evalR (fun _ => w) := rfl
  rw [e, tanhfNumE_real, tanhfDenE_real]
  positivity

/-- include/tanh.h:45-50 -/
def tanhPadeZ (m : Mode) (x : F64) : Z m b64 := evalZ m (fun _ => (of x * of (lit 0.125) : Z m b64).v) tanhE

theorem fast_tanh_dir (m : Mode) (x : F64) : fast_tanh m x = if m.gt (FP.abs x) (lit 20) then FP.copysign (lit 1) x
    else (tanhDouble (tanhDouble (tanhDouble (tanhPadeZ m x)))).v := (rfl)

theorem tanh_mid_dir (hm : m.Dir) {x : F64} (hx : x.isFinite = true) (h0 : 2 ^ (-1000 : ℤ) ≤ |x.real|) (h : |x.val| ≤ 20) :
    let r := tanhDouble (tanhDouble (tanhDouble (tanhPadeZ m x)))
    r.v.isFinite = true ∧ |r.v.val| ≤ 1 ∧ |r.v.real - Real.tanh x.real| ≤ 31 * 2 ^ (-53 : ℤ) * |Real.tanh x.real| := by
  have h0v : p2 (-1000) ≤ |x.val| := by
    have : ((p2 (-1000) : ℚ) : ℝ) ≤ ((|x.val| : ℚ) : ℝ) := by rw [p2_real]; push_cast; exact h0
    exact_mod_cast this
  obtain ⟨w1, w2⟩ := eighth_dir hm (x := x) (c := lit 0.125) hx (by decide +kernel) (by decide +kernel)
    (le_trans (by decide +kernel) h0v) (h.trans (by decide +kernel))
  have ep : tanhPadeZ m x = evalZ m (fun _ => (of x * of (lit 0.125) : Z m b64).v) tanhE := rfl
  rw [ep]
  generalize (of x * of (lit 0.125) : Z m b64).v = w at *
  have hw : w.real = x.real / 8 := by unfold FP.real; rw [w2]; push_cast; ring
  have hxr : |x.real| ≤ 20 := by unfold FP.real; exact_mod_cast h
  have hwa : |w.real| = |x.real| / 8 := by rw [hw, abs_div, abs_of_pos (by norm_num : (0 : ℝ) < 8)]
  have hX : |w.real| ≤ 2.5 := by rw [hwa]; norm_num; linarith
  obtain ⟨s, t, hst, h1, h2⟩ := covers_spans tanhE_okD (a := -2.5) (b := 2.5) (by decide +kernel) (x := w.real)
    (by push_cast; exact (abs_le.1 hX).1) (by push_cast; exact (abs_le.1 hX).2)
  have rn := okRel1D_sound hm (by norm_num) hst w1 h1 h2
  obtain ⟨a, a1, a2, a3⟩ := tanh_area (abs_nonneg w.real) hX
  obtain ⟨g1, g2, g3⟩ := odd_at tanhE_odd (fun _ => tanhE_nonneg) w.real
  have l := tanhE_le (abs_nonneg w.real) hX
  rw [← a3] at l
  have sh := tanh_area_shift (abs_nonneg w.real) a1 a2
  have x8 : 8 * |w.real| = |x.real| := by rw [hwa]; ring
  rw [x8] at sh
  have wl : (2 : ℝ) ^ (-1003 : ℤ) ≤ |w.real| := by
    rw [hwa, le_div_iff₀ (by norm_num)]
    refine le_trans (le_of_eq ?_) h0
    rw [show (-1000 : ℤ) = -1003 + 3 by norm_num, zpow_add₀ (by norm_num)]; norm_num
  have tl := tanh_lower (by norm_num) (wl.trans a1)
  have txl := tanh_lower (by norm_num) h0
  have eu : (b64.u : ℝ) = 2 ^ (-53 : ℤ) := by
    have : b64.u = 2 ^ (-53 : ℤ) := by decide +kernel
    rw [this]; push_cast; rfl
  have et : (b64.eta : ℝ) * 2 ^ 70 ≤ 2 ^ (-1003 : ℤ) / 2 := by
    have : b64.eta * 2 ^ 70 ≤ p2 (-1003) / 2 := by decide +kernel
    have := (Rat.cast_le (K := ℝ)).2 this
    push_cast at this
    rwa [p2_real] at this
  have et2 : (2 : ℝ) ^ (-1003 : ℤ) ≤ 2 ^ (-1000 : ℤ) := zpow_le_zpow_right₀ (by norm_num) (by norm_num)
  have et3 := et.trans tl
  have et4 := (et.trans (div_le_div_of_nonneg_right et2 (by norm_num))).trans txl
  have eta0 : (0 : ℝ) < b64.eta := by exact_mod_cast b64.eta_pos
  have c1 : ((15.2 * 2 ^ (-53 : ℤ) : ℚ) : ℝ) = 15.2 * 2 ^ (-53 : ℤ) := by push_cast; rfl
  have c2 : ((2.01 : ℚ) : ℝ) = 2.01 := by push_cast; rfl
  rw [c1, c2] at rn
  have key := tanh_gen hm dblOk64 smallUD64 (x := x.real) (a := a) (E := 0.39 * 2 ^ (-53 : ℤ)) (δ := 0.01 * 2 ^ (-53 : ℤ)) rn.1 rn.2
    (by rw [g1, a3]) (fun h => g2 (by rw [hw]; linarith)) (fun h => g3 (by rw [hw]; linarith))
    (lt_of_lt_of_le (by positivity) (wl.trans a1)) l (by positivity) (by norm_num) (by positivity) (by rw [eu]; norm_num)
    (by norm_num at et3 ⊢; linarith) sh (by norm_num at et4 ⊢; linarith)
  refine ⟨key.1, key.2.1, key.2.2.trans (mul_le_mul_of_nonneg_right ?_ (abs_nonneg _))⟩
  rw [eu]
  norm_num

/-- Saturation. -/
theorem tanh_sat {c x : FP f} {B : ℝ} (hc : c.val = if x.sign then -1 else 1) (z : x.real ≠ 0) (k : |1 - Real.tanh (|x.real|)| ≤ B) :
    |c.real - Real.tanh x.real| ≤ B := by
  have sgn : (0 ≤ x.real → 0 ≤ c.real) ∧ (x.real ≤ 0 → c.real ≤ 0) := by
    unfold FP.real at z ⊢
    rw [hc]
    cases hs : x.sign
    · have := val_nonneg_of_sign hs
      exact ⟨fun _ => by simp, fun h' => absurd (le_antisymm h' (by exact_mod_cast this)) z⟩
    · have : x.val ≤ 0 := by
        have := val_nonneg_of_sign (x := neg x) (by simp [hs])
        rw [val_neg] at this; linarith
      exact ⟨fun h' => absurd (le_antisymm (by exact_mod_cast this) h') z, fun _ => by simp⟩
  have ea : |c.real| = 1 := by
    unfold FP.real; rw [hc]; split <;> simp
  rw [tanh_unsign sgn.1 sgn.2, ea]
  exact k

theorem tanh_dir (hm : m.Dir) {x : F64} (hx : x.isFinite = true) (h0 : 2 ^ (-1000 : ℤ) ≤ |x.real|) :
    (fast_tanh m x).isFinite = true ∧ |(fast_tanh m x).val| ≤ 1 ∧
      |(fast_tanh m x).real - Real.tanh x.real| ≤ 31 * 2 ^ (-53 : ℤ) * |Real.tanh x.real| := by
  have hl : (lit 20 : F64).val = 20 := by decide +kernel
  have hg : m.gt (FP.abs x) (lit 20) = decide (20 < |x.val|) := by
    show FP.gt (m.arg _) (m.arg _) = _
    rw [hm.arg, hm.arg, gt_fin (by simpa using hx) (by decide +kernel), val_abs, hl]
  rw [fast_tanh_dir, hg]
  by_cases h : 20 < |x.val|
  · rw [if_pos (decide_eq_true h)]
    have hr : (20 : ℝ) < |x.real| := by unfold FP.real; exact_mod_cast h
    have k := tanh_near_one 20 (x := |x.real|) (by push_cast; exact hr.le)
    have c := copysign_one64 x
    refine ⟨c.1, by rw [c.2.2]; split <;> norm_num, (tanh_sat c.2.2 (fun z => by rw [z, abs_zero] at hr; norm_num at hr) k).trans ?_⟩
    rw [(odd_at Real.tanh_neg (fun w => tanh_nonneg) x.real).1]
    have k2 := (abs_le.1 k).2
    norm_num at k2 ⊢
    linarith
  · rw [if_neg (by simpa using h)]
    exact tanh_mid_dir hm hx h0 (not_lt.1 h)

/-! ## Single precision -/

theorem tanhfE_okD : covers (okRel1D b32 tanhfE (9.2 * 2 ^ (-24 : ℤ)) 2.14) [-711 / 625, -35 / 32, -1, -59 / 64, -41 / 64,
    0, 41 / 64, 59 / 64, 1, 35 / 32, 711 / 625] = true := by decide +kernel

/-- include/tanh.h:64-66 -/
def tanhPadefZ (m : Mode) (x : F32) : Z m b32 := evalZ m (fun _ => (of x * of (lit 0.125) : Z m b32).v) tanhfE

theorem fast_tanhf_dir (m : Mode) (x : F32) : fast_tanhf m x = if m.gt (FP.abs x) (lit 9.1) then FP.copysign (lit 1) x
    else (tanhDouble (tanhDouble (tanhDouble (tanhPadefZ m x)))).v := (rfl)

theorem tanhf_mid_dir (hm : m.Dir) {x : F32} (hx : x.isFinite = true) (h0 : 2 ^ (-110 : ℤ) ≤ |x.real|) (h : |x.val| ≤ 9542042 / 2 ^ 20) :
    let r := tanhDouble (tanhDouble (tanhDouble (tanhPadefZ m x)))
    r.v.isFinite = true ∧ |r.v.val| ≤ 1 ∧ |r.v.real - Real.tanh x.real| ≤ 26.3 * 2 ^ (-24 : ℤ) * |Real.tanh x.real| := by
  have h0v : p2 (-110) ≤ |x.val| := by
    have : ((p2 (-110) : ℚ) : ℝ) ≤ ((|x.val| : ℚ) : ℝ) := by rw [p2_real]; push_cast; exact h0
    exact_mod_cast this
  obtain ⟨w1, w2⟩ := eighth_dir hm (x := x) (c := lit 0.125) hx (by decide +kernel) (by decide +kernel)
    (le_trans (by decide +kernel) h0v) (h.trans (by decide +kernel))
  have ep : tanhPadefZ m x = evalZ m (fun _ => (of x * of (lit 0.125) : Z m b32).v) tanhfE := rfl
  rw [ep]
  generalize (of x * of (lit 0.125) : Z m b32).v = w at *
  have hw : w.real = x.real / 8 := by unfold FP.real; rw [w2]; push_cast; ring
  have hxr : |x.real| ≤ 9542042 / 2 ^ 20 := by
    have := (Rat.cast_le (K := ℝ)).2 h
    push_cast at this; exact this
  have hwa : |w.real| = |x.real| / 8 := by rw [hw, abs_div, abs_of_pos (by norm_num : (0 : ℝ) < 8)]
  have hX : |w.real| ≤ 1.1376 := by rw [hwa]; norm_num at hxr ⊢; linarith
  obtain ⟨s, t, hst, h1, h2⟩ := covers_spans tanhfE_okD (a := -1.1376) (b := 1.1376) (by decide +kernel) (x := w.real)
    (by push_cast; exact (abs_le.1 hX).1) (by push_cast; exact (abs_le.1 hX).2)
  have rn := okRel1D_sound hm (by norm_num) hst w1 h1 h2
  obtain ⟨a, a1, a2, a3⟩ := tanhf_area (abs_nonneg w.real) hX
  obtain ⟨g1, g2, g3⟩ := odd_at tanhfE_odd (fun _ => tanhfE_nonneg) w.real
  have l := tanhfE_le (abs_nonneg w.real) hX
  rw [← a3] at l
  have sh := tanhf_area_shift (abs_nonneg w.real) a1 a2
  have x8 : 8 * |w.real| = |x.real| := by rw [hwa]; ring
  rw [x8] at sh
  have wl : (2 : ℝ) ^ (-113 : ℤ) ≤ |w.real| := by
    rw [hwa, le_div_iff₀ (by norm_num)]
    refine le_trans (le_of_eq ?_) h0
    rw [show (-110 : ℤ) = -113 + 3 by norm_num, zpow_add₀ (by norm_num)]; norm_num
  have tl := tanh_lower (by norm_num) (wl.trans a1)
  have txl := tanh_lower (by norm_num) h0
  have eu : (b32.u : ℝ) = 2 ^ (-24 : ℤ) := by
    have : b32.u = 2 ^ (-24 : ℤ) := by decide +kernel
    rw [this]; push_cast; rfl
  have et : (b32.eta : ℝ) * 2 ^ 36 ≤ 2 ^ (-113 : ℤ) / 2 := by
    have : b32.eta * 2 ^ 36 ≤ p2 (-113) / 2 := by decide +kernel
    have := (Rat.cast_le (K := ℝ)).2 this
    push_cast at this
    rwa [p2_real] at this
  have et2 : (2 : ℝ) ^ (-113 : ℤ) ≤ 2 ^ (-110 : ℤ) := zpow_le_zpow_right₀ (by norm_num) (by norm_num)
  have et3 := et.trans tl
  have et4 := (et.trans (div_le_div_of_nonneg_right et2 (by norm_num))).trans txl
  have eta0 : (0 : ℝ) < b32.eta := by exact_mod_cast b32.eta_pos
  have c1 : ((9.2 * 2 ^ (-24 : ℤ) : ℚ) : ℝ) = 9.2 * 2 ^ (-24 : ℤ) := by push_cast; rfl
  have c2 : ((2.14 : ℚ) : ℝ) = 2.14 := by push_cast; rfl
  rw [c1, c2] at rn
  have key := tanh_gen hm dblOk32 smallUD32 (x := x.real) (a := a) (E := 1.66 * 2 ^ (-24 : ℤ)) (δ := 0.05 * 2 ^ (-24 : ℤ)) rn.1 rn.2
    (by rw [g1, a3]) (fun h => g2 (by rw [hw]; linarith)) (fun h => g3 (by rw [hw]; linarith))
    (lt_of_lt_of_le (by positivity) (wl.trans a1)) (by norm_num at l ⊢; linarith) (by positivity) (by norm_num) (by positivity) (by rw [eu]; norm_num)
    (by norm_num at et3 ⊢; linarith) sh (by norm_num at et4 ⊢; linarith)
  refine ⟨key.1, key.2.1, key.2.2.trans (mul_le_mul_of_nonneg_right ?_ (abs_nonneg _))⟩
  rw [eu]
  norm_num

theorem tanhf_dir (hm : m.Dir) {x : F32} (hx : x.isFinite = true) (h0 : 2 ^ (-110 : ℤ) ≤ |x.real|) :
    (fast_tanhf m x).isFinite = true ∧ |(fast_tanhf m x).val| ≤ 1 ∧
      |(fast_tanhf m x).real - Real.tanh x.real| ≤ 26.3 * 2 ^ (-24 : ℤ) * |Real.tanh x.real| := by
  have hl : (lit 9.1 : F32).val = 9542042 / 2 ^ 20 := by decide +kernel
  have hg : m.gt (FP.abs x) (lit 9.1) = decide (9542042 / 2 ^ 20 < |x.val|) := by
    show FP.gt (m.arg _) (m.arg _) = _
    rw [hm.arg, hm.arg, gt_fin (by simpa using hx) (by decide +kernel), val_abs, hl]
  rw [fast_tanhf_dir, hg]
  by_cases h : 9542042 / 2 ^ 20 < |x.val|
  · rw [if_pos (decide_eq_true h)]
    have hr : (9 : ℝ) < |x.real| := by
      have : (9 : ℚ) < |x.val| := lt_trans (by norm_num) h
      unfold FP.real; exact_mod_cast this
    have k := tanh_near_one 9 (x := |x.real|) (by push_cast; exact hr.le)
    have c := copysign_one32 x
    refine ⟨c.1, by rw [c.2.2]; split <;> norm_num, (tanh_sat c.2.2 (fun z => by rw [z, abs_zero] at hr; norm_num at hr) k).trans ?_⟩
    rw [(odd_at Real.tanh_neg (fun w => tanh_nonneg) x.real).1]
    have k2 := (abs_le.1 k).2
    norm_num at k2 ⊢
    linarith
  · rw [if_neg (by simpa using h)]
    exact tanhf_mid_dir hm hx h0 (not_lt.1 h)

/-! ## The range, for every argument -/

theorem tanh_range_gen [f.Ok] (hm : m.Dir) (ok : DblOk f) {t : Z m f} {g C H : ℝ} (ht : t.v.isFinite = true)
    (rn : |t.v.real - g| ≤ C * |g| + H * f.eta) (l : |g| ≤ 0.99) (hC : C ≤ 1 / 1000) (hη : H * (f.eta : ℝ) ≤ 1 / 1000) :
    (tanhDouble (tanhDouble (tanhDouble t))).v.isFinite = true ∧ |(tanhDouble (tanhDouble (tanhDouble t))).v.val| ≤ 1 := by
  have t1r : |t.v.real| ≤ 1 := by
    have c1 : C * |g| ≤ 1 / 1000 * |g| := mul_le_mul_of_nonneg_right hC (abs_nonneg _)
    have := abs_sub_abs_le_abs_sub t.v.real g
    norm_num at l
    linarith
  have t1 : |t.v.val| ≤ 1 := by unfold FP.real at t1r; exact_mod_cast t1r
  obtain ⟨f1, m1, -⟩ := dblD_range hm ok ht t1
  obtain ⟨f2, m2, -⟩ := dblD_range hm ok f1 m1
  obtain ⟨f3, m3, -⟩ := dblD_range hm ok f2 m2
  exact ⟨f3, m3⟩

/-- An eighth of any argument. -/
theorem eighth_le_dir [f.Ok] (hm : m.Dir) {x c : FP f} {X : ℚ} (hx : x.isFinite = true) (hc : c.isFinite = true) (hv : c.val = 1 / 8) (hX : |x.val| ≤ X)
    (hr : Rep f (X / 8)) (hb : X / 8 ≤ f.big) : (of x * of c : Z m f).v.isFinite = true ∧ |(of x * of c : Z m f).v.val| ≤ X / 8 := by
  have X0 : 0 ≤ X := (abs_nonneg _).trans hX
  have e : (of x : Z m f).v.val * (of c : Z m f).v.val = x.val / 8 := by
    show x.val * c.val = _
    rw [hv]; ring
  have b8 : |x.val / 8| ≤ X / 8 := by
    rw [abs_div, abs_of_pos (by norm_num : (0 : ℚ) < 8)]
    linarith
  have t := mul_dir hm (a := of x) (b := of c) hx hc (by rw [e]; exact b8.trans hb)
  rw [e] at t
  rw [abs_le] at b8
  have hb' : |X / 8| ≤ f.big := by rw [abs_of_nonneg (by linarith)]; exact hb
  exact ⟨t.1, abs_le.2 ⟨t.ge_rep (rep_neg' hr) (by rw [abs_neg]; exact hb') b8.1, t.le_rep hr hb' b8.2⟩⟩

theorem tanh_range_dir (hm : m.Dir) {x : F64} (hn : x.isNaN = false) : (fast_tanh m x).isFinite = true ∧ |(fast_tanh m x).val| ≤ 1 := by
  rw [fast_tanh_dir]
  by_cases h : m.gt (FP.abs x) (lit 20) = true
  · rw [if_pos h]
    have c := copysign_one64 x
    exact ⟨c.1, by rw [c.2.2]; split <;> norm_num⟩
  · rw [if_neg h]
    change ¬ FP.gt (m.arg _) (m.arg _) = true at h
    rw [hm.arg, hm.arg] at h
    have hx : x.isFinite = true := by
      rcases trichotomy x with hc | hc | hc
      · rw [hc] at hn; cases hn
      · have e : FP.abs x = FP.inf false := eq_inf (x := FP.abs x) (by simpa using hc)
        rw [e] at h; exact absurd (by decide +kernel) h
      · exact hc
    have hl : (lit 20 : F64).val = 20 := by decide +kernel
    rw [gt_fin (by simpa using hx) (by decide +kernel), val_abs, hl, decide_eq_true_eq, not_lt] at h
    obtain ⟨w1, w2⟩ := eighth_le_dir hm (c := lit 0.125) (X := 20) hx (by decide +kernel) (by decide +kernel) h
      ⟨5, -1, by rw [p2_eq]; norm_num, by norm_num [b64], by decide⟩ (by decide +kernel)
    have ep : tanhPadeZ m x = evalZ m (fun _ => (of x * of (lit 0.125) : Z m b64).v) tanhE := rfl
    rw [ep]
    generalize (of x * of (lit 0.125) : Z m b64).v = w at *
    have hX : |w.real| ≤ 2.5 := by
      have := (Rat.cast_le (K := ℝ)).2 w2
      push_cast at this
      refine le_trans this ?_
      norm_num
    obtain ⟨s, t, hst, h1, h2⟩ := covers_spans tanhE_okD (a := -2.5) (b := 2.5) (by decide +kernel) (x := w.real)
      (by push_cast; exact (abs_le.1 hX).1) (by push_cast; exact (abs_le.1 hX).2)
    have rn := okRel1D_sound hm (by norm_num) hst w1 h1 h2
    refine tanh_range_gen hm dblOk64 rn.1 rn.2 ?_ (by norm_num) ?_
    · rw [(odd_at tanhE_odd (fun _ => tanhE_nonneg) w.real).1]
      exact tanhE_le (abs_nonneg w.real) hX
    · have : (2.01 : ℚ) * b64.eta ≤ 1 / 1000 := by decide +kernel
      have := (Rat.cast_le (K := ℝ)).2 this
      push_cast at this ⊢
      exact this

theorem tanhf_range_dir (hm : m.Dir) {x : F32} (hn : x.isNaN = false) : (fast_tanhf m x).isFinite = true ∧ |(fast_tanhf m x).val| ≤ 1 := by
  rw [fast_tanhf_dir]
  by_cases h : m.gt (FP.abs x) (lit 9.1) = true
  · rw [if_pos h]
    have c := copysign_one32 x
    exact ⟨c.1, by rw [c.2.2]; split <;> norm_num⟩
  · rw [if_neg h]
    change ¬ FP.gt (m.arg _) (m.arg _) = true at h
    rw [hm.arg, hm.arg] at h
    have hx : x.isFinite = true := by
      rcases trichotomy x with hc | hc | hc
      · rw [hc] at hn; cases hn
      · have e : FP.abs x = FP.inf false := eq_inf (x := FP.abs x) (by simpa using hc)
        rw [e] at h; exact absurd (by decide +kernel) h
      · exact hc
    have hl : (lit 9.1 : F32).val = 9542042 / 2 ^ 20 := by decide +kernel
    rw [gt_fin (by simpa using hx) (by decide +kernel), val_abs, hl, decide_eq_true_eq, not_lt] at h
    obtain ⟨w1, w2⟩ := eighth_le_dir hm (c := lit 0.125) (X := 9542042 / 2 ^ 20) hx (by decide +kernel) (by decide +kernel) h
      ⟨9542042, -23, by rw [p2_eq]; norm_num, by norm_num [b32], by decide⟩ (by decide +kernel)
    have ep : tanhPadefZ m x = evalZ m (fun _ => (of x * of (lit 0.125) : Z m b32).v) tanhfE := rfl
    rw [ep]
    generalize (of x * of (lit 0.125) : Z m b32).v = w at *
    have hX : |w.real| ≤ 1.1376 := by
      have := (Rat.cast_le (K := ℝ)).2 w2
      push_cast at this
      refine le_trans this ?_
      norm_num
    obtain ⟨s, t, hst, h1, h2⟩ := covers_spans tanhfE_okD (a := -1.1376) (b := 1.1376) (by decide +kernel) (x := w.real)
      (by push_cast; exact (abs_le.1 hX).1) (by push_cast; exact (abs_le.1 hX).2)
    have rn := okRel1D_sound hm (by norm_num) hst w1 h1 h2
    refine tanh_range_gen hm dblOk32 rn.1 rn.2 ?_ (by norm_num) ?_
    · rw [(odd_at tanhfE_odd (fun _ => tanhfE_nonneg) w.real).1]
      exact (tanhfE_le (abs_nonneg w.real) hX).trans (by norm_num)
    · have : (2.14 : ℚ) * b32.eta ≤ 1 / 1000 := by decide +kernel
      have := (Rat.cast_le (K := ℝ)).2 this
      push_cast at this ⊢
      exact this

end Vdt.Flush
