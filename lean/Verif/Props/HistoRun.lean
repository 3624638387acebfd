import Verif.Props.Histo
import Verif.Props.Random
import Verif.Model.Bench

/-!
# C82, C83: from the comparison to the histograms
-/

namespace Vdt.Histo
open FP Txt Compare Perf Diag

local notation "‹" s "›" => String.toList s

/-! ### The number of bits fits on the axis -/

/-- Patterns of numbers that are not NaN are not as far apart as the width of the type allows. -/
theorem patDist_num {a b : F64} (ha : a.isNaN = false) (hb : b.isNaN = false) : patDist a b ≤ 2 ^ 64 - 2 ^ 52 := by
  have hi : b64.infMag = 2047 * 2 ^ 52 := by decide
  have hm : b64.magCount = 2 ^ 63 := by decide
  unfold isNaN at ha hb
  simp only [decide_eq_false_iff_not, not_lt] at ha hb
  unfold patDist
  rw [toBits_toNat, toBits_toNat, hm]
  rw [hi] at ha hb
  split <;> split <;> omega

theorem log_le64 (L : F64 → F64) (hL : Log2Ok L) (c : ℕ) (hc0 : 0 < c) (hc : c ≤ 2 ^ 64 - 2 ^ 52) (n : ℕ)
    (h : toUInt 16 (L (ofNat c) + lit 1) = some n) : n ≤ 64 := by
  have hfin := ofNat_fin (n := c) (by omega)
  have e : rnd b64 ((2 ^ 64 - 2 ^ 52 : ℕ) : ℚ) = (2 ^ 64 - 2 ^ 52 : ℕ) := by decide +kernel
  have hhi : (ofNat c).val ≤ 2 ^ 64 - 2 ^ 52 := by
    have h1 : rnd b64 (c : ℚ) ≤ rnd b64 ((2 ^ 64 - 2 ^ 52 : ℕ) : ℚ) := rnd_mono _ (by exact_mod_cast hc)
    rw [e] at h1
    rw [ofNat_val]
    refine le_trans h1 ?_
    norm_num
  have hlo : 1 ≤ (ofNat c).val := by
    have e1 : rnd b64 (1 : ℚ) = 1 := by decide +kernel
    rw [ofNat_val, ← e1]
    exact rnd_mono _ (by exact_mod_cast hc0)
  have hlf := hL.fin _ hfin hlo
  have ha := (abs_le.1 (hL.acc _ hfin hlo)).2
  have hrl : (1 : ℝ) ≤ (ofNat c).real := by unfold FP.real; exact_mod_cast hlo
  have hrh : (ofNat c).real ≤ 2 ^ 64 * (1 - 1 / 2 ^ 12) := by
    unfold FP.real
    have : (((ofNat c).val : ℚ) : ℝ) ≤ ((2 ^ 64 - 2 ^ 52 : ℚ) : ℝ) := by exact_mod_cast hhi
    refine le_trans this ?_
    push_cast; norm_num
  have hlog : Real.logb 2 (ofNat c).real ≤ 64 - 1 / 2 ^ 12 := by
    have h3 := Real.logb_le_logb_of_le (b := 2) (by norm_num) (by linarith) hrh
    rw [Real.logb_mul (by norm_num) (by norm_num), Real.logb_pow, Real.logb_self_eq_one (by norm_num)] at h3
    have h4 : Real.logb 2 (1 - 1 / 2 ^ 12) ≤ - (1 / 2 ^ 12) := by
      unfold Real.logb
      have hlog2 := Real.log_pos (show (1 : ℝ) < 2 by norm_num)
      have hlog2' : Real.log 2 ≤ 1 := by have := Real.log_le_sub_one_of_pos (show (0 : ℝ) < 2 by norm_num); linarith
      rw [div_le_iff₀ hlog2]
      have h5 := Real.log_le_sub_one_of_pos (show (0 : ℝ) < 1 - 1 / 2 ^ 12 by norm_num)
      linarith
    push_cast at h3
    linarith
  have hLr : (L (ofNat c)).real ≤ 64 - 1 / 2 ^ 13 := by
    have h0 : 0 ≤ Real.logb 2 (ofNat c).real := Real.logb_nonneg (by norm_num) hrl
    norm_num at ha hlog ⊢
    linarith
  have hLq : (L (ofNat c)).val ≤ 64 - 1 / 2 ^ 13 := by
    unfold FP.real at hLr
    have : (((L (ofNat c)).val : ℚ) : ℝ) ≤ ((64 - 1 / 2 ^ 13 : ℚ) : ℝ) := by push_cast; exact hLr
    exact_mod_cast this
  have hL0 := hL.lower _ 0 hfin (by simpa using hlo)
  rw [Nat.cast_zero] at hL0
  have hs := add_spec hlf lit_one.1 (by
    rw [lit_one.2, abs_of_nonneg (by linarith)]
    exact le_trans (by linarith) (le_trans (by norm_num : (66 : ℚ) ≤ 2 ^ 200) big64_ge))
  rw [← add_def, lit_one.2] at hs
  have e3 : rnd b64 (65 - 1 / 2 ^ 13 : ℚ) = 65 - 1 / 2 ^ 13 := by decide +kernel
  have h5 : (L (ofNat c) + lit 1).val ≤ 65 - 1 / 2 ^ 13 := by
    rw [hs.2, ← e3]; exact rnd_mono _ (by linarith)
  have hlt : (L (ofNat c) + lit 1).val < 65 := lt_of_le_of_lt h5 (by norm_num)
  have h0 : 0 ≤ (L (ofNat c) + lit 1).val := by
    rw [hs.2]; exact rnd_nonneg _ (by linarith)
  unfold toUInt at h
  split at h
  · rename_i hh
    have h6 : truncRat (L (ofNat c) + lit 1).val < 65 := by
      rw [truncRat_nonneg h0]
      exact_mod_cast lt_of_le_of_lt (Int.floor_le _) hlt
    obtain rfl := Option.some.inj h
    omega
  · exact absurd h (by simp)

/-- The number of bits of a comparison is at most the width of the type, unless one of two doubles is a
NaN. -/
theorem bits_le {f : Fmt} (hf : f = b64 ∨ f = b32) {z : ℕ} {cast : F64 → Option ℕ} (hc : CastOk z cast) (hz : z ≤ 32)
    (L : F64 → F64) (hL : Log2Ok L) (a b : FP f) (hN : f = b64 → a.isNaN = false ∧ b.isNaN = false) (n : ℕ)
    (h : diffbitOn cast L a b = some n) : n ≤ f.eb + f.mb + 1 := by
  have hw : f.eb + f.mb + 1 ≤ 64 := by rcases hf with rfl | rfl <;> decide
  have hw2 : 32 ≤ f.eb + f.mb + 1 := by rcases hf with rfl | rfl <;> decide
  by_cases hab : a = b
  · obtain ⟨m, h1, -, h2⟩ := diffbitOn_spec hw hc L hL a b
    rw [h1] at h
    obtain rfl := Option.some.inj h
    rw [h2.equal hab]; omega
  · have hpos : 0 < patDist a b := Nat.pos_of_ne_zero (fun e => hab (patDist_zero.1 e))
    have hlt := patDist_lt a b
    rcases hf with rfl | rfl
    · obtain ⟨h1, h2⟩ := hN rfl
      have hd := patDist_num h1 h2
      rw [diffbitOn_eq hw] at h
      obtain ⟨m, h3, -⟩ := toUInt_log L hL _ hpos (by omega)
      rw [hc.exact _ _ h3] at h
      obtain rfl := Option.some.inj h
      exact log_le64 L hL _ hpos hd _ h3
    · obtain ⟨m, h1, -, h2⟩ := diffbitOn_spec hw hc L hL a b
      rw [h1] at h
      obtain rfl := Option.some.inj h
      have hlt' : patDist a b < 2 ^ 32 := hlt
      have h3 := (h2.near hab (lt_trans hlt' (by norm_num)))
      by_contra hn
      have h4 : 33 ≤ m := by
        have : b32.eb + b32.mb + 1 = 32 := rfl
        omega
      have h5 := h3.2 (by omega)
      have : 2 ^ 32 ≤ 2 ^ (m - 1) := Nat.pow_le_pow_right (by norm_num) (by omega)
      omega

/-! ### The decimal input -/

/-- `y` is the double read from the decimal text of `x` with `p` decimals: the double nearest to the
multiple of `10^-p` nearest to `x`. -/
structure Shown {f : Fmt} (p : ℕ) (x : FP f) (y : F64) : Prop where
  nan : x.isNaN = true → y.isNaN = true
  inf : x.isInf = true → y = FP.inf x.sign
  finite : x.isFinite = true → y.isFinite = true ∧
    ∃ k : ℤ, |(k : ℚ) / 10 ^ p - x.val| ≤ 1 / 2 / 10 ^ p ∧ y.val = rnd b64 ((k : ℚ) / 10 ^ p)

theorem decRead_eq {f : Fmt} (p : ℕ) {x : FP f} (hx : x.isFinite = true) :
    decRead p x = ofRat b64 x.sign (if x.sign then -((fixedScaled p (FP.abs x).val : ℚ) / (10 ^ p : ℕ))
      else (fixedScaled p (FP.abs x).val : ℚ) / (10 ^ p : ℕ)) := by
  unfold decRead
  rw [finite_not_nan hx, finite_not_inf hx]
  rfl

theorem decRead_val {f : Fmt} (p : ℕ) {x : FP f} (hx : x.isFinite = true) : ∃ k : ℤ,
    |(k : ℚ) / 10 ^ p - x.val| ≤ 1 / 2 / 10 ^ p ∧ (decRead p x).val = rnd b64 ((k : ℚ) / 10 ^ p) := by
  have hp : (0 : ℚ) < 10 ^ p := by positivity
  have h0 : (0 : ℚ) ≤ (FP.abs x).val * (10 ^ p : ℕ) := by rw [val_abs]; positivity
  have hb := rne_bounds h0
  obtain ⟨n, hn⟩ : ∃ n, n = fixedScaled p (FP.abs x).val := ⟨_, rfl⟩
  have hxv : x.val = if x.sign then -(FP.abs x).val else (FP.abs x).val := by
    unfold FP.val FP.abs; cases x.sign <;> simp
  have hv : (decRead p x).val = rnd b64 (if x.sign then -((n : ℚ) / ((10 ^ p : ℕ) : ℚ)) else (n : ℚ) / ((10 ^ p : ℕ) : ℚ)) := by
    rw [hn, decRead_eq p hx]; exact val_ofRat _ _
  unfold fixedScaled at hn
  rw [← hn] at hb
  push_cast at hb hv
  have key : |(n : ℚ) / 10 ^ p - (FP.abs x).val| ≤ 1 / 2 / 10 ^ p := by
    rw [show (n : ℚ) / 10 ^ p - (FP.abs x).val = ((n : ℚ) - (FP.abs x).val * 10 ^ p) / 10 ^ p by field_simp, abs_div, abs_of_pos hp]
    exact div_le_div_of_nonneg_right hb hp.le
  refine ⟨if x.sign then -(n : ℤ) else n, ?_, ?_⟩
  · rw [hxv]
    cases x.sign
    · simpa using key
    · simp only [if_true]; push_cast
      rw [neg_div, show -((n : ℚ) / 10 ^ p) - -(FP.abs x).val = -((n : ℚ) / 10 ^ p - (FP.abs x).val) by ring, abs_neg]
      exact key
  · rw [hv]
    cases x.sign <;> simp [neg_div]

theorem decRead_finite {f : Fmt} (hf : f = b64 ∨ f = b32) (p : ℕ) {x : FP f} (hx : x.isFinite = true) : (decRead p x).isFinite = true := by
  rcases hf with rfl | rfl
  · have : decRead p x = fixedRead b64 p x := by rw [decRead_eq p hx]; rfl
    rw [this]
    exact fixedRead_finite (by decide) p x hx
  · rw [decRead_eq p hx]
    refine finite_ofRat _ ?_
    have hle := fixedScaled_le (f := b32) p x hx
    have hm : ((MaxNat.n b32 : ℕ) : ℚ) ≤ b64.big := by decide +kernel
    have h0 : |(fixedScaled p (FP.abs x).val : ℚ) / (10 ^ p : ℕ)| ≤ b64.big := by
      rw [abs_of_nonneg (div_nonneg (Nat.cast_nonneg _) (Nat.cast_nonneg _)), div_le_iff₀ (Nat.cast_pos.2 (by positivity))]
      have : (fixedScaled p (FP.abs x).val : ℚ) ≤ (MaxNat.n b32 : ℕ) * (10 ^ p : ℕ) := by exact_mod_cast hle
      exact this.trans (mul_le_mul_of_nonneg_right hm (Nat.cast_nonneg _))
    split
    · rw [abs_neg]; exact h0
    · exact h0

theorem decRead_shown {f : Fmt} (hf : f = b64 ∨ f = b32) (p : ℕ) (x : FP f) : Shown p x (decRead p x) := by
  refine ⟨fun h => ?_, fun h => ?_, fun h => ?_⟩
  · unfold decRead; rw [if_pos h]; decide
  · have hn : x.isNaN = false := by
      revert h; unfold isInf isNaN; simp; omega
    unfold decRead; simp [hn, h]
  · obtain ⟨k, h1, h2⟩ := decRead_val p h
    exact ⟨decRead_finite hf p h, k, h1, h2⟩

/-- Limits that are whole numbers survive the decimal text. -/
theorem Shown.between {f : Fmt} {p : ℕ} {x : FP f} {y : F64} (h : Shown p x y) (hx : x.isFinite = true) (lo hi : ℤ) (h1 : |lo| ≤ 2 ^ 53)
    (h2 : |hi| ≤ 2 ^ 53) (h3 : (lo : ℚ) ≤ x.val) (h4 : x.val ≤ hi) : (lo : ℚ) ≤ y.val ∧ y.val ≤ hi := by
  have er : ∀ n : ℤ, |n| ≤ 2 ^ 53 → rnd b64 (n : ℚ) = n := by
    intro n h
    refine rnd_exact b64 (rep_int b64 h (by decide)) ?_
    refine le_trans ?_ big64_ge
    have : |(n : ℚ)| ≤ 2 ^ 53 := by exact_mod_cast h
    exact le_trans this (by norm_num)
  obtain ⟨-, k, hk, hv⟩ := h.finite hx
  have hp : (0 : ℚ) < 10 ^ p := by positivity
  obtain ⟨k1, k2⟩ := abs_le.1 hk
  have e : (k : ℚ) / 10 ^ p * 10 ^ p = k := by field_simp
  have e2 : (1 : ℚ) / 2 / 10 ^ p * 10 ^ p = 1 / 2 := by field_simp
  have a : (k : ℚ) ≤ hi * 10 ^ p + 1 / 2 := by
    have := mul_le_mul_of_nonneg_right (show (k : ℚ) / 10 ^ p ≤ hi + 1 / 2 / 10 ^ p by linarith) hp.le
    rw [add_mul, e, e2] at this; exact this
  have b : lo * 10 ^ p - 1 / 2 ≤ (k : ℚ) := by
    have := mul_le_mul_of_nonneg_right (show lo - 1 / 2 / 10 ^ p ≤ (k : ℚ) / 10 ^ p by linarith) hp.le
    rw [sub_mul, e, e2] at this; exact this
  have a' : k ≤ hi * 10 ^ p := by
    have : (k : ℚ) < (hi * 10 ^ p + 1 : ℤ) := by push_cast; linarith
    have := Int.cast_lt.1 this
    omega
  have b' : lo * 10 ^ p ≤ k := by
    have : ((lo * 10 ^ p - 1 : ℤ) : ℚ) < k := by push_cast; linarith
    have := Int.cast_lt.1 this
    omega
  rw [hv]
  constructor
  · rw [← er lo h1]
    refine rnd_mono _ ?_
    rw [le_div_iff₀ hp]; exact_mod_cast b'
  · rw [← er hi h2]
    refine rnd_mono _ ?_
    rw [div_le_iff₀ hp]; exact_mod_cast a'

/-! ### C82 -/

theorem study_write {f : Fmt} (c : Cmp1D f) (h0 : c.fromFile = false) (hn : '\n' ∉ c.name) (nick F : Text) (hF : '\n' ∉ F) (fs : Fs) :
    study (c.writeFile (outName nick F) fs) nick (outName nick F) = some ⟨F, (typeOf f).1, (typeOf f).2, getYaxisRange F,
      c.rows.map fun r => ((r.diff : ℤ), decRead (digits10 f) r.input)⟩ := by
  have hw : c.writeFile (outName nick F) fs = Function.update fs (outName nick F) (some (cmpHeader c ++ c.rows.flatMap cmpRow)) := by
    unfold Cmp1D.writeFile
    dsimp only
    rw [if_neg (by simp [h0]), truncate_append]
  obtain ⟨s, h1, h2⟩ := header_skip f c.name hn c.max c.min c.mean c.rms (c.rows.flatMap cmpRow)
  have h1' : getTypeLength (cmpHeader c ++ c.rows.flatMap cmpRow) = some ((typeOf f).1, (typeOf f).2, s) := h1
  unfold study
  rw [hw, Function.update_self]
  generalize cmpHeader c ++ c.rows.flatMap cmpRow = t at h1'
  simp only [Option.bind_eq_bind, Option.bind_some, h1', nameOf_out nick F hF, h2, fill_rows]
  rfl

theorem study_write2 {f : Fmt} (c : Cmp2D f) (h0 : c.fromFile = false) (hn : '\n' ∉ c.name) (hr : c.rows ≠ []) (nick F : Text) (hF : '\n' ∉ F) (fs : Fs) :
    study (c.writeFile (outName nick F) fs) nick (outName nick F) = none := by
  have hw : c.writeFile (outName nick F) fs = Function.update fs (outName nick F) (some (cmpHeader2 c ++ c.rows.flatMap cmpRow2)) := by
    unfold Cmp2D.writeFile
    dsimp only
    rw [if_neg (by simp [h0]), truncate_append]
  obtain ⟨s, h1, h2⟩ := header_skip f c.name hn c.max c.min c.mean c.rms (c.rows.flatMap cmpRow2)
  have h1' : getTypeLength (cmpHeader2 c ++ c.rows.flatMap cmpRow2) = some ((typeOf f).1, (typeOf f).2, s) := h1
  unfold study
  rw [hw, Function.update_self]
  generalize cmpHeader2 c ++ c.rows.flatMap cmpRow2 = t at h1'
  simp only [Option.bind_eq_bind, Option.bind_some, h1', nameOf_out nick F hF, h2, fill_rows2 _ hr]
  rfl

theorem makeCmp_zip {f : Fmt} {cast : F64 → Option ℕ} {L : F64 → F64} {D : FP f → FP f → ℕ} (hD : ∀ a b, D a b ≤ 255)
    (hm : ∀ l : List (FP f × FP f), l.mapM (fun p => diffbitOn cast L p.1 p.2) = some (l.map fun p => D p.1 p.2))
    (name : Text) (ref test : List (FP f × FP f)) (hl : ref.length = test.length) (h0 : ref ≠ []) (h1 : ref.length < 2 ^ 32) :
    ∃ c, makeCmp cast L name (ref.map (·.1)) (ref.map (·.2)) (test.map (·.2)) = some c ∧ c.fromFile = false ∧ c.name = name ∧
      c.rows = List.zipWith (fun p q => ⟨p.1, p.2, q.2, D p.2 q.2⟩) ref test := by
  let rows : List (CmpRow f) := List.zipWith (fun p q => ⟨p.1, p.2, q.2, D p.2 q.2⟩) ref test
  have hrl : rows.length = ref.length := by simp [rows, hl]
  have hmem : ∀ r ∈ rows, ∃ p ∈ ref, ∃ q, r = ⟨p.1, p.2, q, D p.2 q⟩ := by
    intro r hr
    obtain ⟨i, hi, rfl⟩ := List.mem_iff_getElem.1 hr
    exact ⟨ref[i]'(by omega), by simp, (test[i]'(by omega)).2, by simp only [rows, List.getElem_zipWith]⟩
  have ed : ((ref.map (·.2)).zip (test.map (·.2))).map (fun p => D p.1 p.2) = rows.map (·.diff) := by
    refine List.ext_getElem (by simp [rows]) ?_
    intro i a b
    simp [rows]
  have hd : ∀ d ∈ rows.map (·.diff), d ≤ 255 := by
    intro d hd
    obtain ⟨r, hr, rfl⟩ := List.mem_map.1 hd
    obtain ⟨p, -, q, rfl⟩ := hmem r hr
    exact hD _ _
  have hne : rows.map (·.diff) ≠ [] := by
    intro e
    have := congrArg List.length e
    rw [List.length_map, hrl] at this
    exact h0 (List.length_eq_zero_iff.1 this)
  obtain ⟨s, hs, hok⟩ := stats_ok (rows.map (·.diff)) hne (by rw [List.length_map, hrl]; exact h1) hd
  refine ⟨⟨false, name, ‹"From scratch"›, s.max, s.min, s.mean, s.rms, rows⟩, ?_, rfl, rfl, rfl⟩
  unfold makeCmp
  rw [if_neg (by simp [hl]), hm, ed]
  show (calcStats Stats.init (rows.map (·.diff))).bind _ = _
  rw [hs]
  show Option.bind ((List.range (ref.map Prod.fst).length).mapM _) _ = _
  rw [mapM_range rows]
  · rfl
  · rw [List.length_map, hrl]
  · intro i hi
    have h2 : i < ref.length := by simpa using hi
    have h3 : i < test.length := by omega
    simp [rows, h2, h3]

/-- A histogram of the bits with one entry per sample: the number of bits of the comparison, which fits
on the axis, and the input as its decimal text shows it. -/
def HistogramOf {f : Fmt} (z : ℕ) (F : Text) (ref test : List (FP f × FP f)) (h : Histos) : Prop :=
  h.name = F ∧ h.typelength = f.eb + f.mb + 1 ∧ h.typeName = (if f.eb + f.mb + 1 = 64 then ‹"double"› else ‹"float"›) ∧
  h.axis = getYaxisRange F ∧
  List.Forall₂ (fun (p : (FP f × FP f) × (FP f × FP f)) (fill : ℤ × F64) => ∃ n : ℕ, fill.1 = n ∧ n ≤ h.typelength ∧
    BitDiff z p.1.2 p.2.2 n ∧ Shown (digits10 f) p.1.1 fill.2) (ref.zip test) h.fills

/-- **C82** (partial: functions of one variable; the conversion of `-inf` is defined; no NaN among the
outputs in double precision).  After the comparison of two responses the script makes their pair of
histograms from the file the comparison wrote. -/
theorem C82_histogram_partial {f : Fmt} (hf : f = b64 ∨ f = b32) {z : ℕ} {cast : F64 → Option ℕ} (hc : CastOk z cast) (hz : z ≤ 32)
    (L : F64 → F64) (hL : Log2Ok L) (nick ref test : Text) (rr rt : Resp1D f) (fs : Fs) (hr0 : rr.fromFile = false)
    (ht0 : rt.fromFile = false) (hl : rr.rows.length = rt.rows.length) (h0 : rr.rows ≠ []) (h1 : rr.rows.length < 2 ^ 32)
    (hN : f = b64 → (∀ r ∈ rr.rows, r.2.isNaN = false) ∧ ∀ r ∈ rt.rows, r.2.isNaN = false)
    (hr : '\n' ∉ ref) (ht : '\n' ∉ test) (hnr : '\n' ∉ rr.fcnName)
    (hnt : '\n' ∉ rt.fcnName) (hne : ref ≠ test) (hA : contains ‹"Atan2"› ref = false) :
    ∃ fs' h, compareFile cast L nick (rt.writeFile test (rr.writeFile ref fs)) (ref, test) = some fs' ∧
      study fs' nick (outName nick (strip rr.fcnName)) = some h ∧ HistogramOf z (strip rr.fcnName) rr.rows rt.rows h := by
  have hw : f.eb + f.mb + 1 ≤ 64 := by rcases hf with rfl | rfl <;> decide
  have hstrip : '\n' ∉ strip rr.fcnName := by
    unfold strip
    split
    · exact fun h => hnr (List.mem_of_mem_drop h)
    · exact hnr
  obtain ⟨D, hD, hm⟩ := diffs_eq hw hc L hL
  obtain ⟨c, hc1, hc2, hc3, hc4⟩ := makeCmp_zip (fun a b => (hD a b).1) hm (label (strip rr.fcnName) ref test) rr.rows rt.rows hl h0 h1
  have hDd : ∀ a b, diffbitOn cast L a b = some (D a b) := by
    intro a b
    have := hm [(a, b)]
    cases h : diffbitOn cast L a b with
    | none => simp [h] at this
    | some n => simpa [h] using this
  generalize hfs : rt.writeFile test (rr.writeFile ref fs) = fs1
  have e1 : fs1 ref = some (Bench.text1 rr) := by
    rw [← hfs, write_text1 rt ht0, write_text1 rr hr0, Function.update_of_ne hne, Function.update_self]
  have e2 : fs1 test = some (Bench.text1 rt) := by
    rw [← hfs, write_text1 rt ht0, Function.update_self]
  have hca : compareAs f cast L nick (strip rr.fcnName) fs1 ref test = some (c.writeFile (outName nick (strip rr.fcnName)) fs1) := by
    unfold compareAs
    rw [if_neg (by rw [hA]; simp)]
    dsimp only
    rw [Bench.ofFile_text1 hw fs1 ref rr hnr e1, Bench.ofFile_text1 hw fs1 test rt hnt e2, hc1]
    rfl
  refine ⟨_, _, by rw [compareFile_as hf cast L nick ref test _ _ hnr fs1 e1 (by rw [e2]; simp), hca],
    study_write c hc2 (by rw [hc3]; exact label_nl hnr hr ht) nick _ hstrip fs1, rfl, ?_, ?_, rfl, ?_⟩
  · rcases hf with rfl | rfl <;> rfl
  · rcases hf with rfl | rfl <;> rfl
  · have ht' : (typeOf f).1 = f.eb + f.mb + 1 := by rcases hf with rfl | rfl <;> rfl
    rw [hc4]
    dsimp only
    rw [ht', List.forall₂_iff_get]
    refine ⟨by simp, fun i a b => ?_⟩
    have ha : i < rr.rows.length ∧ i < rt.rows.length := by simpa using a
    refine ⟨D (rr.rows[i]'ha.1).2 (rt.rows[i]'ha.2).2, by simp, ?_, ?_, ?_⟩
    · refine bits_le hf hc hz L hL _ _ (fun e => ⟨(hN e).1 _ (List.getElem_mem _), (hN e).2 _ (List.getElem_mem _)⟩) _ (hDd _ _)
    · simpa using (hD (rr.rows[i]'ha.1).2 (rt.rows[i]'ha.2).2).2
    · simpa using decRead_shown hf (digits10 f) (rr.rows[i]'ha.1).1

/-- Two outputs and the resulting histogram: one sample, two differing bits, input `0.5`. -/
example : study (Cmp1D.writeFile (⟨false, ‹"Sin a VS b"›, [], 2, 2, lit 2, lit (-1), [⟨lit 0.5, lit 1, lit 1, 2⟩]⟩ : Cmp1D b64)
    (outName ‹"n"› ‹"Sin"›) fun _ => none) ‹"n"› (outName ‹"n"› ‹"Sin"›) =
    some ⟨‹"Sin"›, 64, ‹"double"›, (-5000, 5000), [(2, decRead 15 (lit 0.5 : F64))]⟩ :=
  study_write _ rfl (by decide) _ _ (by decide) _

/-- Entries on the axis: bin `k + 1` counts the samples with `k` differing bits, and no entry lies
outside the axis. -/
theorem C82_bins (h : Histos) (hb : ∀ e ∈ h.fills, 0 ≤ e.1 ∧ e.1 ≤ h.typelength) :
    (∀ k ≤ h.typelength, binCount (h.typelength + 1) (-1 / 2) (h.typelength + 1 / 2) (h.fills.map fun e => (e.1 : ℚ)) (k + 1) =
      h.fills.countP fun e => decide (e.1 = (k : ℤ))) ∧
    ∀ e ∈ h.fills, ((-1 / 2 : ℚ) ≤ e.1 ∧ (e.1 : ℚ) < h.typelength + 1 / 2) := by
  refine ⟨fun k hk => ?_, fun e he => ?_⟩
  · unfold binCount
    rw [List.countP_map]
    refine List.countP_congr fun e he => ?_
    have hw : ((h.typelength : ℚ) + 1 / 2 - -1 / 2) / ((h.typelength + 1 : ℕ) : ℚ) = 1 := by
      push_cast
      rw [div_eq_one_iff_eq (by positivity)]; ring
    simp only [Function.comp, decide_eq_true_eq]
    rw [hw]
    push_cast
    constructor
    · rintro ⟨h1, h2⟩
      have a : (k : ℚ) - 1 < e.1 := by linarith
      have b : (e.1 : ℚ) < k + 1 := by linarith
      have a' : (k : ℤ) - 1 < e.1 := by exact_mod_cast a
      have b' : e.1 < (k : ℤ) + 1 := by exact_mod_cast b
      omega
    · intro h1
      rw [h1]
      push_cast
      constructor <;> linarith
  · obtain ⟨h1, h2⟩ := hb e he
    have h1' : (0 : ℚ) ≤ e.1 := by exact_mod_cast h1
    have h2' : (e.1 : ℚ) ≤ h.typelength := by exact_mod_cast h2
    constructor <;> linarith

example : binCount 65 (-1 / 2) (64 + 1 / 2) [0, 3, 3, 64] 4 = 2 := by decide +kernel

/-- Every value between the ends of any axis is counted in exactly one bin: the bins together hold as many entries as values lie
on the axis, edges included in the bin that begins with them. -/
theorem C82_axis (n : ℕ) (hn : 0 < n) (lo hi : ℚ) (h : lo ≤ hi) (fills : List ℚ) :
    ∑ b ∈ Finset.range n, binCount n lo hi fills (b + 1) = fills.countP fun x => decide (lo ≤ x ∧ x < hi) := by
  have key : ∀ k : ℕ, ∑ b ∈ Finset.range k, binCount n lo hi fills (b + 1) =
      fills.countP fun x => decide (lo ≤ x ∧ x < lo + k * ((hi - lo) / n)) := by
    intro k
    have w : 0 ≤ (hi - lo) / n := div_nonneg (by linarith) (by positivity)
    induction k with
    | zero =>
      rw [Finset.sum_range_zero, eq_comm, List.countP_eq_zero]
      intro x _
      simp
    | succ k ih =>
      rw [Finset.sum_range_succ, ih]
      unfold binCount
      have w1 : 0 ≤ (k : ℚ) * ((hi - lo) / n) := by positivity
      clear ih
      induction fills with
      | nil => rfl
      | cons x l ih =>
        rw [List.countP_cons, List.countP_cons, List.countP_cons]
        have e : (if decide (lo ≤ x ∧ x < lo + k * ((hi - lo) / n)) = true then 1 else 0) +
            (if decide (lo + (((k + 1 : ℕ) : ℚ) - 1) * ((hi - lo) / n) ≤ x ∧ x < lo + ((k + 1 : ℕ) : ℚ) * ((hi - lo) / n)) = true then 1 else 0) =
            if decide (lo ≤ x ∧ x < lo + ((k + 1 : ℕ) : ℚ) * ((hi - lo) / n)) = true then 1 else 0 := by
          simp only [decide_eq_true_eq]
          push_cast
          rw [add_sub_cancel_right]
          by_cases a : x < lo + k * ((hi - lo) / n)
          · rw [if_neg (c := lo + (k : ℚ) * _ ≤ x ∧ _) (fun c => absurd c.1 (not_le.2 a)), add_zero]
            congr 1
            exact propext ⟨fun c => ⟨c.1, by linarith⟩, fun c => ⟨c.1, a⟩⟩
          · rw [if_neg (c := lo ≤ x ∧ x < lo + (k : ℚ) * _) (fun c => a c.2), zero_add]
            congr 1
            rw [not_lt] at a
            exact propext ⟨fun c => ⟨by linarith, c.2⟩, fun c => ⟨a, c.2⟩⟩
        omega
  rw [key, mul_div_cancel₀ _ (by positivity), add_sub_cancel]

example : binCount 4 0 8 [2, 2, 3, 8, -1] 1 = 0 ∧ binCount 4 0 8 [2, 2, 3, 8, -1] 2 = 3 ∧ binCount 4 0 8 [2, 2, 3, 8, -1] 4 = 0 := by decide +kernel

/-- The full property: a histogram can be made of every comparison the program writes. -/
def C82_statement : Prop := ∀ (c : Cmp2D b64) (nick F : Text) (fs : Fs), c.fromFile = false → '\n' ∉ c.name → '\n' ∉ F → c.rows ≠ [] →
  ∃ h, study (c.writeFile (outName nick F) fs) nick (outName nick F) = some h

/-- The script fails on every comparison of a function of two variables: the regular expression takes the
decimal text of the first input for the number of bits. -/
theorem C82_two_inputs {f : Fmt} (c : Cmp2D f) (nick F : Text) (fs : Fs) (h0 : c.fromFile = false) (hn : '\n' ∉ c.name)
    (hF : '\n' ∉ F) (hr : c.rows ≠ []) : study (c.writeFile (outName nick F) fs) nick (outName nick F) = none :=
  study_write2 c h0 hn hr nick F hF fs

theorem C82_violated : ¬ C82_statement := by
  intro H
  obtain ⟨h, hh⟩ := H ⟨false, ‹"Atan2 a VS b"›, [], 2, 2, lit 2, lit (-1), [⟨lit 1, lit 2, lit 1, lit 1, 2⟩]⟩ ‹"n"› ‹"Atan2"› (fun _ => none)
    rfl (by decide) (by decide) (by simp)
  rw [C82_two_inputs _ _ _ _ rfl (by decide) (by decide) (by simp)] at hh
  exact absurd hh (by simp)

/-- The whole row in the file and its groups. -/
example : groups 4 ‹"0x1 0x2 0x3 0x4 2 1.5 2.5"› = some [‹"0x1 0x2 0x3"›, ‹"0x4"›, ‹"2"›, ‹"1.5"›, ‹"2.5"›] := by decide

/-- The NaN with all bits set against zero gives 65 bits, one more than the axis of a double has. -/
theorem C82_nan {z : ℕ} {cast : F64 → Option ℕ} (hc : CastOk z cast) (L : F64 → F64) (hL : Log2Ok L) :
    diffbitOn cast L (ofBits (BitVec.allOnes 64) : F64) pzero = some 65 := by
  have hd : patDist (ofBits (BitVec.allOnes 64) : F64) pzero = 2 ^ 64 - 1 := by decide +kernel
  obtain ⟨n, h1, -, -, h2⟩ := toUInt_log L hL (2 ^ 64 - 1) (by norm_num) (by norm_num)
  have h3 : Nat.log2 (2 ^ 64 - 1) = 63 := by decide +kernel
  rw [h3] at h2
  rw [diffbitOn_eq (by decide), hd, hc.exact _ _ h1, h2 (by decide +kernel)]

/-- One such file stops the whole run: no histogram of any later file is made. -/
theorem C82_stops {f : Fmt} (c : Cmp2D f) (nick F : Text) (fs : Fs) (h0 : c.fromFile = false) (hn : '\n' ∉ c.name)
    (hF : '\n' ∉ F) (hr : c.rows ≠ []) (listing : List Text) (hm : outName nick F ∈ listing) :
    compare (c.writeFile (outName nick F) fs) listing nick = none := by
  unfold compare
  have hm' : outName nick F ∈ listing.filter fun filename => (nameOf nick filename).isSome :=
    List.mem_filter.2 ⟨hm, by rw [nameOf_out nick F hF]; rfl⟩
  have h := C82_two_inputs c nick F fs h0 hn hF hr
  generalize listing.filter (fun filename => (nameOf nick filename).isSome) = l at hm'
  generalize c.writeFile (outName nick F) fs = fs1 at h
  induction l with
  | nil => simp at hm'
  | cons a l ih =>
    rw [List.mapM_cons]
    rcases List.mem_cons.1 hm' with rfl | hm'
    · rw [h]; rfl
    · rw [ih hm']
      cases study fs1 nick a <;> rfl

/-- The option `-d` lists one directory, but the files are opened in the working directory: if it does not
hold them the script fails. -/
theorem C82_directory (cwd : Fs) (listing : List Text) (nick F : Text) (hF : '\n' ∉ F) (hm : outName nick F ∈ listing)
    (h : cwd (outName nick F) = none) : compare cwd listing nick = none := by
  unfold compare
  have hm' : outName nick F ∈ listing.filter fun filename => (nameOf nick filename).isSome :=
    List.mem_filter.2 ⟨hm, by rw [nameOf_out nick F hF]; rfl⟩
  have h : study cwd nick (outName nick F) = none := by unfold study; rw [h]; rfl
  generalize listing.filter (fun filename => (nameOf nick filename).isSome) = l at hm'
  induction l with
  | nil => simp at hm'
  | cons a l ih =>
    rw [List.mapM_cons]
    rcases List.mem_cons.1 hm' with rfl | hm'
    · rw [h]; rfl
    · rw [ih hm']
      cases study cwd nick a <;> rfl

/-! ### C83 -/

/-- Every input of a list is finite and lies, as read from its decimal text, within the axis drawn for the
function. -/
def OnAxis {f : Fmt} (name : Text) (input : List (FP f)) : Prop :=
  ∀ x ∈ input, x.isFinite = true ∧ ∀ y, Shown (digits10 f) x y →
    ((getYaxisRange (strip name)).1 : ℚ) ≤ y.val ∧ y.val ≤ (getYaxisRange (strip name)).2

theorem onAxis_pool {f : Fmt} (hf : f = b64 ∨ f = b32) (name : Text) (min max : FP f) (eng : Rand.Engine) (size : BitVec 64) (lo hi : ℤ)
    (e : getYaxisRange (strip name) = (lo, hi)) (h1 : |lo| ≤ 2 ^ 53) (h2 : |hi| ≤ 2 ^ 53)
    (hmin : min.isFinite = true) (hmax : max.isFinite = true) (h : min.val ≤ max.val) (h3 : (lo : ℚ) ≤ min.val) (h4 : max.val ≤ hi) :
    OnAxis name (Rand.pool1D eng min max size) := by
  intro x hx
  obtain ⟨a, b, c⟩ := (Rand.C60_pool_range hf min max hmin hmax h eng size).2 x hx
  refine ⟨a, fun y hy => ?_⟩
  rw [e]
  exact hy.between a lo hi h1 h2 (h3.trans b) (c.trans h4)

theorem sym64 (eng : Rand.Engine) (SIZE : BitVec 32) (name : Text) (e : getYaxisRange (strip name) = (-5000, 5000)) :
    OnAxis name (Bench.pools64 eng SIZE).sym :=
  onAxis_pool (Or.inl rfl) name _ _ eng _ _ _ e (by norm_num) (by norm_num) (by decide +kernel) (by decide +kernel) (by decide +kernel)
    (by decide +kernel) (by decide +kernel)

theorem pos64 (eng : Rand.Engine) (SIZE : BitVec 32) (name : Text) (e : getYaxisRange (strip name) = (0, 5000)) :
    OnAxis name (Bench.pools64 eng SIZE).pos :=
  onAxis_pool (Or.inl rfl) name _ _ eng _ _ _ e (by norm_num) (by norm_num) (by decide +kernel) (by decide +kernel) (by decide +kernel)
    (by decide +kernel) (by decide +kernel)

theorem one64 (eng : Rand.Engine) (SIZE : BitVec 32) (name : Text) (e : getYaxisRange (strip name) = (-1, 1)) :
    OnAxis name (Bench.pools64 eng SIZE).one :=
  onAxis_pool (Or.inl rfl) name _ _ eng _ _ _ e (by norm_num) (by norm_num) (by decide +kernel) (by decide +kernel) (by decide +kernel)
    (by decide +kernel) (by decide +kernel)

theorem exp64 (eng : Rand.Engine) (SIZE : BitVec 32) (name : Text) (e : getYaxisRange (strip name) = (-705, 705)) :
    OnAxis name (Bench.pools64 eng SIZE).exp :=
  onAxis_pool (Or.inl rfl) name _ _ eng _ _ _ e (by norm_num) (by norm_num) (by decide +kernel) (by decide +kernel) (by decide +kernel)
    (by decide +kernel) (by decide +kernel)

theorem sym32 (eng : Rand.Engine) (SIZE : BitVec 32) (name : Text) (e : getYaxisRange (strip name) = (-5000, 5000)) :
    OnAxis name (Bench.pools32 eng SIZE).sym :=
  onAxis_pool (Or.inr rfl) name _ _ eng _ _ _ e (by norm_num) (by norm_num) (by decide +kernel) (by decide +kernel) (by decide +kernel)
    (by decide +kernel) (by decide +kernel)

theorem pos32 (eng : Rand.Engine) (SIZE : BitVec 32) (name : Text) (e : getYaxisRange (strip name) = (0, 5000)) :
    OnAxis name (Bench.pools32 eng SIZE).pos :=
  onAxis_pool (Or.inr rfl) name _ _ eng _ _ _ e (by norm_num) (by norm_num) (by decide +kernel) (by decide +kernel) (by decide +kernel)
    (by decide +kernel) (by decide +kernel)

theorem one32 (eng : Rand.Engine) (SIZE : BitVec 32) (name : Text) (e : getYaxisRange (strip name) = (-1, 1)) :
    OnAxis name (Bench.pools32 eng SIZE).one :=
  onAxis_pool (Or.inr rfl) name _ _ eng _ _ _ e (by norm_num) (by norm_num) (by decide +kernel) (by decide +kernel) (by decide +kernel)
    (by decide +kernel) (by decide +kernel)

theorem exp32 (eng : Rand.Engine) (SIZE : BitVec 32) (name : Text) (e : getYaxisRange (strip name) = (-85, 85)) :
    OnAxis name (Bench.pools32 eng SIZE).exp :=
  onAxis_pool (Or.inr rfl) name _ _ eng _ _ _ e (by norm_num) (by norm_num) (by decide +kernel) (by decide +kernel) (by decide +kernel)
    (by decide +kernel) (by decide +kernel)

/-- **C83.**  Every input of a run of the accuracy benchmark, as read back from its decimal text, lies
within the input axis of the histogram of its function; double precision, scalar functions. -/
theorem C83_axis64 (R : Bench.RefMath b64) (vc : Option (Bench.VcFns b64)) (eng : Rand.Engine) (SIZE : BitVec 32) :
    ∀ e ∈ Bench.tuples64 R vc (Bench.pools64 eng SIZE), OnAxis e.name e.input := by
  have h1 := sym64 eng SIZE
  have h2 := pos64 eng SIZE
  have h3 := one64 eng SIZE
  have h4 := exp64 eng SIZE
  generalize Bench.pools64 eng SIZE = P at h1 h2 h3 h4 ⊢
  unfold Bench.tuples64
  cases vc <;>
  · simp only [List.forall_mem_append, List.forall_mem_cons]
    repeat' refine And.intro ?_ ?_
    all_goals first
      | exact h1 _ (by decide)
      | exact h2 _ (by decide)
      | exact h3 _ (by decide)
      | exact h4 _ (by decide)
      | exact fun e he => absurd he (by simp)

/-- C83, double precision, array functions. -/
theorem C83_axisv64 (R : Bench.RefMath b64) (vc : Option (Bench.VcFns b64)) (eng : Rand.Engine) (SIZE : BitVec 32) :
    ∀ e ∈ Bench.tuplesv64 R vc (Bench.pools64 eng SIZE), OnAxis e.name e.input := by
  have h1 := sym64 eng SIZE
  have h2 := pos64 eng SIZE
  have h3 := one64 eng SIZE
  have h4 := exp64 eng SIZE
  generalize Bench.pools64 eng SIZE = P at h1 h2 h3 h4 ⊢
  unfold Bench.tuplesv64
  cases vc <;>
  · simp only [List.forall_mem_append, List.forall_mem_cons]
    repeat' refine And.intro ?_ ?_
    all_goals first
      | exact h1 _ (by decide)
      | exact h2 _ (by decide)
      | exact h3 _ (by decide)
      | exact h4 _ (by decide)
      | exact fun e he => absurd he (by simp)

/-- C83, single precision, scalar functions. -/
theorem C83_axis32 (R : Bench.RefMath b32) (vc : Option (Bench.VcFns b32)) (eng : Rand.Engine) (SIZE : BitVec 32) :
    ∀ e ∈ Bench.tuples32 R vc (Bench.pools32 eng SIZE), OnAxis e.name e.input := by
  have h1 := sym32 eng SIZE
  have h2 := pos32 eng SIZE
  have h3 := one32 eng SIZE
  have h4 := exp32 eng SIZE
  generalize Bench.pools32 eng SIZE = P at h1 h2 h3 h4 ⊢
  unfold Bench.tuples32
  cases vc <;>
  · simp only [List.forall_mem_append, List.forall_mem_cons]
    repeat' refine And.intro ?_ ?_
    all_goals first
      | exact h1 _ (by decide)
      | exact h2 _ (by decide)
      | exact h3 _ (by decide)
      | exact h4 _ (by decide)
      | exact fun e he => absurd he (by simp)

/-- C83, single precision, array functions. -/
theorem C83_axisv32 (R : Bench.RefMath b32) (vc : Option (Bench.VcFns b32)) (eng : Rand.Engine) (SIZE : BitVec 32) :
    ∀ e ∈ Bench.tuplesv32 R vc (Bench.pools32 eng SIZE), OnAxis e.name e.input := by
  have h1 := sym32 eng SIZE
  have h2 := pos32 eng SIZE
  have h3 := one32 eng SIZE
  have h4 := exp32 eng SIZE
  generalize Bench.pools32 eng SIZE = P at h1 h2 h3 h4 ⊢
  unfold Bench.tuplesv32
  cases vc <;>
  · simp only [List.forall_mem_append, List.forall_mem_cons]
    repeat' refine And.intro ?_ ?_
    all_goals first
      | exact h1 _ (by decide)
      | exact h2 _ (by decide)
      | exact h3 _ (by decide)
      | exact h4 _ (by decide)
      | exact fun e he => absurd he (by simp)

/-- The axes: the defaults, and those of the functions with special pools. -/
example : getYaxisRange (strip ‹"Fast_Sin"›) = (-5000, 5000) ∧ getYaxisRange (strip ‹"Fast_Logf"›) = (0, 5000) ∧
    getYaxisRange (strip ‹"Fast_Exp"›) = (-705, 705) ∧ getYaxisRange (strip ‹"Expfv"›) = (-85, 85) ∧
    getYaxisRange (strip ‹"Acosv"›) = (-1, 1) := by decide

end Vdt.Histo
