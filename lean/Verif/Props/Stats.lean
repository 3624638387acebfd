import Verif.Lemmas.Stats
import Verif.Props.Diffbit
import Mathlib.Algebra.BigOperators.Group.List.Lemmas
import Mathlib.Algebra.Group.Nat.Even
import Mathlib.Data.List.Perm.Basic

/-!
# Statistics of the bit differences (C48)
-/

namespace Vdt.Diag
open Vdt.FP

/-- The (sample) variance of a list. -/
def variance (l : List ℕ) : ℚ :=
  (l.map fun d : ℕ => ((d : ℚ) - (l.sum : ℕ) / l.length) ^ 2).sum / (l.length - 1)

/-- C48 in full; the spread is required only to two digits. -/
def C48_statement : Prop :=
  ∀ l : List ℕ, l ≠ [] → l.length < 2 ^ 32 → (∀ d ∈ l, d ≤ 255) → ∃ s, calcStats Stats.init l = some s ∧
    s.min ∈ l ∧ (∀ d ∈ l, s.min ≤ d) ∧ s.max ∈ l ∧ (∀ d ∈ l, d ≤ s.max) ∧
    s.mean = ofRat b64 false ((l.sum : ℕ) / l.length) ∧ (s.hasDifference = true ↔ ∃ d ∈ l, 0 < d) ∧
    s.rms.isFinite = true ∧ 0 ≤ s.rms.val ∧ |s.rms.val ^ 2 - variance l| ≤ 1 / 100 * (1 + variance l)

/-- The loop: exact sums, running minimum and maximum. -/
theorem foldlM_step (l : List ℕ) (h : ∀ d ∈ l, d ≤ 255) (a b mn mx : ℕ) (ha : a + l.sum ≤ 2 ^ 53)
    (hb : b + (l.map fun d => d * d).sum ≤ 2 ^ 53) :
    l.foldlM Sums.step ⟨ofNat a, ofNat b, mn, mx⟩ =
      some ⟨ofNat (a + l.sum), ofNat (b + (l.map fun d => d * d).sum), l.foldl min mn, l.foldl max mx⟩ := by
  induction l generalizing a b mn mx with
  | nil => simp
  | cons d l ih =>
    have hd := h d (List.mem_cons_self ..)
    simp only [List.sum_cons, List.map_cons] at ha hb ⊢
    have hstep : Sums.step ⟨ofNat a, ofNat b, mn, mx⟩ d = some ⟨ofNat (a + d), ofNat (b + d * d), min mn d, max mx d⟩ := by
      unfold Sums.step
      rw [if_pos (by nlinarith), ofNat_add (by omega), ofNat_add (by omega)]
      have h1 : (if d < mn then d else mn) = min mn d := by split <;> omega
      have h2 : (if d > mx then d else mx) = max mx d := by split <;> omega
      simp only [h1, h2]
    rw [List.foldlM_cons, hstep]
    show l.foldlM Sums.step ⟨ofNat (a + d), ofNat (b + d * d), min mn d, max mx d⟩ = _
    rw [ih (fun x hx => h x (List.mem_cons_of_mem _ hx)) _ _ _ _ (by omega) (by omega)]
    simp only [List.foldl_cons, Nat.add_assoc]

theorem foldl_min (l : List ℕ) (m : ℕ) : l.foldl min m ≤ m ∧ (∀ d ∈ l, l.foldl min m ≤ d) ∧ (l.foldl min m = m ∨ l.foldl min m ∈ l) := by
  induction l generalizing m with
  | nil => simp
  | cons a l ih =>
    obtain ⟨h1, h2, h3⟩ := ih (min m a)
    rw [List.foldl_cons]
    refine ⟨by omega, ?_, ?_⟩
    · intro d hd
      rcases List.mem_cons.1 hd with rfl | hd
      · omega
      · exact h2 d hd
    · rcases h3 with h3 | h3
      · rcases le_total m a with h | h
        · left; omega
        · right; rw [h3, min_eq_right h]; exact List.mem_cons_self ..
      · right; exact List.mem_cons_of_mem _ h3

theorem foldl_max (l : List ℕ) (m : ℕ) : m ≤ l.foldl max m ∧ (∀ d ∈ l, d ≤ l.foldl max m) ∧ (l.foldl max m = m ∨ l.foldl max m ∈ l) := by
  induction l generalizing m with
  | nil => simp
  | cons a l ih =>
    obtain ⟨h1, h2, h3⟩ := ih (max m a)
    rw [List.foldl_cons]
    refine ⟨by omega, ?_, ?_⟩
    · intro d hd
      rcases List.mem_cons.1 hd with rfl | hd
      · omega
      · exact h2 d hd
    · rcases h3 with h3 | h3
      · rcases le_total a m with h | h
        · left; omega
        · right; rw [h3, max_eq_right h]; exact List.mem_cons_self ..
      · right; exact List.mem_cons_of_mem _ h3

theorem sum_le (l : List ℕ) (B : ℕ) (h : ∀ d ∈ l, d ≤ B) : l.sum ≤ l.length * B := by
  induction l with
  | nil => simp
  | cons a l ih =>
    have := ih (fun d hd => h d (List.mem_cons_of_mem _ hd))
    have := h a (List.mem_cons_self ..)
    simp only [List.sum_cons, List.length_cons]
    nlinarith

theorem sums_small (l : List ℕ) (hlen : l.length < 2 ^ 32) (h : ∀ d ∈ l, d ≤ 255) :
    l.sum ≤ 2 ^ 40 ∧ (l.map fun d => d * d).sum ≤ 2 ^ 48 := by
  have h1 := sum_le l 255 h
  have h2 := sum_le (l.map fun d => d * d) 65025 (by
    intro d hd
    obtain ⟨e, he, rfl⟩ := List.mem_map.1 hd
    have := h e he
    nlinarith)
  rw [List.length_map] at h2
  constructor <;> omega

/-- The result in closed form. -/
theorem calcStats_eq (l : List ℕ) (hlen : l.length < 2 ^ 32) (h : ∀ d ∈ l, d ≤ 255) :
    calcStats Stats.init l = some ⟨ofNat l.sum / ofNat l.length,
      if l.length = 1 then lit (-1) else (ofNat (l.map fun d => d * d).sum - ofNat l.length * (ofNat l.sum / ofNat l.length) *
        (ofNat l.sum / ofNat l.length)) / ofNat (BitVec.ofNat 32 l.length - 1).toNat,
      l.foldl min 255, l.foldl max 0⟩ := by
  obtain ⟨h1, h2⟩ := sums_small l hlen h
  have h0 : (lit 0 : F64) = ofNat 0 := by decide +kernel
  have hf := foldlM_step l h 0 0 255 0 (by omega) (by omega)
  simp only [Nat.zero_add] at hf
  unfold calcStats Stats.init
  rw [h0, hf]
  have hn : (BitVec.ofNat 32 l.length).toNat = l.length := by rw [BitVec.toNat_ofNat, Nat.mod_eq_of_lt hlen]
  have hone : (BitVec.ofNat 32 l.length = 1) ↔ l.length = 1 := by
    rw [← BitVec.toNat_inj, hn]; rfl
  show some (Stats.mk _ _ _ _) = _
  rw [hn]
  simp only [hone]

/-- Partial C48: minimum, maximum, correctly rounded mean, `hasDifference`; `m_RMS` is the *variance*
(up to `2^-50 Σd²/(n-1)`), and `-1` for a single entry.  Missing: the root of the variance. -/
theorem C48_stats_partial (l : List ℕ) (hne : l ≠ []) (hlen : l.length < 2 ^ 32) (h : ∀ d ∈ l, d ≤ 255) :
    ∃ s, calcStats Stats.init l = some s ∧
      s.min ∈ l ∧ (∀ d ∈ l, s.min ≤ d) ∧ s.max ∈ l ∧ (∀ d ∈ l, d ≤ s.max) ∧
      s.mean = ofRat b64 false ((l.sum : ℕ) / l.length) ∧ (s.hasDifference = true ↔ ∃ d ∈ l, 0 < d) ∧
      (l.length = 1 → s.rms = lit (-1)) ∧
      (2 ≤ l.length → s.rms.isFinite = true ∧
        |s.rms.val - variance l| ≤ 1 / 2 ^ 50 * (((l.map fun d => d * d).sum : ℕ) / (l.length - 1))) := by
  obtain ⟨hs1, hs2⟩ := sums_small l hlen h
  have hpos : 0 < l.length := List.length_pos_iff.2 hne
  refine ⟨_, calcStats_eq l hlen h, ?_, (foldl_min l 255).2.1, ?_, (foldl_max l 0).2.1, ?_, ?_, ?_, ?_⟩
  · dsimp only
    rcases (foldl_min l 255).2.2 with h' | h'
    · obtain ⟨a, ha⟩ := List.exists_mem_of_ne_nil l hne
      have h1 := (foldl_min l 255).2.1 a ha
      have h2 := h a ha
      have : l.foldl min 255 = a := by omega
      rw [this]; exact ha
    · exact h'
  · dsimp only
    rcases (foldl_max l 0).2.2 with h' | h'
    · obtain ⟨a, ha⟩ := List.exists_mem_of_ne_nil l hne
      have h1 := (foldl_max l 0).2.1 a ha
      have : l.foldl max 0 = a := by omega
      rw [this]; exact ha
    · exact h'
  · dsimp only
    have hn0 : (ofNat l.length).val ≠ 0 := by
      rw [ofNat_exact (by omega)]; exact_mod_cast hpos.ne'
    rw [div_def, div_fin (ofNat_fin (by omega)) (ofNat_fin (by omega)) hn0, ofNat_sign, ofNat_sign,
      ofNat_exact (by omega), ofNat_exact (by omega)]
    rfl
  · unfold Stats.hasDifference
    rw [decide_eq_true_iff]
    dsimp only
    constructor
    · intro hm
      rcases (foldl_max l 0).2.2 with h' | h'
      · omega
      · exact ⟨_, h', hm⟩
    · rintro ⟨d, hd, hd0⟩
      exact lt_of_lt_of_le hd0 ((foldl_max l 0).2.1 d hd)
  · intro h1; dsimp only; rw [if_pos h1]
  · intro h2
    dsimp only
    rw [if_neg (by omega)]
    have hnm : (BitVec.ofNat 32 l.length - 1).toNat = l.length - 1 := by
      rw [BitVec.toNat_sub_of_le (by
        show (1 : BitVec 32).toNat ≤ (BitVec.ofNat 32 l.length).toNat
        rw [BitVec.toNat_ofNat, Nat.mod_eq_of_lt hlen]; show 1 ≤ _; omega), BitVec.toNat_ofNat, Nat.mod_eq_of_lt hlen]
      rfl
    rw [hnm]
    have hnq : (0 : ℚ) < l.length := by exact_mod_cast hpos
    have hcs := cauchy l
    have hvar : variance l = ((((l.map fun d => d * d).sum : ℕ) : ℚ) - ((l.sum : ℕ) : ℚ) ^ 2 / l.length) / (l.length - 1) := by
      unfold variance
      rw [sum_sq_dev]
      congr 1
      field_simp
      ring
    have hv1 : (ofNat l.sum).val = (l.sum : ℕ) := ofNat_exact (by omega)
    have hv2 : (ofNat l.length).val = l.length := ofNat_exact (by omega)
    have hv3 : (ofNat (l.map fun d => d * d).sum).val = ((l.map fun d => d * d).sum : ℕ) := ofNat_exact (by omega)
    have hv4 : (ofNat (l.length - 1)).val = (l.length : ℚ) - 1 := by rw [ofNat_exact (by omega)]; push_cast [Nat.cast_sub (by omega : 1 ≤ l.length)]; rfl
    rcases Nat.eq_zero_or_pos l.sum with h0 | h0
    · -- all entries are zero
      have hz : (l.map fun d => d * d).sum = 0 := by
        have hall : ∀ d ∈ l, d = 0 := by
          intro d hd
          have := List.single_le_sum (l := l) (fun x _ => Nat.zero_le x) d hd
          omega
        refine List.sum_eq_zero ?_
        intro x hx
        obtain ⟨d, hd, rfl⟩ := List.mem_map.1 hx
        rw [hall d hd, Nat.mul_zero]
      rw [hvar, hz, h0]
      have hm : ofNat 0 / ofNat l.length = (ofNat 0 : F64) := by
        rw [div_def, div_fin (ofNat_fin (by omega)) (ofNat_fin (by omega)) (by rw [hv2]; exact hnq.ne'), ofNat_sign, ofNat_sign,
          hv2, ofNat_exact (by omega)]
        unfold ofNat
        congr 1
        simp
      have hm2 : ofNat l.length * ofNat 0 = (ofNat 0 : F64) := by
        rw [mul_def, mul_fin (ofNat_fin (by omega)) (ofNat_fin (by omega)), ofNat_sign, ofNat_sign, hv2, ofNat_exact (by omega)]
        unfold ofNat
        congr 1
        simp
      have hm3 : ofNat 0 - ofNat 0 * ofNat 0 = (ofNat 0 : F64) := by decide +kernel
      have hm4 : ofNat 0 / ofNat (l.length - 1) = (ofNat 0 : F64) := by
        have hne1 : (ofNat (l.length - 1)).val ≠ 0 := by
          rw [hv4]
          have : (2 : ℚ) ≤ l.length := by exact_mod_cast h2
          linarith
        rw [div_def, div_fin (ofNat_fin (by omega)) (ofNat_fin (by omega)) hne1, ofNat_sign, ofNat_sign,
          ofNat_exact (n := 0) (by omega)]
        unfold ofNat
        congr 1
        simp
      rw [hm, hm2, hm3, hm4]
      refine ⟨ofNat_fin (by omega), ?_⟩
      rw [ofNat_exact (by omega)]
      simp
    · have hsum1 : 1 ≤ (l.map fun d => d * d).sum := by
        by_contra hlt
        have hz : (l.map fun d => d * d).sum = 0 := by omega
        rw [hz] at hcs
        have : (0 : ℚ) < ((l.sum : ℕ) : ℚ) ^ 2 := by positivity
        rw [Nat.cast_zero, mul_zero] at hcs
        linarith
      have hV := var_spec (S := ofNat l.sum) (n := ofNat l.length) (T := ofNat (l.map fun d => d * d).sum) (d := ofNat (l.length - 1))
        (ofNat_fin (by omega)) (ofNat_fin (by omega)) (ofNat_fin (by omega)) (ofNat_fin (by omega))
        (by rw [hv1]; exact_mod_cast h0) (by rw [hv1]; exact_mod_cast hs1.trans (by norm_num))
        (by rw [hv2]; exact_mod_cast hpos) (by rw [hv2]; exact_mod_cast hlen.le.trans (by norm_num))
        (by rw [hv3]; exact_mod_cast hsum1) (by rw [hv3]; exact_mod_cast hs2.trans (by norm_num))
        (by rw [hv1, hv2, hv3, div_le_iff₀ hnq, mul_comm]; exact hcs)
        (by rw [hv4]; have : (2 : ℚ) ≤ l.length := by exact_mod_cast h2
            linarith)
        (by rw [hv4]; have : (l.length : ℚ) ≤ 2 ^ 32 := by exact_mod_cast hlen.le
            linarith)
      rw [hv1, hv2, hv3, hv4] at hV
      rw [hvar]
      exact hV

/-- The statistics do not depend on the order of the entries (not even in the last bit). -/
theorem C48_order_irrelevant (l l' : List ℕ) (hp : l.Perm l') (hlen : l.length < 2 ^ 32) (h : ∀ d ∈ l, d ≤ 255) :
    calcStats Stats.init l = calcStats Stats.init l' := by
  rw [calcStats_eq l hlen h, calcStats_eq l' (hp.length_eq ▸ hlen) (fun d hd => h d (hp.mem_iff.2 hd))]
  have e1 : l.foldl min 255 = l'.foldl min 255 := hp.foldl_eq' (fun x _ y _ z => by omega) _
  have e2 : l.foldl max 0 = l'.foldl max 0 := hp.foldl_eq' (fun x _ y _ z => by omega) _
  rw [hp.sum_eq, hp.length_eq, (hp.map _).sum_eq, e1, e2]

/-- The entries that `m_fillBitDiffs` produces are small enough for the theorems above. -/
theorem C48_diffs_bounded (L : F64 → F64) (hL : Log2Ok L) (a b : F64) (a' b' : F32) (n : ℕ)
    (h : diffbit L a b = some n ∨ diffbit L a' b' = some n) : n ≤ 65 := by
  have key : ∀ c : ℕ, c < 2 ^ 64 → toUInt 16 (L (ofNat c) + lit 1) = some n → n ≤ 65 := by
    intro c hc h
    rcases Nat.eq_zero_or_pos c with rfl | h0
    · have h0 : L (ofNat 0) + lit 1 = FP.inf true := by
        have : ofNat 0 = pzero := by decide +kernel
        rw [this, hL.zero]
        decide +kernel
      rw [h0, toUInt_none_of_inf (by decide +kernel)] at h
      simp at h
    · obtain ⟨m, h1, h2, -, -⟩ := toUInt_log L hL c h0 hc
      rw [h] at h1
      have hm : n = m := by simpa using h1
      have : Nat.log2 c < 64 := (Nat.log2_lt (by omega)).2 hc
      omega
  rcases h with h | h
  · rw [diffbit_eq (by decide)] at h
    exact key _ (patDist_lt a b) h
  · rw [diffbit_eq (by decide)] at h
    exact key _ (lt_trans (patDist_lt a' b') (by decide)) h

/-- C48 does not hold: for the differences 0 and 2 the reported spread is 2, the variance, and not its
root. -/
theorem C48_violated : ¬ C48_statement := by
  intro h
  obtain ⟨s, h1, -, -, -, -, -, -, -, -, h2⟩ := h [0, 2] (by simp) (by norm_num) (by decide)
  have e : (calcStats Stats.init [0, 2]).map (fun s => s.rms.val) = some 2 := by decide +kernel
  have hv : variance [0, 2] = 2 := by decide +kernel
  rw [h1] at e
  have e' : s.rms.val = 2 := by simpa using e
  rw [e', hv] at h2
  norm_num at h2

example : [3, 0, 7, 52] ≠ ([] : List ℕ) ∧ [3, 0, 7, 52].length < 2 ^ 32 ∧ ∀ d ∈ [3, 0, 7, 52], d ≤ 255 := by decide
example : [3, 0, 7, 52].Perm [52, 7, 0, 3] := by decide

end Vdt.Diag
