import Verif.Lemmas.Stats
import Verif.Lemmas.Sqrt
import Mathlib.Algebra.BigOperators.Group.List.Lemmas

/-!
# Performance measurement (C51)
-/

namespace Vdt.Diag
open Vdt.FP

/-- The timings after `r` warm-up rounds, `r` of them. -/
def timings (r : ℕ) (dt : ℕ → BitVec 64) : List ℕ := (List.range r).map fun i => (dt (r + i)).toNat

/-- C51 in full: the mean is that of the `r` timings after the warm-up, divided by the array length,
and the spread is the root of a number that is not negative. -/
def C51_statement : Prop :=
  ∀ (size reps : BitVec 32) (dt : ℕ → BitVec 64), 0 < size.toNat → 0 < reps.toNat → (timings reps.toNat dt).sum < 2 ^ 53 →
    (measure size reps dt).avg = ofRat b64 false ((timings reps.toNat dt).sum / (size.toNat * reps.toNat)) ∧
    (measure size reps dt).rms2.isFinite = true ∧ 0 ≤ (measure size reps dt).rms2.val

theorem foldl_skip (w : ℕ) (dt : ℕ → BitVec 64) (l : List ℕ) (h : ∀ i ∈ l, i < w) (s : BitVec 64 × BitVec 64) :
    l.foldl (fun (s : BitVec 64 × BitVec 64) irep => if irep ≥ w then (s.1 + dt irep, s.2 + dt irep * dt irep) else s) s = s := by
  induction l generalizing s with
  | nil => rfl
  | cons a l ih =>
    rw [List.foldl_cons, if_neg (by have := h a (List.mem_cons_self ..); omega)]
    exact ih (fun i hi => h i (List.mem_cons_of_mem _ hi)) s

theorem foldl_record (w : ℕ) (dt : ℕ → BitVec 64) (l : List ℕ) (s : BitVec 64 × BitVec 64) :
    (l.map (w + ·)).foldl (fun (s : BitVec 64 × BitVec 64) irep => if irep ≥ w then (s.1 + dt irep, s.2 + dt irep * dt irep) else s) s =
      (s.1 + BitVec.ofNat 64 (l.map fun i => (dt (w + i)).toNat).sum,
       s.2 + BitVec.ofNat 64 ((l.map fun i => (dt (w + i)).toNat).map fun d => d * d).sum) := by
  induction l generalizing s with
  | nil => simp
  | cons a l ih =>
    rw [List.map_cons, List.foldl_cons, if_pos (by omega), ih]
    simp only [List.map_cons, List.sum_cons]
    refine Prod.ext ?_ ?_
    · dsimp only
      apply BitVec.eq_of_toNat_eq
      simp only [BitVec.toNat_add, BitVec.toNat_ofNat]
      omega
    · dsimp only
      apply BitVec.eq_of_toNat_eq
      simp only [BitVec.toNat_add, BitVec.toNat_ofNat, BitVec.toNat_mul]
      omega

/-- If the number of rounds does not wrap, exactly the `r` timings after the warm-up are summed. -/
theorem C51_records (reps : BitVec 32) (dt : ℕ → BitVec 64) (h : 2 * reps.toNat < 2 ^ 32) :
    (measureLoop reps dt).1.toNat = (timings reps.toNat dt).sum % 2 ^ 64 ∧
    (measureLoop reps dt).2.toNat = ((timings reps.toNat dt).map fun d => d * d).sum % 2 ^ 64 ∧ (timings reps.toNat dt).length = reps.toNat := by
  have hn : (reps + reps).toNat = reps.toNat + reps.toNat := by rw [BitVec.toNat_add, Nat.mod_eq_of_lt (by omega)]
  unfold measureLoop
  dsimp only
  rw [hn, List.range_add, List.foldl_append, foldl_skip _ _ _ (fun i hi => List.mem_range.1 hi), foldl_record]
  refine ⟨?_, ?_, by simp [timings]⟩
  · dsimp only
    rw [BitVec.toNat_add, BitVec.toNat_ofNat]
    show (0 + _) % _ = _
    rw [Nat.zero_add, Nat.mod_mod]; rfl
  · dsimp only
    rw [BitVec.toNat_add, BitVec.toNat_ofNat]
    show (0 + _) % _ = _
    rw [Nat.zero_add, Nat.mod_mod]; rfl

/-- The measurement without wrap-around. -/
theorem measure_eq (size reps : BitVec 32) (dt : ℕ → BitVec 64) (h : 2 * reps.toNat < 2 ^ 32) (hs : size.toNat * reps.toNat < 2 ^ 32)
    (h1 : (timings reps.toNat dt).sum < 2 ^ 64) (h2 : ((timings reps.toNat dt).map fun d => d * d).sum < 2 ^ 64) :
    (measure size reps dt).avg = ofNat (timings reps.toNat dt).sum / ofNat (size.toNat * reps.toNat) ∧
    (0 < size.toNat * reps.toNat → (measure size reps dt).rms2 = (ofNat ((timings reps.toNat dt).map fun d => d * d).sum -
      ofNat (size.toNat * reps.toNat) * (ofNat (timings reps.toNat dt).sum / ofNat (size.toNat * reps.toNat)) *
        (ofNat (timings reps.toNat dt).sum / ofNat (size.toNat * reps.toNat))) / ofNat (size.toNat * reps.toNat - 1)) := by
  obtain ⟨e1, e2, -⟩ := C51_records reps dt h
  rw [Nat.mod_eq_of_lt h1] at e1
  rw [Nat.mod_eq_of_lt h2] at e2
  have e3 : ((size * reps).setWidth 64 : BitVec 64).toNat = size.toNat * reps.toNat := by
    rw [BitVec.toNat_setWidth, BitVec.toNat_mul, Nat.mod_eq_of_lt hs, Nat.mod_eq_of_lt (by omega)]
  unfold measure meanAndErr
  dsimp only
  rw [e1, e2, e3]
  refine ⟨rfl, fun hpos => ?_⟩
  have e4 : ((size * reps).setWidth 64 - 1 : BitVec 64).toNat = size.toNat * reps.toNat - 1 := by
    rw [BitVec.toNat_sub_of_le (by
      show (1 : BitVec 64).toNat ≤ ((size * reps).setWidth 64 : BitVec 64).toNat
      rw [e3]; exact hpos), e3]
    rfl
  rw [e4]

/-- The mean alone. -/
theorem measure_avg (size reps : BitVec 32) (dt : ℕ → BitVec 64) (h : 2 * reps.toNat < 2 ^ 32) (hs : size.toNat * reps.toNat < 2 ^ 32)
    (h1 : (timings reps.toNat dt).sum < 2 ^ 64) :
    (measure size reps dt).avg = ofNat (timings reps.toNat dt).sum / ofNat (size.toNat * reps.toNat) := by
  obtain ⟨e1, -, -⟩ := C51_records reps dt h
  rw [Nat.mod_eq_of_lt h1] at e1
  have e3 : ((size * reps).setWidth 64 : BitVec 64).toNat = size.toNat * reps.toNat := by
    rw [BitVec.toNat_setWidth, BitVec.toNat_mul, Nat.mod_eq_of_lt hs, Nat.mod_eq_of_lt (by omega)]
  unfold measure meanAndErr
  dsimp only
  rw [e1, e3]

/-- Partial C51, mean: correctly rounded, if neither `2*reps` nor `size*reps` exceeds 32 bits.
Missing: larger products (refuted below). -/
theorem C51_mean_partial (size reps : BitVec 32) (dt : ℕ → BitVec 64) (h : 2 * reps.toNat < 2 ^ 32) (hs : size.toNat * reps.toNat < 2 ^ 32)
    (h0 : 0 < size.toNat) (h0' : 0 < reps.toNat) (h1 : (timings reps.toNat dt).sum < 2 ^ 53) :
    (measure size reps dt).avg = ofRat b64 false ((timings reps.toNat dt).sum / (size.toNat * reps.toNat)) := by
  have hp : 0 < size.toNat * reps.toNat := Nat.mul_pos h0 h0'
  rw [measure_avg size reps dt h hs (by omega), ← Nat.cast_mul]
  generalize size.toNat * reps.toNat = n at *
  generalize (timings reps.toNat dt).sum = t at *
  rw [div_def, div_fin (ofNat_fin (by omega)) (ofNat_fin (by omega)) (by rw [ofNat_exact (by omega)]; exact_mod_cast hp.ne'),
    ofNat_sign, ofNat_sign, ofNat_exact (by omega), ofNat_exact (by omega)]
  rfl

/-- Integers that are not all equal deviate from any centre by at least `1/2` in total. -/
theorem dev_half (l : List ℕ) (c : ℚ) : (∃ a, ∀ d ∈ l, d = a) ∨ 1 / 2 ≤ (l.map fun d : ℕ => ((d : ℚ) - c) ^ 2).sum := by
  cases l with
  | nil => left; exact ⟨0, by simp⟩
  | cons a l =>
    by_cases h : ∀ d ∈ l, d = a
    · left
      refine ⟨a, fun d hd => ?_⟩
      rcases List.mem_cons.1 hd with rfl | hd
      · rfl
      · exact h d hd
    · right
      push Not at h
      obtain ⟨b, hb, hne⟩ := h
      have h1 : ((b : ℚ) - c) ^ 2 ≤ (l.map fun d : ℕ => ((d : ℚ) - c) ^ 2).sum := by
        refine List.single_le_sum ?_ _ (List.mem_map.2 ⟨b, hb, rfl⟩)
        intro x hx
        obtain ⟨d, -, rfl⟩ := List.mem_map.1 hx
        positivity
      have h2 : (1 : ℚ) ≤ ((a : ℚ) - b) ^ 2 := by
        have : (1 : ℤ) ≤ ((a : ℤ) - b) ^ 2 := by
          have : (a : ℤ) - b ≠ 0 := by omega
          have := sq_pos_of_ne_zero this
          omega
        exact_mod_cast this
      rw [List.map_cons, List.sum_cons]
      nlinarith [sq_nonneg ((a : ℚ) - c + (b - c))]

/-- Division of a nonnegative by a positive number. -/
theorem div_nonneg_spec {r d : F64} (hr : r.isFinite = true) (hd : d.isFinite = true) (h0 : 0 ≤ r.val) (h1 : 1 ≤ d.val) (hb : r.val ≤ 2 ^ 100) :
    (r / d).isFinite = true ∧ 0 ≤ (r / d).val := by
  have hle : r.val / d.val ≤ 2 ^ 100 := by rw [div_le_iff₀ (by linarith)]; nlinarith
  have := div_spec hr hd (by linarith) (by
    rw [abs_of_nonneg (div_nonneg h0 (by linarith))]; exact hle.trans (le_trans (by norm_num) big64_ge))
  refine ⟨this.1, ?_⟩
  rw [div_def, this.2]
  exact rnd_nonneg _ (div_nonneg h0 (by linarith))

/-- `T - n·m·m` and its quotient are not negative if the computed `n·m·m` does not exceed `T`. -/
theorem rms_nonneg {T q d : F64} (hT : T.isFinite = true) (hq : q.isFinite = true) (hd : d.isFinite = true) (h0 : 0 ≤ q.val) (h : q.val ≤ T.val)
    (hTb : T.val ≤ 2 ^ 65) (h1 : 1 ≤ d.val) : ((T - q) / d).isFinite = true ∧ 0 ≤ ((T - q) / d).val := by
  have hs := sub_spec hT hq (by rw [abs_of_nonneg (by linarith)]; exact le_trans (by linarith) (le_trans (by norm_num : (2 : ℚ) ^ 65 ≤ 2 ^ 200) big64_ge))
  rw [← sub_def] at hs
  refine div_nonneg_spec hs.1 hd ?_ h1 ?_
  · rw [hs.2]; exact rnd_nonneg _ (by linarith)
  · have e : rnd b64 ((2 : ℚ) ^ 65) = 2 ^ 65 := by decide +kernel
    rw [hs.2]
    refine (rnd_mono b64 (show T.val - q.val ≤ 2 ^ 65 by linarith)).trans ?_
    rw [e]; norm_num

/-- The case of no time at all. -/
theorem zero_case (n : ℕ) (h0 : 2 ≤ n) (hn : n < 2 ^ 32) :
    ((ofNat 0 - ofNat n * (ofNat 0 / ofNat n) * (ofNat 0 / ofNat n)) / ofNat (n - 1)).isFinite = true ∧
    0 ≤ ((ofNat 0 - ofNat n * (ofNat 0 / ofNat n) * (ofNat 0 / ofNat n)) / ofNat (n - 1)).val := by
  have hv : (ofNat n).val = n := ofNat_exact (by omega)
  have hm : ofNat 0 / ofNat n = (ofNat 0 : F64) := by
    rw [div_def, div_fin (ofNat_fin (by omega)) (ofNat_fin (by omega)) (by rw [hv]; exact_mod_cast (by omega : n ≠ 0)), ofNat_sign, ofNat_sign,
      hv, ofNat_exact (by omega)]
    unfold ofNat
    congr 1
    simp
  have hm2 : ofNat n * ofNat 0 = (ofNat 0 : F64) := by
    rw [mul_def, mul_fin (ofNat_fin (by omega)) (ofNat_fin (by omega)), ofNat_sign, ofNat_sign, hv, ofNat_exact (by omega)]
    unfold ofNat
    congr 1
    simp
  have hm3 : ofNat 0 - ofNat 0 * ofNat 0 = (ofNat 0 : F64) := by decide +kernel
  rw [hm, hm2, hm3]
  have h00 : (ofNat 0).val = 0 := by decide +kernel
  refine div_nonneg_spec (ofNat_fin (by omega)) (ofNat_fin (by omega)) (by rw [h00]) ?_ (by rw [h00]; norm_num)
  rw [ofNat_exact (by omega)]; exact_mod_cast (by omega : 1 ≤ n - 1)

/-- The formula for lists of timings: never negative for at least two values per timing, or for
moderately large single timings. -/
theorem rms2_nonneg (l : List ℕ) (size : ℕ) (hl : 0 < l.length) (hn2 : 2 ≤ size * l.length) (hn : size * l.length < 2 ^ 32)
    (h1 : l.sum < 2 ^ 64) (h2 : (l.map fun d => d * d).sum < 2 ^ 64) (hc : 2 ≤ size ∨ (l.map fun d => d * d).sum < 2 ^ 49) :
    ((ofNat (l.map fun d => d * d).sum - ofNat (size * l.length) * (ofNat l.sum / ofNat (size * l.length)) *
        (ofNat l.sum / ofNat (size * l.length))) / ofNat (size * l.length - 1)).isFinite = true ∧
    0 ≤ ((ofNat (l.map fun d => d * d).sum - ofNat (size * l.length) * (ofNat l.sum / ofNat (size * l.length)) *
        (ofNat l.sum / ofNat (size * l.length))) / ofNat (size * l.length - 1)).val := by
  have hcs := cauchy l
  have hsz : 1 ≤ size := by rcases Nat.eq_zero_or_pos size with h | h <;> [(rw [h] at hn2; omega); exact h]
  obtain ⟨n, hnn⟩ : ∃ n, size * l.length = n := ⟨_, rfl⟩
  obtain ⟨S, hS⟩ : ∃ S, l.sum = S := ⟨_, rfl⟩
  obtain ⟨T, hT⟩ : ∃ T, (l.map fun d => d * d).sum = T := ⟨_, rfl⟩
  rw [hnn] at hn2 hn ⊢
  rw [hS] at h1 hcs ⊢
  rw [hT] at h2 hc hcs ⊢
  have hnv : (ofNat n).val = n := ofNat_exact (by omega)
  have hn1v : (1 : ℚ) ≤ (ofNat (n - 1)).val := by rw [ofNat_exact (by omega)]; exact_mod_cast (by omega : 1 ≤ n - 1)
  have hnq : (2 : ℚ) ≤ n := by exact_mod_cast hn2
  have hnq2 : (n : ℚ) ≤ 2 ^ 33 := by exact_mod_cast (by omega : n ≤ 2 ^ 33)
  rcases Nat.eq_zero_or_pos S with hS0 | hS0
  · -- all timings are zero
    have hz : T = 0 := by
      have hall : ∀ d ∈ l, d = 0 := by
        intro d hd
        have := List.single_le_sum (l := l) (fun x _ => Nat.zero_le x) d hd
        omega
      rw [← hT]
      refine List.sum_eq_zero ?_
      intro x hx
      obtain ⟨d, hd, rfl⟩ := List.mem_map.1 hx
      rw [hall d hd, Nat.mul_zero]
    rw [hS0, hz]
    exact zero_case n hn2 hn
  · have hLq : (0 : ℚ) < l.length := by exact_mod_cast hl
    have hT0 : 1 ≤ T := by
      by_contra hlt
      have hz : T = 0 := by omega
      rw [hz, Nat.cast_zero, mul_zero] at hcs
      have : (0 : ℚ) < (S : ℚ) ^ 2 := by positivity
      linarith
    -- the converted sums
    have hS1 : (1 : ℚ) ≤ S := by exact_mod_cast hS0
    have hSb : (S : ℚ) ≤ 2 ^ 64 := by exact_mod_cast h1.le
    have hT1 : (1 : ℚ) ≤ T := by exact_mod_cast hT0
    have hTb : (T : ℚ) ≤ 2 ^ 64 := by exact_mod_cast h2.le
    have one64 : rnd b64 (1 : ℚ) = 1 := by decide +kernel
    have hSv1 : 1 ≤ (ofNat S).val := by rw [ofNat_val]; exact one64.ge.trans (rnd_mono _ hS1)
    have hTv1 : 1 ≤ (ofNat T).val := by rw [ofNat_val]; exact one64.ge.trans (rnd_mono _ hT1)
    have hSvb : (ofNat S).val ≤ 2 ^ 64 := by rw [ofNat_val]; exact (rnd_mono _ hSb).trans (rep_pow 64 le_rfl).le
    have hTvb : (ofNat T).val ≤ 2 ^ 64 := by rw [ofNat_val]; exact (rnd_mono _ hTb).trans (rep_pow 64 le_rfl).le
    obtain ⟨-, -, hqf, hq⟩ := nmm_spec (S := ofNat S) (n := ofNat n) (ofNat_fin h1.le) (ofNat_fin (by omega)) hSv1 (hSvb.trans (by norm_num))
      (by rw [hnv]; linarith) (by rw [hnv]; exact hnq2)
    rw [hnv] at hq
    have hV0 : 0 ≤ (ofNat S).val ^ 2 / n := by positivity
    have hq' := abs_le.1 hq
    have hq0 : 0 ≤ (ofNat n * (ofNat S / ofNat n) * (ofNat S / ofNat n)).val := by
      have : 5 / 2 ^ 53 * ((ofNat S).val ^ 2 / n) ≤ 1 * ((ofNat S).val ^ 2 / n) := mul_le_mul_of_nonneg_right (by norm_num) hV0
      linarith [hq'.1]
    by_cases hsize : 2 ≤ size
    · -- a factor of two to spare
      refine rms_nonneg (ofNat_fin h2.le) hqf (ofNat_fin (by omega)) hq0 ?_ (hTvb.trans (by norm_num)) hn1v
      have rS := (rnd_rel (x := (S : ℚ)) (le_trans (by norm_num) hS1) (hSb.trans (by norm_num))).1
      have rT := (rnd_rel (x := (T : ℚ)) (le_trans (by norm_num) hT1) (hTb.trans (by norm_num))).2
      rw [← ofNat_val] at rS rT
      have hV : (ofNat S).val ^ 2 / n ≤ (S : ℚ) ^ 2 / n * (1 + 1 / 2 ^ 53) ^ 2 := by
        rw [div_mul_eq_mul_div, ← mul_pow]
        gcongr
      have hSn : (S : ℚ) ^ 2 / n ≤ T / 2 := by
        rw [div_le_div_iff₀ (by linarith) (by norm_num)]
        have hnl : (n : ℚ) = size * l.length := by rw [← hnn]; push_cast; ring
        have hs2 : (2 : ℚ) ≤ size := by exact_mod_cast hsize
        have : 2 * (l.length : ℚ) ≤ n := by rw [hnl]; nlinarith
        nlinarith
      have h3 : (ofNat S).val ^ 2 / n ≤ T / 2 * (1 + 1 / 2 ^ 53) ^ 2 := hV.trans (mul_le_mul_of_nonneg_right hSn (by positivity))
      have h4 : (T : ℚ) / 2 * (1 + 1 / 2 ^ 53) ^ 2 * (1 + 5 / 2 ^ 53) ≤ T * (1 - 1 / 2 ^ 53) := by
        have : (1 / 2 : ℚ) * (1 + 1 / 2 ^ 53) ^ 2 * (1 + 5 / 2 ^ 53) ≤ 1 - 1 / 2 ^ 53 := by norm_num
        nlinarith
      have h5 : (ofNat S).val ^ 2 / n * (1 + 5 / 2 ^ 53) ≤ T / 2 * (1 + 1 / 2 ^ 53) ^ 2 * (1 + 5 / 2 ^ 53) :=
        mul_le_mul_of_nonneg_right h3 (by norm_num)
      linarith [hq'.2]
    · -- one value per timing: integers
      have hs1 : size = 1 := by omega
      have hT49 : T < 2 ^ 49 := by rcases hc with h | h <;> [omega; exact h]
      have hln : l.length = n := by rw [← hnn, hs1]; omega
      rw [hln] at hcs hLq
      have hS53 : S ≤ 2 ^ 53 := by
        by_contra hlt
        have h3 : (2 : ℚ) ^ 53 ≤ S := by exact_mod_cast (by omega : 2 ^ 53 ≤ S)
        have h4 : ((2 : ℚ) ^ 53) ^ 2 ≤ (S : ℚ) ^ 2 := by gcongr
        have h5 : (n : ℚ) * T ≤ 2 ^ 33 * 2 ^ 49 := by
          have : (T : ℚ) ≤ 2 ^ 49 := by exact_mod_cast hT49.le
          gcongr
        norm_num at h4 h5
        linarith
      have hSv : (ofNat S).val = S := ofNat_exact hS53
      have hTv : (ofNat T).val = T := ofNat_exact (by omega)
      rw [hSv] at hq' hV0
      have hVT : (S : ℚ) ^ 2 / n ≤ T := by rw [div_le_iff₀ hLq, mul_comm]; exact hcs
      have hdev : (l.map fun d : ℕ => ((d : ℚ) - S / n) ^ 2).sum = T - (S : ℚ) ^ 2 / n := by
        rw [sum_sq_dev, hT, hS, hln]; field_simp; ring
      rcases dev_half l (S / n) with ⟨a, ha⟩ | hhalf
      · -- all timings equal: everything exact
        have hrep : l = List.replicate n a := List.eq_replicate_iff.2 ⟨hln, ha⟩
        have hSa : S = n * a := by rw [← hS, hrep]; simp
        have hTa : T = n * a * a := by rw [← hT, hrep]; simp [mul_assoc]
        have han : a ≤ 2 ^ 53 := by
          have : a ≤ n * a := Nat.le_mul_of_pos_left a (by omega)
          omega
        have hn0 : (n : ℚ) ≠ 0 := hLq.ne'
        have hav : (ofNat a).val = a := ofNat_exact han
        have d1 : (ofNat S / ofNat n).isFinite = true ∧ (ofNat S / ofNat n).val = a := by
          have hq : (ofNat S).val / (ofNat n).val = a := by rw [hSv, hnv, hSa]; push_cast; field_simp
          have := div_spec (ofNat_fin (n := S) h1.le) (ofNat_fin (n := n) (by omega)) (by rw [hnv]; exact hn0) (by rw [hq]; exact abs_nat_big (by omega))
          refine ⟨this.1, ?_⟩
          rw [div_def, this.2, hq, rnd_exact b64 (rep_nat han) (abs_nat_big (by omega))]
        have d2 : (ofNat n * (ofNat S / ofNat n)).isFinite = true ∧ (ofNat n * (ofNat S / ofNat n)).val = ((n * a : ℕ) : ℚ) := by
          have e : (ofNat n).val * (ofNat S / ofNat n).val = ((n * a : ℕ) : ℚ) := by rw [hnv, d1.2]; push_cast; ring
          have := mul_exact (ofNat_fin (n := n) (by omega)) d1.1 (by rw [e]; exact rep_nat (by omega)) (by rw [e]; exact abs_nat_big (by omega))
          exact ⟨this.1, this.2.trans e⟩
        have d3 : (ofNat n * (ofNat S / ofNat n) * (ofNat S / ofNat n)).val = T := by
          have e : (ofNat n * (ofNat S / ofNat n)).val * (ofNat S / ofNat n).val = ((n * a * a : ℕ) : ℚ) := by rw [d2.2, d1.2]; push_cast; ring
          have := mul_exact d2.1 d1.1 (by rw [e]; exact rep_nat (by omega)) (by rw [e]; exact abs_nat_big (by omega))
          rw [this.2, e, hTa]
        exact rms_nonneg (ofNat_fin h2.le) hqf (ofNat_fin (by omega)) hq0 (by rw [d3, hTv]) (hTvb.trans (by norm_num)) hn1v
      · rw [hdev] at hhalf
        refine rms_nonneg (ofNat_fin h2.le) hqf (ofNat_fin (by omega)) hq0 ?_ (hTvb.trans (by norm_num)) hn1v
        rw [hTv]
        have hT49q : (T : ℚ) ≤ 2 ^ 49 := by exact_mod_cast hT49.le
        have h6 : 5 / 2 ^ 53 * ((S : ℚ) ^ 2 / n) ≤ 5 / 2 ^ 53 * 2 ^ 49 := mul_le_mul_of_nonneg_left (hVT.trans hT49q) (by norm_num)
        have h7 : (5 : ℚ) / 2 ^ 53 * 2 ^ 49 ≤ 1 / 2 := by norm_num
        linarith [hq'.2]

/-- Partial C51, spread: not the root of a negative number, if nothing wraps, there are at least two
function calls, and there are at least two calls per timing or the squares stay below `2^49`. -/
theorem C51_spread_partial (size reps : BitVec 32) (dt : ℕ → BitVec 64) (h : 2 * reps.toNat < 2 ^ 32) (hs : size.toNat * reps.toNat < 2 ^ 32)
    (h0 : 0 < reps.toNat) (hn : 2 ≤ size.toNat * reps.toNat) (h1 : (timings reps.toNat dt).sum < 2 ^ 64)
    (h2 : ((timings reps.toNat dt).map fun d => d * d).sum < 2 ^ 64)
    (hc : 2 ≤ size.toNat ∨ ((timings reps.toNat dt).map fun d => d * d).sum < 2 ^ 49) :
    (measure size reps dt).rms2.isFinite = true ∧ 0 ≤ (measure size reps dt).rms2.val := by
  rw [(measure_eq size reps dt h hs h1 h2).2 (by omega)]
  have hl : (timings reps.toNat dt).length = reps.toNat := by simp [timings]
  have := rms2_nonneg (timings reps.toNat dt) size.toNat (by omega) (by rw [hl]; exact hn) (by rw [hl]; exact hs) h1 h2 hc
  rw [hl] at this
  exact this

/-- A root that is not the root of a negative number, in relative terms. -/
theorem sqrt_val_err {x : F64} (hx : x.isFinite = true) (h0 : 0 ≤ x.val) :
    (FP.sqrt x).isFinite = true ∧ 0 ≤ (FP.sqrt x).real ∧ |(FP.sqrt x).real - √x.real| ≤ 1 / 2 ^ 53 * √x.real := by
  rcases h0.eq_or_lt with h | h
  · have e : FP.sqrt x = x := by
      unfold FP.sqrt; rw [finite_not_nan hx, zero_of_val h.symm]; rfl
    have r0 : x.real = 0 := by unfold FP.real; rw [← h]; simp
    rw [e, r0]
    exact ⟨hx, le_rfl, by simp⟩
  · obtain ⟨a, b, c⟩ := sqrt_err (f := b64) (by decide) hx h
    refine ⟨a, ?_, ?_⟩
    · unfold FP.real; exact_mod_cast val_nonneg_of_sign b
    · have u : ((Fmt.u b64 : ℚ) : ℝ) = 1 / 2 ^ 53 := by
        rw [show Fmt.u b64 = 1 / 2 ^ 53 by decide +kernel]; norm_num
      rwa [u] at c

/-- The quotient of two roots. -/
theorem root_quot {x d : F64} (hx : x.isFinite = true) (h0 : 0 ≤ x.val) (hd : d.isFinite = true) (h1 : 1 ≤ d.val) :
    (FP.sqrt x / FP.sqrt d).isFinite = true ∧ 0 ≤ (FP.sqrt x / FP.sqrt d).real ∧
      |(FP.sqrt x / FP.sqrt d).real - √(x.real / d.real)| ≤ 1 / 2 ^ 51 * √(x.real / d.real) + 1 / 2 ^ 1074 := by
  obtain ⟨a1, a2, a3⟩ := sqrt_val_err hx h0
  obtain ⟨b1, b2, b3⟩ := sqrt_val_err hd (by linarith)
  have x0 : 0 ≤ x.real := by unfold FP.real; exact_mod_cast h0
  have d1 : 1 ≤ d.real := by unfold FP.real; exact_mod_cast h1
  have t1 : 1 ≤ √d.real := by rw [Real.one_le_sqrt]; exact d1
  have s0 := Real.sqrt_nonneg x.real
  rw [Real.sqrt_div x0]
  set s := √x.real with hs
  set t := √d.real with ht
  set X := FP.sqrt x with hX
  set D := FP.sqrt d with hD
  obtain ⟨a4, a5⟩ := abs_le.1 a3
  obtain ⟨b4, b5⟩ := abs_le.1 b3
  have D0 : (1 : ℝ) / 2 < D.real := by nlinarith
  have D0q : (1 : ℚ) / 2 < D.val := by
    have : (((1 : ℚ) / 2 : ℚ) : ℝ) < (D.val : ℝ) := by push_cast; exact D0
    exact_mod_cast this
  have X0q : 0 ≤ X.val := by
    have : ((0 : ℚ) : ℝ) ≤ (X.val : ℝ) := by push_cast; exact a2
    exact_mod_cast this
  -- the root is far from the overflow threshold
  have hxb : x.real ≤ (2 ^ 1024 : ℝ) := by
    have h : x.mag ≤ Fmt.infMag b64 := by
      have : x.mag < Fmt.infMag b64 := by simpa [isFinite] using hx
      exact this.le
    have h2 := (magVal_le (f := b64)).2 h
    rw [← abs_val, abs_of_nonneg h0] at h2
    have h3 : magVal b64 (Fmt.infMag b64) ≤ 2 ^ 1024 := by decide +kernel
    have h4 := (Rat.cast_le (K := ℝ)).2 (h2.trans h3)
    push_cast at h4
    exact h4
  have sb : s ≤ 2 ^ 512 := by
    rw [hs, Real.sqrt_le_left (by positivity)]
    calc x.real ≤ 2 ^ 1024 := hxb
      _ = (2 ^ 512 : ℝ) ^ 2 := by rw [← pow_mul]
  have q0 : 0 ≤ X.val / D.val := div_nonneg X0q (by linarith)
  have Xb : X.val ≤ 2 ^ 513 := by
    have : X.real ≤ 2 ^ 513 := by
      have e : (2 : ℝ) ^ 513 = 2 ^ 512 * 2 := pow_succ _ _
      rw [e]
      clear e hxb
      generalize (2 : ℝ) ^ 512 = B at *
      linarith
    exact_mod_cast (show (X.val : ℝ) ≤ ((2 ^ 513 : ℚ) : ℝ) by push_cast; exact this)
  have qb : |X.val / D.val| ≤ Fmt.big b64 := by
    rw [abs_of_nonneg q0, div_le_iff₀ (by linarith)]
    have hb : (2 : ℚ) ^ 514 ≤ Fmt.big b64 := by decide +kernel
    have e : (2 : ℚ) ^ 514 = 2 ^ 513 * 2 := pow_succ _ _
    rw [e] at hb
    have b0 : (0 : ℚ) < 2 ^ 513 := by positivity
    clear e hxb sb
    generalize (2 : ℚ) ^ 513 = B at *
    generalize Fmt.big b64 = C at *
    nlinarith
  have S := div_spec a1 b1 (by linarith) qb
  have e := rnd_err_add b64 qb
  have n0 := rnd_nonneg b64 q0
  rw [← S.2] at e n0
  rw [abs_of_nonneg q0] at e
  have er : |(X / D).real - X.real / D.real| ≤ 1 / 2 ^ 53 * (X.real / D.real) + 1 / 2 ^ 1075 := by
    have u : Fmt.u b64 = 1 / 2 ^ 53 := by decide +kernel
    have v : Fmt.eta b64 = 1 / 2 ^ 1075 := by decide +kernel
    rw [u, v] at e
    have := (Rat.cast_le (K := ℝ)).2 e
    push_cast at this
    exact this
  refine ⟨S.1, ?_, ?_⟩
  · exact (Rat.cast_nonneg (K := ℝ)).2 n0
  · have t0 : 0 < t := by linarith
    have hst : s / t * t = s := div_mul_cancel₀ _ t0.ne'
    have hq : X.real / D.real * D.real = X.real := div_mul_cancel₀ _ (by linarith)
    set q := X.real / D.real with hqd
    set r := s / t with hr
    have r0 : 0 ≤ r := div_nonneg s0 t0.le
    have qn : 0 ≤ q := div_nonneg a2 (by linarith)
    have q1 : q ≤ r * (1 + 21 / 10 / 2 ^ 53) := by
      rw [hqd, div_le_iff₀ (by linarith)]
      have : r * t * (1 + 1 / 2 ^ 53) ≤ r * (1 + 21 / 10 / 2 ^ 53) * (t - 1 / 2 ^ 53 * t) := by
        have : 0 ≤ r * t := by positivity
        nlinarith
      have h2 : r * (1 + 21 / 10 / 2 ^ 53) * (t - 1 / 2 ^ 53 * t) ≤ r * (1 + 21 / 10 / 2 ^ 53) * D.real :=
        mul_le_mul_of_nonneg_left (by linarith) (by positivity)
      nlinarith
    have q2 : r * (1 - 21 / 10 / 2 ^ 53) ≤ q := by
      rw [hqd, le_div_iff₀ (by linarith)]
      have : r * (1 - 21 / 10 / 2 ^ 53) * (t + 1 / 2 ^ 53 * t) ≤ r * t * (1 - 1 / 2 ^ 53) := by
        have : 0 ≤ r * t := by positivity
        nlinarith
      have h2 : r * (1 - 21 / 10 / 2 ^ 53) * D.real ≤ r * (1 - 21 / 10 / 2 ^ 53) * (t + 1 / 2 ^ 53 * t) :=
        mul_le_mul_of_nonneg_left (by linarith) (mul_nonneg r0 (by norm_num))
      nlinarith
    obtain ⟨e1, e2⟩ := abs_le.1 er
    have eta : (1 : ℝ) / 2 ^ 1075 ≤ 1 / 2 ^ 1074 := by
      apply one_div_le_one_div_of_le (by positivity)
      exact pow_le_pow_right₀ (by norm_num) (by norm_num)
    generalize (1 : ℝ) / 2 ^ 1075 = η at *
    generalize (1 : ℝ) / 2 ^ 1074 = η' at *
    rw [abs_le]; constructor <;> linarith

/-- Partial C51, error of the mean: under the same conditions it is the root of the spread squared over
the number `n` of function calls, up to four roundings (`2^-51`). Missing: as for the spread. -/
theorem C51_error_partial (size reps : BitVec 32) (dt : ℕ → BitVec 64) (h : 2 * reps.toNat < 2 ^ 32) (hs : size.toNat * reps.toNat < 2 ^ 32)
    (h0 : 0 < reps.toNat) (hn : 2 ≤ size.toNat * reps.toNat) (h1 : (timings reps.toNat dt).sum < 2 ^ 64)
    (h2 : ((timings reps.toNat dt).map fun d => d * d).sum < 2 ^ 64)
    (hc : 2 ≤ size.toNat ∨ ((timings reps.toNat dt).map fun d => d * d).sum < 2 ^ 49) :
    (measure size reps dt).err.isFinite = true ∧ 0 ≤ (measure size reps dt).err.real ∧
      |(measure size reps dt).err.real - √((measure size reps dt).rms2.real / (size.toNat * reps.toNat : ℕ))| ≤
        1 / 2 ^ 51 * √((measure size reps dt).rms2.real / (size.toNat * reps.toNat : ℕ)) + 1 / 2 ^ 1074 := by
  obtain ⟨a, b⟩ := C51_spread_partial size reps dt h hs h0 hn h1 h2 hc
  have e3 : ((size * reps).setWidth 64 : BitVec 64).toNat = size.toNat * reps.toNat := by
    rw [BitVec.toNat_setWidth, BitVec.toNat_mul, Nat.mod_eq_of_lt hs, Nat.mod_eq_of_lt (by omega)]
  have e : (measure size reps dt).err = FP.sqrt (measure size reps dt).rms2 / FP.sqrt (ofNat (size.toNat * reps.toNat)) := by
    rw [← e3]; rfl
  rw [e]
  generalize (measure size reps dt).rms2 = x at *
  have k := root_quot a b (ofNat_fin (n := size.toNat * reps.toNat) (by omega))
    (by rw [ofNat_exact (by omega)]; exact_mod_cast (show 1 ≤ size.toNat * reps.toNat by omega))
  have r : (ofNat (size.toNat * reps.toNat)).real = (size.toNat * reps.toNat : ℕ) := by
    unfold FP.real; rw [ofNat_exact (by omega)]; exact Rat.cast_natCast _
  rwa [r] at k

/-- Two timings of 2 ns on two elements: spread squared `4/3`, four calls, error `√(1/3)`. -/
example : |(measure 2#32 2#32 fun _ => 2#64).err.val ^ 2 - 1 / 3| ≤ 1 / 2 ^ 52 := by decide +kernel

/-- `2^31` repetitions: the bound of the loop wraps to zero and nothing is recorded. -/
theorem C51_no_rounds (dt : ℕ → BitVec 64) : measureLoop 0x80000000#32 dt = (0, 0) := rfl

/-- `2^16` repetitions on an array of `2^16` elements: the number of calls wraps to zero and the mean is
not finite. -/
theorem C51_calls_wrap (dt : ℕ → BitVec 64) : (measure 0x10000#32 0x10000#32 dt).avg.isFinite = false := by
  have h : ∀ t : F64, (t / ofNat 0).isFinite = false := by
    intro t
    show (FP.div t (ofNat 0)).isFinite = false
    have e0 : ofNat 0 = (zero false : F64) := by decide +kernel
    rw [e0]
    unfold FP.div
    have e1 : (zero false : F64).isNaN = false := by decide +kernel
    have e2 : (zero false : F64).isInf = false := by decide +kernel
    have e3 : (zero false : F64).isZero = true := by decide +kernel
    have e4 : (nan : F64).isFinite = false := by decide +kernel
    have e5 : ∀ s, (FP.inf s : F64).isFinite = false := by decide +kernel
    rw [e1, e2, e3]
    split
    · exact e4
    · split
      · exact e5 _
      · simp only [Bool.false_eq_true, if_false, if_true]
        split
        · exact e4
        · exact e5 _
  exact h _

/-- Two timings of `2^32` ns: the sum of the squares wraps to zero and the spread is the root of a
negative number. -/
theorem C51_squares_wrap : (measure 1#32 2#32 fun _ => 0x100000000#64).rms2.val < 0 ∧
    (measure 1#32 2#32 fun _ => 0x100000000#64).err.isNaN = true := by decide +kernel

/-- A single call: division by zero. -/
theorem C51_single_call : (measure 1#32 1#32 fun _ => 5#64).rms2.isNaN = true := by decide +kernel

/-- The squares of whole-array times are combined with the mean per call, so for arrays the "spread"
does not vanish for constant timings: two timings of 2 ns on two elements give `4/3`. -/
theorem C51_constant_times : (measure 2#32 2#32 fun _ => 2#64).avg.val = 1 ∧
    (measure 2#32 2#32 fun _ => 2#64).rms2 = ofRat b64 false (4 / 3) := by decide +kernel

/-- C51 does not hold. -/
theorem C51_violated : ¬ C51_statement := by
  intro h
  obtain ⟨-, h1, -⟩ := h 1#32 1#32 (fun _ => 5#64) (by decide) (by decide) (by decide)
  have e : (measure 1#32 1#32 fun _ => 5#64).rms2.isFinite = false := by decide +kernel
  rw [e] at h1
  simp at h1

/-- Ten repetitions on a thousand elements, 10000 to 10009 ns each. -/
example : 2 * (10#32).toNat < 2 ^ 32 ∧ (1000#32).toNat * (10#32).toNat < 2 ^ 32 ∧
    (timings (10#32).toNat fun i => BitVec.ofNat 64 (9990 + i)).sum < 2 ^ 53 ∧
    ((timings (10#32).toNat fun i => BitVec.ofNat 64 (9990 + i)).map fun d => d * d).sum < 2 ^ 49 := by decide

end Vdt.Diag
