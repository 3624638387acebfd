import Verif.Model.Mersenne

/-!
# Facts about the random engine

The words of the state as one sequence with its recurrence, and the invertibility of the pieces.
-/

namespace Vdt.Mt

/-! ## The state as a window of one sequence -/

theorem initFrom_length (n i : Nat) (x : Word) : (initFrom n i x).length = n := by
  induction n generalizing i x with
  | zero => rfl
  | succ n ih => simp [initFrom, ih]

theorem init_length (s : Word) : (init s).length = 312 := initFrom_length ..

theorem step_length {s : List Word} (h : s.length = 312) : (step s).length = 312 := by
  simp [step, h]

theorem iter_length (s : Word) (k : Nat) : (step^[k] (init s)).length = 312 := by
  induction k with
  | zero => exact init_length s
  | succ k ih => rw [Function.iterate_succ_apply']; exact step_length ih

/-- The sequence of words: the window after `n` steps begins with word `n`. -/
def word (s : Word) (n : Nat) : Word := (step^[n] (init s)).getD 0 0

theorem step_getD {l : List Word} (h : l.length = 312) {i : Nat} (hi : i < 311) :
    (step l).getD i 0 = l.getD (i + 1) 0 := by
  unfold step
  rw [List.getD_eq_getElem?_getD,
    List.getElem?_append_left (by simp [h]; omega), List.getElem?_tail, List.getD_eq_getElem?_getD]

theorem step_last {l : List Word} (h : l.length = 312) :
    (step l).getD 311 0 = l.getD 156 0 ^^^ matA (join (l.getD 0 0) (l.getD 1 0)) := by
  have e : step l = l.tail ++ [l.getD 156 0 ^^^ matA (join (l.getD 0 0) (l.getD 1 0))] := rfl
  rw [e]
  generalize l.getD 156 0 ^^^ matA (join (l.getD 0 0) (l.getD 1 0)) = v
  rw [List.getD_eq_getElem?_getD, List.getElem?_append_right (by simp [h])]
  simp [h]

theorem window (s : Word) (k i : Nat) (hi : i < 312) : (step^[k] (init s)).getD i 0 = word s (k + i) := by
  induction i generalizing k with
  | zero => rfl
  | succ i ih =>
    rw [← step_getD (iter_length s k) (by omega), ← Function.iterate_succ_apply' step k, ih (k + 1) (by omega)]
    congr 1
    omega

theorem word_rec (s : Word) (k : Nat) :
    word s (k + 312) = word s (k + 156) ^^^ matA (join (word s k) (word s (k + 1))) := by
  have h := step_last (iter_length s k)
  rw [← Function.iterate_succ_apply' step k, window _ _ _ (by omega), window _ _ _ (by omega),
    window _ _ _ (by omega), window _ _ _ (by omega)] at h
  have e : k + 1 + 311 = k + 312 := by omega
  rw [← e]
  exact h

theorem engine_eq (s : Word) (k : Nat) : engine s k = temper (word s (k + 312)) := by
  unfold engine
  rw [window _ _ _ (by omega)]

theorem word_zero (s : Word) : word s 0 = s := rfl

theorem word_one (s : Word) : word s 1 = initNext 1 s := by
  rw [show (1 : Nat) = 0 + 1 from rfl, ← window s 0 1 (by omega)]
  rfl

/-! ## Invertibility -/

theorem xorShr_inj {n : Nat} (hn : 0 < n) (m : Word) {x y : Word}
    (h : x ^^^ ((x >>> n) &&& m) = y ^^^ ((y >>> n) &&& m)) : x = y := by
  have key : ∀ k i, 64 ≤ i + k → x.getLsbD i = y.getLsbD i := by
    intro k
    induction k with
    | zero => intro i hi; rw [BitVec.getLsbD_of_ge x i (by omega), BitVec.getLsbD_of_ge y i (by omega)]
    | succ k ih =>
      intro i hi
      have e := congrArg (fun b => BitVec.getLsbD b i) h
      simp only [BitVec.getLsbD_xor, BitVec.getLsbD_and, BitVec.getLsbD_ushiftRight] at e
      rw [ih (n + i) (by omega)] at e
      generalize (y.getLsbD (n + i) && m.getLsbD i) = b at e
      revert e
      cases x.getLsbD i <;> cases y.getLsbD i <;> cases b <;> simp
  exact BitVec.eq_of_getLsbD_eq fun i _ => key 64 i (by omega)

theorem xorShl_inj {n : Nat} (hn : 0 < n) (m : Word) {x y : Word}
    (h : x ^^^ ((x <<< n) &&& m) = y ^^^ ((y <<< n) &&& m)) : x = y := by
  have key : ∀ k i, i < k → x.getLsbD i = y.getLsbD i := by
    intro k
    induction k with
    | zero => intro i hi; omega
    | succ k ih =>
      intro i hi
      by_cases h64 : 64 ≤ i
      · rw [BitVec.getLsbD_of_ge _ _ h64, BitVec.getLsbD_of_ge _ _ h64]
      have e := congrArg (fun b => BitVec.getLsbD b i) h
      simp only [BitVec.getLsbD_xor, BitVec.getLsbD_and, BitVec.getLsbD_shiftLeft] at e
      have e2 : (decide (i < 64) && !decide (i < n) && x.getLsbD (i - n)) =
          (decide (i < 64) && !decide (i < n) && y.getLsbD (i - n)) := by
        by_cases hin : i < n
        · simp [hin]
        · rw [ih (i - n) (by omega)]
      rw [e2] at e
      generalize (decide (i < 64) && !decide (i < n) && y.getLsbD (i - n) && m.getLsbD i) = b at e
      revert e
      cases x.getLsbD i <;> cases y.getLsbD i <;> cases b <;> simp
  exact BitVec.eq_of_getLsbD_eq fun i hi => key 64 i hi

theorem temper_inj {x y : Word} (h : temper x = temper y) : x = y := by
  unfold temper at h
  refine xorShr_inj (n := 29) (by decide) 0x5555555555555555 ?_
  generalize x ^^^ ((x >>> 29) &&& 0x5555555555555555) = x at h ⊢
  generalize y ^^^ ((y >>> 29) &&& 0x5555555555555555) = y at h ⊢
  refine xorShl_inj (n := 17) (by decide) 0x71D67FFFEDA60000 ?_
  dsimp only at h
  generalize x ^^^ ((x <<< 17) &&& 0x71D67FFFEDA60000) = x at h ⊢
  generalize y ^^^ ((y <<< 17) &&& 0x71D67FFFEDA60000) = y at h ⊢
  refine xorShl_inj (n := 37) (by decide) 0xFFF7EEE000000000 ?_
  generalize x ^^^ ((x <<< 37) &&& 0xFFF7EEE000000000) = x at h ⊢
  generalize y ^^^ ((y <<< 37) &&& 0xFFF7EEE000000000) = y at h ⊢
  refine xorShr_inj (n := 43) (by decide) (BitVec.allOnes 64) ?_
  rw [BitVec.and_allOnes, BitVec.and_allOnes]
  exact h

theorem matA_inj {x y : Word} (h : matA x = matA y) : x = y := by
  have top : ∀ z : Word, (matA z).getLsbD 63 = z.getLsbD 0 := by
    intro z
    unfold matA
    rw [BitVec.getLsbD_xor, BitVec.getLsbD_ushiftRight, BitVec.getLsbD_of_ge z (1 + 63) (by decide)]
    cases z.getLsbD 0
    · rfl
    · rfl
  have h0 : x.getLsbD 0 = y.getLsbD 0 := by rw [← top x, ← top y, h]
  unfold matA at h
  rw [h0] at h
  have h1 : x >>> 1 = y >>> 1 := by
    generalize (if y.getLsbD 0 = true then (0xB5026F5AA96619E9 : Word) else 0) = c at h
    have := congrArg (· ^^^ c) h
    simpa [BitVec.xor_assoc] using this
  refine BitVec.eq_of_getLsbD_eq fun i hi => ?_
  rcases i with _ | i
  · exact h0
  · have := congrArg (fun b => BitVec.getLsbD b i) h1
    simpa [BitVec.getLsbD_ushiftRight, Nat.add_comm] using this

theorem or_and_right (a b c : Word) : (a ||| b) &&& c = (a &&& c) ||| (b &&& c) := by
  rw [BitVec.and_comm, BitVec.and_or_distrib_left, BitVec.and_comm c a, BitVec.and_comm c b]

/-- The joined word tells the upper bits of the first and the lower bits of the second word. -/
theorem join_inj {x y x' y' : Word} (h : join x y = join x' y') :
    x &&& 0xFFFFFFFF80000000 = x' &&& 0xFFFFFFFF80000000 ∧ y &&& 0x7FFFFFFF = y' &&& 0x7FFFFFFF := by
  have hu : ∀ a b : Word, join a b &&& 0xFFFFFFFF80000000 = a &&& 0xFFFFFFFF80000000 := by
    intro a b
    have z : (0x7FFFFFFF : Word) &&& 0xFFFFFFFF80000000 = 0 := by decide
    unfold join
    rw [or_and_right, BitVec.and_assoc, BitVec.and_self, BitVec.and_assoc, z]
    simp
  have hl : ∀ a b : Word, join a b &&& 0x7FFFFFFF = b &&& 0x7FFFFFFF := by
    intro a b
    have z : (0xFFFFFFFF80000000 : Word) &&& 0x7FFFFFFF = 0 := by decide
    unfold join
    rw [or_and_right, BitVec.and_assoc, z, BitVec.and_assoc, BitVec.and_self]
    simp
  exact ⟨by rw [← hu x y, ← hu x' y', h], by rw [← hl x y, ← hl x' y', h]⟩

theorem halves {x x' : Word} (hu : x &&& 0xFFFFFFFF80000000 = x' &&& 0xFFFFFFFF80000000)
    (hl : x &&& 0x7FFFFFFF = x' &&& 0x7FFFFFFF) : x = x' := by
  have e : ∀ a : Word, (a &&& 0xFFFFFFFF80000000) ||| (a &&& 0x7FFFFFFF) = a := by
    intro a
    have z : (0xFFFFFFFF80000000 : Word) ||| 0x7FFFFFFF = BitVec.allOnes 64 := by decide
    rw [← BitVec.and_or_distrib_left, z, BitVec.and_allOnes]
  rw [← e x, ← e x', hu, hl]

theorem initNext_inj {i : Nat} {x y : Word} (h : initNext i x = initNext i y) : x = y := by
  unfold initNext at h
  have h1 := (BitVec.add_left_inj _).1 h
  have hinv : (13877824140714322085 : Word) * initMul = 1#64 := by decide
  have h2 := congrArg (fun b => (13877824140714322085 : Word) * b) h1
  simp only [← BitVec.mul_assoc, hinv] at h2
  rw [BitVec.one_mul, BitVec.one_mul] at h2
  refine xorShr_inj (n := 62) (by decide) (BitVec.allOnes 64) ?_
  rw [BitVec.and_allOnes, BitVec.and_allOnes]
  exact h2

/-! ## The first 312 outputs tell the seed -/

theorem word_join {s t : Word} {k : Nat} (h2 : word s (k + 312) = word t (k + 312))
    (h1 : word s (k + 156) = word t (k + 156)) :
    word s k &&& 0xFFFFFFFF80000000 = word t k &&& 0xFFFFFFFF80000000 ∧
    word s (k + 1) &&& 0x7FFFFFFF = word t (k + 1) &&& 0x7FFFFFFF := by
  rw [word_rec, word_rec, h1] at h2
  refine join_inj (matA_inj ?_)
  generalize word t (k + 156) = c at h2
  have := congrArg (c ^^^ ·) h2
  simpa [← BitVec.xor_assoc] using this

theorem seed_eq {s t : Word} (h : ∀ k < 312, engine s k = engine t k) : s = t := by
  have w1 : ∀ k, 312 ≤ k → k < 624 → word s k = word t k := by
    intro k hk hk2
    obtain ⟨j, rfl⟩ : ∃ j, k = j + 312 := ⟨k - 312, by omega⟩
    have := h j (by omega)
    rw [engine_eq, engine_eq] at this
    exact temper_inj this
  have j1 := fun k (hk : 156 ≤ k) (hk2 : k < 312) =>
    word_join (w1 (k + 312) (by omega) (by omega)) (w1 (k + 156) (by omega) (by omega))
  have w2 : ∀ k, 157 ≤ k → k < 624 → word s k = word t k := by
    intro k hk hk2
    by_cases h3 : 312 ≤ k
    · exact w1 k h3 hk2
    · have a := (j1 k (by omega) (by omega)).1
      have b := (j1 (k - 1) (by omega) (by omega)).2
      rw [show k - 1 + 1 = k by omega] at b
      exact halves a b
  have j2 := fun k (hk : 1 ≤ k) (hk2 : k < 312) =>
    word_join (w2 (k + 312) (by omega) (by omega)) (w2 (k + 156) (by omega) (by omega))
  have w3 : ∀ k, 2 ≤ k → k < 624 → word s k = word t k := by
    intro k hk hk2
    by_cases h3 : 312 ≤ k
    · exact w1 k h3 hk2
    · have a := (j2 k (by omega) (by omega)).1
      have b := (j2 (k - 1) (by omega) (by omega)).2
      rw [show k - 1 + 1 = k by omega] at b
      exact halves a b
  have j3 := word_join (k := 0) (w3 312 (by omega) (by omega)) (w3 156 (by omega) (by omega))
  have w4 : word s 1 = word t 1 := halves (j2 1 (by omega) (by omega)).1 j3.2
  rw [word_one, word_one] at w4
  exact initNext_inj w4

end Vdt.Mt
