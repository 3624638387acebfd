import Verif.Float.IntRound

/-! # The sums of the logarithm where the exponent changes

The last sums of `fast_log` and `fast_logf` (include/log.h:113-117 and 187-192) at the largest
reduced argument of one exponent and the smallest of the next, for all exponents. -/

namespace Vdt

/-- The nested roundings: `z` reduced argument, `t` the cubic part, `h` half the square. -/
def sumQ (f : Fmt) (c1 c2 z t h : ℚ) (K : ℤ) : ℚ :=
  rnd f (rnd f (z + rnd f (rnd f (t - rnd f (K * c2)) - h)) + K * c1)

/-- The same for scaled integers. -/
def sumZ (mb : ℕ) (c1 c2 z t h : ℤ) (K : ℤ) : ℤ :=
  zf (rndFZ mb (Int.mul K c2)) fun a =>
  zf (rndFZ mb (Int.sub t a)) fun b =>
  zf (rndFZ mb (Int.sub b h)) fun c =>
  zf (rndFZ mb (Int.add z c)) fun d => rndFZ mb (Int.add d (Int.mul K c1))

theorem sumQ_scaled (f : Fmt) [f.Ok] (s : ℕ) {c1 c2 z t h : ℚ} {C1 C2 Z T H K : ℤ}
    (hs : f.emin ≤ -(s : ℤ)) (hb : p2 10 ≤ f.big) (hsm : s + 10 < f.mb + 32)
    (e1 : c1 = C1 * p2 (-s)) (e2 : c2 = C2 * p2 (-s)) (ez : z = Z * p2 (-s)) (et : t = T * p2 (-s)) (eh : h = H * p2 (-s))
    (bz : |z| ≤ 1) (bt : |t| ≤ 1) (bh : |h| ≤ 1) (b2 : |K * c2| ≤ 1) (b1 : |K * c1| ≤ 1000) :
    sumQ f c1 c2 z t h K = sumZ f.mb C1 C2 Z T H K * p2 (-s) := by
  have R : ∀ (n : ℤ) (k : ℕ), k ≤ 10 → |(n : ℚ) * p2 (-s)| ≤ p2 k →
      rnd f (n * p2 (-s)) = rndFZ f.mb n * p2 (-s) ∧ |rnd f (n * p2 (-s))| ≤ p2 k := by
    intro n k hk h
    have : p2 (k : ℤ) ≤ p2 10 := p2_le (by omega)
    exact rnd_eval f n s k hs (this.trans hb) (by omega) h
  have q0 : p2 ((0 : ℕ) : ℤ) = 1 := by decide +kernel
  have q1 : p2 ((1 : ℕ) : ℤ) = 2 := by decide +kernel
  have q2 : p2 ((2 : ℕ) : ℤ) = 4 := by decide +kernel
  have q3 : p2 ((3 : ℕ) : ℤ) = 8 := by decide +kernel
  have q10 : p2 ((10 : ℕ) : ℤ) = 1024 := by decide +kernel
  unfold sumQ sumZ
  simp only [zf_eq]
  have k1 : (K : ℚ) * c2 = ((Int.mul K C2 : ℤ) : ℚ) * p2 (-s) := by
    rw [e2, show Int.mul K C2 = K * C2 from rfl]; push_cast; ring
  rw [k1] at b2 ⊢
  obtain ⟨r1, a1⟩ := R _ 0 (by omega) (by rw [q0]; exact b2)
  rw [q0] at a1
  have k2 : t - rnd f (((Int.mul K C2 : ℤ) : ℚ) * p2 (-s)) = ((Int.sub T (rndFZ f.mb (Int.mul K C2)) : ℤ) : ℚ) * p2 (-s) := by
    rw [r1, et, show ∀ a b, Int.sub a b = a - b from fun _ _ => rfl]; push_cast; ring
  have c2' : |t - rnd f (((Int.mul K C2 : ℤ) : ℚ) * p2 (-s))| ≤ 2 := by
    rw [abs_le] at *; constructor <;> linarith
  rw [k2] at c2' ⊢
  obtain ⟨r2, a2⟩ := R _ 1 (by omega) (by rw [q1]; exact c2')
  rw [q1] at a2
  generalize rndFZ f.mb (Int.mul K C2) = x1 at *
  generalize Int.sub T x1 = x2 at *
  have k3 : rnd f ((x2 : ℚ) * p2 (-s)) - h = ((Int.sub (rndFZ f.mb x2) H : ℤ) : ℚ) * p2 (-s) := by
    rw [r2, eh, show ∀ a b, Int.sub a b = a - b from fun _ _ => rfl]; push_cast; ring
  have c3 : |rnd f ((x2 : ℚ) * p2 (-s)) - h| ≤ 4 := by
    rw [abs_le] at *; constructor <;> linarith
  rw [k3] at c3 ⊢
  obtain ⟨r3, a3⟩ := R _ 2 (by omega) (by rw [q2]; exact c3)
  rw [q2] at a3
  generalize Int.sub (rndFZ f.mb x2) H = x3 at *
  have k4 : z + rnd f ((x3 : ℚ) * p2 (-s)) = ((Int.add Z (rndFZ f.mb x3) : ℤ) : ℚ) * p2 (-s) := by
    rw [r3, ez, show ∀ a b, Int.add a b = a + b from fun _ _ => rfl]; push_cast; ring
  have c4 : |z + rnd f ((x3 : ℚ) * p2 (-s))| ≤ 8 := by
    rw [abs_le] at *; constructor <;> linarith
  rw [k4] at c4 ⊢
  obtain ⟨r4, a4⟩ := R _ 3 (by omega) (by rw [q3]; exact c4)
  rw [q3] at a4
  generalize Int.add Z (rndFZ f.mb x3) = x4 at *
  have k5 : rnd f ((x4 : ℚ) * p2 (-s)) + K * c1 = ((Int.add (rndFZ f.mb x4) (Int.mul K C1) : ℤ) : ℚ) * p2 (-s) := by
    rw [r4, e1, show ∀ a b, Int.add a b = a + b from fun _ _ => rfl, show Int.mul K C1 = K * C1 from rfl]; push_cast; ring
  have c5 : |rnd f ((x4 : ℚ) * p2 (-s)) + K * c1| ≤ 1024 := by
    rw [abs_le] at *; constructor <;> linarith
  rw [k5] at c5 ⊢
  exact (R _ 10 (by omega) (by rw [q10]; exact c5)).1

/-- The boundary after the exponent `n - b`, for all `n < N`. -/
def sumsOk (mb : ℕ) (c1 c2 zt tt ht zb tb hb : ℤ) (b : ℕ) : ℕ → Bool :=
  Nat.rec true fun n r =>
    nf n fun n => zf (sumZ mb c1 c2 zt tt ht (Int.subNatNat n b)) fun x =>
    zf (sumZ mb c1 c2 zb tb hb (Int.subNatNat (Nat.succ n) b)) fun y =>
    bif (match Int.sub y x with | .ofNat _ => true | .negSucc _ => false) then r else false

theorem sumsOk_sound {mb : ℕ} {c1 c2 zt tt ht zb tb hb : ℤ} {b : ℕ} : ∀ {N : ℕ},
    sumsOk mb c1 c2 zt tt ht zb tb hb b N = true → ∀ K : ℤ, -(b : ℤ) ≤ K → K + b < N →
      sumZ mb c1 c2 zt tt ht K ≤ sumZ mb c1 c2 zb tb hb (K + 1)
  | 0, _, K, h1, h2 => by push_cast at h2; omega
  | N + 1, h, K, h1, h2 => by
    change nf N (fun n => zf (sumZ mb c1 c2 zt tt ht (Int.subNatNat n b)) fun x =>
      zf (sumZ mb c1 c2 zb tb hb (Int.subNatNat (Nat.succ n) b)) fun y =>
      bif (match Int.sub y x with | .ofNat _ => true | .negSucc _ => false) then sumsOk mb c1 c2 zt tt ht zb tb hb b N else false) = true at h
    rw [nf_eq, zf_eq, zf_eq, Int.subNatNat_eq_coe, Int.subNatNat_eq_coe] at h
    generalize hd : Int.sub (sumZ mb c1 c2 zb tb hb (((Nat.succ N : ℕ) : ℤ) - b)) (sumZ mb c1 c2 zt tt ht ((N : ℤ) - b)) = d at h
    cases d with
    | negSucc m => simp at h
    | ofNat m =>
      simp only [cond_true] at h
      rcases lt_or_ge (K + b) N with hl | hl
      · exact sumsOk_sound h K h1 hl
      · have : K = (N : ℤ) - b := by push_cast at h2; omega
        rw [this]
        have h3 : (0 : ℤ) ≤ sumZ mb c1 c2 zb tb hb (((Nat.succ N : ℕ) : ℤ) - b) - sumZ mb c1 c2 zt tt ht ((N : ℤ) - b) := by
          have := Int.natCast_nonneg m
          rw [show Int.ofNat m = (m : ℤ) from rfl] at hd
          rw [← hd] at this
          exact this
        have e : ((Nat.succ N : ℕ) : ℤ) - b = (N : ℤ) - b + 1 := by push_cast; ring
        rw [e] at h3
        omega

set_option maxRecDepth 10000 in
theorem log_sums : sumsOk 52 3197555735433052160 978574132388245 1910222894239003648 83685801386019584 395620114974690944
    (-1350731562094191616) (-49746961068794104) 197810057487345152 1023 2047 = true := by decide +kernel

end Vdt
