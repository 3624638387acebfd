import Verif.Lemmas.FlushLog
import Verif.Lemmas.SincosAcc
import Verif.Lemmas.SincosfAcc

/-! # Sine and cosine when small numbers are flushed to zero -/

namespace Vdt.Flush
open FP details
variable {f : Fmt} {m : Mode}

/-- The number after the smallest normal one. -/
def tiny (f : Fmt) : ℚ := magVal f (2 ^ f.mb + 1)

theorem Keep.tiny {x : FP f} (h : Keep x) (h0 : x.val ≠ 0) : tiny f ≤ |x.val| := by
  rcases h with h | h
  · exact absurd h h0
  · have := mag_le_of_val h
    rw [abs_val]
    unfold Flush.tiny
    rw [magVal_le]
    omega

theorem Keep.abs {x : FP f} (h : Keep x) : Keep (FP.abs x) := by
  unfold Keep at *
  rw [val_abs, abs_eq_zero, abs_abs]
  exact h

/-- An interval and its mirror image. -/
def sides (f : Fmt) (s t : ℚ) : List Az := [⟨s, t, f.emin - f.mb, none⟩, ⟨-t, -s, f.emin - f.mb, none⟩]

/-- The expression is not affected on both. -/
def okZ (e : E f) (s t : ℚ) : Bool := (sides f s t).all fun a => (anZ f (fun _ => some a) e).any fun r => r.t.isNone
/-- Nor is a use of it. -/
def okK (e : E f) (s t : ℚ) : Bool := (sides f s t).all fun a => (anZ f (fun _ => some a) e).any (Az.clear f)

theorem sides_sound [f.Ok] {x : FP f} {s t : ℚ} (hx : x.isFinite = true) (h1 : s ≤ |x.val|) (h2 : |x.val| ≤ t) : ∃ a ∈ sides f s t, a.Sound x x := by
  have g := (sound_upTo hx h2).gv
  rcases le_total 0 x.val with c | c
  · rw [abs_of_nonneg c] at h1 h2
    exact ⟨_, List.mem_cons_self, hx, hx, h1, h2, h1, h2, g, rfl⟩
  · rw [abs_of_nonpos c] at h1 h2
    exact ⟨_, List.mem_cons_of_mem _ List.mem_cons_self, hx, hx, by show -t ≤ _; linarith, by show _ ≤ -s; linarith,
      by show -t ≤ _; linarith, by show _ ≤ -s; linarith, g, rfl⟩

theorem cover_find {P : ℚ → ℚ → Bool} {l : List ℚ} {x : FP f} {a b : ℚ} (h : covers P l = true) (hs : spans l a b = true)
    (h1 : a ≤ |x.val|) (h2 : |x.val| ≤ b) : ∃ s t, P s t = true ∧ s ≤ |x.val| ∧ |x.val| ≤ t := by
  have e : |x.real| = ((|x.val| : ℚ) : ℝ) := by unfold FP.real; push_cast; rfl
  obtain ⟨s, t, hp, p1, p2⟩ := covers_spans h hs (x := |x.real|) (by rw [e]; exact_mod_cast h1) (by rw [e]; exact_mod_cast h2)
  rw [e] at p1 p2
  exact ⟨s, t, hp, by exact_mod_cast p1, by exact_mod_cast p2⟩

theorem core_same [f.Ok] (hm : m.Ok) {e : E f} {l : List ℚ} {B : ℚ} (h : covers (okZ e) l = true) (hs : spans l (tiny f) B = true)
    (h0 : (anZ f (fun _ => some (grid_ 0 0)) e).any (fun r => r.t.isNone) = true) {z : FP f} (hz : z.isFinite = true) (k : Keep z) (hB : |z.val| ≤ B) :
    (evalZ m (fun _ => z) e).v = e.evalF (fun _ => z) := by
  by_cases z0 : z.val = 0
  · exact anZ_same hm (env1 (sound_zero hz z0)) h0
  · obtain ⟨s, t, hp, h1, h2⟩ := cover_find h hs (k.tiny z0) hB
    obtain ⟨a, ha, sa⟩ := sides_sound hz h1 h2
    exact anZ_same hm (env1 sa) (List.all_eq_true.1 hp a ha)

theorem core_keep [f.Ok] (hm : m.Ok) {e : E f} {l : List ℚ} {B : ℚ} (h : covers (okK e) l = true) (hs : spans l (tiny f) B = true)
    (h0 : (anZ f (fun _ => some (grid_ 0 0)) e).any (Az.clear f) = true) {z : FP f} (hz : z.isFinite = true) (k : Keep z) (hB : |z.val| ≤ B) :
    (evalZ m (fun _ => z) e).v = e.evalF (fun _ => z) ∧ Keep (e.evalF (fun _ => z)) := by
  by_cases z0 : z.val = 0
  · exact anZ_keep hm (env1 (sound_zero hz z0)) h0
  · obtain ⟨s, t, hp, h1, h2⟩ := cover_find h hs (k.tiny z0) hB
    obtain ⟨a, ha, sa⟩ := sides_sound hz h1 h2
    exact anZ_keep hm (env1 sa) (List.all_eq_true.1 hp a ha)

/-! ## Double precision -/

/-- include/sincos.h:110 -/
def quadE : E b64 := (E.const ONEOPIO4).mul (.var 0)
/-- include/sincos.h:114 -/
def redE : E b64 := (((E.var 0).sub ((E.var 1).mul (.const DP1))).sub ((E.var 1).mul (.const DP2))).sub ((E.var 1).mul (.const DP3))

theorem quadZ (a : F64) : (of ONEOPIO4 * of a : Z m b64) = evalZ m (fun _ => a) quadE := (rfl)
theorem quadF (a : F64) : ONEOPIO4 * a = quadE.evalF (fun _ => a) := (rfl)
theorem redZ (a y : F64) : (((of a - of y * of DP1) - of y * of DP2) - of y * of DP3 : Z m b64) = evalZ m (two a y) redE := (rfl)
theorem redF (a y : F64) : reduceWith a y = redE.evalF (two a y) := (rfl)
theorem sinZ (z : F64) : (sin45 (of z) : Z m b64) = evalZ m (fun _ => z) sinE := (rfl)
theorem cosZ (z : F64) : (cos45 (of z) : Z m b64) = evalZ m (fun _ => z) cosE := (rfl)

/-- Cut points. -/
def cuts64 : List ℚ := [tiny b64, p2 (-900), p2 (-300), p2 (-150), p2 (-70), p2 (-30), p2 (-12), 1 / 16, 1 / 4, 787 / 1000]

theorem sin_an : covers (okZ sinE) cuts64 = true ∧ spans cuts64 (tiny b64) (787 / 1000) = true ∧
    (anZ b64 (fun _ => some (grid_ 0 0)) sinE).any (fun r => r.t.isNone) = true := by decide +kernel
theorem cos_an : covers (okZ cosE) cuts64 = true ∧ (anZ b64 (fun _ => some (grid_ 0 0)) cosE).any (fun r => r.t.isNone) = true := by decide +kernel
theorem quad_an : covers (okK quadE) [tiny b64, 2 ^ 27] = true ∧ spans [tiny b64, 2 ^ 27] (tiny b64) (2 ^ 27) = true ∧
    (anZ b64 (fun _ => some (grid_ 0 0)) quadE).any (Az.clear b64) = true := by decide +kernel
theorem red_an : (sides b64 (tiny b64) (2 ^ 27)).all (fun a => (anZ b64 (fun i => some (two a (grid_ 0 0) i)) redE).any (Az.clear b64)) = true ∧
    (anZ b64 (fun i => some (two (grid_ 0 0) (grid_ 0 0) i)) redE).any (Az.clear b64) = true ∧
    (anZ b64 (fun i => some (two (from_ b64 (-1) (2 ^ 27)) (grid_ 0 170891322) i)) redE).any (Az.clear b64) = true := by decide +kernel

theorem sin_core (hm : m.Ok) {z : F64} (hz : z.isFinite = true) (k : Keep z) (h : |z.val| ≤ 787 / 1000) :
    (sin45 (of z) : Z m b64).v = (fast_sincos_m45_45 z).1 ∧ (cos45 (of z) : Z m b64).v = (fast_sincos_m45_45 z).2 := by
  rw [sinZ, cosZ, ← sinE_eq, ← cosE_eq]
  exact ⟨core_same hm sin_an.1 sin_an.2.1 sin_an.2.2 hz k h, core_same hm cos_an.1 sin_an.2.1 cos_an.2 hz k h⟩

theorem red_same (hm : m.Ok) {a y : F64} {n : ℤ} (ha : a.isFinite = true) (hy : y.isFinite = true) (hv : y.val = n) (hn : |n| ≤ 170891322)
    (k : Keep a) (h : |a.val| ≤ 2 ^ 27) (h1 : n = 0 ∨ p2 (-1) ≤ |a.val|) :
    (((of a - of y * of DP1) - of y * of DP2) - of y * of DP3 : Z m b64) = of (reduceWith a y) ∧ Keep (reduceWith a y) := by
  have t : (((of a - of y * of DP1) - of y * of DP2) - of y * of DP3 : Z m b64).v = reduceWith a y ∧ Keep (reduceWith a y) := by
    rw [redZ, redF]
    rcases h1 with h1 | h1
    · have sy : (grid_ 0 0).Sound y y := sound_zero hy (by rw [hv, h1, Int.cast_zero])
      by_cases a0 : a.val = 0
      · exact anZ_keep hm (env2 (sound_zero ha a0) sy) red_an.2.1
      · obtain ⟨r, hr, sr⟩ := sides_sound ha (k.tiny a0) h
        exact anZ_keep hm (env2 sr sy) (List.all_eq_true.1 red_an.1 r hr)
    · exact anZ_keep hm (env2 (sound_from ha h h1) (sound_int hy hv (by rw [hv]; exact_mod_cast hn))) red_an.2.2
  exact ⟨eq_of t.1, t.2⟩

theorem sincos_same (hm : m.Ok) {x : F64} (hx : x.isFinite = true) (k : Keep x) (h : |x.val| ≤ 2 ^ 27) : fast_sincos m x = Vdt.fast_sincos x := by
  have ab : |(FP.abs x).val| ≤ 2 ^ 27 := by rw [val_abs, abs_abs]; exact h
  obtain ⟨n, ⟨q1, e1, e2⟩, n1, r1, r2, -, r4, -, -⟩ := reduce64 hx h
  obtain ⟨t1, t2⟩ := core_keep hm quad_an.1 quad_an.2.1 quad_an.2.2 (z := FP.abs x) hx k.abs ab
  rw [← quadZ, ← quadF] at t1
  rw [← quadF] at t2
  have i := ofInt_spec64 (n := 2 * (n : ℤ)) (by
    have : (n : ℤ) ≤ 85445661 := by exact_mod_cast n1
    rw [abs_of_nonneg (by positivity)]; norm_num; omega)
  obtain ⟨s1, s2⟩ := red_same hm (a := FP.abs x) (n := 2 * (n : ℤ)) hx i.1 i.2 (by
    have : (n : ℤ) ≤ 85445661 := by exact_mod_cast n1
    rw [abs_of_nonneg (by positivity)]; omega) k.abs ab (by
    rcases Nat.eq_zero_or_pos n with c | c
    · left; omega
    · right; rw [val_abs, abs_abs, show p2 (-1) = 1 / 2 by decide +kernel]; exact r4 c)
  obtain ⟨c1, c2⟩ := sin_core hm r1 s2 (val_le_real (by push_cast; linarith))
  unfold Vdt.fast_sincos
  rw [fast_sincosM_eq, e1]
  unfold fast_sincos
  dsimp only
  rw [t1, t2.arg hm]
  have st := e1
  unfold quadStep at st
  simp only [Option.bind_eq_bind, Option.pure_def] at st ⊢
  obtain ⟨q, st1, st2⟩ := Option.bind_eq_some_iff.1 st
  rw [st1]
  simp only [Option.bind_some]
  rw [st2]
  simp only [Option.bind_some]
  rw [e2, s1, c1, c2]
  have l : m.lt x (lit 0) = FP.lt x (lit 0) := by
    unfold Mode.lt
    rw [k.arg hm, Keep.arg hm (Or.inl (by decide +kernel))]
  rw [l]
  rfl

/-! ## Single precision -/

/-- include/sincos.h:172 -/
def quadfE : E b32 := (E.const ONEOPIO4F).mul (.var 0)
/-- include/sincos.h:178 -/
def redfE : E b32 := (((E.var 0).sub ((E.var 1).mul (.const DP1F))).sub ((E.var 1).mul (.const DP2F))).sub ((E.var 1).mul (.const DP3F))

theorem quadfZ (a : F32) : (of ONEOPIO4F * of a : Z m b32) = evalZ m (fun _ => a) quadfE := (rfl)
theorem quadfF (a : F32) : ONEOPIO4F * a = quadfE.evalF (fun _ => a) := (rfl)
theorem redfZ (a y : F32) : (((of a - of y * of DP1F) - of y * of DP2F) - of y * of DP3F : Z m b32) = evalZ m (two a y) redfE := (rfl)
theorem redfF (a y : F32) : reduceWithf a y = redfE.evalF (two a y) := (rfl)
theorem sinfZ (z : F32) : (sinf45 (of z) : Z m b32) = evalZ m (fun _ => z) sinfE := (rfl)
theorem cosfZ (z : F32) : (cosf45 (of z) : Z m b32) = evalZ m (fun _ => z) cosfE := (rfl)

/-- Cut points. -/
def cuts32 : List ℚ := [tiny b32, p2 (-99), p2 (-39), p2 (-15), p2 (-6), 1 / 4, 787 / 1000]

theorem sinf_an : covers (okZ sinfE) cuts32 = true ∧ spans cuts32 (tiny b32) (787 / 1000) = true ∧
    (anZ b32 (fun _ => some (grid_ 0 0)) sinfE).any (fun r => r.t.isNone) = true := by decide +kernel
theorem cosf_an : covers (okZ cosfE) cuts32 = true ∧ (anZ b32 (fun _ => some (grid_ 0 0)) cosfE).any (fun r => r.t.isNone) = true := by decide +kernel
theorem quadf_an : covers (okK quadfE) [tiny b32, 8192] = true ∧ spans [tiny b32, 8192] (tiny b32) (8192) = true ∧
    (anZ b32 (fun _ => some (grid_ 0 0)) quadfE).any (Az.clear b32) = true := by decide +kernel
theorem redf_an : (sides b32 (tiny b32) (8192)).all (fun a => (anZ b32 (fun i => some (two a (grid_ 0 0) i)) redfE).any (Az.clear b32)) = true ∧
    (anZ b32 (fun i => some (two (grid_ 0 0) (grid_ 0 0) i)) redfE).any (Az.clear b32) = true ∧
    (anZ b32 (fun i => some (two (from_ b32 (-1) (8192)) (grid_ 0 10432) i)) redfE).any (Az.clear b32) = true := by decide +kernel

theorem sinf_core (hm : m.Ok) {z : F32} (hz : z.isFinite = true) (k : Keep z) (h : |z.val| ≤ 787 / 1000) :
    (sinf45 (of z) : Z m b32).v = (fast_sincosf_m45_45 z).1 ∧ (cosf45 (of z) : Z m b32).v = (fast_sincosf_m45_45 z).2 := by
  rw [sinfZ, cosfZ, ← sinfE_eq, ← cosfE_eq]
  exact ⟨core_same hm sinf_an.1 sinf_an.2.1 sinf_an.2.2 hz k h, core_same hm cosf_an.1 sinf_an.2.1 cosf_an.2 hz k h⟩

theorem redf_same (hm : m.Ok) {a y : F32} {n : ℤ} (ha : a.isFinite = true) (hy : y.isFinite = true) (hv : y.val = n) (hn : |n| ≤ 10432)
    (k : Keep a) (h : |a.val| ≤ 8192) (h1 : n = 0 ∨ p2 (-1) ≤ |a.val|) :
    (((of a - of y * of DP1F) - of y * of DP2F) - of y * of DP3F : Z m b32) = of (reduceWithf a y) ∧ Keep (reduceWithf a y) := by
  have t : (((of a - of y * of DP1F) - of y * of DP2F) - of y * of DP3F : Z m b32).v = reduceWithf a y ∧ Keep (reduceWithf a y) := by
    rw [redfZ, redfF]
    rcases h1 with h1 | h1
    · have sy : (grid_ 0 0).Sound y y := sound_zero hy (by rw [hv, h1, Int.cast_zero])
      by_cases a0 : a.val = 0
      · exact anZ_keep hm (env2 (sound_zero ha a0) sy) redf_an.2.1
      · obtain ⟨r, hr, sr⟩ := sides_sound ha (k.tiny a0) h
        exact anZ_keep hm (env2 sr sy) (List.all_eq_true.1 redf_an.1 r hr)
    · exact anZ_keep hm (env2 (sound_from ha h h1) (sound_int hy hv (by rw [hv]; exact_mod_cast hn))) redf_an.2.2
  exact ⟨eq_of t.1, t.2⟩

theorem sincosf_same (hm : m.Ok) {x : F32} (hx : x.isFinite = true) (k : Keep x) (h : |x.val| ≤ 8192) : fast_sincosf m x = Vdt.fast_sincosf x := by
  have ab : |(FP.abs x).val| ≤ 8192 := by rw [val_abs, abs_abs]; exact h
  obtain ⟨n, ⟨q1, e1, e2⟩, n1, r1, r2, -, r4, -, -⟩ := reduce32 hx h
  obtain ⟨t1, t2⟩ := core_keep hm quadf_an.1 quadf_an.2.1 quadf_an.2.2 (z := FP.abs x) hx k.abs ab
  rw [← quadfZ, ← quadfF] at t1
  rw [← quadfF] at t2
  have i := ofInt_spec32 (n := 2 * (n : ℤ)) (by
    have : (n : ℤ) ≤ 5216 := by exact_mod_cast n1
    rw [abs_of_nonneg (by positivity)]; norm_num; omega)
  obtain ⟨s1, s2⟩ := redf_same hm (a := FP.abs x) (n := 2 * (n : ℤ)) hx i.1 i.2 (by
    have : (n : ℤ) ≤ 5216 := by exact_mod_cast n1
    rw [abs_of_nonneg (by positivity)]; omega) k.abs ab (by
    rcases Nat.eq_zero_or_pos n with c | c
    · left; omega
    · right; rw [val_abs, abs_abs, show p2 (-1) = 1 / 2 by decide +kernel]; exact r4 c)
  obtain ⟨c1, c2⟩ := sinf_core hm r1 s2 (val_le_real (by push_cast; linarith))
  unfold Vdt.fast_sincosf
  rw [fast_sincosfM_eq, e1]
  unfold fast_sincosf
  dsimp only
  rw [t1, t2.arg hm]
  have st := e1
  unfold quadStep at st
  simp only [Option.bind_eq_bind, Option.pure_def] at st ⊢
  obtain ⟨q, st1, st2⟩ := Option.bind_eq_some_iff.1 st
  rw [st1]
  simp only [Option.bind_some]
  rw [st2]
  simp only [Option.bind_some]
  rw [e2, s1, c1, c2]
  have l : m.lt x (ofInt 0) = FP.lt x (ofInt 0) := by
    unfold Mode.lt
    rw [k.arg hm, Keep.arg hm (Or.inl (by decide +kernel))]
  rw [l]
  rfl

end Vdt.Flush
