import Verif.Model.Report
import Verif.Props.Diffbit
import Verif.Props.Persist

/-!
# C90: the reports of the unit test programs
-/

namespace Vdt.Report
open FP Txt Diag

/-! ## The bits of a number -/

theorem bitString_getD (v : BitVec 64) {i : ℕ} (hi : i < 64) : (bitString v).getD i ' ' = if v.getLsbD (63 - i) then '1' else '0' := by
  unfold bitString
  rw [List.getD_eq_getElem?_getD, List.getElem?_map, List.getElem?_range hi]
  rfl

theorem digitsVal_snoc (t : Text) (c : Char) : digitsVal 2 (t ++ [c]) = digitsVal 2 t * 2 + (digitVal c).getD 0 := by
  unfold digitsVal; rw [List.foldl_append]; rfl

/-- A part of the string of bits, read as a number. -/
theorem segment (v : BitVec 64) (a n : ℕ) (h : a + n ≤ 64) :
    digitsVal 2 ((List.range' a n).map ((bitString v).getD · ' ')) = v.toNat / 2 ^ (64 - a - n) % 2 ^ n := by
  induction n with
  | zero => simp [digitsVal, Nat.mod_one]
  | succ n ih =>
    rw [List.range'_concat, List.map_append, List.map_singleton, digitsVal_snoc, ih (by omega), bitString_getD v (by omega)]
    have e : 64 - a - n = (64 - a - (n + 1)) + 1 := by omega
    have e2 : 63 - (a + 1 * n) = 64 - a - (n + 1) := by omega
    rw [e, e2]
    generalize 64 - a - (n + 1) = k
    have hb : v.getLsbD k = v.toNat.testBit k := rfl
    rw [hb, Nat.testBit_eq_decide_div_mod_eq]
    have d1 : v.toNat / 2 ^ (k + 1) = v.toNat / 2 ^ k / 2 := by rw [pow_succ, Nat.div_div_eq_div_mul]
    rw [d1]
    generalize v.toNat / 2 ^ k = w
    have m : w % 2 ^ (n + 1) = w / 2 % 2 ^ n * 2 + w % 2 := by
      rw [pow_succ, Nat.mul_comm (2 ^ n) 2, Nat.mod_mul]
      omega
    rw [m]
    rcases Nat.mod_two_eq_zero_or_one w with h0 | h0
    · rw [h0]; rfl
    · rw [h0]; rfl

theorem segment_chars (v : BitVec 64) (a n : ℕ) (h : a + n ≤ 64) : ∀ c ∈ (List.range' a n).map ((bitString v).getD · ' '), c = '0' ∨ c = '1' := by
  intro c hc
  obtain ⟨i, hi, rfl⟩ := List.mem_map.1 hc
  rw [List.mem_range'_1] at hi
  rw [bitString_getD v (by omega)]
  split <;> simp

/-- The three groups of digits are the sign, the exponent field and the mantissa field of the number. -/
def ShowsFields {f : Fmt} (t : Text) (x : FP f) : Prop :=
  ∃ s e m : Text, t = s ++ [' '] ++ e ++ [' '] ++ m ∧ s.length = 1 ∧ e.length = f.eb ∧ m.length = f.mb ∧ (∀ c ∈ s ++ e ++ m, c = '0' ∨ c = '1') ∧
    digitsVal 2 s = (if x.sign then 1 else 0) ∧ digitsVal 2 e = x.mag / 2 ^ f.mb ∧ digitsVal 2 m = x.mag % 2 ^ f.mb

theorem C90_bits (x : F64) : ShowsFields (getbsasstr x) x := by
  have hv : (fp2uint64 x).toNat = x.toBits.toNat := fp2uint64_toNat (by decide) x
  have hb := toBits_toNat x
  have bd := x.bound
  refine ⟨(List.range' 0 1).map ((bitString (fp2uint64 x)).getD · ' '), (List.range' 1 11).map ((bitString (fp2uint64 x)).getD · ' '),
    (List.range' 12 52).map ((bitString (fp2uint64 x)).getD · ' '), rfl, by simp, by simp, by simp, ?_, ?_, ?_, ?_⟩
  · intro c hc
    rcases List.mem_append.1 hc with hc | hc
    · rcases List.mem_append.1 hc with hc | hc
      · exact segment_chars _ 0 1 (by omega) c hc
      · exact segment_chars _ 1 11 (by omega) c hc
    · exact segment_chars _ 12 52 (by omega) c hc
  all_goals
    rw [segment _ _ _ (by omega), hv, hb]
    simp only [Fmt.magCount, b64] at bd ⊢
    cases x.sign <;> simp only [Bool.false_eq_true, if_false, if_true] <;> omega

theorem C90_bitsf (x : F32) : ShowsFields (getbsasstr x) x := by
  have hv : (fp2uint64 x).toNat = x.toBits.toNat := fp2uint64_toNat (by decide) x
  have hb := toBits_toNat x
  have bd := x.bound
  refine ⟨(List.range' 32 1).map ((bitString (fp2uint64 x)).getD · ' '), (List.range' 33 8).map ((bitString (fp2uint64 x)).getD · ' '),
    (List.range' 41 23).map ((bitString (fp2uint64 x)).getD · ' '), rfl, by simp, by simp, by simp, ?_, ?_, ?_, ?_⟩
  · intro c hc
    rcases List.mem_append.1 hc with hc | hc
    · rcases List.mem_append.1 hc with hc | hc
      · exact segment_chars _ 32 1 (by omega) c hc
      · exact segment_chars _ 33 8 (by omega) c hc
    · exact segment_chars _ 41 23 (by omega) c hc
  all_goals
    rw [segment _ _ _ (by omega), hv, hb]
    simp only [Fmt.magCount, b32] at bd ⊢
    cases x.sign <;> simp only [Bool.false_eq_true, if_false, if_true] <;> omega

/-- Such a text determines the number. -/
theorem ShowsFields.inj {f : Fmt} {t : Text} {x y : FP f} (hx : ShowsFields t x) (hy : ShowsFields t y) : x = y := by
  obtain ⟨s, e, m, ht, l1, l2, l3, -, v1, v2, v3⟩ := hx
  obtain ⟨s', e', m', ht', l1', l2', l3', -, v1', v2', v3'⟩ := hy
  rw [ht] at ht'
  simp only [List.append_assoc] at ht'
  obtain ⟨e1, r⟩ := List.append_inj ht' (by omega)
  obtain ⟨-, r⟩ := List.append_inj r rfl
  obtain ⟨e2, r⟩ := List.append_inj r (by omega)
  obtain ⟨-, e3⟩ := List.append_inj r rfl
  subst e1 e2 e3
  rw [v1] at v1'
  rw [v2] at v2'
  rw [v3] at v3'
  ext
  · cases hx : x.sign <;> cases hy : y.sign <;> simp_all
  · have := Nat.div_add_mod x.mag (2 ^ f.mb)
    rw [v2', v3', Nat.div_add_mod] at this
    exact this.symm

/-! ## Whole reports -/

theorem bits_no_newline {f : Fmt} {t : Text} {x : FP f} (h : ShowsFields t x) : '\n' ∉ t := by
  obtain ⟨s, e, m, rfl, -, -, -, hc, -⟩ := h
  intro hn
  have key : ∀ u : Text, (∀ c ∈ u, c = '0' ∨ c = '1') → '\n' ∉ u := by
    intro u hu hn
    rcases hu _ hn with h | h <;> exact absurd h (by decide)
  simp only [List.mem_append, List.mem_singleton, List.append_assoc] at hn hc
  rcases hn with hn | hn | hn | hn | hn
  · exact key s (fun c h => hc c (Or.inl h)) hn
  · exact absurd hn (by decide)
  · exact key e (fun c h => hc c (Or.inr (Or.inl h))) hn
  · exact absurd hn (by decide)
  · exact key m (fun c h => hc c (Or.inr (Or.inr h))) hn

/-- Lines can be taken off the front of a text. -/
theorem cut {a b s t : Text} (ha : '\n' ∉ a) (hb : '\n' ∉ b) (h : a ++ '\n' :: s = b ++ '\n' :: t) : a = b ∧ s = t := by
  induction a generalizing b with
  | nil =>
    cases b with
    | nil => simpa using h
    | cons c b =>
      simp only [List.nil_append, List.cons_append, List.cons.injEq] at h
      exact absurd (by rw [h.1]; exact List.mem_cons_self) hb
  | cons c a ih =>
    cases b with
    | nil =>
      simp only [List.nil_append, List.cons_append, List.cons.injEq] at h
      exact absurd (by rw [← h.1]; exact List.mem_cons_self) ha
    | cons d b =>
      simp only [List.cons_append, List.cons.injEq] at h
      obtain ⟨e1, e2⟩ := ih (fun m => ha (List.mem_cons_of_mem _ m)) (fun m => hb (List.mem_cons_of_mem _ m)) h.2
      exact ⟨by rw [h.1, e1], e2⟩

theorem shows {f : Fmt} (hf : f = b64 ∨ f = b32) (x : FP f) : ShowsFields (getbsasstr x) x := by
  rcases hf with rfl | rfl
  · exact C90_bits x
  · exact C90_bitsf x

/-- One comparison: a line, a line with the difference, the bits of both results and an empty line. -/
structure Entry (f : Fmt) where
  head : Text
  diff : Text
  r1 : FP f
  r2 : FP f

def Entry.text {f : Fmt} (e : Entry f) : Text :=
  e.head ++ '\n' :: (e.diff ++ '\n' :: (getbsasstr e.r1 ++ '\n' :: (getbsasstr e.r2 ++ ['\n', '\n'])))

def Entry.Plain {f : Fmt} (e : Entry f) : Prop := '\n' ∉ e.head ∧ '\n' ∉ e.diff

theorem entries_inj {f : Fmt} (hf : f = b64 ∨ f = b32) : ∀ (l m : List (Entry f)) (_ : ∀ e ∈ l, e.Plain) (_ : ∀ e ∈ m, e.Plain)
    (_ : l.flatMap Entry.text = m.flatMap Entry.text), l = m := by
  intro l
  induction l with
  | nil =>
    intro m _ _ h
    cases m with
    | nil => rfl
    | cons e m => simp [Entry.text] at h
  | cons e l ih =>
    intro m hl hm h
    cases m with
    | nil => simp [Entry.text] at h
    | cons e' m =>
      have p := hl e List.mem_cons_self
      have p' := hm e' List.mem_cons_self
      simp only [List.flatMap_cons, Entry.text, List.append_assoc, List.cons_append, List.nil_append] at h
      obtain ⟨c1, h⟩ := cut p.1 p'.1 h
      obtain ⟨c2, h⟩ := cut p.2 p'.2 h
      obtain ⟨c3, h⟩ := cut (bits_no_newline (shows hf _)) (bits_no_newline (shows hf _)) h
      obtain ⟨c4, h⟩ := cut (bits_no_newline (shows hf _)) (bits_no_newline (shows hf _)) h
      have t := ih m (fun a h => hl a (List.mem_cons_of_mem _ h)) (fun a h => hm a (List.mem_cons_of_mem _ h)) (List.cons.inj h).2
      have q1 : e.r1 = e'.r1 := ShowsFields.inj (shows hf _) (c3 ▸ shows hf _)
      have q2 : e.r2 = e'.r2 := ShowsFields.inj (shows hf _) (c4 ▸ shows hf _)
      rw [t]
      cases e; cases e'
      simp_all

variable {f : Fmt} {L : F64 → F64} {dec : ℕ → FP f → Text} {name : Text}

theorem printDifferentBit_entry (hdec : ∀ p x, '\n' ∉ dec p x) {a b : FP f} {o out : Out} (h : printDifferentBit L dec a b true o = some out) :
    ∃ d, '\n' ∉ d ∧ out = ⟨10, o.text ++ (d ++ '\n' :: (getbsasstr a ++ '\n' :: (getbsasstr b ++ ['\n', '\n'])))⟩ := by
  unfold printDifferentBit at h
  cases hd : diffbit L a b with
  | none => rw [hd] at h; simp at h
  | some n =>
    rw [hd] at h
    simp only [if_true, Option.bind_eq_bind, Option.bind_some, Option.some.injEq] at h
    refine ⟨String.toList "Different bit between " ++ dec 10 a ++ String.toList " and " ++ dec 10 b ++ String.toList " is " ++ printNat 10 n, ?_, ?_⟩
    · simp only [List.mem_append, not_or]
      exact ⟨⟨⟨⟨⟨by decide, hdec _ _⟩, by decide⟩, hdec _ _⟩, by decide⟩, printNat10_nl n⟩
    · rw [← h]; simp only [List.append_assoc, List.cons_append, List.nil_append]

theorem printFuncDiffs_entries (hdec : ∀ p x, '\n' ∉ dec p x) (hname : '\n' ∉ name) {f1 f2 : FP f → Option (FP f)} :
    ∀ (xs : List (FP f)) (o out : Out), printFuncDiffs L dec name f1 f2 xs o = some out →
      ∃ es : List (Entry f), (∀ e ∈ es, e.Plain) ∧ out.text = o.text ++ es.flatMap Entry.text ∧
        xs.map f1 = es.map (fun e => some e.r1) ∧ xs.map f2 = es.map (fun e => some e.r2) := by
  intro xs
  induction xs with
  | nil =>
    intro o out h
    simp only [printFuncDiffs, Option.some.injEq] at h
    exact ⟨[], by simp, by simp [h], rfl, rfl⟩
  | cons x xs ih =>
    intro o out h
    rw [printFuncDiffs, Option.bind_eq_bind, Option.bind_eq_some_iff] at h
    obtain ⟨o', h1, h2⟩ := h
    obtain ⟨es, p, t, m1, m2⟩ := ih _ _ h2
    simp only [printFuncDiff, Option.bind_eq_bind, Option.bind_eq_some_iff] at h1
    obtain ⟨a, ea, b, eb, h1⟩ := h1
    obtain ⟨d, hd, ho⟩ := printDifferentBit_entry hdec h1
    refine ⟨⟨String.toList "Function " ++ name ++ ['('] ++ dec o.prec x ++ [')'], d, a, b⟩ :: es, ?_, ?_, ?_, ?_⟩
    · intro e he
      rcases List.mem_cons.1 he with rfl | he
      · refine ⟨?_, hd⟩
        simp only [List.mem_append, not_or]
        exact ⟨⟨⟨⟨by decide, hname⟩, by decide⟩, hdec _ _⟩, by decide⟩
      · exact p e he
    · rw [t, ho]
      simp only [List.flatMap_cons, Entry.text, List.append_assoc, List.cons_append, List.nil_append]
    · rw [List.map_cons, List.map_cons, m1, ea]
    · rw [List.map_cons, List.map_cons, m2, eb]

theorem printRows_entries (hdec : ∀ p x, '\n' ∉ dec p x) :
    ∀ (rs : List (FP f × FP f × FP f)) (o out : Out), printRows L dec rs o = some out →
      ∃ es : List (Entry f), (∀ e ∈ es, e.Plain) ∧ out.text = o.text ++ es.flatMap Entry.text ∧ rs.map Prod.snd = es.map (fun e => (e.r1, e.r2)) := by
  intro rs
  induction rs with
  | nil =>
    intro o out h
    simp only [printRows, Option.some.injEq] at h
    exact ⟨[], by simp, by simp [h], rfl⟩
  | cons r rs ih =>
    intro o out h
    simp only [printRows, Option.bind_eq_bind, Option.bind_eq_some_iff] at h
    obtain ⟨o', h1, h2⟩ := h
    obtain ⟨es, p, t, m⟩ := ih _ _ h2
    obtain ⟨d, hd, ho⟩ := printDifferentBit_entry hdec h1
    refine ⟨⟨String.toList "Calculated in " ++ dec o.prec r.1, d, r.2.1, r.2.2⟩ :: es, ?_, ?_, ?_⟩
    · intro e he
      rcases List.mem_cons.1 he with rfl | he
      · refine ⟨?_, hd⟩
        simp only [List.mem_append, not_or]
        exact ⟨by decide, hdec _ _⟩
      · exact p e he
    · rw [t, ho]
      simp only [List.flatMap_cons, Entry.text, List.append_assoc, List.cons_append, List.nil_append]
    · rw [List.map_cons, List.map_cons, m]

/-- A report determines all results of both functions. -/
theorem C90_report (hf : f = b64 ∨ f = b32) (L : F64 → F64) (dec : ℕ → FP f → Text) (hdec : ∀ p x, '\n' ∉ dec p x) (name : Text) (hname : '\n' ∉ name)
    (f1 f2 g1 g2 : FP f → Option (FP f)) (xs ys : List (FP f)) (o out : Out) (hx : printFuncDiffs L dec name f1 f2 xs o = some out)
    (hy : printFuncDiffs L dec name g1 g2 ys o = some out) : xs.map f1 = ys.map g1 ∧ xs.map f2 = ys.map g2 := by
  obtain ⟨es, p, t, m1, m2⟩ := printFuncDiffs_entries hdec hname xs o out hx
  obtain ⟨es', p', t', m1', m2'⟩ := printFuncDiffs_entries hdec hname ys o out hy
  have := entries_inj hf es es' p p' (List.append_cancel_left (t.symm.trans t'))
  subst this
  exact ⟨m1.trans m1'.symm, m2.trans m2'.symm⟩

/-- The same for the array functions. -/
theorem C90_report_array (hf : f = b64 ∨ f = b32) (L : F64 → F64) (dec : ℕ → FP f → Text) (hdec : ∀ p x, '\n' ∉ dec p x) (name : Text)
    (f1 f2 g1 g2 : FP f → FP f) (xs ys : List (FP f)) (o out : Out)
    (hx : printArrayDiff L dec name (some ∘ List.map f1) (some ∘ List.map f2) xs o = some out)
    (hy : printArrayDiff L dec name (some ∘ List.map g1) (some ∘ List.map g2) ys o = some out) : xs.map f1 = ys.map g1 ∧ xs.map f2 = ys.map g2 := by
  have shape : ∀ (a b : FP f → FP f) (l : List (FP f)), (l.zip ((l.map a).zip (l.map b))).map Prod.snd = l.map fun x => (a x, b x) := by
    intro a b l
    induction l with
    | nil => rfl
    | cons x l ih => simp only [List.map_cons, List.zip_cons_cons, ih]
  obtain ⟨es, p, t, m⟩ := printRows_entries hdec _ _ _ hx
  obtain ⟨es', p', t', m'⟩ := printRows_entries hdec _ _ _ hy
  have := entries_inj hf es es' p p' (List.append_cancel_left (t.symm.trans t'))
  subst this
  have q := m.trans m'.symm
  rw [shape, shape] at q
  constructor
  · have r := congrArg (List.map Prod.fst) q
    rw [List.map_map, List.map_map] at r
    exact r
  · have r := congrArg (List.map Prod.snd) q
    rw [List.map_map, List.map_map] at r
    exact r

/-- Whether anything comes out of the program: every pair of results has to be different.  Missing: equal results, see below. -/
theorem C90_defined_partial (hf : f = b64 ∨ f = b32) (L : F64 → F64) (hL : Log2Ok L) (dec : ℕ → FP f → Text) (name : Text) (f1 f2 : FP f → FP f)
    (xs : List (FP f)) (o : Out) : (printFuncDiffs L dec name (some ∘ f1) (some ∘ f2) xs o).isSome ↔ ∀ x ∈ xs, f1 x ≠ f2 x := by
  have hd : ∀ a b : FP f, (diffbit L a b).isSome ↔ a ≠ b := by
    rcases hf with rfl | rfl
    · intro a b
      refine ⟨fun h e => ?_, fun h => ?_⟩
      · rw [e, (C47_equal_undefined L hL b pzero).1] at h; simp at h
      · obtain ⟨n, hn, -⟩ := C47_diffbit_partial L hL a b h
        rw [hn]; rfl
    · intro a b
      refine ⟨fun h e => ?_, fun h => ?_⟩
      · rw [e, (C47_equal_undefined L hL pzero b).2] at h; simp at h
      · obtain ⟨n, hn, -⟩ := C47_diffbitf_partial L hL a b h
        rw [hn]; rfl
  induction xs generalizing o with
  | nil => simp [printFuncDiffs]
  | cons x xs ih =>
    rw [List.forall_mem_cons, ← hd]
    simp only [printFuncDiffs, printFuncDiff, printDifferentBit, Function.comp_apply, Option.bind_eq_bind, Option.bind_some]
    cases diffbit L (f1 x) (f2 x) with
    | none => simp
    | some n => simpa using ih _

/-- Two different functions give a report: exactly the bits of the results 2 and 3, 4 and 5. -/
example : ∃ L : F64 → F64, Log2Ok L ∧
    (printFuncDiffs L (fun _ _ => String.toList "x") (String.toList "f") (some ∘ fun x : F64 => x) (some ∘ fun x => x + lit 1) [lit 2, lit 4] Out.start).isSome := by
  obtain ⟨L, hL⟩ := log2Ok_exists
  refine ⟨L, hL, (C90_defined_partial (Or.inl rfl) L hL _ _ _ _ _ _).2 ?_⟩
  simp only [List.mem_cons, List.not_mem_nil, or_false, forall_eq_or_imp, forall_eq]
  decide +kernel

/-- The bits of -3. -/
example : getbsasstr (-lit 3 : F32) = String.toList "1 10000000 10000000000000000000000" := by decide +kernel

/-- C90 in full, for a given `log2`: the test programs report their results. -/
def C90_statement (L : F64 → F64) : Prop :=
  ∀ (dec32 : ℕ → F32 → Text) (dec64 : ℕ → F64 → Text),
    (fpDifferentBit L dec32 dec64).isSome ∧ (sqrtTest L dec32 dec64).isSome ∧ (invTestStart L dec64).isSome

theorem fpDifferentBit_none (L : F64 → F64) (hL : Log2Ok L) (dec32 : ℕ → F32 → Text) (dec64 : ℕ → F64 → Text) : fpDifferentBit L dec32 dec64 = none := by
  unfold fpDifferentBit
  have h : ∀ o, printDifferentBit L dec32 (lit 4 : F32) (lit 4) true o = none := by
    intro o
    unfold printDifferentBit
    rw [(C47_equal_undefined L hL pzero (lit 4)).2]; rfl
  simp only [h, Option.bind_eq_bind, Option.bind_none, Option.bind_fun_none]

theorem isqrt_four : isqrt (lit 4) = fast_isqrt (lit 4) := by decide +kernel
theorem inv_one : inv (lit 1) = fast_inv (lit 1) := by decide +kernel

theorem sqrtTest_none (L : F64 → F64) (hL : Log2Ok L) (dec32 : ℕ → F32 → Text) (dec64 : ℕ → F64 → Text) : sqrtTest L dec32 dec64 = none := by
  have h : printFuncDiffs L dec64 (String.toList "isqrt") (some ∘ isqrt) (some ∘ fast_isqrt) sqrtVals Out.start = none := by
    rw [← Option.not_isSome_iff_eq_none, C90_defined_partial (Or.inl rfl) L hL]
    intro h
    exact h (lit 4) (by unfold sqrtVals; simp only [List.mem_cons, true_or, or_true]) isqrt_four
  unfold sqrtTest
  rw [h]; rfl

theorem invTestStart_none (L : F64 → F64) (hL : Log2Ok L) (dec64 : ℕ → F64 → Text) : invTestStart L dec64 = none := by
  unfold invTestStart
  rw [← Option.not_isSome_iff_eq_none, C90_defined_partial (Or.inl rfl) L hL]
  intro h
  exact h (lit 1) (by unfold invVals; simp only [List.mem_cons, true_or, or_true]) inv_one

/-- None of the three programs has defined behaviour: `diffbit` of equal numbers converts minus infinity to `uint16_t`. -/
theorem C90_violated (L : F64 → F64) (hL : Log2Ok L) :
    ¬ C90_statement L ∧ ∀ (dec32 : ℕ → F32 → Text) (dec64 : ℕ → F64 → Text),
      fpDifferentBit L dec32 dec64 = none ∧ sqrtTest L dec32 dec64 = none ∧ invTestStart L dec64 = none := by
  have h := fun (dec32 : ℕ → F32 → Text) (dec64 : ℕ → F64 → Text) =>
    And.intro (fpDifferentBit_none L hL dec32 dec64) (And.intro (sqrtTest_none L hL dec32 dec64) (invTestStart_none L hL dec64))
  refine ⟨fun s => ?_, h⟩
  have := (s (fun _ _ => []) (fun _ _ => [])).1
  rw [(h _ _).1] at this
  simp at this

theorem diffbit_same (hf : f = b64 ∨ f = b32) (hL : Log2Ok L) (a : FP f) : diffbit L a a = none := by
  rcases hf with rfl | rfl
  · exact (C47_equal_undefined L hL a pzero).1
  · exact (C47_equal_undefined L hL pzero a).2

/-- One argument with equal (or no) results is enough. -/
theorem undefined_of_same (hf : f = b64 ∨ f = b32) (hL : Log2Ok L) {f1 f2 : FP f → Option (FP f)} {x : FP f} (hx : f1 x = f2 x) :
    ∀ (xs : List (FP f)) (o : Out), x ∈ xs → printFuncDiffs L dec name f1 f2 xs o = none := by
  intro xs
  induction xs with
  | nil => intro o h; simp at h
  | cons y ys ih =>
    intro o h
    rw [printFuncDiffs]
    rcases List.mem_cons.1 h with rfl | h
    · have : printFuncDiff L dec name f1 f2 x o = none := by
        unfold printFuncDiff
        rw [hx]
        cases f2 x with
        | none => rfl
        | some r =>
          simp only [Option.bind_eq_bind, Option.bind_some, printDifferentBit]
          rw [diffbit_same hf hL]; rfl
      rw [this]; rfl
    · cases printFuncDiff L dec name f1 f2 y o with
      | none => rfl
      | some o' => exact ih o' h

theorem undefined_of_same2 (hf : f = b64 ∨ f = b32) (hL : Log2Ok L) {f1 f2 : FP f → FP f → Option (FP f)} {x : FP f × FP f} (hx : f1 x.1 x.2 = f2 x.1 x.2) :
    ∀ (xs : List (FP f × FP f)) (o : Out), x ∈ xs → printFuncDiffs2 L dec name f1 f2 xs o = none := by
  intro xs
  induction xs with
  | nil => intro o h; simp at h
  | cons y ys ih =>
    intro o h
    rw [printFuncDiffs2]
    rcases List.mem_cons.1 h with rfl | h
    · have : printFuncDiff2 L dec name f1 f2 x.1 x.2 o = none := by
        unfold printFuncDiff2
        rw [hx]
        cases f2 x.1 x.2 with
        | none => rfl
        | some r =>
          simp only [Option.bind_eq_bind, Option.bind_some, printDifferentBit]
          rw [diffbit_same hf hL]; rfl
      rw [this]; rfl
    · cases printFuncDiff2 L dec name f1 f2 y.1 y.2 o with
      | none => rfl
      | some o' => exact ih o' h

/-- With a C library that has the exact values of Annex F of the C standard (`exp(0) = 1`, `acos(1) = 0` and zero at zero) the tests of seven
more functions are undefined too. -/
theorem C90_violated_libm (L : F64 → F64) (hL : Log2Ok L) (dec32 : ℕ → F32 → Text) (dec64 : ℕ → F64 → Text) (exp tan tanh asin acos atan : F64 → F64)
    (atan2f : F32 → F32 → F32) (h1 : exp (lit 0) = lit 1) (h2 : tan (lit 0) = lit 0) (h3 : tanh (lit 0) = lit 0) (h4 : asin (lit 0) = lit 0)
    (h5 : acos (lit 1) = lit 0) (h6 : atan (lit 0) = lit 0) (h7 : atan2f (lit 0) (lit 0) = lit 0) :
    expTestStart L dec64 exp = none ∧ tanTestStart L dec64 tan = none ∧ tanhTestStart L dec64 tanh = none ∧ asinTestStart L dec64 asin = none ∧
    acosTestStart L dec64 acos = none ∧ atanTestStart L dec64 atan = none ∧ atan2TestStart L dec32 atan2f = none := by
  refine ⟨undefined_of_same (Or.inl rfl) hL (x := lit 0) ?_ _ _ ?_, undefined_of_same (Or.inl rfl) hL (x := lit 0) ?_ _ _ ?_,
    undefined_of_same (Or.inl rfl) hL (x := lit 0) ?_ _ _ ?_, undefined_of_same (Or.inl rfl) hL (x := lit 0) ?_ _ _ ?_,
    undefined_of_same (Or.inl rfl) hL (x := lit 1) ?_ _ _ ?_, undefined_of_same (Or.inl rfl) hL (x := lit 0) ?_ _ _ ?_,
    undefined_of_same2 (Or.inr rfl) hL (x := (lit 0, lit 0)) ?_ _ _ ?_⟩
  · rw [Function.comp_apply, h1]; decide +kernel
  · simp only [List.mem_cons, true_or, or_true]
  · rw [Function.comp_apply, h2]; decide +kernel
  · simp only [List.mem_cons, true_or, or_true]
  · rw [Function.comp_apply, Function.comp_apply, h3]; decide +kernel
  · simp only [List.mem_cons, true_or, or_true]
  · rw [Function.comp_apply, Function.comp_apply, h4]; decide +kernel
  · simp only [asinVals, List.mem_cons, true_or, or_true]
  · rw [Function.comp_apply, Function.comp_apply, h5]; decide +kernel
  · simp only [asinVals, List.mem_cons, true_or, or_true]
  · rw [Function.comp_apply, Function.comp_apply, h6]; decide +kernel
  · simp only [List.mem_cons, true_or, or_true]
  · dsimp only; rw [h7]; decide +kernel
  · simp only [List.zip_cons_cons, List.mem_cons, true_or, or_true]

/-- The fast functions have these values themselves. -/
example : fast_exp (lit 0) = some (lit 1) ∧ fast_tan (lit 0) = some (lit 0) ∧ fast_tanh (lit 0) = lit 0 ∧ fast_asin (lit 0) = lit 0 ∧
    fast_acos (lit 1) = lit 0 ∧ fast_atan (lit 0) = lit 0 ∧ fast_atan2f (lit 0) (lit 0) = lit 0 := by decide +kernel

/-- The report of a number depends on what was printed before it: the first argument is written with six digits, the next ones with ten. -/
theorem C90_precision (L : F64 → F64) (hL : Log2Ok L) (dec : ℕ → F64 → Text) (name : Text) (f1 f2 : F64 → F64) (x y : F64) (hx : f1 x ≠ f2 x) (hy : f1 y ≠ f2 y) :
    ∃ b c : Text, (printFuncDiffs L dec name (some ∘ f1) (some ∘ f2) [x, y] Out.start).map Out.text =
      some (String.toList "Function " ++ name ++ ['('] ++ dec 6 x ++ [')', '\n'] ++ b ++ String.toList "Function " ++ name ++ ['('] ++ dec 10 y ++ [')', '\n'] ++ c) := by
  obtain ⟨n, hn, -⟩ := C47_diffbit_partial L hL _ _ hx
  obtain ⟨m, hm, -⟩ := C47_diffbit_partial L hL _ _ hy
  refine ⟨String.toList "Different bit between " ++ dec 10 (f1 x) ++ String.toList " and " ++ dec 10 (f2 x) ++ String.toList " is " ++ printNat 10 n ++ ['\n'] ++
    (getbsasstr (f1 x) ++ ['\n'] ++ getbsasstr (f2 x) ++ ['\n', '\n']),
    String.toList "Different bit between " ++ dec 10 (f1 y) ++ String.toList " and " ++ dec 10 (f2 y) ++ String.toList " is " ++ printNat 10 m ++ ['\n'] ++
    (getbsasstr (f1 y) ++ ['\n'] ++ getbsasstr (f2 y) ++ ['\n', '\n']), ?_⟩
  simp only [printFuncDiffs, printFuncDiff, printDifferentBit, Function.comp_apply, Option.bind_eq_bind, Option.bind_some, hn, hm, Option.map_some,
    Out.start, List.nil_append, if_true, List.append_assoc]

end Vdt.Report
