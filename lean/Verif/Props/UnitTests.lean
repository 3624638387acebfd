import Verif.Model.UnitTests
import Verif.Props.Persist

/-!
# C91: the unit tests of the file formats
-/

namespace Vdt.UnitTests
open FP Txt

local notation "‹" s "›" => String.toList s

/-! ## Pools -/

theorem poolTest_ok {f : Fmt} (hf : f.eb + f.mb + 1 ≤ 64) (dec : FP f → Text) (hdec : ∀ x, '\n' ∉ dec x) (rng : ℕ → FP f) (min max : FP f)
    (size : BitVec 64) (hs : size ≠ 0) (a b : Text) (ha : '\n' ∉ a) (hab : a ≠ b) (fs : Fs) :
    (∀ n, n = a ∨ n = b → ((hexR f).all (skipLines 5 (Fs.open (poolTest dec rng min max size a b fs) n))) = (List.range size.toNat).map rng) ∧
    ∀ n, n ≠ a → n ≠ b → poolTest dec rng min max size a b fs n = fs n := by
  unfold poolTest
  obtain ⟨h1, h2⟩ := C43_pool1D_roundtrip hf dec hdec (Pool1D.make rng min max size) hs a fs
  generalize (Pool1D.make rng min max size).writeFile dec a fs = fs1 at *
  obtain ⟨h3, h4⟩ := C46_pool1D_copy_partial (f := f) fs1 a b ha hab dec
  refine ⟨?_, fun n na nb => by rw [h4 n nb, h2 n na]⟩
  rintro n (rfl | rfl)
  · have : Fs.open ((Pool1D.ofFile f fs1 n).writeFile dec b fs1) n = Fs.open fs1 n := by unfold Fs.open; rw [h4 n hab]
    rw [this]; exact h1
  · exact h3.trans h1

theorem poolTest2_ok {f : Fmt} (hf : f.eb + f.mb + 1 ≤ 64) (dec : FP f → Text) (hdec : ∀ x, '\n' ∉ dec x) (rng : ℕ → FP f) (minX minY maxX maxY : FP f)
    (size : BitVec 64) (hs : size ≠ 0) (a b : Text) (ha : '\n' ∉ a) (hab : a ≠ b) (fs : Fs) :
    ∃ fs', poolTest2 dec rng minX minY maxX maxY size a b fs = some fs' ∧
    (∀ n, n = a ∨ n = b → (Pool2D.ofFile f fs' n).numbersX = (List.range size.toNat).map rng ∧
      (Pool2D.ofFile f fs' n).numbersY = (List.range size.toNat).map fun i => rng (size.toNat + i)) ∧
    ∀ n, n ≠ a → n ≠ b → fs' n = fs n := by
  obtain ⟨fs1, e1, hx, hy, h2⟩ := C43_pool2D_roundtrip hf dec hdec (Pool2D.make rng minX minY maxX maxY size) hs (by simp [Pool2D.make]) a fs
  obtain ⟨fs2, e2, kx, ky, h4⟩ := C46_pool2D_copy_partial (f := f) fs1 a b ha hab dec
  refine ⟨fs2, ?_, ?_, fun n na nb => by rw [h4 n nb, h2 n na]⟩
  · unfold poolTest2
    rw [e1]; exact e2
  · rintro n (rfl | rfl)
    · have : Pool2D.ofFile f fs2 n = Pool2D.ofFile f fs1 n := by unfold Pool2D.ofFile Fs.open; rw [h4 n hab]
      rw [this]; exact ⟨hx, hy⟩
    · exact ⟨kx.trans hx, ky.trans hy⟩

theorem ofFile_congr {f : Fmt} {fs fs' : Fs} {n : Text} (h : fs n = fs' n) : Pool2D.ofFile f fs n = Pool2D.ofFile f fs' n := by
  unfold Pool2D.ofFile Fs.open; rw [h]

theorem open_congr {fs fs' : Fs} {n : Text} (h : fs n = fs' n) : Fs.open fs n = Fs.open fs' n := by unfold Fs.open; rw [h]

/-- The unit test of the random pools is defined; afterwards both files of every pool give the numbers that were drawn. -/
theorem C91_randomPool (dec64 : F64 → Text) (h64 : ∀ x, '\n' ∉ dec64 x) (dec32 : F32 → Text) (h32 : ∀ x, '\n' ∉ dec32 x)
    (r1 : ℕ → F64) (r2 : ℕ → F32) (r3 : ℕ → F64) (r4 : ℕ → F32) (fs : Fs) :
    ∃ fs', randomPool dec64 dec32 r1 r2 r3 r4 fs = some fs' ∧
      (∀ n ∈ [‹"testDpRandomNumbers.txt"›, ‹"testDpRandomNumbers_rewritten.txt"›], (Pool1D.ofFile b64 fs' n).numbers = (List.range 10).map r1) ∧
      (∀ n ∈ [‹"testSpRandomNumbers.txt"›, ‹"testSpRandomNumbers_rewritten.txt"›], (Pool1D.ofFile b32 fs' n).numbers = (List.range 10).map r2) ∧
      (∀ n ∈ [‹"testDpRandomNumbers2D.txt"›, ‹"testDpRandomNumbers2D_rewritten.txt"›], (Pool2D.ofFile b64 fs' n).numbersX = (List.range 10).map r3 ∧
        (Pool2D.ofFile b64 fs' n).numbersY = (List.range 10).map fun i => r3 (10 + i)) ∧
      (∀ n ∈ [‹"testSpRandomNumbers2D.txt"›, ‹"testSpRandomNumbers2D_rewritten.txt"›], (Pool2D.ofFile b32 fs' n).numbersX = (List.range 10).map r4 ∧
        (Pool2D.ofFile b32 fs' n).numbersY = (List.range 10).map fun i => r4 (10 + i)) := by
  unfold randomPool
  dsimp only
  obtain ⟨a1, o1⟩ := poolTest_ok (f := b64) (by decide) dec64 h64 r1 (lit 1) (lit 2) 10 (by decide) ‹"testDpRandomNumbers.txt"›
    ‹"testDpRandomNumbers_rewritten.txt"› (by decide) (by decide) fs
  generalize poolTest dec64 r1 (lit 1) (lit 2) 10 ‹"testDpRandomNumbers.txt"› ‹"testDpRandomNumbers_rewritten.txt"› fs = fs1 at *
  obtain ⟨a2, o2⟩ := poolTest_ok (f := b32) (by decide) dec32 h32 r2 (-lit 200) (lit 200) 10 (by decide) ‹"testSpRandomNumbers.txt"›
    ‹"testSpRandomNumbers_rewritten.txt"› (by decide) (by decide) fs1
  generalize poolTest dec32 r2 (-lit 200) (lit 200) 10 ‹"testSpRandomNumbers.txt"› ‹"testSpRandomNumbers_rewritten.txt"› fs1 = fs2 at *
  obtain ⟨fs3, e3, a3, o3⟩ := poolTest2_ok (f := b64) (by decide) dec64 h64 r3 (lit 1) (lit 2) (lit 4) (lit 7) 10 (by decide) ‹"testDpRandomNumbers2D.txt"›
    ‹"testDpRandomNumbers2D_rewritten.txt"› (by decide) (by decide) fs2
  obtain ⟨fs4, e4, a4, o4⟩ := poolTest2_ok (f := b32) (by decide) dec32 h32 r4 (-lit 200) (-lit 1000) (lit 200) (lit 10000) 10 (by decide)
    ‹"testSpRandomNumbers2D.txt"› ‹"testSpRandomNumbers2D_rewritten.txt"› (by decide) (by decide) fs3
  refine ⟨fs4, ?_, ?_, ?_, ?_, ?_⟩
  · rw [e3]; exact e4
  · intro n hn
    simp only [List.mem_cons, List.not_mem_nil, or_false] at hn
    refine Eq.trans ?_ (a1 n hn)
    show (hexR b64).all _ = _
    rw [open_congr (show fs4 n = fs1 n by
      rw [o4 n (by rcases hn with rfl | rfl <;> decide) (by rcases hn with rfl | rfl <;> decide),
        o3 n (by rcases hn with rfl | rfl <;> decide) (by rcases hn with rfl | rfl <;> decide),
        o2 n (by rcases hn with rfl | rfl <;> decide) (by rcases hn with rfl | rfl <;> decide)])]
  · intro n hn
    simp only [List.mem_cons, List.not_mem_nil, or_false] at hn
    refine Eq.trans ?_ (a2 n hn)
    show (hexR b32).all _ = _
    rw [open_congr (show fs4 n = fs2 n by
      rw [o4 n (by rcases hn with rfl | rfl <;> decide) (by rcases hn with rfl | rfl <;> decide),
        o3 n (by rcases hn with rfl | rfl <;> decide) (by rcases hn with rfl | rfl <;> decide)])]
  · intro n hn
    simp only [List.mem_cons, List.not_mem_nil, or_false] at hn
    rw [ofFile_congr (show fs4 n = fs3 n by
      rw [o4 n (by rcases hn with rfl | rfl <;> decide) (by rcases hn with rfl | rfl <;> decide)])]
    exact a3 n hn
  · intro n hn
    simp only [List.mem_cons, List.not_mem_nil, or_false] at hn
    exact a4 n hn

example : ∀ x : F64, '\n' ∉ (fun _ => ‹"-200"› : F64 → Text) x := fun _ => show '\n' ∉ ‹"-200"› by decide

/-! ## Responses -/

theorem response2D_copy {f : Fmt} (fs : Fs) (a b : Text) (ha : '\n' ∉ a) (hab : a ≠ b) :
    (Resp2D.ofFile f ((Resp2D.ofFile f fs a).writeFile b fs) b).rows = (Resp2D.ofFile f fs a).rows ∧
    ∀ name, name ≠ b → (Resp2D.ofFile f fs a).writeFile b fs name = fs name := by
  have h : (Resp2D.ofFile f fs a).writeFile b fs =
      copyFile ("VDT function arithmetics performance 1 input file (the first 5 lines are the header)".toList ++ ['\n']) a b (fs.truncate b) := by
    unfold Resp2D.writeFile
    dsimp only
    rw [if_pos (show (Resp2D.ofFile f fs a).fromFile = true from rfl), show respPreamble = "VDT function arithmetics performance 1 input file (the first 5 lines are the header)".toList ++ ['\n'] by decide]
    rfl
  rw [h]
  refine ⟨?_, fun name hn => copyFile_other _ _ _ _ _ hn⟩
  show ((hexR f).and ((hexR f).and (hexR f))).all (skipLines 5 _) = ((hexR f).and ((hexR f).and (hexR f))).all (skipLines 5 _)
  rw [copyFile_skip _ (by decide) a b ha hab]

theorem rows_congr {f : Fmt} {fs fs' : Fs} {n : Text} (h : fs n = fs' n) : (Resp1D.ofFile f fs n).rows = (Resp1D.ofFile f fs' n).rows := by
  unfold Resp1D.ofFile; rw [open_congr h]

theorem rows2_congr {f : Fmt} {fs fs' : Fs} {n : Text} (h : fs n = fs' n) : (Resp2D.ofFile f fs n).rows = (Resp2D.ofFile f fs' n).rows := by
  unfold Resp2D.ofFile; rw [open_congr h]

theorem responseTest_ok {f : Fmt} (hf : f.eb + f.mb + 1 ≤ 64) (name : Text) (hn : '\n' ∉ name) (input : List (FP f)) (fcn : FP f → FP f)
    (a b : Text) (ha : '\n' ∉ a) (hab : a ≠ b) (fs : Fs) :
    (∀ n, n = a ∨ n = b → (Resp1D.ofFile f (responseTest name input fcn a b fs) n).rows = input.map fun x => (x, fcn x)) ∧
    ∀ n, n ≠ a → n ≠ b → responseTest name input fcn a b fs n = fs n := by
  unfold responseTest
  obtain ⟨h1, h2⟩ := C44_response1D_roundtrip hf (Resp1D.make name input fcn) rfl hn a fs
  generalize (Resp1D.make name input fcn).writeFile a fs = fs1 at *
  obtain ⟨h3, h4⟩ := C46_response1D_copy_partial (f := f) fs1 a b ha hab
  refine ⟨?_, fun n na nb => by rw [h4 n nb, h2 n na]⟩
  rintro n (rfl | rfl)
  · rw [rows_congr (h4 n hab)]; exact h1
  · exact h3.trans h1

theorem responseTest2_ok {f : Fmt} (hf : f.eb + f.mb + 1 ≤ 64) (name : Text) (hn : '\n' ∉ name) (input : List (FP f × FP f)) (fcn : FP f → FP f → FP f)
    (a b : Text) (ha : '\n' ∉ a) (hab : a ≠ b) (fs : Fs) :
    (∀ n, n = a ∨ n = b → (Resp2D.ofFile f (responseTest2 name input fcn a b fs) n).rows = input.map fun x => (x.1, x.2, fcn x.1 x.2)) ∧
    ∀ n, n ≠ a → n ≠ b → responseTest2 name input fcn a b fs n = fs n := by
  unfold responseTest2
  obtain ⟨h1, h2⟩ := C44_response2D_roundtrip hf (Resp2D.make name input fcn) rfl hn a fs
  generalize (Resp2D.make name input fcn).writeFile a fs = fs1 at *
  obtain ⟨h3, h4⟩ := response2D_copy (f := f) fs1 a b ha hab
  refine ⟨?_, fun n na nb => by rw [h4 n nb, h2 n na]⟩
  rintro n (rfl | rfl)
  · rw [rows2_congr (h4 n hab)]; exact h1
  · exact h3.trans h1

/-- After the unit test of the responses, both files of every response hold each input with the value of the function. -/
theorem C91_response (in1 : List F64) (in2 : List F32) (in3 : List (F64 × F64)) (in4 : List (F32 × F32)) (exp : F64 → F64) (expf : F32 → F32)
    (atan2 : F64 → F64 → F64) (atan2f : F32 → F32 → F32) (fs : Fs) :
    (∀ n ∈ [‹"testDpFcnPerf.txt"›, ‹"testDpFcnPerf_fromFile.txt"›],
      (Resp1D.ofFile b64 (response in1 in2 in3 in4 exp expf atan2 atan2f fs) n).rows = in1.map fun x => (x, exp x)) ∧
    (∀ n ∈ [‹"testSpFcnPerf.txt"›, ‹"testSpFcnPerf_fromFile.txt"›],
      (Resp1D.ofFile b32 (response in1 in2 in3 in4 exp expf atan2 atan2f fs) n).rows = in2.map fun x => (x, expf x)) ∧
    (∀ n ∈ [‹"testDp2FcnPerf.txt"›, ‹"testDp2FcnPerf_fromFile.txt"›],
      (Resp2D.ofFile b64 (response in1 in2 in3 in4 exp expf atan2 atan2f fs) n).rows = in3.map fun x => (x.1, x.2, atan2 x.1 x.2)) ∧
    (∀ n ∈ [‹"testSp2FcnPerf.txt"›, ‹"testSp2FcnPerf_fromFile.txt"›],
      (Resp2D.ofFile b32 (response in1 in2 in3 in4 exp expf atan2 atan2f fs) n).rows = in4.map fun x => (x.1, x.2, atan2f x.1 x.2)) := by
  unfold response
  dsimp only
  obtain ⟨a1, o1⟩ := responseTest_ok (f := b64) (by decide) ‹"Exp"› (by decide) in1 exp ‹"testDpFcnPerf.txt"› ‹"testDpFcnPerf_fromFile.txt"›
    (by decide) (by decide) fs
  generalize responseTest ‹"Exp"› in1 exp ‹"testDpFcnPerf.txt"› ‹"testDpFcnPerf_fromFile.txt"› fs = fs1 at *
  obtain ⟨a2, o2⟩ := responseTest_ok (f := b32) (by decide) ‹"Exp"› (by decide) in2 expf ‹"testSpFcnPerf.txt"› ‹"testSpFcnPerf_fromFile.txt"›
    (by decide) (by decide) fs1
  generalize responseTest ‹"Exp"› in2 expf ‹"testSpFcnPerf.txt"› ‹"testSpFcnPerf_fromFile.txt"› fs1 = fs2 at *
  obtain ⟨a3, o3⟩ := responseTest2_ok (f := b64) (by decide) ‹"Atan2"› (by decide) in3 atan2 ‹"testDp2FcnPerf.txt"› ‹"testDp2FcnPerf_fromFile.txt"›
    (by decide) (by decide) fs2
  generalize responseTest2 ‹"Atan2"› in3 atan2 ‹"testDp2FcnPerf.txt"› ‹"testDp2FcnPerf_fromFile.txt"› fs2 = fs3 at *
  obtain ⟨a4, o4⟩ := responseTest2_ok (f := b32) (by decide) ‹"Atan2"› (by decide) in4 atan2f ‹"testSp2FcnPerf.txt"› ‹"testSp2FcnPerf_fromFile.txt"›
    (by decide) (by decide) fs3
  generalize responseTest2 ‹"Atan2"› in4 atan2f ‹"testSp2FcnPerf.txt"› ‹"testSp2FcnPerf_fromFile.txt"› fs3 = fs4 at *
  refine ⟨?_, ?_, ?_, ?_⟩ <;> intro n hn <;> simp only [List.mem_cons, List.not_mem_nil, or_false] at hn
  · rw [rows_congr (show fs4 n = fs1 n by
      rw [o4 n (by rcases hn with rfl | rfl <;> decide) (by rcases hn with rfl | rfl <;> decide),
        o3 n (by rcases hn with rfl | rfl <;> decide) (by rcases hn with rfl | rfl <;> decide),
        o2 n (by rcases hn with rfl | rfl <;> decide) (by rcases hn with rfl | rfl <;> decide)])]
    exact a1 n hn
  · rw [rows_congr (show fs4 n = fs2 n by
      rw [o4 n (by rcases hn with rfl | rfl <;> decide) (by rcases hn with rfl | rfl <;> decide),
        o3 n (by rcases hn with rfl | rfl <;> decide) (by rcases hn with rfl | rfl <;> decide)])]
    exact a2 n hn
  · rw [rows2_congr (show fs4 n = fs3 n by
      rw [o4 n (by rcases hn with rfl | rfl <;> decide) (by rcases hn with rfl | rfl <;> decide)])]
    exact a3 n hn
  · exact a4 n hn

/-! ## Comparisons -/

/-- The class for one input finds a decimal number where the second output of a row with two inputs stands: it takes the zero of `0x` and
stops at the `x`. -/
theorem row2_fails {f : Fmt} (hf : f.eb + f.mb + 1 ≤ 64) (r : CmpRow2 f) (ws t : Text) (hws : ∀ c ∈ ws, isSpace c = true) :
    ((cmpRowR f).run ⟨ws ++ (cmpRow2 r ++ t), false⟩).1 = none := by
  obtain ⟨lo1, k1, e1⟩ := hexR_inverts hf CmpRow2.input1 r trivial
  obtain ⟨lo2, k2, e2⟩ := hexR_inverts hf CmpRow2.input2 r trivial
  obtain ⟨lo3, k3, e3⟩ := hexR_inverts hf CmpRow2.out1 r trivial
  unfold cmpRow2
  simp only [List.append_assoc]
  refine and_none_right _ _ _ _ _ (e1 ws _ hws) ?_
  refine and_none_right _ _ _ _ _ (e2 lo1 _ k1) ?_
  refine and_none_right _ _ _ _ _ (e3 lo2 _ k2) ?_
  unfold fpToHex
  simp only [List.cons_append]
  generalize printNat 16 r.out2.toBits.toNat ++ [' '] ++ _ = u
  have hu : readUInt 10 16 ⟨lo3 ++ '0' :: 'x' :: u, false⟩ = (some 0, ⟨'x' :: u, false⟩) := by
    have h := readUInt_dec 16 0 (by norm_num) lo3 ('x' :: u) k3 (by intro c hc; obtain rfl : 'x' = c := by simpa using hc
                                                                    decide)
    rwa [show printNat 10 0 = ['0'] by decide +kernel] at h
  refine and_none_right _ _ _ _ _ hu ?_
  show (readFloat f _).1 = none
  unfold readFloat
  have s1 : skipws ('x' :: u) = 'x' :: u := rfl
  have s2 : splitDecimal ('x' :: u) = ([], [], 'x' :: u) := rfl
  simp only [Bool.false_eq_true, if_false, s1]
  show (if ([] : Text) ++ [] = [] then _ else _ : Option (FP f) × IStream).1 = none
  rfl

/-- The part of the unit test with one input: the numbers of `C45_comparison_partial`. -/
theorem C91_comparison_partial {f : Fmt} [MaxNat f] (hf : f.eb + f.mb + 1 ≤ 64) (p : Cmp1D f) (hp : p.fromFile = false)
    (hn : '\n' ∉ p.name) (h1 : p.max < 2 ^ 16) (h2 : p.min < 2 ^ 16) (hd : ∀ r ∈ p.rows, r.diff < 2 ^ 16)
    (hfin : ∀ r ∈ p.rows, r.input.isFinite = true) (name : Text) (fs : Fs) :
    comparison p name fs = (some (p.max, p.min, p.mean, p.rms), p.rows) :=
  C45_comparison_partial hf p hp hn h1 h2 hd hfin name fs

/-- The part with two inputs: the statistics, which the program prints, come back, but none of the rows does. -/
theorem C91_comparison2 (p : Cmp2D b32) (hp : p.fromFile = false) (hn : '\n' ∉ p.name) (h1 : p.max < 2 ^ 16) (h2 : p.min < 2 ^ 16) (name : Text) (fs : Fs) :
    comparison2 p name fs = (some (p.max, p.min, p.mean, p.rms), []) := by
  unfold comparison2 Cmp2D.writeFile
  dsimp only
  rw [if_neg (by simp [hp]), truncate_append, open_update]
  have hh : cmpHeader2 p = cmpHeader (⟨false, p.name, [], p.max, p.min, p.mean, p.rms, []⟩ : Cmp1D b32) := rfl
  obtain ⟨lo, hlo, e⟩ := readCmp_written (⟨false, p.name, [], p.max, p.min, p.mean, p.rms, []⟩ : Cmp1D b32) hn h1 h2 (p.rows.flatMap cmpRow2)
  rw [hh, e]
  have : (cmpRowR b32).all ⟨lo ++ p.rows.flatMap cmpRow2, false⟩ = [] := by
    refine Reader.all_none _ _ ?_
    cases p.rows with
    | nil => rw [List.flatMap_nil, List.append_nil]; exact and_blank (hexR_blank b32) lo hlo
    | cons r rs => exact row2_fails (by decide) r lo _ hlo
  rw [this]
  rfl

/-- C91 for the last part of test_fcnComparison.cpp: every row of a comparison with two finite inputs is read again. -/
def C91_statement : Prop := ∀ (p : Cmp2D b32) (name : Text) (fs : Fs), p.fromFile = false → '\n' ∉ p.name → p.max < 2 ^ 16 → p.min < 2 ^ 16 →
  (∀ r ∈ p.rows, r.diff < 2 ^ 16 ∧ r.input1.isFinite = true ∧ r.input2.isFinite = true) → (comparison2 p name fs).2.length = p.rows.length

/-- A comparison with one row. -/
def oneRow : Cmp2D b32 := ⟨false, ‹"Atan2f - libmVSvdt"›, [], 1, 1, lit 1, lit 0, [⟨lit 1, lit 1, lit 0.785, lit 0.786, 1⟩]⟩

/-- It does not hold: the program reads the file of a comparison with two inputs by the class for one input. -/
theorem C91_violated : ¬ C91_statement := by
  intro h
  have k := h oneRow ‹"test_spfunctionComparison2D.txt"› (fun _ => none) rfl (by decide) (by decide) (by decide) (by
    intro r hr
    obtain rfl : r = ⟨lit 1, lit 1, lit 0.785, lit 0.786, 1⟩ := by simpa [oneRow] using hr
    exact ⟨by norm_num, by decide +kernel, by decide +kernel⟩)
  rw [C91_comparison2 oneRow rfl (by decide) (by decide) (by decide)] at k
  exact absurd k (by simp [oneRow])

end Vdt.UnitTests
