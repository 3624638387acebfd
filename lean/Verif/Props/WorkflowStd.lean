import Verif.Props.Workflow

/-!
# C67: the accuracy check with the conversions of the C++ standard
-/

namespace Vdt.Compare
open FP Txt Cmd Diag Rand
open Bench (RefMath jobs64 jobs32 fname text1)

local notation "‹" s "›" => String.toList s

/-- The pool is not empty. -/
theorem one_ne_nil (eng : Engine) (SIZE : BitVec 32) (h0 : SIZE ≠ 0) : (Bench.pools64 eng SIZE).one ≠ [] := by
  have hpos : 0 < SIZE.toNat := by
    rcases Nat.eq_zero_or_pos SIZE.toNat with h | h
    · exact absurd (BitVec.eq_of_toNat_eq (by simpa using h)) h0
    · exact h
  have : (Bench.pools64 eng SIZE).one.length = SIZE.toNat := by
    have hz : (SIZE.setWidth 64).toNat = SIZE.toNat := by
      rw [BitVec.toNat_setWidth]; exact Nat.mod_eq_of_lt (by have := SIZE.isLt; omega)
    unfold Bench.pools64 pool1D fillVector; simp [hz]
  intro h; rw [h] at this; simp at this; omega

/-- With the conversion as the standard defines it the check is undefined where the two functions agree:
here the arccosine of the library and that of vdt, at one of the numbers of the pool. -/
theorem C67_strict_undefined (R : RefMath b64) (Rf : RefMath b32) (garbage : Nat → F64)
    (garbagef : Nat → F32) (eng : Engine) (nick : Text) (SIZE : BitVec 32) (h0 : SIZE ≠ 0)
    (hR : ∃ x ∈ (Bench.pools64 eng SIZE).one, R.acos x = Vdt.fast_acos x) (fs : Fs) (L : F64 → F64) (hL : Log2Ok L)
    (hnick : nick ≠ []) (hch : ∀ c ∈ nick, c ≠ ' ' ∧ c ≠ '"' ∧ c ≠ ',' ∧ c ≠ '\n') (hA : contains ‹"Atan2"› nick = false) :
    ∃ fs1, Bench.main R Rf none garbage garbagef eng nick SIZE fs = some fs1 ∧
      main (toUInt 16) L (shellWords false none (command nick)).tail fs1 = none := by
  have hnl : '\n' ∉ nick := fun h => (hch _ h).2.2.2 rfl
  have hcm : ',' ∉ nick := fun h => (hch _ h).2.2.1 rfl
  have hn := Bench.job_names R Rf none garbage garbagef eng SIZE
  obtain ⟨a1, -⟩ := Bench.done64 R garbage eng SIZE h0
  obtain ⟨c1, -⟩ := Bench.done32 Rf garbagef eng SIZE h0
  simp only [Option.map_none] at hn
  obtain ⟨fs1, e1, e2, -⟩ := Bench.runJobs nick (jobs64 R none garbage eng SIZE ++ jobs32 Rf none garbagef eng SIZE)
    (fun j hj => (List.mem_append.1 hj).elim (a1 j) (c1 j)) (by rw [hn]; exact Bench.ordered_nodup _) fs
  refine ⟨fs1, by rw [Bench.main_eq]; exact e1, ?_⟩
  have hj : ∀ e ∈ Bench.tuples64 R none (Bench.pools64 eng SIZE),
      fs1 (fname nick e.name) = (Bench.respScalar e.name e.input e.fcn).map text1 := fun e he =>
    e2 ⟨e.name, _⟩ (List.mem_append_left _ (List.mem_append_left _ (List.mem_append_left _ (List.mem_map.2 ⟨e, he, rfl⟩))))
  have j1 := hj ⟨‹"Acos"›, (some <| R.acos ·), (Bench.pools64 eng SIZE).one⟩ (by unfold Bench.tuples64; simp)
  have j2 := hj ⟨‹"Fast_Acos"›, (some <| Vdt.fast_acos ·), (Bench.pools64 eng SIZE).one⟩ (by unfold Bench.tuples64; simp)
  dsimp only at j1 j2
  rw [Bench.respScalar_eq _ _ _ (fun _ _ => rfl)] at j1 j2
  have hF : ‹"Acos"› ∈ functions := by unfold functions; exact List.mem_cons_self ..
  have hfast : ‹"Fast_Acos"› = ‹"Fast_"› ++ ‹"Acos"› := by simp only [String.reduceToList, List.cons_append, List.nil_append]
  have hu := compareFile_undef (Or.inl rfl) L hL nick (fname nick ‹"Acos"›) (fname nick ‹"Fast_Acos"›) _ _ fs1 j1 j2
    (functions_chars _ hF).2.1 (by rw [hfast]; exact fast_nl (functions_chars _ hF).2.1)
    (by rw [contains_fname nick _ hA]; simp only [String.reduceToList]; decide) (by
      obtain ⟨x, hx, hxe⟩ := hR
      refine ⟨(R.acos x, Vdt.fast_acos x), ?_, hxe⟩
      unfold Bench.rowsOf
      rw [List.map_map, List.map_map, List.zip_map', List.mem_map]
      exact ⟨x, hx, rfl⟩)
  rw [shell_command nick (fun c hc => ⟨(hch c hc).1, (hch c hc).2.1⟩), List.tail_cons, main_words _ L nick hnick hcm]
  obtain ⟨l, hl⟩ : ∃ l, functions = ‹"Acos"› :: l := ⟨_, rfl⟩
  rw [hl, List.map_cons, List.map_cons, List.zip_cons_cons, List.foldlM_cons, ← hfast, hu]
  rfl

/-- The least the full property demands, with conversions as the standard defines them: benchmark and comparison run to their ends without undefined
behaviour, for every library of mathematical functions. -/
def C67_statement : Prop := ∀ (R : RefMath b64) (Rf : RefMath b32) (garbage : Nat → F64) (garbagef : Nat → F32) (eng : Engine) (nick : Text)
  (SIZE : BitVec 32) (fs : Fs) (L : F64 → F64), SIZE ≠ 0 → Log2Ok L → nick ≠ [] → (∀ c ∈ nick, c ≠ ' ' ∧ c ≠ '"' ∧ c ≠ ',' ∧ c ≠ '\n') →
    contains ‹"Atan2"› nick = false → ∃ fs1 fs2, Bench.main R Rf none garbage garbagef eng nick SIZE fs = some fs1 ∧
      main (toUInt 16) L (shellWords false none (command nick)).tail fs1 = some (0, fs2)

/-- **C67, negation**: the conversion of the logarithm of zero to an unsigned number. -/
theorem C67_violated : ¬ C67_statement := by
  intro h
  obtain ⟨L, hL⟩ := log2Ok_exists
  have n1 : ‹"run1"› ≠ [] := by decide
  have n2 : ∀ c ∈ ‹"run1"›, c ≠ ' ' ∧ c ≠ '"' ∧ c ≠ ',' ∧ c ≠ '\n' := by decide
  have n3 : contains ‹"Atan2"› ‹"run1"› = false := by simp only [String.reduceToList]; decide
  have n0 : (1000#32 : BitVec 32) ≠ 0 := by decide
  obtain ⟨fs1, fs2, e1, e2⟩ := h ⟨id, id, id, id, id, id, id, Vdt.fast_acos, id, fun x _ => x⟩ ⟨id, id, id, id, id, id, id, id, id, fun x _ => x⟩
    (fun _ => FP.zero false) (fun _ => FP.zero false) (fun _ => 0) ‹"run1"› 1000#32 (fun _ => none) L n0 hL n1 n2 n3
  obtain ⟨x0, l0, hx0⟩ := List.exists_cons_of_ne_nil (one_ne_nil (fun _ => 0) 1000#32 n0)
  obtain ⟨fs1', g1, g2⟩ := C67_strict_undefined ⟨id, id, id, id, id, id, id, Vdt.fast_acos, id, fun x _ => x⟩
    ⟨id, id, id, id, id, id, id, id, id, fun x _ => x⟩
    (fun _ => FP.zero false) (fun _ => FP.zero false) (fun _ => 0) ‹"run1"› 1000#32 n0 ⟨x0, by rw [hx0]; exact List.mem_cons_self .., rfl⟩ (fun _ => none) L hL n1 n2 n3
  rw [e1] at g1
  cases g1
  rw [e2] at g2
  cases g2

end Vdt.Compare
