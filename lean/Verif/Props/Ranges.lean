/-
C97: the questions a range of characters answers.
-/
import Verif.Model.Ranges
namespace Sudachi

private theorem containingFrom_add (r : CRange) : ∀ (text : PStr) (i : Nat),
    r.containingFrom text i = i + r.containingFrom text 0
  | [], i => rfl
  | c :: cs, i => by
    unfold CRange.containingFrom
    split
    · rfl
    · rw [containingFrom_add r cs (i + 1), containingFrom_add r cs (0 + 1)]; omega

/-- **C97** `containing_length` is the length of the longest prefix whose characters are in the range, *the upper bound
included*: prefixes up to it are in the range, and no longer one is. -/
theorem C97_longest (r : CRange) (text : PStr) :
    r.containingLength text ≤ text.length ∧
    ∀ k, k ≤ text.length → ((∀ c ∈ text.take k, r.low ≤ c ∧ c ≤ r.high) ↔ k ≤ r.containingLength text) := by
  unfold CRange.containingLength
  induction text with
  | nil => exact ⟨Nat.le_refl _, fun k hk => by simp at hk; subst hk; simp [CRange.containingFrom]⟩
  | cons c cs ih =>
    unfold CRange.containingFrom
    split
    · rename_i h
      refine ⟨Nat.zero_le _, fun k _ => ?_⟩
      cases k with
      | zero => simp
      | succ k =>
        simp only [Bool.or_eq_true, decide_eq_true_eq] at h
        refine ⟨fun hall => ?_, fun hk => by omega⟩
        have := hall c (by simp)
        omega
    · rename_i h
      simp only [Bool.or_eq_true, decide_eq_true_eq] at h
      rw [containingFrom_add]
      refine ⟨by have := ih.1; simp only [List.length_cons]; omega, fun k hk => ?_⟩
      cases k with
      | zero => simp
      | succ k =>
        have hk' : k ≤ cs.length := by simpa using hk
        rw [List.take_succ_cons]
        constructor
        · intro hall
          have := (ih.2 k hk').1 (fun x hx => hall x (List.mem_cons_of_mem _ hx))
          omega
        · intro hle x hx
          rcases List.mem_cons.1 hx with rfl | hx
          · omega
          · exact (ih.2 k hk').2 (by omega) x hx

/-- **C97** Negation of the intended claim: `containing_length` and `contains` disagree about the upper bound of every
range that is not empty below it. -/
theorem C97_upper_bound (r : CRange) (h : r.low ≤ r.high) :
    r.containingLength [r.high] = 1 ∧ r.contains r.high = false := by
  refine ⟨?_, by simp [CRange.contains]⟩
  have := C97_longest r [r.high]
  have h1 := (this.2 1 (by simp)).1 (by simp [h])
  have h2 := this.1
  simp at h2; omega

/-- **C97** They agree on texts without the upper bound: the longest prefix of characters the range `contains`. -/
theorem C97_agree (r : CRange) (text : PStr) (h : r.high ∉ text) (k : Nat) (hk : k ≤ text.length) :
    (∀ c ∈ text.take k, r.contains c = true) ↔ k ≤ r.containingLength text := by
  rw [← (C97_longest r text).2 k hk]
  refine forall_congr' fun c => forall_congr' fun hc => ?_
  have : c ≠ r.high := fun e => h (e ▸ List.mem_of_mem_take hc)
  simp only [CRange.contains, Bool.and_eq_true, decide_eq_true_eq]
  omega

/-- **C97** Of a range with characters, each code point is below it, in it or above it, and only one of these (`lower`
and `higher` are what the range is of the code point). -/
theorem C97_one_of_three (r : CRange) (h : r.low < r.high) (cp : Nat) :
    (r.higher cp = true ∧ r.contains cp = false ∧ r.lower cp = false) ∨
    (r.higher cp = false ∧ r.contains cp = true ∧ r.lower cp = false) ∨
    (r.higher cp = false ∧ r.contains cp = false ∧ r.lower cp = true) := by
  simp only [CRange.higher, CRange.contains, CRange.lower, decide_eq_true_eq, decide_eq_false_iff_not,
    Bool.and_eq_true, Bool.and_eq_false_iff]
  omega

/-- **C97** Ranges with characters match if and only if they contain the same code points, whatever their categories. -/
theorem C97_match (r s : CRange) (hr : r.low < r.high) (hs : s.low < s.high) :
    r.match s = true ↔ ∀ cp, r.contains cp = s.contains cp := by
  simp only [CRange.match, CRange.contains, Bool.and_eq_true, decide_eq_true_eq]
  constructor
  · rintro ⟨h1, h2⟩ cp; rw [h1, h2]
  · intro h
    have key : ∀ cp, (r.low ≤ cp ∧ cp < r.high) ↔ (s.low ≤ cp ∧ cp < s.high) := fun cp => by
      have := congrArg (· = true) (h cp)
      simpa using this
    have a := key r.low
    have b := key s.low
    have c := key (r.high - 1)
    have d := key (s.high - 1)
    omega

/-- tests/dictionarylib/test_charactercategory.py:36-42: `ABC12` and `熙` with A..T. -/
example : (⟨0x41, 0x54, []⟩ : CRange).containingLength [0x41, 0x42, 0x43, 0x31, 0x32] = 3 ∧
    (⟨0x41, 0x54, []⟩ : CRange).containingLength [29081] = 0 := by decide
/-- The range `0x30..0x39` of char.def is kept as 0x30 to 0x3A: `containing_length` counts a colon. -/
example : (⟨0x30, 0x3A, [.NUMERIC]⟩ : CRange).containingLength [0x31, 0x3A] = 2 ∧
    (⟨0x30, 0x3A, [.NUMERIC]⟩ : CRange).contains 0x3A = false := by decide
example : ∀ k, k ≤ 2 → ((∀ c ∈ ([0x31, 0x61] : PStr).take k, (⟨0x30, 0x3A, [.NUMERIC]⟩ : CRange).contains c = true) ↔ k ≤ 1) :=
  C97_agree ⟨0x30, 0x3A, [.NUMERIC]⟩ [0x31, 0x61] (by decide)
/-- `C97_one_of_three` needs a character: the range 5 to 3 is below and above 4. -/
example : (⟨5, 3, []⟩ : CRange).higher 4 = true ∧ (⟨5, 3, []⟩ : CRange).lower 4 = true := by decide
/-- `C97_match` needs characters: 1 to 1 and 2 to 2 contain the same code points. -/
example : (⟨1, 1, []⟩ : CRange).match ⟨2, 2, []⟩ = false ∧ ∀ cp, (⟨1, 1, []⟩ : CRange).contains cp = (⟨2, 2, []⟩ : CRange).contains cp :=
  ⟨by decide, fun cp => by
    have h1 : ¬ (1 ≤ cp ∧ cp < 1) := by omega
    have h2 : ¬ (2 ≤ cp ∧ cp < 2) := by omega
    simp only [CRange.contains, ← Bool.decide_and, h1, h2]⟩
example : (⟨0x30, 0x3A, [.NUMERIC]⟩ : CRange).match ⟨0x30, 0x3A, [.KANJI]⟩ = true := by decide

end Sudachi
