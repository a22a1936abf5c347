/-
C65: which characters are decimal digits.
-/
import Verif.Model.PyText
import Verif.Spec.Digits
namespace Sudachi

/-- The zeros are at least ten apart, in order. -/
private theorem apart : digitZeros.Pairwise (fun a b => a + 10 ≤ b) := by decide

private theorem zeros_eq : decimalZeros.map Prod.fst = digitZeros := by decide

private theorem zero_iff {z : Nat} : (∃ name, (z, name) ∈ decimalZeros) ↔ z ∈ digitZeros := by
  rw [← zeros_eq, List.mem_map]
  constructor
  · rintro ⟨n, h⟩
    exact ⟨_, h, rfl⟩
  · rintro ⟨⟨a, n⟩, h, e⟩
    have e : a = z := e
    exact ⟨n, e ▸ h⟩

private theorem find_zero {c z : Nat} (h1 : z ≤ c) (h2 : c < z + 10) : ∀ {l : List Nat}, l.Pairwise (fun a b => a + 10 ≤ b) → z ∈ l →
    l.find? (fun z => decide (z ≤ c) && decide (c < z + 10)) = some z
  | [], _, h => absurd h List.not_mem_nil
  | a :: l, hp, h => by
    rw [List.pairwise_cons] at hp
    rcases List.mem_cons.1 h with e | h
    · subst e
      rw [List.find?_cons_of_pos]
      simp only [h1, h2, decide_true, Bool.and_self]
    · have := hp.1 z h
      rw [List.find?_cons_of_neg]
      · exact find_zero h1 h2 hp.2 h
      · simp only [Bool.and_eq_true, decide_eq_true_eq]
        omega

/-- **C65** A character counts as a digit, in a number or for the class `\d`, exactly when Unicode 14 has it as a decimal digit
of some script; its value is the one Unicode gives. -/
theorem C65_digits (c d : Nat) : digitVal c = some d ↔ DecimalDigit c d := by
  unfold digitVal DecimalDigit
  constructor
  · intro h
    split at h
    · rename_i z hz
      have hm := List.mem_of_find?_eq_some hz
      have hp := List.find?_some hz
      simp only [Bool.and_eq_true, decide_eq_true_eq] at hp
      injection h with h
      have e : c - d = z := by omega
      obtain ⟨n, hn⟩ := zero_iff.2 hm
      exact ⟨by omega, n, e ▸ hn, by omega⟩
    · cases h
  · rintro ⟨hd, n, hn, hc⟩
    rw [find_zero (z := c - d) (by omega) (by omega) apart (zero_iff.1 ⟨n, hn⟩)]
    exact congrArg some (by omega)

/-- An ASCII digit, a full-width digit and a Bengali digit; the kanji 三 is none. -/
example : digitVal 0x37 = some 7 ∧ digitVal 0xFF13 = some 3 ∧ digitVal 0x9EF = some 9 ∧ digitVal 0x4E09 = none := by decide

end Sudachi
