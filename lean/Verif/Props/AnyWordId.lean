/-
C46: word ids outside the dictionaries of a set.
-/
import Verif.Lemmas.LexiconSet
namespace Sudachi

/-- **C46** A word id of no dictionary, negative or not, is an `IndexError` in every question to the set. -/
theorem C46_no_dictionary (s : LexSet) (depth : Nat) (w : Int)
    (h : w < -(s.lexicons.length * 268435456 : Int) ∨ (s.lexicons.length * 268435456 : Int) ≤ w) :
    s.params w = .error .index ∧ s.wordInfo depth w = .error .index := by
  have hg : pyGetI s.lexicons (dictionaryIdOf w) = .error .index := by
    unfold pyGetI dictionaryIdOf
    rw [show (2 : Int) ^ 28 = 268435456 by decide]
    rcases h with h | h
    · rw [if_pos (by omega), if_pos (by omega)]
    · rw [if_neg (by omega)]
      unfold pyGet
      rw [List.getElem?_eq_none_iff.mpr (by omega)]
  unfold LexSet.params LexSet.wordInfo
  rw [hg]
  exact ⟨rfl, rfl⟩

/-- **C46** A negative id counts from the end: it has the parameters of the word as far from the end of the ids of the set. -/
theorem C46_negative (s : LexSet) (w : Int) (h : w < 0) (h' : -(s.lexicons.length * 268435456 : Int) ≤ w) :
    s.params w = s.params (w + s.lexicons.length * 268435456) := by
  have hg : pyGetI s.lexicons (dictionaryIdOf w) = pyGetI s.lexicons (dictionaryIdOf (w + s.lexicons.length * 268435456)) := by
    unfold pyGetI dictionaryIdOf
    rw [show (2 : Int) ^ 28 = 268435456 by decide]
    rw [if_pos (by omega), if_neg (by omega), if_neg (by omega)]
    congr 1
    omega
  have hl : localId w = localId (w + s.lexicons.length * 268435456) := by
    unfold localId
    rw [show (2 : Int) ^ 28 = 268435456 by decide]
    omega
  unfold LexSet.params
  rw [hg, hl]

/-! Two dictionaries, the second with one word; the ids end at 2 ^ 29. -/
private def twoSet : LexSet := (LexSet.init ⟨[], [], 0, 0, 0, 0, 0, 0, false⟩).add ⟨[1, 0, 2, 0, 3, 0], [], 0, 0, 1, 0, 6, 6, false⟩ 0

example : twoSet.params 536870912 = .error .index := (C46_no_dictionary twoSet 9 _ (Or.inr (by decide))).1
example : twoSet.wordInfo 9 (-536870913) = .error .index := (C46_no_dictionary twoSet 9 _ (Or.inl (by decide))).2
example : twoSet.params (-268435456) = .ok (1, 2, 3) := by
  rw [C46_negative twoSet _ (by decide) (by decide)]; decide +kernel

end Sudachi
