/-
Places in a dictionary file.
-/
import Verif.Model.DictFile
namespace Sudachi

/-- The place in the file where the number of words is, after the word-id table; the parameters of the words follow. -/
def BinDict.wordCountAt (d : BinDict) : Nat := d.lexicon.widOff + d.lexicon.widLen

/-- The place `n` is in the middle of a parameter. -/
def BinDict.InParameter (d : BinDict) (n : Nat) : Prop :=
  d.wordCountAt + 4 ≤ n ∧ n < d.wordCountAt + 4 + 6 * d.lexicon.size ∧ (n - (d.wordCountAt + 4)) % 2 = 1

end Sudachi
