/-
When the cost of a word is computed, and when it cannot be.
-/
import Verif.Spec.Dictionary
import Verif.Spec.Source
namespace Sudachi

/-- The cost of the row is to be computed when the dictionary is opened. -/
def Cols.Automatic (c : Cols) : Prop := pyInt c.cost = .ok (-32768)

/-- Following the dictionary forms ends within the recursion limit. -/
def ChainShort (rows : List (List PStr)) (depth w : Nat) : Prop := ∃ n, n < depth ∧ ChainEnds rows w n

/-- The cost of a row is found: its surface is tokenized, to one word at least. -/
def CostFound (T : Tokenizer) (rows : List (List PStr)) (depth w : Nat) (c : Cols) : Prop :=
  ChainShort rows depth w ∧ ∃ ms, (T.tokenize Lattice.init c.surface none).2 = .ok ms ∧ ms.path ≠ []

/-- The cost of a row is not found: its dictionary forms go on too long, its surface cannot be tokenized, or it is tokenized to no word. -/
inductive CostFails (T : Tokenizer) (rows : List (List PStr)) (depth w : Nat) (c : Cols) : Err → Prop
  | long : ¬ChainShort rows depth w → CostFails T rows depth w c .recursion
  | text (e : Err) : ChainShort rows depth w → (T.tokenize Lattice.init c.surface none).2 = .error e → CostFails T rows depth w c e
  | nothing (ms : MorphemeList) : ChainShort rows depth w → (T.tokenize Lattice.init c.surface none).2 = .ok ms → ms.path = [] →
      CostFails T rows depth w c .index

end Sudachi
