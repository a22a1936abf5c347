/-
What a word-id table says at an index, whatever its bytes.
-/
import Verif.Model.Basic
namespace Sudachi

/-- At `i` there is an entry: the number of ids in one byte, then the ids in four bytes each, the lowest first. -/
def TableSays (view : Bytes) (i : Nat) (ids : List Nat) : Prop :=
  view[i]? = some ids.length ∧
    ∀ k w, ids[k]? = some w → ∃ a b c d, view[i + 1 + 4 * k]? = some a ∧ view[i + 2 + 4 * k]? = some b ∧
      view[i + 3 + 4 * k]? = some c ∧ view[i + 4 + 4 * k]? = some d ∧ w = a + 256 * b + 65536 * c + 16777216 * d

/-- What is wrong with an entry: it begins behind the table (`IndexError`), or the ids do not fit in it (`struct.error`). -/
inductive TableFault (view : Bytes) (i : Nat) : Err → Prop
  | outside : view.length ≤ i → TableFault view i .index
  | short (n : Nat) : view[i]? = some n → view.length < i + 1 + 4 * n → TableFault view i .struct

end Sudachi
