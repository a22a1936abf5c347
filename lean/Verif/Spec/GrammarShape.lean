import Verif.Model.DictFile

/-!
# The sizes of a matrix in a dictionary file
-/

namespace Sudachi

/-- The bytes the matrix of `l` × `r` cells is taken from, when it begins at `start` and `size` bytes follow: a product that leads
before the beginning of the file counts from its end. -/
def MatrixBytes (start size : Nat) (l r : Int) (n : Nat) : Prop :=
  (0 ≤ l * r ∧ (n : Int) = min (size : Int) (2 * (l * r))) ∨
  (l * r < 0 ∧ 0 ≤ start + 2 * (l * r) ∧ n = 0) ∨
  (start + 2 * (l * r) < 0 ∧ (n : Int) = max 0 (size + start + 2 * (l * r)))

end Sudachi
