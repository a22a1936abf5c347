/-
The rows of a table whose lines end with an exception.
-/
import Verif.Model.Csv
namespace Sudachi

/-- The rows that are certain when these lines have been read: every table that begins with the lines begins with the rows, and there
are no more such rows. -/
def Settled (ls : List PStr) (rows : List (List PStr)) : Prop :=
  (∀ more, rows <+: (csvRows (ls ++ more)).1) ∧ ∀ rows', (∀ more, rows' <+: (csvRows (ls ++ more)).1) → rows' <+: rows

end Sudachi
