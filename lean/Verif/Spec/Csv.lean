/-
Tables as CSV text.  Lines end with a line feed here (other line ends are read as one, see `Lines`).
-/
import Verif.Model.Csv
import Verif.Spec.Definitions
namespace Sudachi

/-- A field in quotes: the quotes in it are doubled. -/
def quoted (f : PStr) : PStr := 34 :: f.flatMap (fun c => if c = 34 then [34, 34] else [c]) ++ [34]

/-- The ways to write a field: as it is, if it has no comma and no line break and does not begin with a quote; or in quotes. -/
inductive FieldText : PStr → PStr → Prop
  | plain (f : PStr) : (∀ c ∈ f, c ≠ 44 ∧ c ≠ 10 ∧ c ≠ 13) → f.head? ≠ some 34 → FieldText f f
  | quoted (f : PStr) : (∀ c ∈ f, c ≠ 13) → FieldText f (quoted f)

/-- Fields with commas between them. -/
inductive FieldsText : List PStr → PStr → Prop
  | one (f w : PStr) : FieldText f w → FieldsText [f] w
  | more (f w : PStr) (fs : List PStr) (ws : PStr) : FieldText f w → FieldsText fs ws → FieldsText (f :: fs) (w ++ 44 :: ws)

/-- A table: rows with line breaks between them, and perhaps after the last one.  (A row is not written as nothing.) -/
inductive CsvText : List (List PStr) → PStr → Prop
  | nil : CsvText [] []
  | last (row : List PStr) (w : PStr) : FieldsText row w → w ≠ [] → CsvText [row] w
  | cons (row : List PStr) (w : PStr) (rows : List (List PStr)) (rest : PStr) : FieldsText row w → w ≠ [] → CsvText rows rest →
      CsvText (row :: rows) (w ++ 10 :: rest)

end Sudachi
