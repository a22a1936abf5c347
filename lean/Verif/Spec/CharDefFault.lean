/-
What is wrong with a line of char.def that is refused, and the exception for it.
-/
import Verif.Spec.Definitions
namespace Sudachi

/-- The two numbers of a first column: one number, or the first and the last one with two dots between them (the last one may be
negative or smaller); what comes after a second pair of dots is ignored. -/
inductive Bounds : PStr → Int → Int → Prop
  | single (col : PStr) (low : Int) : HexInt col low → Bounds col low low
  | range (a b rest : PStr) (low last : Int) : HexInt a low → HexInt b last → (rest = [] ∨ ∃ r, rest = 46 :: 46 :: r) →
      Bounds (a ++ 46 :: 46 :: b ++ rest) low last

/-- A fault of a line: it has only one column; or its first column begins with `0x` and has no numbers (`ValueError`); or the
numbers are no range; or one of the names before a comment is none of a category. -/
inductive CharDefFault : PStr → Err → Prop
  | column (line col : PStr) : Columns line [col] → ¬ Indented line → ¬ IsComment line → CharDefFault line .attribute
  | number (line x c : PStr) (cols : List PStr) : Columns line ((48 :: 120 :: x) :: c :: cols) → ¬ Indented line →
      (¬ ∃ low last, Bounds (48 :: 120 :: x) low last) → CharDefFault line .value
  | range (line x c : PStr) (cols : List PStr) (low last : Int) : Columns line ((48 :: 120 :: x) :: c :: cols) → ¬ Indented line →
      Bounds (48 :: 120 :: x) low last → last < low → CharDefFault line .attribute
  | category (line x name : PStr) (pre post : List PStr) (low last : Int) :
      Columns line ((48 :: 120 :: x) :: (pre ++ name :: post)) → ¬ Indented line → Bounds (48 :: 120 :: x) low last →
      (∀ w ∈ pre, ¬ IsComment w) → ¬ IsComment name → (∀ k, name ≠ codes (catName k)) → CharDefFault line .attribute

end Sudachi
