/-
The methods of `Range` that only the tests use: sudachipy/dictionarylib/charactercategory.py
-/
import Verif.Model.Category
namespace Sudachi
namespace CRange

/-- charactercategory.py:38-42: the loop of `containing_length`, from index `i` on. -/
def containingFrom (r : CRange) : PStr → Nat → Nat
  | [], i => i
  | c :: cs, i => if decide (c < r.low) || decide (c > r.high) then i else containingFrom r cs (i + 1)

/-- charactercategory.py:37-42 `Range.containing_length`. -/
def containingLength (r : CRange) (text : PStr) : Nat := containingFrom r text 0

/-- charactercategory.py:47-48 `Range.higher`. -/
def higher (r : CRange) (cp : Nat) : Bool := decide (r.low > cp)

/-- charactercategory.py:50-51 `Range.match`. -/
def «match» (r other : CRange) : Bool := decide (r.low = other.low) && decide (r.high = other.high)

end CRange
end Sudachi
