/-
Loading a system dictionary and user dictionaries.
-/
import Verif.Model.Dictionary
import Verif.Spec.Source
namespace Sudachi

/-- The nearest 16-bit number. -/
def clampShort (c : Int) : Int := if c < -32768 then -32768 else if 32767 < c then 32767 else c

/-- The cost for a word whose surface is tokenized as `ms`: the difference of the costs of the last and the first word of
the path, less 20 for each of its words. -/
def AutoCostIs (ms : MorphemeList) (c : Int) : Prop :=
  ∃ first last, ms.path.head? = some first ∧ ms.path.getLast? = some last ∧
    c = clampShort (last.cost - first.cost - 20 * ms.path.length)

end Sudachi
