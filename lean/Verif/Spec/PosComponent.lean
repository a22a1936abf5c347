/-
What a component of a part of speech reads as.
-/
import Verif.Model.DictFile
namespace Sudachi

/-- A 16-bit unit with its two bytes exchanged. -/
def swapUnit (u : Nat) : Nat := u % 256 * 256 + u / 256

/-- U+FEFF at the start is a byte-order mark and is dropped.  U+FFFE is the mark of the other byte order: it is dropped, and the bytes of
all units after it are exchanged. -/
inductive ComponentReads : PStr → PStr → Prop
  | plain {s : PStr} (h1 : s.head? ≠ some 0xFEFF) (h2 : s.head? ≠ some 0xFFFE) : ComponentReads s s
  | mark (s : PStr) : ComponentReads (0xFEFF :: s) s
  | swapped {s t : PStr} (h1 : ∀ c ∈ t, encodable c = true) (h2 : t.flatMap utf16Units = (s.flatMap utf16Units).map swapUnit) :
      ComponentReads (0xFFFE :: s) t

end Sudachi
