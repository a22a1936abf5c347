/-
The lines of a file that is not a text, as far as they can be read.
-/
import Verif.Model.InputText
namespace Sudachi

/-- Some text begins with these bytes. -/
def BeginsText (b : Bytes) : Prop := ∃ text rest, encodeUtf8 text = .ok (b ++ rest)

/-- All characters that are complete in these bytes. -/
def WholeChars (b : Bytes) (text : PStr) : Prop :=
  ∃ t rest, encodeUtf8 text = .ok t ∧ b = t ++ rest ∧ ∀ text' t' rest', encodeUtf8 text' = .ok t' → b = t' ++ rest' → text'.length ≤ text.length

/-- All lines that are complete in a text: a carriage return at its very end may still be followed by a line feed. -/
inductive WholeLines : PStr → List PStr → Prop
  | none (s : PStr) : (∀ c ∈ s, c ≠ 10 ∧ c ≠ 13) → WholeLines s []
  | open_ (s : PStr) : (∀ c ∈ s, c ≠ 10 ∧ c ≠ 13) → WholeLines (s ++ [13]) []
  | line (s nl rest : PStr) (ls : List PStr) : (∀ c ∈ s, c ≠ 10 ∧ c ≠ 13) →
      (nl = [10] ∨ nl = [13, 10] ∨ (nl = [13] ∧ rest ≠ [] ∧ ¬ ∃ r, rest = 10 :: r)) → WholeLines rest ls →
      WholeLines (s ++ nl ++ rest) ((s ++ [10]) :: ls)

/-- Read in pieces of `size` bytes, `n` pieces can be read and the next cannot, or there is none and the file is no text; these are the
lines that are complete in the `n` pieces. -/
def LinesUpTo (size : Nat) (b : Bytes) (lines : List PStr) : Prop :=
  ∃ n text, BeginsText (b.take (n * size)) ∧
    (¬ BeginsText (b.take ((n + 1) * size)) ∨ (b.length ≤ n * size ∧ ¬ ∃ text, encodeUtf8 text = .ok b)) ∧
    WholeChars (b.take (n * size)) text ∧ WholeLines text lines

end Sudachi
