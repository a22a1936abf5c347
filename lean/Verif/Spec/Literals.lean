/-
Unicode literals in the columns of a dictionary source: `\uXXXX` and `\u{...}` stand for the character with that code.
-/
import Verif.Spec.Definitions
namespace Sudachi

/-- The hexadecimal digits, by value. -/
def lowerHex : PStr := codes "0123456789abcdef"
def upperHex : PStr := codes "0123456789ABCDEF"

/-- `c` is the hexadecimal digit `d`. -/
def AsciiHex (c d : Nat) : Prop := lowerHex[d]? = some c ∨ upperHex[d]? = some c

/-- `h` are hexadecimal digits of the number `v`. -/
inductive HexIs : (h : PStr) → (v : Nat) → Prop
  | nil : HexIs [] 0
  | snoc (h : PStr) (v c d : Nat) : HexIs h v → AsciiHex c d → HexIs (h ++ [c]) (16 * v + d)

/-- The text begins with a literal, `h` being its digits and `rest` what follows. -/
inductive Literal : (s h rest : PStr) → Prop
  | four (h rest : PStr) (v : Nat) : h.length = 4 → HexIs h v → Literal (codes "\\u" ++ h ++ rest) h rest
  | braces (h rest : PStr) (v : Nat) : h ≠ [] → HexIs h v → Literal (codes "\\u{" ++ h ++ codes "}" ++ rest) h rest

/-- `out` is the text `s` with every literal replaced by its character. -/
inductive Unescaped : (s out : PStr) → Prop
  | nil : Unescaped [] []
  | literal (s h rest out : PStr) (v : Nat) : Literal s h rest → HexIs h v → Unescaped rest out → Unescaped s (v :: out)
  | char (c : Nat) (rest out : PStr) : (∀ h r, ¬ Literal (c :: rest) h r) → Unescaped rest out → Unescaped (c :: rest) (c :: out)

/-- Every literal in the text has four or five digits. -/
def ShortLiterals (s : PStr) : Prop := ∀ before after h rest, s = before ++ after → Literal after h rest → h.length = 4 ∨ h.length = 5

end Sudachi
