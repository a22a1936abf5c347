/-
What number a string of digits, points, commas and kanji units denotes: a pocket calculator over the rationals,
independent of the parser's string arithmetic.
-/
import Verif.Model.Basic
namespace Sudachi

/-- ASCII digits and 〇一二三四五六七八九. -/
def digitTable : List (Nat × Nat) :=
  [(48, 0), (49, 1), (50, 2), (51, 3), (52, 4), (53, 5), (54, 6), (55, 7), (56, 8), (57, 9),
   (0x3007, 0), (0x4E00, 1), (0x4E8C, 2), (0x4E09, 3), (0x56DB, 4), (0x4E94, 5), (0x516D, 6), (0x4E03, 7), (0x516B, 8),
   (0x4E5D, 9)]

/-- 十 百 千: powers of ten within a group of four digits. -/
def smallUnits : List (Nat × Nat) := [(0x5341, 1), (0x767E, 2), (0x5343, 3)]
/-- 万 億 兆. -/
def largeUnits : List (Nat × Nat) := [(0x4E07, 4), (0x5104, 8), (0x5146, 12)]

/-- State of the calculator: what has been summed up to the last large unit, since then up to the last small unit,
the number being read (if any) and how many digits after its point have been read (if there was a point). -/
structure Calc where
  total : Rat
  sub : Rat
  cur : Option Rat
  frac : Option Nat

def Calc.start : Calc := ⟨0, 0, none, none⟩

/-- Reading one character; `none` for characters that have no meaning in a number. -/
def Calc.step (q : Calc) (c : Nat) : Option Calc :=
  if c = 44 then some q                                        -- ',' is ignored
  else if c = 46 then some { q with frac := some 0 }           -- '.'
  else
    match digitTable.lookup c with
    | some d =>
      match q.frac with
      | none => some { q with cur := some (q.cur.getD 0 * 10 + d) }
      | some k => some { q with cur := some (q.cur.getD 0 + d / 10 ^ (k + 1)), frac := some (k + 1) }
    | none =>
      match smallUnits.lookup c with
      | some e => some { q with sub := q.sub + q.cur.getD 1 * 10 ^ e, cur := none, frac := none }
      | none =>
        match largeUnits.lookup c with
        | some e => some ⟨q.total + (q.sub + q.cur.getD 0) * 10 ^ e, 0, none, none⟩
        | none => none

def Calc.run (q : Calc) : PStr → Option Calc
  | [] => some q
  | c :: cs => (q.step c).bind (·.run cs)

/-- The number a string denotes. -/
def denotes (s : PStr) : Option Rat := (Calc.start.run s).map (fun q => q.total + q.sub + q.cur.getD 0)

/-- The value of a sequence of ASCII digits. -/
def digitsValue (s : PStr) : Rat := s.foldl (fun (v : Rat) (c : Nat) => v * 10 + ((c : Rat) - 48)) 0

/-- ASCII digits only. -/
def AllDigits (s : PStr) : Prop := ∀ c ∈ s, 48 ≤ c ∧ c ≤ 57

/-- `s` is a decimal numeral with value `v`: digits, or digits, a point and digits. -/
def IsNumeral (s : PStr) (v : Rat) : Prop :=
  (s ≠ [] ∧ AllDigits s ∧ v = digitsValue s) ∨
  ∃ a b, s = a ++ 46 :: b ∧ a ≠ [] ∧ b ≠ [] ∧ AllDigits a ∧ AllDigits b ∧
    v = digitsValue a + digitsValue b / 10 ^ b.length

/-- Canonical shape: digits, or digits, a point and digits not ending in zero. -/
def Canonical (s : PStr) : Prop :=
  (s ≠ [] ∧ AllDigits s) ∨ ∃ a b, s = a ++ 46 :: b ∧ a ≠ [] ∧ AllDigits a ∧ AllDigits b ∧ ∃ z, b.getLast? = some z ∧ z ≠ 48

end Sudachi

namespace Sudachi

/-- A character the parser reads as a digit, with its value. -/
def DigitChar (c : Nat) : Prop := ∃ d, digitTable.lookup c = some d

/-- `g₀,g₁,…,gₙ`. -/
def commaJoin (g : PStr) (gs : List PStr) : PStr := g ++ gs.flatMap (fun h => 44 :: h)

end Sudachi
