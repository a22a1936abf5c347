/-
Specifications about texts, independent of the builder's algorithms.
-/
import Verif.Model.InputText
namespace Sudachi

/-- The byte position of character `k` in the UTF-8 encoding of `s`. -/
def bytePos (s : PStr) (k : Nat) : Nat := ((s.take k).flatMap utf8Cp).length

/-- A position map for a modified text of length `n` over an original text of length `orig`:
one more entry than the text, non-decreasing, from 0 to `orig`. -/
structure ValidMap (m : List Nat) (n orig : Nat) : Prop where
  len : m.length = n + 1
  mono : ∀ i j (hi : i < m.length) (hj : j < m.length), i ≤ j → m[i] ≤ m[j]
  first : m[0]? = some 0
  last : m[n]? = some orig

/-- A builder whose position map is valid. -/
def Builder.Valid (bd : Builder) : Prop := ValidMap bd.m2o bd.modified.length bd.original.length

/-- One edit request: `replace(b, e, s)`. -/
structure Edit where
  b : Nat
  e : Nat
  s : PStr
  deriving DecidableEq, Repr

/-- The edits the documentation of `replace` allows, with a non-empty replacement. -/
def Edit.Ok (ed : Edit) (textLen : Nat) : Prop := ed.b < ed.e ∧ ed.b < textLen ∧ ed.s ≠ []

/-- Builders reachable from `UTF8InputTextBuilder(text)` by valid edits. -/
inductive Reachable (text : PStr) : Builder → Prop
  | init : Reachable text (Builder.init text)
  | step {bd bd' : Builder} (ed : Edit) : Reachable text bd → ed.Ok bd.modified.length →
      bd.replace ed.b ed.e ed.s = .ok bd' → Reachable text bd'

end Sudachi

namespace Sudachi

/-- `c` belongs to every character of `[i, j)`. -/
def CommonCat (cats : List CatSet) (i j : Nat) (c : Cat) : Prop := ∀ k cs, i ≤ k → k < j → cats[k]? = some cs → c ∈ cs

/-- `[i, j)` is a longest stretch from `i` whose characters share a category (one character is always allowed). -/
structure IsRun (cats : List CatSet) (i j : Nat) : Prop where
  lt : i < j
  le : j ≤ cats.length
  common : j = i + 1 ∨ ∃ c, CommonCat cats i j c
  maximal : j = cats.length ∨ ¬ ∃ c, CommonCat cats i (j + 1) c

/-- The starts of the greedy segmentation of the text into runs. -/
inductive RunStart (cats : List CatSet) : Nat → Prop
  | zero : RunStart cats 0
  | next {i j : Nat} : RunStart cats i → IsRun cats i j → RunStart cats j

/-- An alphabetic character. -/
def Alphabetic (cs : CatSet) : Prop := Cat.ALPHA ∈ cs ∨ Cat.GREEK ∈ cs ∨ Cat.CYRILLIC ∈ cs

/-- UTF-8 encodes every code point but surrogates. -/
def Encodes (m : PStr) : Prop := ∀ c ∈ m, c ≤ 0x10FFFF ∧ ¬ (0xD800 ≤ c ∧ c ≤ 0xDFFF)

/-- The missing categories of a character are met: it is not the first one, or the second one is alphabetic. -/
def MissingCats (m : PStr) (catOf : Nat → CatSet) : Prop :=
  (∃ k c, m[k + 1]? = some c ∧ catOf c = []) ∨ ∃ c d, m[0]? = some c ∧ m[1]? = some d ∧ catOf c = [] ∧ Alphabetic (catOf d)

/-- A word may begin at character `k`. -/
def BowChar (cats : List CatSet) (k : Nat) : Prop :=
  k = 0 ∨ ∃ cur prev, cats[k]? = some cur ∧ cats[k - 1]? = some prev ∧ (¬ Alphabetic cur ∨ ∀ c ∈ cur, c ∉ prev)

end Sudachi
