/-
What the lines of the definition files (char.def, unk.def, rewrite.def) say, apart from how the code reads them.
-/
import Verif.Model.Category
import Verif.Model.PyText
import Verif.Model.Oov
namespace Sudachi

/-- The white space of Python's `str`: the characters of Unicode's class Zs (space separators) and those of bidirectional type WS,
B or S. -/
def whiteSpaces : List Nat :=
  [0x20, 0xA0, 0x1680, 0x2000, 0x2001, 0x2002, 0x2003, 0x2004, 0x2005, 0x2006, 0x2007, 0x2008, 0x2009, 0x200A, 0x202F, 0x205F, 0x3000] ++
  [0x09, 0x0A, 0x0B, 0x0C, 0x0D, 0x1C, 0x1D, 0x1E, 0x1F, 0x85, 0x2028, 0x2029]

/-- Only white space. -/
def Blank (w : PStr) : Prop := ∀ c ∈ w, isSpace c = true

/-- A word: not empty and without white space. -/
def IsWord (w : PStr) : Prop := w ≠ [] ∧ ∀ c ∈ w, isSpace c = false

/-- The columns of a line: its words, with white space between them and maybe around them. -/
inductive Columns : PStr → List PStr → Prop
  | nil (w : PStr) : Blank w → Columns w []
  | last (w c : PStr) : Blank w → IsWord c → Columns (w ++ c) [c]
  | cons (w c : PStr) (s : Nat) (rest : PStr) (cols : List PStr) : Blank w → IsWord c → isSpace s = true →
      Columns (s :: rest) cols → Columns (w ++ c ++ s :: rest) (c :: cols)

/-- The line begins with white space. -/
def Indented (line : PStr) : Prop := ∃ c rest, line = c :: rest ∧ isSpace c = true

/-- A hexadecimal digit and its value: a letter, or a decimal digit of any script. -/
inductive HexDigit : Nat → Nat → Prop
  | decimal (c d : Nat) : digitVal c = some d → HexDigit c d
  | upper (i : Nat) : i < 6 → HexDigit (65 + i) (10 + i)
  | lower (i : Nat) : i < 6 → HexDigit (97 + i) (10 + i)

/-- Hexadecimal digits and their value; single underscores may stand between them. -/
inductive HexBody : PStr → Nat → Prop
  | one (c d : Nat) : HexDigit c d → HexBody [c] d
  | more (s : PStr) (v c d : Nat) : HexBody s v → HexDigit c d → HexBody (s ++ [c]) (16 * v + d)
  | under (s : PStr) (v c d : Nat) : HexBody s v → HexDigit c d → HexBody (s ++ [95, c]) (16 * v + d)

/-- A hexadecimal number without sign: with or without the prefix `0x`. -/
inductive HexNat : PStr → Nat → Prop
  | plain (s : PStr) (v : Nat) : HexBody s v → HexNat s v
  | pre (z x : Nat) (s : PStr) (v : Nat) : digitVal z = some 0 → x = 120 ∨ x = 88 → HexBody s v → HexNat (z :: x :: s) v
  | preUnder (z x : Nat) (s : PStr) (v : Nat) : digitVal z = some 0 → x = 120 ∨ x = 88 → HexBody s v →
      HexNat (z :: x :: 95 :: s) v

/-- A hexadecimal number that `int(s, 16)` reads, with maybe a sign and white space around it. -/
inductive HexInt : PStr → Int → Prop
  | plain (w s w' : PStr) (v : Nat) : (∀ c ∈ w, isIntSpace c = true) → (∀ c ∈ w', isIntSpace c = true) → HexNat s v →
      HexInt (w ++ s ++ w') v
  | plus (w s w' : PStr) (v : Nat) : (∀ c ∈ w, isIntSpace c = true) → (∀ c ∈ w', isIntSpace c = true) → HexNat s v →
      HexInt (w ++ 43 :: s ++ w') v
  | minus (w s w' : PStr) (v : Nat) : (∀ c ∈ w, isIntSpace c = true) → (∀ c ∈ w', isIntSpace c = true) → HexNat s v →
      HexInt (w ++ 45 :: s ++ w') (-(v : Int))

/-- The code points a first column stands for: one number, or the first and the last one with two dots between them; what
comes after a second pair of dots is ignored. -/
inductive CodePoints : PStr → Nat → Nat → Prop
  | single (col : PStr) (low : Nat) : HexInt col low → CodePoints col low low
  | range (a b rest : PStr) (low last : Nat) : HexInt a low → HexInt b last → (rest = [] ∨ ∃ r, rest = 46 :: 46 :: r) →
      CodePoints (a ++ 46 :: 46 :: b ++ rest) low last

/-- The names of the categories. -/
def catName : Cat → String
  | .DEFAULT => "DEFAULT" | .SPACE => "SPACE" | .KANJI => "KANJI" | .SYMBOL => "SYMBOL" | .NUMERIC => "NUMERIC"
  | .ALPHA => "ALPHA" | .HIRAGANA => "HIRAGANA" | .KATAKANA => "KATAKANA" | .KANJINUMERIC => "KANJINUMERIC"
  | .GREEK => "GREEK" | .CYRILLIC => "CYRILLIC" | .USER1 => "USER1" | .USER2 => "USER2" | .USER3 => "USER3"
  | .USER4 => "USER4" | .NOOOVBOW => "NOOOVBOW"

/-- The code points of a string literal. -/
def codes (s : String) : PStr := s.toList.map Char.toNat

/-- A column that begins a comment. -/
def IsComment (col : PStr) : Prop := ∃ r, col = 35 :: r

/-- A line of char.def that gives the code points `low` to `last` the categories `cats`: it is not indented, its first column
begins with `0x` and stands for these code points, and then come the names of the categories, up to the end of the line or to
a comment; there is at least one more column. -/
def GivesCategories (line : PStr) (low last : Nat) (cats : List Cat) : Prop :=
  ∃ col tail, Columns line (col :: (cats.map (fun c => codes (catName c)) ++ tail)) ∧ ¬ Indented line ∧
    (∃ r, col = 48 :: 120 :: r) ∧ CodePoints col low last ∧ low ≤ last ∧ (cats ≠ [] ∨ tail ≠ []) ∧
    (tail = [] ∨ ∃ t rest, tail = t :: rest ∧ IsComment t)

/-- A line of char.def without categories of code points: blank, or a comment, or indented, or with a first column that does
not begin with `0x` and at least one more column. -/
def SaysNothing (line : PStr) : Prop :=
  Blank line ∨ IsComment line ∨ Indented line ∨
    ∃ col c cols, Columns line (col :: c :: cols) ∧ ¬ ∃ r, col = 48 :: 120 :: r

/-- The lines of a text: each ends with a line feed, or a carriage return, or both in this order, and is given with one line
feed instead; the last one may end without. -/
inductive Lines : PStr → List PStr → Prop
  | nil : Lines [] []
  | last (s : PStr) : s ≠ [] → (∀ c ∈ s, c ≠ 10 ∧ c ≠ 13) → Lines s [s]
  | cons (s nl rest : PStr) (ls : List PStr) : (∀ c ∈ s, c ≠ 10 ∧ c ≠ 13) →
      (nl = [10] ∨ nl = [13, 10] ∨ (nl = [13] ∧ ¬ ∃ r, rest = 10 :: r)) → Lines rest ls →
      Lines (s ++ nl ++ rest) ((s ++ [10]) :: ls)

/-- A number in hexadecimal digits. -/
def hexText (n : Nat) : PStr :=
  if h : n < 16 then [if n < 10 then 48 + n else 55 + n]
  else hexText (n / 16) ++ [if n % 16 < 10 then 48 + n % 16 else 55 + n % 16]
  termination_by n
  decreasing_by omega

/-- A range as a line of char.def: `0xLOW..0xLAST CATEGORY CATEGORY ...`. -/
def rangeLine (r : CRange) : PStr :=
  48 :: 120 :: hexText r.low ++ [46, 46, 48, 120] ++ hexText (r.high - 1) ++
    (r.cats.flatMap (fun c => 32 :: codes (catName c)) ++ [10])

/-! ### Categories of unknown words -/

/-- Decimal digits and their value; single underscores may stand between them. -/
inductive DecBody : PStr → Nat → Prop
  | one (c d : Nat) : digitVal c = some d → DecBody [c] d
  | more (s : PStr) (v c d : Nat) : DecBody s v → digitVal c = some d → DecBody (s ++ [c]) (10 * v + d)
  | under (s : PStr) (v c d : Nat) : DecBody s v → digitVal c = some d → DecBody (s ++ [95, c]) (10 * v + d)

/-- A decimal number that `int(s)` reads, with maybe a sign and white space around it. -/
inductive DecInt : PStr → Int → Prop
  | plain (w s w' : PStr) (v : Nat) : (∀ c ∈ w, isIntSpace c = true) → (∀ c ∈ w', isIntSpace c = true) → DecBody s v →
      DecInt (w ++ s ++ w') v
  | plus (w s w' : PStr) (v : Nat) : (∀ c ∈ w, isIntSpace c = true) → (∀ c ∈ w', isIntSpace c = true) → DecBody s v →
      DecInt (w ++ 43 :: s ++ w') v
  | minus (w s w' : PStr) (v : Nat) : (∀ c ∈ w, isIntSpace c = true) → (∀ c ∈ w', isIntSpace c = true) → DecBody s v →
      DecInt (w ++ 45 :: s ++ w') (-(v : Int))

/-- A line of char.def that is not about the unknown words: blank, or a comment, or about code points. -/
def NotProperty (line : PStr) : Prop :=
  ∀ col cols, Columns line (col :: cols) → IsComment col ∨ ∃ r, col = 48 :: 120 :: r

/-- A line of char.def that says how unknown words of a category are made: `NAME INVOKE GROUP LENGTH`; INVOKE and GROUP are
true unless they are `0`. -/
def PropertyOf (line : PStr) (c : Cat) (info : CategoryInfo) : Prop :=
  ∃ invoke group length rest, Columns line (codes (catName c) :: invoke :: group :: length :: rest) ∧
    (info.isInvoke = true ↔ invoke ≠ codes "0") ∧ (info.isGroup = true ↔ group ≠ codes "0") ∧ DecInt length info.length

/-- The columns of a line of unk.def: between commas, without the white space around the line. -/
def CommaColumns (line : PStr) (cols : List PStr) : Prop :=
  ∃ w body w', line = w ++ body ++ w' ∧ Blank w ∧ Blank w' ∧ ¬ Indented body ∧ (¬ ∃ r c, body = r ++ [c] ∧ isSpace c = true) ∧
    body = List.intercalate [44] cols ∧ cols ≠ [] ∧ ∀ col ∈ cols, 44 ∉ col

/-- The number of a part of speech: its place among those of the grammar, or −1. -/
def PosNumber (posList : List (List PStr)) (pos : List PStr) (n : Int) : Prop :=
  (∃ i : Nat, n = i ∧ posList[i]? = some pos ∧ ∀ j < i, posList[j]? ≠ some pos) ∨ (n = -1 ∧ pos ∉ posList)

/-- A line of unk.def that gives an entry for the unknown words of a category: its name, left and right connection id, cost,
and the six components of the part of speech. -/
def UnkEntry (posList : List (List PStr)) (line : PStr) (c : Cat) (e : OovEntry) : Prop :=
  ∃ left right cost p0 p1 p2 p3 p4 p5 rest,
    CommaColumns line (codes (catName c) :: left :: right :: cost :: p0 :: p1 :: p2 :: p3 :: p4 :: p5 :: rest) ∧
    DecInt left e.leftId ∧ DecInt right e.rightId ∧ DecInt cost e.cost ∧ PosNumber posList [p0, p1, p2, p3, p4, p5] e.posId

/-- The entries of the lines of unk.def, in order. -/
inductive UnkEntries (posList : List (List PStr)) : List PStr → List (Cat × OovEntry) → Prop
  | nil : UnkEntries posList [] []
  | skip (line : PStr) (lines : List PStr) (es : List (Cat × OovEntry)) : (∀ c e, ¬ UnkEntry posList line c e) →
      UnkEntries posList lines es → UnkEntries posList (line :: lines) es
  | entry (line : PStr) (lines : List PStr) (c : Cat) (e : OovEntry) (es : List (Cat × OovEntry)) : UnkEntry posList line c e →
      UnkEntries posList lines es → UnkEntries posList (line :: lines) ((c, e) :: es)

/-! ### rewrite.def -/

/-- The columns of a line of rewrite.def that is not a comment. -/
def RewriteSays (line : PStr) (cols : List PStr) : Prop :=
  Columns line cols ∧ ∃ c cs, cols = c :: cs ∧ ¬ IsComment c

/-- A line of rewrite.def that is accepted: blank, or a comment, or one character (not to be normalised), or a key and what it
is replaced with. -/
def RewriteLine (line : PStr) : Prop :=
  (∀ cols, ¬ RewriteSays line cols) ∨ (∃ c : Nat, RewriteSays line [[c]]) ∨ ∃ k v, RewriteSays line [k, v]

end Sudachi
