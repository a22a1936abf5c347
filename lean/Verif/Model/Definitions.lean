/-
The definition files: charactercategory.py `read_character_definition` (char.def), mecab_oov_plugin.py
`read_character_property` (char.def) and `read_oov` (unk.def), default_input_text_plugin.py `read_rewrite_lists`
(rewrite.def).
-/
import Verif.Model.Category
import Verif.Model.Bytes
import Verif.Model.PyText
import Verif.Model.Oov
import Verif.Model.DictFile
namespace Sudachi

/-! ### Text files -/

/-- The lines of a text file opened with universal newlines: `\r\n` and `\r` read as `\n`; `cur` is the line being read. -/
def linesAux : PStr → PStr → List PStr
  | cur, [] => if cur.isEmpty then [] else [cur]
  | cur, 13 :: 10 :: cs => (cur ++ [10]) :: linesAux [] cs
  | cur, c :: cs => if c = 13 ∨ c = 10 then (cur ++ [10]) :: linesAux [] cs else linesAux (cur ++ [c]) cs

/-- `open(path, 'r', encoding='utf-8')` and its lines.  (The file is decoded before its first line is looked at; the code
decodes block by block, so a bad byte far behind a bad line would be noticed later.) -/
def textLines (b : Bytes) : Res (List PStr) := (decodeUtf8 b).map (linesAux [])

/-- `s.rstrip()`. -/
def rstrip (s : PStr) : PStr := (s.reverse.dropWhile isSpace).reverse

/-- `re.split(r"\s+", s)`: `cur` is the column being read, `sp` whether we are in white space after a column. -/
def reSplitAux : Bool → PStr → PStr → List PStr
  | _, cur, [] => [cur]
  | sp, cur, c :: cs =>
    if isSpace c then (if sp then reSplitAux true cur cs else cur :: reSplitAux true [] cs)
    else reSplitAux false (cur ++ [c]) cs

def reSplitWs (s : PStr) : List PStr := reSplitAux false [] s

/-- `re.split("\\.\\.", s)`. -/
def splitDots : PStr → List PStr
  | [] => [[]]
  | 46 :: 46 :: cs => [] :: splitDots cs
  | c :: cs =>
    match splitDots cs with
    | [] => [[c]]
    | h :: t => (c :: h) :: t

/-- A digit of `int(s, 16)`. -/
def hexDigitVal (c : Nat) : Option Nat :=
  match digitVal c with
  | some d => some d
  | none => hexVal c

/-- The digits of a hexadecimal number after its first one; single underscores may stand between digits. -/
def hexDigitsFrom : PStr → Nat → Option Nat
  | [], acc => some acc
  | c :: cs, acc =>
    match hexDigitVal c with
    | some d => hexDigitsFrom cs (acc * 16 + d)
    | none =>
      if c = 95 then
        match cs with
        | [] => none
        | c' :: cs' =>
          match hexDigitVal c' with
          | some d => hexDigitsFrom cs' (acc * 16 + d)
          | none => none
      else none

/-- An unsigned hexadecimal number without prefix. -/
def hexDigits : PStr → Option Nat
  | [] => none
  | c :: cs =>
    match hexDigitVal c with
    | some d => hexDigitsFrom cs d
    | none => none

/-- An unsigned hexadecimal number, maybe with the prefix `0x` or `0X`, after which one underscore is allowed. -/
def hexNumber : PStr → Option Nat
  | [] => none
  | z :: s =>
    if digitVal z = some 0 ∧ (s.head? = some 120 ∨ s.head? = some 88) then
      match s.tail with
      | 95 :: r => hexDigits r
      | r => hexDigits r
    else hexDigits (z :: s)

/-- `int(s, 16)`: `ValueError` if it is not a hexadecimal number. -/
def pyIntHex (s : PStr) : Res Int :=
  match
    match stripInt s with
    | 45 :: r => (hexNumber r).map (fun n => -(n : Int))
    | 43 :: r => (hexNumber r).map (fun n => (n : Int))
    | r => (hexNumber r).map (fun n => (n : Int)) with
  | some v => .ok v
  | none => .error .value

/-! ### Categories by name -/

/-- categorytype.py:18-34: the names of the members. -/
def Cat.name : Cat → PStr
  | .DEFAULT => [68, 69, 70, 65, 85, 76, 84]
  | .SPACE => [83, 80, 65, 67, 69]
  | .KANJI => [75, 65, 78, 74, 73]
  | .SYMBOL => [83, 89, 77, 66, 79, 76]
  | .NUMERIC => [78, 85, 77, 69, 82, 73, 67]
  | .ALPHA => [65, 76, 80, 72, 65]
  | .HIRAGANA => [72, 73, 82, 65, 71, 65, 78, 65]
  | .KATAKANA => [75, 65, 84, 65, 75, 65, 78, 65]
  | .KANJINUMERIC => [75, 65, 78, 74, 73, 78, 85, 77, 69, 82, 73, 67]
  | .GREEK => [71, 82, 69, 69, 75]
  | .CYRILLIC => [67, 89, 82, 73, 76, 76, 73, 67]
  | .USER1 => [85, 83, 69, 82, 49]
  | .USER2 => [85, 83, 69, 82, 50]
  | .USER3 => [85, 83, 69, 82, 51]
  | .USER4 => [85, 83, 69, 82, 52]
  | .NOOOVBOW => [78, 79, 79, 79, 86, 66, 79, 87]

/-- The members of the enumeration. -/
def Cat.all : List Cat :=
  [.DEFAULT, .SPACE, .KANJI, .SYMBOL, .NUMERIC, .ALPHA, .HIRAGANA, .KATAKANA, .KANJINUMERIC, .GREEK, .CYRILLIC, .USER1, .USER2,
   .USER3, .USER4, .NOOOVBOW]

/-- categorytype.py:45-50 `get`: the member of a name, `None` if there is none. -/
def Cat.get (s : PStr) : Option Cat := Cat.all.find? (fun c => c.name == s)

/-! ### char.def -/

/-- charactercategory.py:153-160: the category columns of a line, up to a comment or an empty column. -/
def charDefCats : List PStr → Res (List Cat)
  | [] => .ok []
  | col :: cols =>
    if col.head? = some 35 ∨ col = [] then .ok []
    else
      match Cat.get col with
      | none => .error .attribute
      | some c => (charDefCats cols).map (c :: ·)

/-- charactercategory.py:144-152: the first column. -/
def charDefRange (col : PStr) : Res (Nat × Nat) :=
  match splitDots col with
  | [] => .error .index
  | r0 :: rs => do
    let low ← pyIntHex r0
    let high ← match rs with
      | [] => pure (low + 1)
      | r1 :: _ => (pyIntHex r1).map (· + 1)
    if low ≥ high then .error .attribute else pure (low.toNat, high.toNat)

/-- charactercategory.py:135-161: a line; `none` if it defines no range.  (The first column begins with `0x`, so the number is
not negative.) -/
def charDefLine (line : PStr) : Res (Option CRange) :=
  if (rstrip line).isEmpty ∨ (rstrip line).head? = some 35 then .ok none
  else if (reSplitWs (rstrip line)).length < 2 then .error .attribute
  else
    match reSplitWs (rstrip line) with
    | [] => .error .attribute
    | col :: cols =>
      if col.take 2 ≠ [48, 120] then .ok none
      else do
        let (low, high) ← charDefRange col
        let cats ← charDefCats cols
        pure (some ⟨low, high, cats⟩)

/-- charactercategory.py:134-161: the loop over the lines. -/
def charDefLines : List PStr → Res (List CRange)
  | [] => .ok []
  | line :: lines => do
    let r ← charDefLine line
    let rs ← charDefLines lines
    match r with
    | some r => pure (r :: rs)
    | none => pure rs

/-- charactercategory.py:124-164 `read_character_definition`. -/
def readCharDef (pick : SweepState → Nat) (lines : List PStr) : Res (List CRange) := do
  let ranges ← charDefLines lines
  compile pick ranges

/-! ### The MeCab plugin's files -/

/-- What `getattr(CategoryType, name)` can give: a member, another attribute of the class (`get`, `mro`, ...; the number
tells them apart), or one that cannot be a key of a dictionary. -/
inductive Attr
  | member (c : Cat)
  | other (n : Nat)
  | unhashable
  deriving DecidableEq, Repr

/-- `getattr(CategoryType, name)`; `others` are the attributes of the class that are not members. -/
def getAttr (others : PStr → Option Attr) (name : PStr) : Option Attr :=
  match Cat.get name with
  | some c => some (.member c)
  | none => others name

/-- `others` holds no members. -/
def OnlyOthers (others : PStr → Option Attr) : Prop := ∀ name c, others name ≠ some (.member c)

/-- mecab_oov_plugin.py:99-120: a line of char.def; `none` if it is skipped. -/
def propertyLine (others : PStr → Option Attr) (defined : List (Attr × CategoryInfo)) (line : PStr) : Res (Option (Attr × CategoryInfo)) :=
  if (strip line).isEmpty ∨ (strip line).head? = some 35 ∨ (strip line).take 2 = [48, 120] then .ok none
  else
    match splitWs (strip line) with
    | name :: invoke :: group :: length :: _ =>
      match getAttr others name with
      | none => .error .value
      | some .unhashable => .error .type
      | some a =>
        if (dictGet defined a).isSome then .error .value
        else do
          let n ← pyInt length
          pure (some (a, ⟨decide (invoke ≠ [48]), decide (group ≠ [48]), n⟩))
    | _ => .error .value

/-- mecab_oov_plugin.py:99-120 `read_character_property`: the loop; `defined` is `self.categories`. -/
def readProperties (others : PStr → Option Attr) (defined : List (Attr × CategoryInfo)) : List PStr → Res (List (Attr × CategoryInfo))
  | [] => .ok defined
  | line :: lines => do
    match ← propertyLine others defined line with
    | none => readProperties others defined lines
    | some p => readProperties others (defined ++ [p]) lines

/-- mecab_oov_plugin.py:122-144: a line of unk.def; `none` if it is blank. -/
def unkLine (others : PStr → Option Attr) (g : Grammar) (defined : List (Attr × CategoryInfo)) (line : PStr) : Res (Option (Attr × OovEntry)) :=
  if (strip line).isEmpty then .ok none
  else
    match splitOn 44 (strip line) with
    | name :: left :: right :: cost :: p0 :: p1 :: p2 :: p3 :: p4 :: p5 :: _ =>
      match getAttr others name with
      | none => .error .value
      | some .unhashable => .error .type
      | some a =>
        if (dictGet defined a).isNone then .error .value
        else do
          let l ← pyInt left
          let r ← pyInt right
          let c ← pyInt cost
          pure (some (a, ⟨l, r, c, g.posId [p0, p1, p2, p3, p4, p5]⟩))
    | _ => .error .value

/-- mecab_oov_plugin.py:122-144 `read_oov`: the loop; the entries in order (`self.oov_list[type_]` are those of a type). -/
def readUnk (others : PStr → Option Attr) (g : Grammar) (defined : List (Attr × CategoryInfo)) : List PStr → Res (List (Attr × OovEntry))
  | [] => .ok []
  | line :: lines => do
    let r ← unkLine others g defined line
    let rs ← readUnk others g defined lines
    match r with
    | some x => pure (x :: rs)
    | none => pure rs

/-- The entries whose key is a member: characters have no other categories, so `provide_oov` sees only these. -/
def members {α : Type} : List (Attr × α) → List (Cat × α)
  | [] => []
  | (.member c, x) :: rest => (c, x) :: members rest
  | _ :: rest => members rest

/-- mecab_oov_plugin.py:50-59 `set_up` on the lines of the two files. -/
def mecabSetUp (others : PStr → Option Attr) (g : Grammar) (charDef unkDef : List PStr) : Res OovPlugin := do
  let categories ← readProperties others [] charDef
  let oovList ← readUnk others g categories unkDef
  pure (.mecab (members categories) (members oovList))

/-! ### rewrite.def -/

/-- default_input_text_plugin.py:80-84: the columns of the lines that are not skipped. -/
def rewriteCols : List PStr → List (List PStr)
  | [] => []
  | line :: lines =>
    if (strip line).isEmpty ∨ (strip line).head? = some 35 then rewriteCols lines
    else splitWs (strip line) :: rewriteCols lines

/-- default_input_text_plugin.py:78-100 `read_rewrite_lists`. -/
def readRewriteDef (lines : List PStr) : Res RewriteTable := readRewriteLines .empty (rewriteCols lines)

end Sudachi
