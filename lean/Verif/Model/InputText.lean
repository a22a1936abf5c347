/-
sudachipy/utf8inputtextbuilder.py and sudachipy/utf8inputtext.py
-/
import Verif.Model.Category
namespace Sudachi

/-- utf8inputtextbuilder.py:111-123 `utf8_byte_length`.  (`cp < 0` cannot happen: `ord` is non-negative.) -/
def utf8ByteLength (cp : Nat) : Nat :=
  if cp ≤ 0x7F then 1
  else if cp ≤ 0x7FF then 2
  else if cp ≤ 0xFFFF then 3
  else if cp ≤ 0x10FFFF then 4
  else 0

/-- A code point `str.encode('utf-8')` accepts: at most 0x10FFFF and not a surrogate. -/
def encodable (cp : Nat) : Bool := decide (cp ≤ 0x10FFFF) && !(decide (0xD800 ≤ cp) && decide (cp ≤ 0xDFFF))

/-- The UTF-8 encoding of one code point (the runtime's codec, RFC 3629). -/
def utf8Cp (cp : Nat) : Bytes :=
  if cp ≤ 0x7F then [cp]
  else if cp ≤ 0x7FF then [0xC0 + cp / 64, 0x80 + cp % 64]
  else if cp ≤ 0xFFFF then [0xE0 + cp / 4096, 0x80 + cp / 64 % 64, 0x80 + cp % 64]
  else [0xF0 + cp / 262144, 0x80 + cp / 4096 % 64, 0x80 + cp / 64 % 64, 0x80 + cp % 64]

/-- `text.encode('utf-8')` (used at utf8inputtextbuilder.py:63): `UnicodeEncodeError` on surrogates. -/
def encodeUtf8 (s : PStr) : Res Bytes :=
  if s.all encodable then .ok (s.flatMap utf8Cp) else .error .unicode

/-- utf8inputtextbuilder.py:19-26 `UTF8InputTextBuilder`: `original_text`, `modified_text`,
`modified_to_original`.  The grammar (only its character-category lookup is used) is passed separately. -/
structure Builder where
  original : PStr
  modified : PStr
  m2o : List Nat
  deriving DecidableEq, Repr

/-- utf8inputtextbuilder.py:20-25 `__init__`. -/
def Builder.init (text : PStr) : Builder := ⟨text, text, List.range (text.length + 1)⟩

/-- utf8inputtextbuilder.py:49-53: the loop `for i in range(1, length)` that overwrites entry `begin + i` while
`begin + i < end` (an assignment past the end of the list would raise) and inserts otherwise
(`list.insert` past the end appends). -/
def replaceLoop (begin_ end_ modifiedEnd : Nat) (m : List Nat) : List Nat → List Nat
  | [] => m
  | i :: is =>
    let m' := if begin_ + i < end_ then m.set (begin_ + i) modifiedEnd
              else m.take (begin_ + i) ++ modifiedEnd :: m.drop (begin_ + i)
    replaceLoop begin_ end_ modifiedEnd m' is

/-- utf8inputtextbuilder.py:28-53 `replace`, as a state transformer: the builder after the call (also when an
exception is raised) and the outcome. -/
def Builder.replaceM (bd : Builder) (begin_ end_ : Int) (str : PStr) : Builder × Res Unit :=
  if begin_ < 0 then (bd, .error .index)                                   -- line 29
  else if begin_ > bd.modified.length then (bd, .error .index)             -- line 31
  else if begin_ > end_ then (bd, .error .index)                           -- line 33
  else if begin_ = end_ then (bd, .error .attribute)                       -- line 35
  else
    let b := begin_.toNat
    let e := min end_.toNat bd.modified.length                             -- line 38-39
    let bd1 := { bd with modified := bd.modified.take b ++ str ++ bd.modified.drop e }  -- line 41
    match bd1.m2o[b]?, bd1.m2o[e]? with                                    -- line 43-44
    | some mb, some me =>
      let length := str.length
      let m1 := if e - b > length then bd1.m2o.take (b + length) ++ bd1.m2o.drop e else bd1.m2o  -- line 46-47
      if b < m1.length then                                                -- line 48 (IndexError past the end)
        let m2 := m1.set b mb
        ({ bd1 with m2o := replaceLoop b e me m2 (List.range' 1 (length - 1)) }, .ok ())  -- line 49-53
      else ({ bd1 with m2o := m1 }, .error .index)
    | _, _ => (bd1, .error .index)

/-- `replace` as used by callers that do not catch exceptions. -/
def Builder.replace (bd : Builder) (begin_ end_ : Int) (str : PStr) : Res Builder :=
  match bd.replaceM begin_ end_ str with
  | (bd', .ok ()) => .ok bd'
  | (_, .error e) => .error e

/-- utf8inputtext.py:16-25 `UTF8InputText`. -/
structure InputText where
  original : PStr
  modified : PStr
  bytes : Bytes
  offsets : List Nat
  byteIndexes : List Nat
  charCats : List CatSet
  conts : List Nat
  canBowList : List Bool
  deriving DecidableEq, Repr

/-- utf8inputtextbuilder.py:68-74: for the characters from index `i` on, one `byte_indexes` entry per byte.
(The preallocated array filled left to right is modelled by appending.) -/
def fillByteIndexes : PStr → Nat → List Nat
  | [], _ => []
  | c :: cs, i => List.replicate (utf8ByteLength c) i ++ fillByteIndexes cs (i + 1)

/-- utf8inputtextbuilder.py:68-74: the `offsets` entries, reading `modified_to_original[i]`. -/
def fillOffsets (m2o : List Nat) : PStr → Nat → Res (List Nat)
  | [], _ => .ok []
  | c :: cs, i => do
    let o ← pyGet m2o i
    let rest ← fillOffsets m2o cs (i + 1)
    pure (List.replicate (utf8ByteLength c) o ++ rest)

/-- utf8inputtextbuilder.py:105-109: the loop of `get_char_category_continuous_length` over the characters after
`offset`, with `length` characters already in the run; `last` is `len(char_categories) - offset`. -/
def contLoop (cont : CatSet) : List CatSet → Nat → Nat
  | [], length => length
  | c :: cs, length =>
    let cont' := cont.inter c
    if cont'.length = 0 then length else contLoop cont' cs (length + 1)

/-- utf8inputtextbuilder.py:103-109 `get_char_category_continuous_length`, on the suffix starting at `offset`. -/
def continuousLength : List CatSet → Nat
  | [] => 0
  | c :: cs => contLoop c cs 1

/-- utf8inputtextbuilder.py:98-99: `for k in range(length, 0, -1): append(k)`. -/
def countdown : Nat → List Nat
  | 0 => []
  | n + 1 => (n + 1) :: countdown n

/-- utf8inputtextbuilder.py:92-101: the `while` loop of `get_char_category_continuities` on the remaining text and
categories, with fuel (each iteration consumes at least one character, so `length + 1` suffices). -/
def contsLoop : Nat → PStr → List CatSet → List Nat
  | 0, _, _ => []
  | fuel + 1, text, cats =>
    match cats with
    | [] => []
    | _ :: _ =>
      let n := continuousLength cats
      countdown (((text.take n).map utf8ByteLength).sum) ++ contsLoop fuel (text.drop n) (cats.drop n)

/-- utf8inputtextbuilder.py:88-101 `get_char_category_continuities`. -/
def charCategoryContinuities (text : PStr) (cats : List CatSet) : List Nat :=
  contsLoop (cats.length + 1) text cats

/-- utf8inputtextbuilder.py:134-137: may a word begin at a character with categories `cat` after one with `prev`. -/
def bowAfter (prev cat : CatSet) : Bool :=
  if Cat.ALPHA ∈ cat ∨ Cat.GREEK ∈ cat ∨ Cat.CYRILLIC ∈ cat then (cat.inter prev).isEmpty else true

/-- utf8inputtextbuilder.py:125-141 `_build_can_bow_list` (`prev` = categories of character `i - 1`). -/
def canBowLoop (prev : CatSet) : List CatSet → List Bool
  | [] => []
  | c :: cs => bowAfter prev c :: canBowLoop c cs

/-- utf8inputtextbuilder.py:125-141 `_build_can_bow_list`. -/
def buildCanBowList : List CatSet → List Bool
  | [] => []
  | c :: cs => true :: canBowLoop c cs

/-- A char.def line without categories makes `get_category_types` answer the *list* `[]`
(charactercategory.py:32 `categories or []`), and `set & list` raises `TypeError`.  That happens at
utf8inputtextbuilder.py:106 for every such character but the first one, and at line 135 when such a first
character is followed by an alphabetic one.  The comparison loops below treat `[]` as the empty set; this check
is the exception they would have raised. -/
def emptyCatTypeError : List CatSet → Bool
  | [] => false
  | c :: cs => cs.any List.isEmpty ||
    (c.isEmpty && match cs with
      | [] => false
      | d :: _ => decide (Cat.ALPHA ∈ d ∨ Cat.GREEK ∈ d ∨ Cat.CYRILLIC ∈ d))

/-- utf8inputtextbuilder.py:61-83 `build`; `catOf` is `grammar.get_character_category().get_category_types`. -/
def Builder.build (bd : Builder) (catOf : Nat → CatSet) : Res InputText := do
  let bytes ← encodeUtf8 bd.modified                                     -- line 63
  let offs ← fillOffsets bd.m2o bd.modified 0                            -- line 69-74
  let lastOff ← match bd.m2o.getLast? with                               -- line 76
    | some x => Except.ok x
    | none => .error .index
  let cats := bd.modified.map catOf                                      -- line 85-86
  if emptyCatTypeError cats then .error .type                            -- line 106, 135
  else pure {
    original := bd.original
    modified := bd.modified
    bytes := bytes
    offsets := offs ++ [lastOff]
    byteIndexes := fillByteIndexes bd.modified 0 ++ [bd.modified.length]  -- line 75
    charCats := cats
    conts := charCategoryContinuities bd.modified cats
    canBowList := buildCanBowList cats }

namespace InputText

/-- utf8inputtext.py:36-44 `get_substring` (arguments are non-negative in every caller). -/
def getSubstring (t : InputText) (b e : Nat) : Res PStr :=
  if e > t.bytes.length then .error .index
  else if b > e then .error .index
  else do
    let i ← pyGet t.byteIndexes b
    let j ← pyGet t.byteIndexes e
    pure (pySlice t.modified i j)

/-- utf8inputtext.py:46-47 `get_offset_text_length`. -/
def getOffsetTextLength (t : InputText) (i : Nat) : Res Nat := pyGet t.byteIndexes i

/-- utf8inputtext.py:49-50 `get_original_index`. -/
def getOriginalIndex (t : InputText) (i : Nat) : Res Nat := pyGet t.offsets i

/-- utf8inputtext.py:52-54 `get_char_category_types(begin)`. -/
def charCategoryTypesAt (t : InputText) (b : Nat) : Res CatSet := do
  let i ← pyGet t.byteIndexes b
  pyGet t.charCats i

/-- utf8inputtext.py:64-65 `get_char_category_continuous_length`. -/
def charCategoryContinuousLength (t : InputText) (i : Nat) : Res Nat := pyGet t.conts i

/-- utf8inputtext.py:60-61: `for i in range(b + 1, e): continuous_category &= self.char_categories[i]`. -/
def commonCats (t : InputText) (cont : CatSet) : List Nat → Res CatSet
  | [] => .ok cont
  | i :: is => do
    let c ← pyGet t.charCats i
    commonCats t (cont.inter c) is

/-- utf8inputtext.py:55-62 `get_char_category_types(begin, end)`. -/
def charCategoryTypes (t : InputText) (b e : Nat) : Res CatSet := do
  let n ← t.charCategoryContinuousLength b
  if b + n < e then pure []
  else
    let i ← pyGet t.byteIndexes b
    let j ← pyGet t.byteIndexes e
    let c ← pyGet t.charCats i
    commonCats t c (List.range' (i + 1) (j - (i + 1)))

/-- utf8inputtext.py:70-74: the loop of `get_code_points_offset_length` over the remaining `byte_indexes`
(those of `range(index, len(self.bytes))`). -/
def cpOffsetLoop (target : Nat) : List Nat → Nat → Nat
  | [], length => length
  | x :: xs, length => if x ≥ target then length else cpOffsetLoop target xs (length + 1)

/-- utf8inputtext.py:67-74 `get_code_points_offset_length`. -/
def codePointsOffsetLength (t : InputText) (index n : Nat) : Res Nat := do
  let i ← pyGet t.byteIndexes index
  pure (cpOffsetLoop (i + n) (pySlice t.byteIndexes index t.bytes.length) 0)

/-- utf8inputtext.py:76-77 `can_bow`. -/
def canBow (t : InputText) (idx : Nat) : Res Bool := do
  let byte ← pyGet t.bytes idx
  if byte &&& 0xC0 ≠ 0x80 then
    let i ← pyGet t.byteIndexes idx
    pyGet t.canBowList i
  else pure false

/-- utf8inputtext.py:79-80 `code_point_count`. -/
def codePointCount (t : InputText) (b e : Nat) : Res Int := do
  let j ← pyGet t.byteIndexes e
  let i ← pyGet t.byteIndexes b
  pure ((j : Int) - (i : Int))

/-- utf8inputtext.py:83-86: the loop of `get_word_candidate_length` over candidate positions. -/
def wordCandidateLoop (t : InputText) (index : Nat) : List Nat → Res Nat
  | [] => .ok (t.bytes.length - index)
  | i :: is => do
    let ok ← t.canBow i
    if ok then pure (i - index) else wordCandidateLoop t index is

/-- utf8inputtext.py:82-86 `get_word_candidate_length`. -/
def wordCandidateLength (t : InputText) (index : Nat) : Res Nat :=
  wordCandidateLoop t index (List.range' (index + 1) (t.bytes.length - (index + 1)))

end InputText
end Sudachi
