/-
Which sources can be built.
-/
import Verif.Spec.EndToEnd
namespace Sudachi

/-- A 16-bit number. -/
def FitsShort (v : Int) : Prop := -32768 ≤ v ∧ v ≤ 32767

/-- A 32-bit number. -/
def FitsInt (v : Int) : Prop := -2147483648 ≤ v ∧ v ≤ 2147483647

/-- A text without surrogates. -/
def Clean (s : PStr) : Prop := ∀ x ∈ s, encodable x = true

/-- A header whose numbers fit, with a description of at most 256 bytes. -/
structure Header.Writable (h : Header) : Prop where
  version : 0 ≤ h.version ∧ h.version < 2 ^ 64
  time : -(2 ^ 63) ≤ h.createTime ∧ h.createTime < 2 ^ 63
  description : Clean h.description ∧ (h.description.flatMap utf8Cp).length ≤ 256

/-- A reference by number that finds its word, in a dictionary of `n` words: one of the dictionary itself; in a user dictionary
only with `U` or from 2^28 on, otherwise one of the system dictionary. -/
def NumberResolves (sys : Option SysDict) (n : Nat) (u : PStr) : Prop :=
  ∃ v : Nat, pyInt (if u.head? = some 85 then u.tail else u) = .ok (v : Int) ∧ v < 2 ^ 31 ∧
    match sys with
    | none => v < n
    | some s => if u.head? = some 85 ∨ 2 ^ 28 ≤ v then v % 2 ^ 28 < n else v < s.size

/-- A reference `surface,pos1,…,pos6,reading` that finds its word: in the dictionary itself, or, in a user dictionary, in the
system dictionary. -/
def FieldsResolve (sys : Option SysDict) (rows : List (List PStr)) (u : PStr) : Prop :=
  ∃ c0 c1 c2 c3 c4 c5 c6 c7 more surface reading, splitOn 44 u = c0 :: c1 :: c2 :: c3 :: c4 :: c5 :: c6 :: c7 :: more ∧
    decodeText c0 = .ok surface ∧ decodeText c7 = .ok reading ∧
    ((∃ j c, RowIs rows j c ∧ c.Matches surface [c1, c2, c3, c4, c5, c6] reading) ∨
     ∃ s, ∃ i : Nat, ∃ w, sys = some s ∧ s.posList.idxOf? [c1, c2, c3, c4, c5, c6] = some i ∧ s.getWordId surface i reading = .ok w ∧
        0 ≤ w ∧ w ≤ 2147483647)

/-- A split column all of whose references find their words. -/
def SplitResolves (sys : Option SysDict) (rows : List (List PStr)) (col : PStr) : Prop :=
  col = [42] ∨ ∀ u ∈ splitOn 47 col, if isId u = true then NumberResolves sys rows.length u else FieldsResolve sys rows u

/-- The parts of speech by number: those of the system dictionary, then the dictionary's own. -/
def allPos (sys : Option SysDict) (cs : List Cols) : List (List PStr) := sysPos sys ++ ownPos (sysPos sys) [] (cs.map Cols.pos)

/-- A row that can be written, among the rows `cs` of its source. -/
structure Cols.Writable (sys : Option SysDict) (rows : List (List PStr)) (cs : List Cols) (c : Cols) : Prop where
  ok : c.Ok
  left : ∀ v, pyInt c.left = .ok v → FitsShort v
  right : ∀ v, pyInt c.right = .ok v → FitsShort v
  cost : ∀ v, pyInt c.cost = .ok v → FitsShort v
  surface : Clean c.surface ∧ units c.surface < 65536
  normalized : Clean c.normalized ∧ units c.normalized < 65536
  reading : Clean c.reading ∧ units c.reading < 65536
  pos : c.pos ∈ sysPos sys ∨ ∀ s ∈ c.pos, Clean s
  posNumber : (allPos sys cs).idxOf c.pos ≤ 32767
  dicForm : ∀ v, c.DicForm v → FitsInt v
  synonyms : ∀ ids, c.Synonyms ids → ∀ v ∈ ids, FitsInt v
  aSplit : SplitResolves sys rows c.aSplit
  bSplit : SplitResolves sys rows c.bSplit
  structureSplit : SplitResolves sys rows c.structureSplit

/-- A row that lookup can find, with the given headword. -/
def Cols.Listed (headword : PStr) (c : Cols) : Bool := decide (c.left ≠ [45, 49]) && decide (c.headword = headword)

/-- A line of matrix.def that says nothing, or a connection cost that fits. -/
def MatrixLineOk (line : PStr) : Prop :=
  strip line = [] ∨ (strip line).head? = some 35 ∨ (splitWs (strip line)).length < 3 ∨ ∃ e, matrixEntry line = some e ∧ FitsShort e.2.2

/-- A definition of connection costs that can be written. -/
def MatrixWritable : Option (PStr × List PStr) → Prop
  | none => True
  | some (header, lines) => (∀ n : Nat, pyInts (splitWs (strip header)) = .ok [(n : Int), (n : Int)] → n ≤ 32767) ∧
      ∀ line ∈ lines, MatrixLineOk line

/-- A source that can be written: all rows are well-formed, all numbers and strings fit, all references find their words, there
are at most 255 rows for a headword and at most 32767 new parts of speech. -/
structure DictSource.Writable (sys : Option SysDict) (src : DictSource) (cs : List Cols) : Prop where
  header : src.header.Writable
  rows : ∀ c ∈ cs, c.Writable sys src.rows cs
  pos : (ownPos (sysPos sys) [] (cs.map Cols.pos)).length ≤ 32767
  heads : ∀ h, (cs.filter (Cols.Listed h)).length ≤ 255
  matrix : MatrixWritable src.matrix

/-- The number of parts of a split column. -/
def parts (col : PStr) : Nat := if col = [42] then 0 else (splitOn 47 col).length

/-- The number of synonym groups of a row. -/
def Cols.synonymCount (c : Cols) : Nat :=
  match c.more with
  | [] => 0
  | s :: _ => parts s

/-- At least the size of the word info of a row. -/
def Cols.infoSize (c : Cols) : Nat :=
  18 + 2 * units c.surface + 2 * units c.normalized + 2 * units c.reading +
    4 * (parts c.aSplit + parts c.bSplit + parts c.structureSplit + c.synonymCount)

/-- At least the size of the matrix. -/
def matrixSize : Option (PStr × List PStr) → Nat
  | none => 4
  | some (header, _) =>
    match pyInts (splitWs (strip header)) with
    | .ok [n, _] => 4 + 2 * (n.toNat * n.toNat)
    | _ => 4

/-- At least the size of what is before the word infos, if the trie has `T` bytes. -/
def frontSize (sys : Option SysDict) (src : DictSource) (cs : List Cols) (T : Nat) : Nat :=
  272 + (2 + ((ownPos (sysPos sys) [] (cs.map Cols.pos)).map fun p => (p.map fun s => 2 + 2 * units s).sum).sum) + matrixSize src.matrix +
    (4 + T) + (4 + 5 * cs.length) + (4 + 6 * cs.length)

/-- The trie library can hold any set of headwords of the source in `T` bytes, and the whole file is below 2 GiB, counting what
is before the word infos four times (the builder leaves a gap before them). -/
structure DictSource.HasRoom (D : Darts) (sys : Option SysDict) (src : DictSource) (cs : List Cols) (T : Nat) : Prop where
  trie : ∀ kvs : List (Bytes × Nat), SortedKeys kvs →
    (∀ kv ∈ kvs, ∃ c ∈ cs, c.left ≠ [45, 49] ∧ kv.1 = Sources.headBytes c) → ∃ arr, D.build kvs = .ok arr ∧ arr.length ≤ T
  size : 4 * frontSize sys src cs T + cs.length + (cs.map Cols.infoSize).sum < 2 ^ 31

/-- A system dictionary finds no word with a part of speech that it does not have. -/
def SysDict.KnowsPos (s : SysDict) : Prop := ∀ h (p : Int) r w, (s.posList.length : Int) ≤ p → s.getWordId h p r = .ok w → w < 0

end Sudachi
