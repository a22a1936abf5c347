/-
What a row of a lexicon CSV file says.
-/
import Verif.Model.Builder
namespace Sudachi

/-- The columns of a row, with unicode literals replaced: headword, left id, right id, cost, surface, part of speech (six
columns), reading, normalised form, dictionary-form id, split mode, A splits, B splits, word structure, and optionally the
synonym groups and further columns. -/
structure Cols where
  headword : PStr
  left : PStr
  right : PStr
  cost : PStr
  surface : PStr
  pos0 : PStr
  pos1 : PStr
  pos2 : PStr
  pos3 : PStr
  pos4 : PStr
  pos5 : PStr
  reading : PStr
  normalized : PStr
  dicForm : PStr
  mode : PStr
  aSplit : PStr
  bSplit : PStr
  structureSplit : PStr
  more : List PStr

namespace Cols

/-- The columns in order. -/
def list (c : Cols) : List PStr :=
  c.headword :: c.left :: c.right :: c.cost :: c.surface :: c.pos0 :: c.pos1 :: c.pos2 :: c.pos3 :: c.pos4 :: c.pos5 ::
  c.reading :: c.normalized :: c.dicForm :: c.mode :: c.aSplit :: c.bSplit :: c.structureSplit :: c.more

/-- The part of speech. -/
def pos (c : Cols) : List PStr := [c.pos0, c.pos1, c.pos2, c.pos3, c.pos4, c.pos5]

/-- The synonym groups: the nineteenth column, numbers separated by slashes; none if it is missing or `*`. -/
def Synonyms (c : Cols) (ids : List Int) : Prop :=
  match c.more with
  | [] => ids = []
  | s :: _ => (s = [42] ∧ ids = []) ∨ (s ≠ [42] ∧ pyInts (splitOn 47 s) = .ok ids ∧ ids.length ≤ 127)

/-- The dictionary-form id: a number, or -1 for `*`. -/
def DicForm (c : Cols) (w : Int) : Prop := (c.dicForm = [42] ∧ w = -1) ∨ (c.dicForm ≠ [42] ∧ pyInt c.dicForm = .ok w)

/-- What makes a row acceptable. -/
structure Ok (c : Cols) : Prop where
  headword : c.headword ≠ []
  encodable : ∀ x ∈ c.headword, Sudachi.encodable x = true
  headwordBytes : (c.headword.flatMap utf8Cp).length ≤ 32767
  surface : c.surface.length ≤ 32767
  reading : c.reading.length ≤ 32767
  normalized : c.normalized.length ≤ 32767
  left : ∃ v, pyInt c.left = .ok v
  right : ∃ v, pyInt c.right = .ok v
  cost : ∃ v, pyInt c.cost = .ok v
  aSplit : c.aSplit.count 47 + 1 ≤ 127
  bSplit : c.bSplit.count 47 + 1 ≤ 127
  structureSplit : c.structureSplit.count 47 + 1 ≤ 127
  aUnit : c.mode = [65] → c.aSplit = [42] ∧ c.bSplit = [42]
  synonyms : ∃ ids, c.Synonyms ids
  dicForm : ∃ w, c.DicForm w

/-- An entry with exactly the fields of a row; `posId` is the number of its part of speech. -/
structure EntryOf (c : Cols) (posId : Int) (e : Entry) : Prop where
  headword : e.headword = if c.left = [45, 49] then none else some c.headword
  left : pyInt c.left = .ok e.params.1
  right : pyInt c.right = .ok e.params.2.1
  cost : pyInt c.cost = .ok e.params.2.2
  surface : e.info.surface = c.surface
  headWordLength : e.info.headWordLength = (c.headword.flatMap utf8Cp).length
  posId : e.info.posId = posId
  normalized : e.info.normalizedForm = c.normalized
  dicForm : c.DicForm e.info.dictionaryFormWordId
  reading : e.info.readingForm = c.reading
  synonyms : c.Synonyms e.info.synonymGroupIds
  aSplit : e.aSplit = c.aSplit
  bSplit : e.bSplit = c.bSplit
  structureSplit : e.cSplit = c.structureSplit

end Cols

/-- A row that reads as the given columns. -/
def RowReads (row : List PStr) (c : Cols) : Prop := decodeCols row = .ok c.list

/-- The parts of speech of the system dictionary a user dictionary is built against. -/
def sysPos : Option SysDict → List (List PStr)
  | none => []
  | some s => s.posList

/-- The part of speech with number `posId` is `pos`: those of the system dictionary come first, then the builder's own,
kept as texts with commas. -/
def PosIs (db : DictBuilder) (pos : List PStr) (posId : Int) : Prop :=
  ∃ i : Nat, posId = i ∧ ((sysPos db.sys)[i]? = some pos ∨
    ((sysPos db.sys).length ≤ i ∧ db.posTable[i - (sysPos db.sys).length]? = some (joinOn 44 pos)))

end Sudachi
