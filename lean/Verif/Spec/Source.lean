/-
Sources of dictionaries: rows and matrix, what makes them fit the file format, and what a loaded dictionary should say.
-/
import Verif.Spec.Builder
import Verif.Spec.DictFile
namespace Sudachi

/-- The parts of speech of all rows fit the file format: fewer than 128 UTF-16 units, no comma, no byte-order mark. -/
def PosColumnsOk (rows : List (List PStr)) : Prop :=
  ∀ row ∈ rows, ∀ c, RowReads row c → ∀ s ∈ c.pos, units s < 128 ∧ 44 ∉ s ∧ s.head? ≠ some 0xFEFF ∧ s.head? ≠ some 0xFFFE

/-- The definition of the connection costs: none, or that of a square matrix with lines in range, the last cell listed. -/
def MatrixOk : Option (PStr × List PStr) → Prop
  | none => True
  | some (header, lines) => ∃ n : Nat, pyInts (splitWs (strip header)) = .ok [(n : Int), (n : Int)] ∧
      (∀ e ∈ lines.filterMap matrixEntry, (0 ≤ e.1 ∧ e.1 < n) ∧ 0 ≤ e.2.1 ∧ e.2.1 < n) ∧
      ∃ e ∈ lines.filterMap matrixEntry, e.1 = (n : Int) - 1 ∧ e.2.1 = (n : Int) - 1

/-- A grammar has the connection costs of a definition. -/
def MatrixSays (g : Grammar) : Option (PStr × List PStr) → Prop
  | none => g.left = 0 ∧ g.right = 0
  | some (header, lines) => ∀ n : Nat, pyInts (splitWs (strip header)) = .ok [(n : Int), (n : Int)] →
      g.left = n ∧ g.right = n ∧
      ∀ l r : Nat, l < n → r < n → g.getConnectCost l r = .ok (lastCost (lines.filterMap matrixEntry) l r)

/-- A header as the builders write it: one of the current versions (dictionarybuilder commands of command_line.py), a
creation time after 1970 and a description without NUL. -/
structure HeaderOk (h : Header) : Prop where
  version : h.version = SYSTEM_DICT_VERSION_2 ∨ h.version = USER_DICT_VERSION_3
  time : 0 ≤ h.createTime
  description : 0 ∉ h.description

/-- A source that fits the file format. -/
structure SourceOk (header : Header) (rows : List (List PStr)) (matrix : Option (PStr × List PStr)) : Prop where
  header : HeaderOk header
  pos : PosColumnsOk rows
  matrix : MatrixOk matrix

/-- `d` is the dictionary loaded from the file that a successful build of the source wrote; `sys` is the system dictionary
if it is a user dictionary. -/
def Compiled (D : Darts) (sys : Option SysDict) (header : Header) (rows : List (List PStr)) (matrix : Option (PStr × List PStr))
    (d : BinDict) : Prop :=
  ∃ ops, (DictBuilder.init sys).build D header rows matrix = (ops, .ok ()) ∧ readDictionary (runOps ops).data = .ok d

/-- Row number `w` of a source reads as `c`. -/
def RowIs (rows : List (List PStr)) (w : Nat) (c : Cols) : Prop := ∃ row, rows[w]? = some row ∧ RowReads row c

/-- The strings of a row that fit the file format: at most 32767 UTF-16 units. -/
structure Cols.Fits (c : Cols) : Prop where
  surface : units c.surface ≤ 32767
  normalized : units c.normalized ≤ 32767
  reading : units c.reading ≤ 32767

/-- What a system dictionary promises to the builder of a user dictionary: the ids it answers exist and have no dictionary
number. -/
structure SysDict.Ok (s : SysDict) : Prop where
  size : s.size ≤ 2 ^ 28
  getWordId : ∀ h p r w, s.getWordId h p r = .ok w → w < s.size

/-- An id in a split list refers to an existing word: of the dictionary itself with `n` words, or, in a user dictionary,
of the system dictionary.  (In a user dictionary the ids of its own words have a non-zero dictionary number.) -/
def UnitExists (sys : Option SysDict) (n : Nat) (u : Int) : Prop :=
  match sys with
  | none => 0 ≤ u ∧ u < n
  | some s => (0 ≤ u ∧ u < s.size ∧ u < 2 ^ 28) ∨ (2 ^ 28 ≤ u ∧ u % 2 ^ 28 < n)

/-- A row with the given surface, part of speech and reading. -/
def Cols.Matches (c : Cols) (surface : PStr) (pos : List PStr) (reading : PStr) : Prop :=
  c.surface = surface ∧ c.pos = pos ∧ c.reading = reading

/-- Row `i` is the first one with the given surface, part of speech and reading. -/
def FirstRow (rows : List (List PStr)) (surface : PStr) (pos : List PStr) (reading : PStr) (i : Nat) : Prop :=
  (∃ c, RowIs rows i c ∧ c.Matches surface pos reading) ∧ ∀ j c, j < i → RowIs rows j c → ¬ c.Matches surface pos reading

/-- The number a part of speech has in a system dictionary, or one that is not used in it. -/
def SysPosNumber (s : SysDict) (pos : List PStr) (p : Int) : Prop :=
  (∃ i : Nat, s.posList.idxOf? pos = some i ∧ p = i) ∨ (pos ∉ s.posList ∧ (s.posList.length : Int) ≤ p)

/-- The id `w` that a number in a split stands for, in a dictionary of `n` words.  In a user dictionary `U` marks a word of
the dictionary itself (as does a number from 2^28 on), otherwise it is one of the system dictionary. -/
def NumberMeans (sys : Option SysDict) (n : Nat) (u : PStr) (w : Int) : Prop :=
  match sys with
  | none => pyInt (if u.head? = some 85 then u.tail else u) = .ok w ∧ 0 ≤ w ∧ w < n
  | some s =>
    if u.head? = some 85 then ∃ v : Nat, pyInt u.tail = .ok (v : Int) ∧ 2 ^ 28 ≤ w ∧ w % 2 ^ 28 = (v : Int) % 2 ^ 28 ∧ v % 2 ^ 28 < n
    else pyInt u = .ok w ∧ ((0 ≤ w ∧ w < 2 ^ 28 ∧ w < s.size) ∨ (2 ^ 28 ≤ w ∧ w % 2 ^ 28 < n))

/-- The id `w` that the fields `surface,pos1,...,pos6,reading` in a split stand for: the first row with these, otherwise, in
a user dictionary, what the system dictionary finds. -/
def FieldsMean (sys : Option SysDict) (rows : List (List PStr)) (u : PStr) (w : Int) : Prop :=
  ∃ c0 c1 c2 c3 c4 c5 c6 c7 more surface reading, splitOn 44 u = c0 :: c1 :: c2 :: c3 :: c4 :: c5 :: c6 :: c7 :: more ∧
    decodeText c0 = .ok surface ∧ decodeText c7 = .ok reading ∧
    ((∃ i : Nat, FirstRow rows surface [c1, c2, c3, c4, c5, c6] reading i ∧
        match sys with
        | none => w = i
        | some _ => 2 ^ 28 ≤ w ∧ w % 2 ^ 28 = (i : Int) % 2 ^ 28) ∨
     ((∀ j c, RowIs rows j c → ¬ c.Matches surface [c1, c2, c3, c4, c5, c6] reading) ∧
        ∃ s p, sys = some s ∧ SysPosNumber s [c1, c2, c3, c4, c5, c6] p ∧ s.getWordId surface p reading = .ok w ∧ 0 ≤ w))

/-- The id that a unit of a split stands for. -/
def UnitMeans (sys : Option SysDict) (rows : List (List PStr)) (u : PStr) (w : Int) : Prop :=
  if isId u = true then NumberMeans sys rows.length u w else FieldsMean sys rows u w

/-- The ids that a split column stands for: none for `*`, otherwise one for each part between slashes. -/
def SplitMeans (sys : Option SysDict) (rows : List (List PStr)) (col : PStr) (ids : List Int) : Prop :=
  if col = [42] then ids = []
  else ids.length = (splitOn 47 col).length ∧
    ∀ (k : Nat) (u : PStr) (w : Int), (splitOn 47 col)[k]? = some u → ids[k]? = some w → UnitMeans sys rows u w

/-- What a word info should say about a row; `table` are all the parts of speech by number, those of the system dictionary
first.  (The dictionary form is not included.) -/
structure InfoOf (sys : Option SysDict) (rows : List (List PStr)) (table : List (List PStr)) (c : Cols) (wi : WordInfo) : Prop where
  surface : wi.surface = c.surface
  headWordLength : wi.headWordLength = (c.headword.flatMap utf8Cp).length
  pos : 0 ≤ wi.posId ∧ table[wi.posId.toNat]? = some c.pos
  normalized : wi.normalizedForm = if c.normalized = [] then c.surface else c.normalized
  dicForm : c.DicForm wi.dictionaryFormWordId
  reading : wi.readingForm = if c.reading = [] then c.surface else c.reading
  aSplit : SplitMeans sys rows c.aSplit wi.aUnitSplit
  bSplit : SplitMeans sys rows c.bSplit wi.bUnitSplit
  structureSplit : SplitMeans sys rows c.structureSplit wi.wordStructure
  synonyms : c.Synonyms wi.synonymGroupIds

/-- All rows fit the file format. -/
def AllFit (rows : List (List PStr)) : Prop := ∀ w c, RowIs rows w c → c.Fits

/-- The dictionary-form id of row `w` is `v`. -/
def DicFormOf (rows : List (List PStr)) (w : Nat) (v : Int) : Prop := ∃ c, RowIs rows w c ∧ c.DicForm v

/-- Following the dictionary-form ids from row `w` ends after `n` steps, at a word that has none or is its own. -/
inductive ChainEnds (rows : List (List PStr)) : Nat → Nat → Prop
  | here {w : Nat} {v : Int} : DicFormOf rows w v → v < 0 ∨ v = w → ChainEnds rows w 0
  | next {w v n : Nat} : DicFormOf rows w v → v ≠ w → ChainEnds rows v n → ChainEnds rows w (n + 1)

/-- A lexicon after any number of cost changes. -/
inductive CostHistory (x : DALex) : DALex → Prop
  | refl : CostHistory x x
  | step {y z : DALex} {w : Nat} {c : Int} : CostHistory x y → y.setCost w c = .ok z → CostHistory x z

/-- All rows read as the given columns. -/
def RowsRead (rows : List (List PStr)) (cs : List Cols) : Prop :=
  cs.length = rows.length ∧ ∀ (w : Nat) (c : Cols), cs[w]? = some c → RowIs rows w c

/-- The parts of speech a dictionary adds to `known` ones and those added so far, in order of appearance. -/
def ownPos (known added : List (List PStr)) : List (List PStr) → List (List PStr)
  | [] => added
  | p :: ps => if p ∈ known ∨ p ∈ added then ownPos known added ps else ownPos known (added ++ [p]) ps

end Sudachi
