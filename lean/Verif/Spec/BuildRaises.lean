/-
Which exception ends a build that fails: the one of the first check that fails.
-/
import Verif.Spec.Buildable
namespace Sudachi

/-- A check: the exception it raises, and when. -/
abbrev Check := Err × Prop

/-- Of checks made in order, the first that fails raises `e`. -/
def Fails : List Check → Err → Prop
  | [], _ => False
  | c :: rest, e => (c.2 ∧ e = c.1) ∨ (¬ c.2 ∧ Fails rest e)

/-- A text is encoded: `UnicodeEncodeError` on surrogates. -/
def textCheck (s : PStr) : Check := (.unicode, ¬ Clean s)

/-- A header: its numbers must fit, its description be encodable and not too long. -/
def Header.checks (h : Header) : List Check :=
  [(.overflow, ¬ (0 ≤ h.version ∧ h.version < 2 ^ 64)), (.overflow, ¬ (-(2 ^ 63) ≤ h.createTime ∧ h.createTime < 2 ^ 63)),
   textCheck h.description, (.value, 256 < (h.description.flatMap utf8Cp).length)]

/-- The parts of speech: not too many, and encodable. -/
def posChecks (own : List (List PStr)) : List Check := (.overflow, 32767 < own.length) :: own.flatMap fun p => p.map textCheck

/-- A line of matrix.def says nothing: blank, a comment, or fewer than three words. -/
def MatrixLineSilent (line : PStr) : Prop :=
  strip line = [] ∨ (strip line).head? = some 35 ∨ (splitWs (strip line)).length < 3

/-- A line of matrix.def, after a header with `lsize` left ids: it must be three numbers, not before the beginning of the matrix,
with a cost that fits. -/
def matrixLineChecks (lsize : Int) (line : PStr) : List Check :=
  [(.value, ¬ MatrixLineSilent line ∧ ¬ ∃ l r c, pyInts (splitWs (strip line)) = .ok [l, r, c]),
   (.value, ¬ MatrixLineSilent line ∧ ∃ l r c, pyInts (splitWs (strip line)) = .ok [l, r, c] ∧ l + lsize * r < 0),
   (.overflow, ¬ MatrixLineSilent line ∧ ∃ l r c, pyInts (splitWs (strip line)) = .ok [l, r, c] ∧ ¬ FitsShort c)]

/-- The definition of the connection costs: a header of two numbers that fit, then the lines. -/
def matrixChecks : Option (PStr × List PStr) → List Check
  | none => []
  | some (header, lines) =>
    match pyInts (splitWs (strip header)) with
    | .ok [l, r] => [(.overflow, ¬ FitsShort l), (.overflow, ¬ FitsShort r)] ++ lines.flatMap (matrixLineChecks l)
    | _ => [(.value, True)]

/-- No more than 255 rows for a headword. -/
def headCheck (cs : List Cols) : Check := (.overflow, ∃ h, 255 < (cs.filter (Cols.Listed h)).length)

/-- The parameters of a row fit. -/
def Cols.numberCheck (c : Cols) : Check :=
  (.overflow, ∃ v, (pyInt c.left = .ok v ∨ pyInt c.right = .ok v ∨ pyInt c.cost = .ok v) ∧ ¬ FitsShort v)

/-- A reference by number finds a word, in a dictionary of `n` words (its number need not fit). -/
def NumberFinds (sys : Option SysDict) (n : Nat) (u : PStr) : Prop :=
  ∃ v : Nat, pyInt (if u.head? = some 85 then u.tail else u) = .ok (v : Int) ∧
    match sys with
    | none => v < n
    | some s => if u.head? = some 85 ∨ 2 ^ 28 ≤ v then v % 2 ^ 28 < n else v < s.size

/-- A reference by a number that does not fit. -/
def NumberHuge (u : PStr) : Prop := ∃ v : Nat, pyInt (if u.head? = some 85 then u.tail else u) = .ok (v : Int) ∧ 2 ^ 31 ≤ v

/-- A reference: by number it must find a word; by fields there must be eight, surface and reading must be decodable, and they must
find a word; the system dictionary is searched for what can be encoded. -/
def unitChecks (sys : Option SysDict) (rows : List (List PStr)) (u : PStr) : List Check :=
  [(.value, isId u = true ∧ ¬ NumberFinds sys rows.length u),
   (.value, isId u = false ∧ (splitOn 44 u).length < 8),
   (.unicode, isId u = false ∧ ∃ s, ((splitOn 44 u)[0]? = some s ∨ (splitOn 44 u)[7]? = some s) ∧ ∀ t, decodeText s ≠ .ok t),
   (.unicode, isId u = false ∧ ¬ FieldsResolve sys rows u ∧ sys ≠ none ∧ ∃ s t, (splitOn 44 u)[0]? = some s ∧ decodeText s = .ok t ∧ ¬ Clean t),
   (.value, isId u = false ∧ ¬ FieldsResolve sys rows u)]

/-- A split column: its references, then their numbers must fit. -/
def splitChecks (sys : Option SysDict) (rows : List (List PStr)) (col : PStr) : List Check :=
  if col = [42] then []
  else (splitOn 47 col).flatMap (unitChecks sys rows) ++ [(.overflow, ∃ u ∈ splitOn 47 col, isId u = true ∧ NumberHuge u)]

/-- The word info of a row. -/
def Cols.infoChecks (sys : Option SysDict) (rows : List (List PStr)) (cs : List Cols) (c : Cols) : List Check :=
  [textCheck c.surface, (.overflow, 32767 < (allPos sys cs).idxOf c.pos), textCheck c.normalized,
   (.overflow, ∃ v, c.DicForm v ∧ ¬ FitsInt v), textCheck c.reading] ++
  splitChecks sys rows c.aSplit ++ splitChecks sys rows c.bSplit ++ splitChecks sys rows c.structureSplit ++
  [(.overflow, ∃ ids, c.Synonyms ids ∧ ∃ v ∈ ids, ¬ FitsInt v)]

/-- A row is read: enough columns, with unicode literals that can be decoded, a headword that can be encoded, and what `Cols.Ok` asks. -/
def rowChecks (row : List PStr) : List Check :=
  [(.value, row.length < 18), (.unicode, ∃ s ∈ row, ∀ t, decodeText s ≠ .ok t), (.unicode, ∃ c, RowReads row c ∧ ¬ Clean c.headword),
   (.value, ∃ c, RowReads row c ∧ ¬ c.Ok)]

namespace DictSource

/-- What is checked before the parameters of the words are written. -/
def tableChecks (sys : Option SysDict) (src : DictSource) (cs : List Cols) : List Check :=
  src.header.checks ++ posChecks (ownPos (sysPos sys) [] (cs.map Cols.pos)) ++ matrixChecks src.matrix ++ [headCheck cs]

/-- What is checked before the word infos are written. -/
def frontChecks (sys : Option SysDict) (src : DictSource) (cs : List Cols) : List Check :=
  src.tableChecks sys cs ++ cs.map Cols.numberCheck

/-- What is checked while the word infos are written. -/
def infoChecks (sys : Option SysDict) (src : DictSource) (cs : List Cols) : List Check := cs.flatMap (Cols.infoChecks sys src.rows cs)

end DictSource

/-- A system dictionary answers every question for a word that can be encoded, with a number that fits. -/
def SysDict.Answers (s : SysDict) : Prop := ∀ h p r, (Clean h → ∃ w, s.getWordId h p r = .ok w ∧ w ≤ 2147483647) ∧
  (¬ Clean h → s.getWordId h p r = .error .unicode)

end Sudachi
