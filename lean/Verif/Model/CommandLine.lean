/-
sudachipy/command_line.py: tokenize
-/
import Verif.Model.Dictionary
import Verif.Model.PyText
namespace Sudachi

/-- The decimal digits of a number, before `acc`. -/
def natStrAux : Nat → Nat → PStr → PStr
  | 0, _, acc => acc
  | fuel + 1, n, acc => if n < 10 then (48 + n) :: acc else natStrAux fuel (n / 10) ((48 + n % 10) :: acc)

/-- `str(n)` for an integer. -/
def intStr (n : Int) : PStr :=
  if n < 0 then 45 :: natStrAux (n.natAbs + 1) n.natAbs [] else natStrAux (n.natAbs + 1) n.natAbs []

/-- `line.rstrip('\n')`, command_line.py:62: all newlines at the end. -/
def rstripNewline (s : PStr) : PStr := (s.reverse.dropWhile (· == 10)).reverse

/-- command_line.py:135-140: the mode of `-m`. -/
def modeArg (m : PStr) : Mode := if m = [65] then .A else if m = [66] then .B else .C

/-- command_line.py:64-75: the fields of a morpheme. -/
def fieldsOf (g : Grammar) (lex : Lex) (ml : MorphemeList) (printAll : Bool) (i : Nat) : Res (List PStr) := do
  let surface ← ml.getSurface i
  let wi ← ml.getWordInfo lex i
  let pos ← g.posString wi.posId
  if printAll then do
    let d ← ml.dictionaryId i
    let oov ← ml.isOov i
    pure ([surface, joinOn 44 pos, wi.normalizedForm] ++
      [wi.dictionaryForm, wi.readingForm, intStr d, 91 :: joinOn 44 (wi.synonymGroupIds.map intStr) ++ [93]] ++
      if oov then [[40, 79, 79, 86, 41]] else [])
  else pure [surface, joinOn 44 pos, wi.normalizedForm]

/-- command_line.py:63-76: the lines printed for the morphemes. -/
def printMorphemes (g : Grammar) (lex : Lex) (ml : MorphemeList) (printAll : Bool) : List Nat → List PStr × Res Unit
  | [] => ([], .ok ())
  | i :: is =>
    match fieldsOf g lex ml printAll i with
    | .error e => ([], .error e)
    | .ok fs =>
      let (out, r) := printMorphemes g lex ml printAll is
      (joinOn 9 fs :: out, r)

/-- command_line.py:60-77 `run`: the lines printed, and whether it ended with an exception.  `input_` gives the lines; the
tokenizer is called with its lattice; `-d` (the dump) is off. -/
def runLines (T : Tokenizer) (g : Grammar) (mode : Mode) (printAll : Bool) : Lattice → List PStr → List PStr × Res Unit
  | _, [] => ([], .ok ())
  | L, line :: lines =>
    match T.tokenize L (rstripNewline line) (some mode) with
    | (_, .error e) => ([], .error e)
    | (L', .ok ml) =>
      match printMorphemes g T.lex ml printAll ml.iter with
      | (out, .error e) => (out, .error e)
      | (out, .ok ()) =>
        let (rest, r) := runLines T g mode printAll L' lines
        (out ++ [69, 79, 83] :: rest, r)

end Sudachi
