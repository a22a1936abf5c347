/-
sudachipy/tokenizer.pyx: Tokenizer; sudachipy/morphemelist.py; sudachipy/morpheme.py
-/
import Verif.Model.PathRewrite
namespace Sudachi

/-- tokenizer.pyx:102 `SplitMode`. -/
inductive Mode
  | A | B | C
  deriving DecidableEq, Repr

/-- tokenizer.pyx:104-118: what `__init__` stores and never changes.  `catOf`, `conn` are the character categories and
the connection costs of the grammar, `lower` and `nfkc` the Unicode functions used by the default input plugin.
`fuel` bounds the loop of JoinNumericPlugin (C30: it may run forever). The lattice, the only mutable part, is passed
separately; loggers are left out (they are disabled). -/
structure Tokenizer where
  catOf : Nat → CatSet
  lower : PStr → PStr
  nfkc : PStr → PStr
  inputPlugins : List InputPlugin
  conn : Conn
  lex : Lex
  oov : List OovPlugin
  pathPlugins : List PathPlugin
  mode : Mode
  fuel : Nat

/-- morphemelist.py:26-30: `input_text` and `path` (the grammar and the lexicon are those of the tokenizer). -/
structure MorphemeList where
  input : Option InputText
  path : List NodeData
  deriving DecidableEq, Repr

/-- morphemelist.py:22-24 `empty`. -/
def MorphemeList.empty : MorphemeList := ⟨none, []⟩

/-- tokenizer.pyx:140-141: the input-text plugins in order. -/
def rewriteInput (lower nfkc : PStr → PStr) : List InputPlugin → Builder → Res Builder
  | [], bd => .ok bd
  | p :: ps, bd => do
    let bd' ← p.rewrite lower nfkc bd
    rewriteInput lower nfkc ps bd'

/-- tokenizer.pyx:156-157: the path-rewrite plugins in order. -/
def rewritePath (lex : Lex) (fuel : Nat) (t : InputText) (L : Lattice) : List PathPlugin → List NodeData → Res (List NodeData)
  | [], path => .ok path
  | p :: ps, path => do
    let path' ← p.rewrite lex fuel t L path
    rewritePath lex fuel t L ps path'

/-- `LatticeNode(lexicon, 0, 0, 0, wid)` with a begin (tokenizer.pyx:186-187, morphemelist.py:79-80); `word_id` is a
C `int`. -/
def unitNode (offset : Nat) (wid : Int) : Res NodeData :=
  if wid < -2147483648 ∨ 2147483647 < wid then .error .overflow
  else .ok ⟨offset, offset, 0, 0, 0, wid, false, none, true⟩

/-- tokenizer.pyx:184-190, morphemelist.py:76-83: the nodes of the units. -/
def splitUnits (lex : Lex) : Nat → List Int → Res (List NodeData)
  | _, [] => .ok []
  | offset, wid :: wids => do
    let n ← unitNode offset wid
    let wi ← nodeWordInfo lex n
    let rest ← splitUnits lex (offset + wi.headWordLength) wids
    pure ({ n with end_ := offset + wi.headWordLength } :: rest)

/-- tokenizer.pyx:177-180: `a_unit_split` in mode A, otherwise `b_unit_split`. -/
def unitsOf (mode : Mode) (wi : WordInfo) : List Int :=
  if mode = .A then wi.aUnitSplit else wi.bUnitSplit

/-- tokenizer.pyx:176-190: one turn of the loop of `_split_path`. -/
def splitNode (lex : Lex) (mode : Mode) (d : NodeData) : Res (List NodeData) := do
  let wi ← nodeWordInfo lex d
  if (unitsOf mode wi).length ≤ 1 then pure [d] else splitUnits lex d.begin_ (unitsOf mode wi)

/-- tokenizer.pyx:175-191: the loop of `_split_path`. -/
def splitNodes (lex : Lex) (mode : Mode) : List NodeData → Res (List NodeData)
  | [] => .ok []
  | d :: ds => do
    let a ← splitNode lex mode d
    let b ← splitNodes lex mode ds
    pure (a ++ b)

/-- tokenizer.pyx:172-191 `_split_path`. -/
def splitPath (lex : Lex) (mode : Mode) (path : List NodeData) : Res (List NodeData) :=
  if mode = .C then .ok path else splitNodes lex mode path

namespace Tokenizer

/-- tokenizer.pyx:139-142. -/
def buildInput (T : Tokenizer) (text : PStr) : Res InputText := do
  let bd ← rewriteInput T.lower T.nfkc T.inputPlugins (Builder.init text)
  bd.build T.catOf

/-- tokenizer.pyx:151-157: the best path and its rewriting. -/
def bestPath (T : Tokenizer) (t : InputText) (L : Lattice) : Res (List NodeData) := do
  let path ← L.getBestPath
  rewritePath T.lex T.fuel t L T.pathPlugins path

/-- tokenizer.pyx:120-167 `tokenize`: the lattice after the call, and the result.  The lattice is cleared only if
everything before line 158 succeeded. -/
def tokenize (T : Tokenizer) (L : Lattice) (text : PStr) (mode : Option Mode) : Lattice × Res MorphemeList :=
  if text.isEmpty then (L, .ok .empty)
  else
    match T.buildInput text with
    | .error x => (L, .error x)
    | .ok t =>
      match buildLattice T.conn T.lex T.oov t L with
      | (L1, .error x) => (L1, .error x)
      | (L1, .ok ()) =>
        match T.bestPath t L1 with
        | .error x => (L1, .error x)
        | .ok path =>
          match L1.clear with
          | (L2, .error x) => (L2, .error x)
          | (L2, .ok ()) =>
            match splitPath T.lex (mode.getD T.mode) path with
            | .error x => (L2, .error x)
            | .ok path' => (L2, .ok ⟨some t, path'⟩)

end Tokenizer

namespace MorphemeList

/-- morphemelist.py:32-38 `__getitem__`: the index of the morpheme (a `Morpheme` is the list and an index). -/
def getItem (ml : MorphemeList) (index : Int) : Res Nat :=
  if index ≥ ml.path.length ∨ index < -(ml.path.length : Int) then .error .index
  else if index < 0 then .ok ((ml.path.length : Int) + index).toNat
  else .ok index.toNat

/-- morphemelist.py:40-41 `__len__` (and 93-94 `size`). -/
def len (ml : MorphemeList) : Nat := ml.path.length

/-- morphemelist.py:43-46 `__iter__`: the indexes of the morphemes in order. -/
def iter (ml : MorphemeList) : List Nat := List.range ml.path.length

/-- `self.input_text` when a method is called on it: `AttributeError` for the empty list's `None`. -/
def inputText (ml : MorphemeList) : Res InputText :=
  match ml.input with
  | some t => .ok t
  | none => .error .attribute

/-- morphemelist.py:51-52 `get_begin` (Morpheme.begin).  `self.input_text.get_original_index` is looked up before the path is read. -/
def getBegin (ml : MorphemeList) (index : Nat) : Res Nat := do
  let t ← ml.inputText
  let d ← pyGet ml.path index
  t.getOriginalIndex d.begin_

/-- morphemelist.py:54-55 `get_end` (Morpheme.end). -/
def getEnd (ml : MorphemeList) (index : Nat) : Res Nat := do
  let t ← ml.inputText
  let d ← pyGet ml.path index
  t.getOriginalIndex d.end_

/-- morphemelist.py:57-60 `get_surface` (Morpheme.surface, and morpheme.py:22-23 `__str__`). -/
def getSurface (ml : MorphemeList) (index : Nat) : Res PStr := do
  let b ← ml.getBegin index
  let e ← ml.getEnd index
  let t ← ml.inputText
  pure (pySlice t.original b e)

/-- morphemelist.py:48-49 `__str__`. -/
def str (ml : MorphemeList) : Res PStr := do
  let ss ← ml.iter.mapM ml.getSurface
  pure ss.flatten

/-- morphemelist.py:62-63 `get_word_info` (Morpheme.get_word_info; caching does not change the answer). -/
def getWordInfo (ml : MorphemeList) (lex : Lex) (index : Nat) : Res WordInfo := do
  let d ← pyGet ml.path index
  nodeWordInfo lex d

/-- morphemelist.py:87-88 `is_oov`. -/
def isOov (ml : MorphemeList) (index : Nat) : Res Bool := do
  let d ← pyGet ml.path index
  pure d.oov

/-- morpheme.py:61-62 `word_id`. -/
def wordId (ml : MorphemeList) (index : Nat) : Res Int := do
  let d ← pyGet ml.path index
  pure d.wordId

/-- morpheme.py:64-65 `dictionary_id`. -/
def dictionaryId (ml : MorphemeList) (index : Nat) : Res Int := do
  let d ← pyGet ml.path index
  pure (nodeDictionaryId d)

/-- morphemelist.py:90-91 `get_internal_cost` (`get_path_cost` is the word cost). -/
def internalCost (ml : MorphemeList) : Res Int :=
  match ml.path.getLast?, ml.path.head? with
  | some l, some f => .ok (l.cost - f.cost)
  | _, _ => .error .index

/-- morphemelist.py:65-85 `split`, called by morpheme.py:54-56 with the morpheme's word info: the morphemes, each with
its list. -/
def split (ml : MorphemeList) (lex : Lex) (mode : Mode) (index : Nat) : Res (List (MorphemeList × Nat)) := do
  let wi ← ml.getWordInfo lex index
  match mode with
  | .C => do
    let i ← ml.getItem index
    pure [(ml, i)]
  | m =>
    let wids := if m = .A then wi.aUnitSplit else wi.bUnitSplit
    if wids.length = 0 ∨ wids.length = 1 then do
      let i ← ml.getItem index
      pure [(ml, i)]
    else do
      let d ← pyGet ml.path index
      let nodes ← splitUnits lex d.begin_ wids
      let ml' : MorphemeList := ⟨ml.input, nodes⟩
      pure (ml'.iter.map (fun i => (ml', i)))

end MorphemeList

end Sudachi
