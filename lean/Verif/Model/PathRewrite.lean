/-
sudachipy/plugin/path_rewrite/{path_rewrite_plugin,join_numeric_plugin,join_katakana_oov_plugin}.py

The plugins change the path in place and leave nothing else behind; nodes are never modified once made.  A path is a
list of node data, and a rewrite that raises has no result (the tokenizer drops the path then).
-/
import Verif.Model.LatticeBuild
import Verif.Model.Numeric
namespace Sudachi

/-- latticenode.pyx:79-84 `get_word_info`. -/
def nodeWordInfo (lex : Lex) (d : NodeData) : Res WordInfo :=
  if !d.defined then .ok WordInfo.unk
  else
    match d.extra with
    | some w => .ok w
    | none => lex.wordInfo d.wordId

/-- latticenode.pyx:102-105 `get_dictionary_id` (`LexiconSet.get_dictionary_id` is `word_id >> 28`). -/
def nodeDictionaryId (d : NodeData) : Int :=
  if !d.defined || d.extra.isSome then -1 else d.wordId / 2 ^ 28

/-- `[node.get_word_info() for node in nodes]`, left to right. -/
def nodeWordInfos (lex : Lex) : List NodeData → Res (List WordInfo)
  | [] => .ok []
  | d :: ds => do
    let w ← nodeWordInfo lex d
    let ws ← nodeWordInfos lex ds
    pure (w :: ws)

/-- `path[begin:end] = [node]`. -/
def spliceOne (path : List NodeData) (b e : Nat) (n : NodeData) : List NodeData := path.take b ++ n :: path.drop (max b e)

/-- path_rewrite_plugin.py:50-56: `lattice.create_node()`, `set_range`, `set_word_info` (latticenode.pyx:86-88 makes
the node defined). -/
def infoNode (b e : Nat) (w : WordInfo) (oov : Bool) : NodeData :=
  { NodeData.blank with begin_ := b, end_ := e, extra := some w, defined := true, oov := oov }

/-- path_rewrite_plugin.py:30-58 `concatenate`. -/
def concatenate (lex : Lex) (path : List NodeData) (b e : Nat) (normalizedForm : PStr) : Res (List NodeData) :=
  if b ≥ e then .error .index
  else do
    let first ← pyGet path b
    let last ← pyGet path (e - 1)
    let fi ← nodeWordInfo lex first
    let infos ← nodeWordInfos lex (pySlice path b e)
    let norm := if normalizedForm.isEmpty then (infos.map (·.normalizedForm)).flatten else normalizedForm
    let w : WordInfo :=
      ⟨(infos.map (·.surface)).flatten, (infos.map (·.headWordLength)).sum, fi.posId, norm, -1,
        (infos.map (·.dictionaryForm)).flatten, (infos.map (·.readingForm)).flatten, [], [], [], []⟩
    pure (spliceOne path b e (infoNode first.begin_ last.end_ w false))

/-- path_rewrite_plugin.py:60-88 `concatenate_oov`. -/
def concatenateOov (lex : Lex) (L : Lattice) (path : List NodeData) (b e : Nat) (posId : Int) : Res (List NodeData) :=
  if b ≥ e then .error .index
  else do
    let first ← pyGet path b
    let last ← pyGet path (e - 1)
    match ← L.getMinimumNode first.begin_ last.end_ with
    | some n => pure (spliceOne path b e n.data)
    | none =>
      let infos ← nodeWordInfos lex (pySlice path b e)
      let surface := (infos.map (·.surface)).flatten
      let w : WordInfo :=
        ⟨surface, (infos.map (·.headWordLength)).sum, posId, surface, -1, surface, [], [], [], [], []⟩
      pure (spliceOne path b e (infoNode first.begin_ last.end_ w true))

/-! ### JoinNumericPlugin -/

/-- join_numeric_plugin.py:25-38: the configuration after `set_up`. -/
structure JoinNumeric where
  posId : Int
  normalize : Bool
  deriving DecidableEq, Repr

/-- join_numeric_plugin.py:97-106 `_concat`. -/
def JoinNumeric.concat (cfg : JoinNumeric) (lex : Lex) (path : List NodeData) (b e : Nat) (p : NumParser) :
    Res (List NodeData) := do
  let first ← pyGet path b
  let fi ← nodeWordInfo lex first
  if fi.posId ≠ cfg.posId then pure path
  else if cfg.normalize then
    let norm ← p.getNormalized.2
    if (e : Int) - b > 1 ∨ norm ≠ fi.normalizedForm then concatenate lex path b e norm else pure path
  else if (e : Int) - b > 1 then concatenate lex path b e [] else pure path

/-- The local variables of `rewrite`: `next` is the Python `i` plus one (`i` starts at -1 and is incremented at the top
of the loop), `begin_` is `begin_index` with `none` for -1. -/
structure JNState where
  path : List NodeData
  next : Nat
  begin_ : Option Nat
  comma : Bool
  period : Bool
  parser : NumParser
  deriving DecidableEq, Repr

/-- join_numeric_plugin.py:79-82, 92-95: `done()` has answered False; is it because of a separator at the end, namely
the node with normalised form `ss`? -/
def hangs (p : NumParser) (ss : PStr) : Bool :=
  (p.error = .comma && ss = [44]) || (p.error = .point && ss = [46])

/-- join_numeric_plugin.py:51-52. -/
def digitNode (types : CatSet) (s : PStr) (comma period : Bool) : Bool :=
  Cat.NUMERIC ∈ types || Cat.KANJINUMERIC ∈ types || (period && s = [46]) || (comma && s = [44])

/-- join_numeric_plugin.py:54-70: a node that looks like part of a number.  The `for` loop stops at the first refused
character (`begin_index >= 0` always holds there). -/
def JNState.feed (st : JNState) (s : PStr) : JNState :=
  let (p0, b) := match st.begin_ with
    | none => (NumParser.init, st.next)
    | some b => (st.parser, b)
  match p0.appendAll s with
  | (p, true) => { st with next := st.next + 1, begin_ := some b, parser := p }
  | (p, false) =>
    match p.error with
    | .comma => { st with comma := false, next := b, begin_ := none, parser := p }
    | .point => { st with period := false, next := b, begin_ := none, parser := p }
    | _ => { st with next := st.next + 1, begin_ := none, parser := p }

/-- join_numeric_plugin.py:72-83: the end of a number before the node `i`: the new path and the new `next`. -/
def JNState.close (cfg : JoinNumeric) (lex : Lex) (st : JNState) : Res (List NodeData × Nat) :=
  match st.begin_ with
  | none => .ok (st.path, st.next + 1)
  | some b =>
    match st.parser.done with
    | (p, true) => do
      let path' ← cfg.concat lex st.path b st.next p
      pure (path', b + 2)
    | (p, false) => do
      let prev ← pyGet st.path (st.next - 1)
      let wi ← nodeWordInfo lex prev
      if hangs p wi.normalizedForm then
        let path' ← cfg.concat lex st.path b (st.next - 1) p
        pure (path', b + 3)
      else pure (st.path, st.next + 1)

/-- join_numeric_plugin.py:47-88: one turn of the `while` loop (`next < len(path)`). -/
def JNState.step (cfg : JoinNumeric) (lex : Lex) (t : InputText) (st : JNState) : Res JNState := do
  let node ← pyGet st.path st.next
  let types ← t.charCategoryTypes node.begin_ node.end_
  let wi ← nodeWordInfo lex node
  let s := wi.normalizedForm
  if digitNode types s st.comma st.period then pure (st.feed s)
  else
    let (path', next') ← st.close cfg lex
    pure { st with path := path', next := next', begin_ := none,
                   comma := st.comma || decide (s ≠ [44]), period := st.period || decide (s ≠ [46]) }

/-- join_numeric_plugin.py:90-95: after the loop. -/
def JNState.finish (cfg : JoinNumeric) (lex : Lex) (st : JNState) : Res (List NodeData) :=
  match st.begin_ with
  | none => .ok st.path
  | some b =>
    match st.parser.done with
    | (p, true) => cfg.concat lex st.path b st.path.length p
    | (p, false) => do
      let prev ← match st.path.getLast? with
        | some x => Except.ok x
        | none => .error .index
      let wi ← nodeWordInfo lex prev
      if hangs p wi.normalizedForm then cfg.concat lex st.path b (st.path.length - 1) p else pure st.path

/-- join_numeric_plugin.py:47-95: the loop, stopped after `fuel` turns (`Err.outOfFuel`). -/
def JNState.loop (cfg : JoinNumeric) (lex : Lex) (t : InputText) : Nat → JNState → Res (List NodeData)
  | fuel, st =>
    if st.next < st.path.length then
      match fuel with
      | 0 => .error .outOfFuel
      | fuel + 1 =>
        match st.step cfg lex t with
        | .error e => .error e
        | .ok st' => loop cfg lex t fuel st'
    else st.finish cfg lex

/-- join_numeric_plugin.py:40-95 `rewrite`. -/
def JoinNumeric.rewrite (cfg : JoinNumeric) (lex : Lex) (fuel : Nat) (t : InputText) (path : List NodeData) :
    Res (List NodeData) :=
  JNState.loop cfg lex t fuel ⟨path, 0, none, true, true, .init⟩

/-! ### JoinKatakanaOovPlugin -/

/-- join_katakana_oov_plugin.py:23-35: the configuration after `set_up`. -/
structure JoinKatakana where
  posId : Int
  minLength : Int
  deriving DecidableEq, Repr

/-- join_katakana_oov_plugin.py:71-72 `is_katakana_node`. -/
def isKatakanaNode (t : InputText) (d : NodeData) : Res Bool := do
  let types ← t.charCategoryTypes d.begin_ d.end_
  pure (Cat.KATAKANA ∈ types)

/-- join_katakana_oov_plugin.py:78-79 `can_oov_bow_node`. -/
def canOovBowNode (t : InputText) (d : NodeData) : Res Bool := do
  let types ← t.charCategoryTypesAt d.begin_
  pure !(Cat.NOOOVBOW ∈ types)

/-- join_katakana_oov_plugin.py:43: `node.is_oov() or self.is_shorter(...)`. -/
def katakanaTrigger (cfg : JoinKatakana) (t : InputText) (d : NodeData) : Res Bool :=
  if d.oov then .ok true
  else do
    let n ← t.codePointCount d.begin_ d.end_
    pure (n < cfg.minLength)

/-- join_katakana_oov_plugin.py:43-44: `(node.is_oov() or self.is_shorter(...)) and self.is_katakana_node(text, node)`. -/
def katakanaStart (cfg : JoinKatakana) (t : InputText) (d : NodeData) : Res Bool := do
  let trig ← katakanaTrigger cfg t d
  if trig then isKatakanaNode t d else .ok false

/-- join_katakana_oov_plugin.py:47-55: from `begin = k - 1` backwards over katakana nodes. -/
def scanBack (t : InputText) (path : List NodeData) : Nat → Res Nat
  | 0 => .ok 0
  | k + 1 => do
    let d ← pyGet path k
    let kat ← isKatakanaNode t d
    if kat then scanBack t path k else pure (k + 1)

/-- join_katakana_oov_plugin.py:56-62: from `end` forwards over katakana nodes (`rest` = `path[end:]`). -/
def scanForward (t : InputText) : List NodeData → Nat → Res Nat
  | [], e => .ok e
  | d :: ds, e => do
    let kat ← isKatakanaNode t d
    if kat then scanForward t ds (e + 1) else pure e

/-- join_katakana_oov_plugin.py:64-65: `while begin != end and not can_oov_bow_node(path[begin])`, with `n = end - begin`. -/
def skipNoBow (t : InputText) (path : List NodeData) : Nat → Nat → Res Nat
  | 0, b => .ok b
  | n + 1, b => do
    let d ← pyGet path b
    let ok ← canOovBowNode t d
    if ok then pure b else skipNoBow t path n (b + 1)

/-- join_katakana_oov_plugin.py:39-69: one turn of the loop at `i < len(path)`: the new path and the new `i`. -/
def JoinKatakana.step (cfg : JoinKatakana) (lex : Lex) (t : InputText) (L : Lattice) (path : List NodeData) (i : Nat) :
    Res (List NodeData × Nat) := do
  let node ← pyGet path i
  let go ← katakanaStart cfg t node
  if !go then pure (path, i + 1)
  else
    let b0 ← scanBack t path i
    let e ← scanForward t (path.drop (i + 1)) (i + 1)
    let b ← skipNoBow t path (e - b0) b0
    if (e : Int) - b > 1 then
      let path' ← concatenateOov lex L path b e cfg.posId
      pure (path', b + 2)
    else pure (path, i + 1)

/-- join_katakana_oov_plugin.py:37-69: the loop, stopped after `fuel` turns. -/
def JoinKatakana.loop (cfg : JoinKatakana) (lex : Lex) (t : InputText) (L : Lattice) :
    Nat → List NodeData → Nat → Res (List NodeData)
  | fuel, path, i =>
    if i < path.length then
      match fuel with
      | 0 => .error .outOfFuel
      | fuel + 1 =>
        match cfg.step lex t L path i with
        | .error e => .error e
        | .ok (path', i') => loop cfg lex t L fuel path' i'
    else .ok path

/-- join_katakana_oov_plugin.py:37-69 `rewrite`.  The fuel is enough (`C31_terminates`). -/
def JoinKatakana.rewrite (cfg : JoinKatakana) (lex : Lex) (t : InputText) (L : Lattice) (path : List NodeData) :
    Res (List NodeData) :=
  cfg.loop lex t L (path.length + 1) path 0

/-- The path-rewrite plugins of the package (tokenizer.pyx:156-157). -/
inductive PathPlugin
  | numeric (cfg : JoinNumeric)
  | katakana (cfg : JoinKatakana)
  deriving DecidableEq, Repr

/-- `plugin.rewrite(input, path, lattice)`. -/
def PathPlugin.rewrite (lex : Lex) (fuel : Nat) (t : InputText) (L : Lattice) (path : List NodeData) :
    PathPlugin → Res (List NodeData)
  | .numeric cfg => cfg.rewrite lex fuel t path
  | .katakana cfg => cfg.rewrite lex t L path

end Sudachi
