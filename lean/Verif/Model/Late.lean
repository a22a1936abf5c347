/-
Values of the wrong type in the settings of plugins: the code stores them and raises at their first use.  Model/Open raises at once; this
model does not.
-/
import Verif.Model.Open
namespace Sudachi

/-- What a `float` of the settings does: stored in a C `int` (latticenode.pxd:14-16; it is cut, or refused, depending on the version of
Cython), and on the right of `<`. -/
structure Floats where
  toInt : JReal → Res Int
  less : Int → JReal → Bool

/-- latticenode.pyx:46-49 `set_parameter`: a value assigned to a C `int`.  (The range is checked by `OovPlugin.getOov`.) -/
def Json.toInt (F : Floats) : Json → Res Int
  | .num n => .ok n
  | .bool b => .ok (if b then 1 else 0)
  | .real x => F.toInt x
  | _ => .error .type

/-- join_katakana_oov_plugin.py:82-83: `count < length`. -/
def Json.longerThan (F : Floats) (v : Json) (count : Int) : Res Bool :=
  match v with
  | .num n => .ok (count < n)
  | .bool b => .ok (count < if b then 1 else 0)
  | .real x => .ok (F.less count x)
  | _ => .error .type

/-- utf8inputtextbuilder.py:41: `str_.join`, of what is no text: `AttributeError`. -/
def Json.toStr : Json → Res PStr
  | .str s => .ok s
  | _ => .error .attribute

/-! ### Plugins that hold such values -/

inductive LateInput
  | default (tb : RewriteTable)
  | psm (marks : List Nat) (sym : Res PStr)

inductive LateOov
  | mecab (categories : List (Cat × CategoryInfo)) (oovList : List (Cat × OovEntry))
  | simple (left right cost : Res Int) (posId : Int)

inductive LatePath
  | numeric (cfg : JoinNumeric)
  | katakana (posId : Int) (shorter : Int → Res Bool)

/-- utf8inputtextbuilder.py:28-53 `replace`, with a value that may be no text: the checks of lines 29-36 come first. -/
def Builder.lateReplace (bd : Builder) (begin_ end_ : Int) (sym : Res PStr) : Res Builder :=
  match sym with
  | .ok s => bd.replace begin_ end_ s
  | .error e =>
    if begin_ < 0 then .error .index
    else if begin_ > bd.modified.length then .error .index
    else if begin_ > end_ then .error .index
    else if begin_ = end_ then .error .attribute
    else .error e

/-- prolongedsoundmark.py:39-48, as `psmLoop`. -/
def latePsmLoop (marks : List Nat) (sym : Res PStr) : PStr → Nat → Int → Option Nat → Builder → Res (Builder × Int × Option Nat)
  | [], _, offset, start, bd => .ok (bd, offset, start)
  | c :: cs, i, offset, start, bd =>
    match start with
    | none =>
      if c ∈ marks then latePsmLoop marks sym cs (i + 1) offset (some i) bd
      else latePsmLoop marks sym cs (i + 1) offset none bd
    | some m =>
      if c ∈ marks then latePsmLoop marks sym cs (i + 1) offset (some m) bd
      else
        if (i : Int) - m > 1 then do
          let bd' ← bd.lateReplace (m - offset) (i - offset) sym
          latePsmLoop marks sym cs (i + 1) (offset + ((i : Int) - m - 1)) none bd'
        else latePsmLoop marks sym cs (i + 1) offset none bd

/-- prolongedsoundmark.py:33-50 `rewrite`, as `psmRewrite`. -/
def latePsmRewrite (marks : List Nat) (sym : Res PStr) (bd : Builder) : Res Builder := do
  let n := bd.modified.length
  let (bd', offset, start) ← latePsmLoop marks sym bd.modified 0 0 none bd
  match start with
  | some m => if (n : Int) - m > 1 then bd'.lateReplace (m - offset) (n - offset) sym else pure bd'
  | none => pure bd'

/-- `plugin.rewrite(builder)`. -/
def LateInput.rewrite (lower nfkc : PStr → PStr) : LateInput → Builder → Res Builder
  | .default tb, bd => defaultRewrite tb lower nfkc bd
  | .psm marks sym, bd => latePsmRewrite marks sym bd

/-- `plugin.get_oov(…)`; simple_oov_plugin.py:32-44: the parameters are set before anything else is done, and only if there are no other
words. -/
def LateOov.getOov (t : InputText) (offset : Nat) (hasOther : Bool) : LateOov → Res (List NodeData)
  | .mecab categories oovList => (OovPlugin.mecab categories oovList).getOov t offset hasOther
  | .simple left right cost posId =>
    if hasOther then .ok []
    else do
      let l ← left
      let r ← right
      let c ← cost
      (OovPlugin.simple ⟨l, r, c, posId⟩).getOov t offset false

/-- join_katakana_oov_plugin.py:43, as `katakanaTrigger`. -/
def lateTrigger (shorter : Int → Res Bool) (t : InputText) (d : NodeData) : Res Bool :=
  if d.oov then .ok true
  else do
    let n ← t.codePointCount d.begin_ d.end_
    shorter n

/-- join_katakana_oov_plugin.py:39-69, as `JoinKatakana.step`. -/
def lateKatakanaStep (posId : Int) (shorter : Int → Res Bool) (lex : Lex) (t : InputText) (L : Lattice) (path : List NodeData) (i : Nat) :
    Res (List NodeData × Nat) := do
  let node ← pyGet path i
  let trig ← lateTrigger shorter t node
  let go ← if trig then isKatakanaNode t node else .ok false
  if !go then pure (path, i + 1)
  else
    let b0 ← scanBack t path i
    let e ← scanForward t (path.drop (i + 1)) (i + 1)
    let b ← skipNoBow t path (e - b0) b0
    if (e : Int) - b > 1 then
      let path' ← concatenateOov lex L path b e posId
      pure (path', b + 2)
    else pure (path, i + 1)

/-- join_katakana_oov_plugin.py:37-69, as `JoinKatakana.loop`. -/
def lateKatakanaLoop (posId : Int) (shorter : Int → Res Bool) (lex : Lex) (t : InputText) (L : Lattice) :
    Nat → List NodeData → Nat → Res (List NodeData)
  | fuel, path, i =>
    if i < path.length then
      match fuel with
      | 0 => .error .outOfFuel
      | fuel + 1 =>
        match lateKatakanaStep posId shorter lex t L path i with
        | .error e => .error e
        | .ok (path', i') => lateKatakanaLoop posId shorter lex t L fuel path' i'
    else .ok path

/-- `plugin.rewrite(input, path, lattice)`. -/
def LatePath.rewrite (lex : Lex) (fuel : Nat) (t : InputText) (L : Lattice) (path : List NodeData) : LatePath → Res (List NodeData)
  | .numeric cfg => cfg.rewrite lex fuel t path
  | .katakana posId shorter => lateKatakanaLoop posId shorter lex t L (path.length + 1) path 0

/-! ### The tokenizer, as in Model/LatticeBuild and Model/Tokenizer -/

/-- tokenizer.pyx:62-65. -/
def lateOovLoop (conn : Conn) (t : InputText) (i : Nat) : List LateOov → Lattice → Bool → Lattice × Res Bool
  | [], L, has => (L, .ok has)
  | p :: ps, L, has =>
    match p.getOov t i has with
    | .error x => (L, .error x)
    | .ok ns =>
      match insertAll conn L ns with
      | (L', .error x) => (L', .error x)
      | (L', .ok ()) => lateOovLoop conn t i ps L' (has || !ns.isEmpty)

/-- tokenizer.pyx:61-65. -/
def lateOovPart (conn : Conn) (plugins : List LateOov) (t : InputText) (i : Nat) (L : Lattice) (has : Bool) : Lattice × Res Bool :=
  match t.charCategoryTypesAt i with
  | .error x => (L, .error x)
  | .ok cats => if Cat.NOOOVBOW ∈ cats then (L, .ok has) else lateOovLoop conn t i plugins L has

/-- tokenizer.pyx:66-69. -/
def lateDefaultPart (conn : Conn) (plugins : List LateOov) (t : InputText) (i : Nat) (L : Lattice) (has : Bool) : Lattice × Res Bool :=
  if has then (L, .ok true)
  else
    match plugins.getLast? with
    | none => (L, .error .attribute)
    | some p => lateOovLoop conn t i [p] L false

/-- tokenizer.pyx:46-72. -/
def lateBuildPos (conn : Conn) (lex : Lex) (plugins : List LateOov) (t : InputText) (L : Lattice) (i : Nat) : Lattice × Res Unit :=
  match lex.lookup t.bytes i with
  | .error x => (L, .error x)
  | .ok ws =>
    match wordLoop conn lex t i ws L false with
    | (L1, .error x) => (L1, .error x)
    | (L1, .ok has1) =>
      match lateOovPart conn plugins t i L1 has1 with
      | (L2, .error x) => (L2, .error x)
      | (L2, .ok has2) =>
        match lateDefaultPart conn plugins t i L2 has2 with
        | (L3, .error x) => (L3, .error x)
        | (L3, .ok true) => (L3, .ok ())
        | (L3, .ok false) => (L3, .error .runtime)

/-- tokenizer.pyx:43-72. -/
def lateBuildLoop (conn : Conn) (lex : Lex) (plugins : List LateOov) (t : InputText) : List Nat → Lattice → Lattice × Res Unit
  | [], L => (L, .ok ())
  | i :: is, L =>
    match skipPos t L i with
    | .error x => (L, .error x)
    | .ok true => lateBuildLoop conn lex plugins t is L
    | .ok false =>
      match lateBuildPos conn lex plugins t L i with
      | (L', .error x) => (L', .error x)
      | (L', .ok ()) => lateBuildLoop conn lex plugins t is L'

/-- tokenizer.pyx:32-73 `build_lattice_c`. -/
def lateBuildLattice (conn : Conn) (lex : Lex) (plugins : List LateOov) (t : InputText) (L : Lattice) : Lattice × Res Unit :=
  match lateBuildLoop conn lex plugins t (List.range t.bytes.length) (L.resize t.bytes.length) with
  | (L', .error x) => (L', .error x)
  | (L', .ok ()) => L'.connectEos conn

/-- tokenizer.pyx:140-141. -/
def lateRewriteInput (lower nfkc : PStr → PStr) : List LateInput → Builder → Res Builder
  | [], bd => .ok bd
  | p :: ps, bd => do
    let bd' ← p.rewrite lower nfkc bd
    lateRewriteInput lower nfkc ps bd'

/-- tokenizer.pyx:156-157. -/
def lateRewritePath (lex : Lex) (fuel : Nat) (t : InputText) (L : Lattice) : List LatePath → List NodeData → Res (List NodeData)
  | [], path => .ok path
  | p :: ps, path => do
    let path' ← p.rewrite lex fuel t L path
    lateRewritePath lex fuel t L ps path'

/-- tokenizer.pyx:104-118. -/
structure LateTokenizer where
  catOf : Nat → CatSet
  lower : PStr → PStr
  nfkc : PStr → PStr
  inputPlugins : List LateInput
  conn : Conn
  lex : Lex
  oov : List LateOov
  pathPlugins : List LatePath
  mode : Mode
  fuel : Nat

namespace LateTokenizer

/-- tokenizer.pyx:139-142. -/
def buildInput (T : LateTokenizer) (text : PStr) : Res InputText := do
  let bd ← lateRewriteInput T.lower T.nfkc T.inputPlugins (Builder.init text)
  bd.build T.catOf

/-- tokenizer.pyx:151-157. -/
def bestPath (T : LateTokenizer) (t : InputText) (L : Lattice) : Res (List NodeData) := do
  let path ← L.getBestPath
  lateRewritePath T.lex T.fuel t L T.pathPlugins path

/-- tokenizer.pyx:120-167 `tokenize`. -/
def tokenize (T : LateTokenizer) (L : Lattice) (text : PStr) (mode : Option Mode) : Lattice × Res MorphemeList :=
  if text.isEmpty then (L, .ok .empty)
  else
    match T.buildInput text with
    | .error x => (L, .error x)
    | .ok t =>
      match lateBuildLattice T.conn T.lex T.oov t L with
      | (L1, .error x) => (L1, .error x)
      | (L1, .ok ()) =>
        match T.bestPath t L1 with
        | .error x => (L1, .error x)
        | .ok path =>
          match L1.clear with
          | (L2, .error x) => (L2, .error x)
          | (L2, .ok ()) =>
            match splitPath T.lex (mode.getD T.mode) path with
            | .error x => (L2, .error x)
            | .ok path' => (L2, .ok ⟨some t, path'⟩)

end LateTokenizer

/-! ### Opening, as in Model/Open and Model/Dictionary -/

inductive LateInputObj
  | default
  | psm (marks : List Nat) (sym : Res PStr)

inductive LateOovObj
  | mecab (charDef unkDef : Json)
  | simple (left right cost : Res Int) (pos : Json)

inductive LatePathObj
  | numeric (normalize : Bool)
  | katakana (pos : Json) (shorter : Int → Res Bool)

/-- prolongedsoundmark.py:20-28 `__init__`. -/
def lateProlongedInit (j : Json) : Res LateInputObj := do
  let marks ← marksOf j
  match j.opt keySymbol with
  | none => pure (.psm marks (.ok [0x30FC]))
  | some v => pure (.psm marks v.toStr)

/-- plugin/input_text/utils.py:22-31 `get_input_text_plugin`. -/
def lateGetInput (j : Json) : Res LateInputObj :=
  keyToValue do
    match ← j.at keyClass with
    | .str s =>
      if s = classDefault then pure .default
      else if s = classProlonged then lateProlongedInit j
      else .error .value
    | _ => .error .value

/-- plugin/oov/utils.py:22-31 `get_oov_plugin`, mecab_oov_plugin.py:40-48, simple_oov_plugin.py:22-27. -/
def lateGetOov (F : Floats) (j : Json) : Res LateOovObj :=
  keyToValue do
    match ← j.at keyClass with
    | .str s =>
      if s = classMeCab then do
        let c ← j.at keyCharDefName
        let u ← j.at keyUnkDef
        pure (.mecab c u)
      else if s = classSimple then do
        let l ← j.at keyLeftId
        let r ← j.at keyRightId
        let c ← j.at keyCost
        let p ← j.at keyOovPOS
        pure (.simple (l.toInt F) (r.toInt F) (c.toInt F) p)
      else .error .value
    | _ => .error .value

/-- plugin/path_rewrite/utils.py:22-31 `get_path_rewrite_plugin`, join_numeric_plugin.py:28-35, join_katakana_oov_plugin.py:23-28. -/
def lateGetPath (F : Floats) (j : Json) : Res LatePathObj :=
  keyToValue do
    match ← j.at keyClass with
    | .str s =>
      if s = classNumeric then
        match j.opt keyNormalize with
        | none => pure (.numeric true)
        | some v => pure (.numeric v.truthy)
      else if s = classKatakana then do
        let p ← j.at keyOovPOS
        match j.opt keyMinLength with
        | none => pure (.katakana p fun n => .ok (n < 1))
        | some v => pure (.katakana p (v.longerThan F))
      else .error .value
    | _ => .error .value

/-- default_input_text_plugin.py:29-33, prolongedsoundmark.py:30-31. -/
def LateInputObj.setUp (M : Disk) : LateInputObj → Res LateInput
  | .default => do
    let tb ← M.read readRewriteDef (joinPath M.resources rewriteDef)
    pure (.default tb)
  | .psm marks sym => pure (.psm marks sym)

/-- mecab_oov_plugin.py:50-59 and simple_oov_plugin.py:29-30 `set_up`. -/
def LateOovObj.setUp (M : Disk) (others : PStr → Option Attr) (dir : PStr) (g : Grammar) : LateOovObj → Res LateOov
  | .mecab c u => do
    let charDef ← joinJson dir c
    let categories ← M.readDefined (readProperties others []) charDef
    let unkDef ← joinJson dir u
    let oovList ← M.readDefined (readUnk others g categories) unkDef
    pure (.mecab (members categories) (members oovList))
  | .simple l r c p => pure (.simple l r c (posIdOf g p))

/-- join_numeric_plugin.py:37-38 and join_katakana_oov_plugin.py:30-35 `set_up`. -/
def LatePathObj.setUp (g : Grammar) : LatePathObj → Res LatePath
  | .numeric n => pure (.numeric ⟨g.posId numericPos, n⟩)
  | .katakana p shorter =>
    if !p.truthy then .error .value
    else if posIdOf g p < 0 then .error .value
    else pure (.katakana (posIdOf g p) shorter)

/-- dictionary.py:48-62, as `DictConfig`. -/
structure LateConfig where
  D : Darts
  depth : Nat
  fuel : Nat
  catOf : Nat → CatSet
  lower : PStr → PStr
  nfkc : PStr → PStr
  inputPlugins : List LateInput
  oov : List LateOov
  pathPlugins : List LatePath

/-- dictionary.py:81 and 101-102. -/
def Dict.lateTokenizer (cfg : LateConfig) (d : Dict) (pathPlugins : List LatePath) (mode : Mode) : LateTokenizer :=
  ⟨cfg.catOf, cfg.lower, cfg.nfkc, cfg.inputPlugins, d.grammar.cell, d.set.toLex cfg.D cfg.depth, cfg.oov, pathPlugins, mode, cfg.fuel⟩

/-- doublearraylexicon.py:100-109 `calculate_cost`. -/
def lateCalculateCost (T : LateTokenizer) (depth : Nat) : List Nat → Lattice → DALex → Res DALex
  | [], _, x => .ok x
  | w :: ws, L, x =>
    match x.cost w with
    | .error e => .error e
    | .ok c =>
      if c ≠ -32768 then lateCalculateCost T depth ws L x
      else
        match x.wordInfo depth w with
        | .error e => .error e
        | .ok wi =>
          match T.tokenize L wi.surface none with
          | (_, .error e) => .error e
          | (L', .ok ms) =>
            match autoCost ms with
            | .error e => .error e
            | .ok cost =>
              match x.setCost w cost with
              | .error e => .error e
              | .ok x' => lateCalculateCost T depth ws L' x'

/-- dictionary.py:75-85 `_read_user_dictionary`. -/
def Dict.lateReadUser (cfg : LateConfig) (dict : Dict) (b : Bytes) : Res Dict :=
  if dict.set.isFull then .error .value
  else do
    let d ← fromUserDictionary b
    if dict.noCells then .error .value
    else do
      let x ← lateCalculateCost (dict.lateTokenizer cfg [] .C) cfg.depth (List.range d.lexicon.size) Lattice.init d.lexicon
      let set' := dict.set.add x dict.grammar.posSize
      match d.grammar with
      | some g => pure ⟨dict.grammar.addPosList g, set'⟩
      | none => pure ⟨dict.grammar, set'⟩

/-- dictionary.py:64-65 and 75-85. -/
def Dict.lateOpenUsers (M : Disk) (cfg : LateConfig) (dict : Dict) : List PStr → Res Dict
  | [] => .ok dict
  | path :: paths => do
    let d ← if dict.set.isFull then .error .value
      else do
        let b ← M.file path
        dict.lateReadUser cfg b
    d.lateOpenUsers M cfg paths

/-- dictionary.py:43-65. -/
def lateOpenWith (F : Floats) (R : Runtime) (M : Disk) (s : Settings) : Res (LateConfig × Dict) := do
  let path ← s.systemDictPath
  let b ← M.file path
  let sys ← Dict.readSystem b
  let path ← s.charDefPath
  let ranges ← M.read charDefLines path
  let ranges ← compile R.pick ranges
  let d ← s.theDict
  let dir ← s.theDir
  let inputs ← getPlugins d keyInputPlugins lateGetInput
  let inputs ← inputs.mapM (·.setUp M)
  let oovs ← getPlugins d keyOovPlugins (lateGetOov F)
  if oovs.isEmpty then .error .attribute
  else do
    let oovs ← oovs.mapM (·.setUp M R.others dir sys.grammar)
    let paths ← getPlugins d keyPathPlugins (lateGetPath F)
    let paths ← paths.mapM (·.setUp sys.grammar)
    let cfg : LateConfig := ⟨R.D, R.depth, R.fuel, getCategoryTypes ranges, R.lower, R.nfkc, inputs, oovs, paths⟩
    let users ← s.userDictPaths
    let dict ← sys.lateOpenUsers M cfg users
    pure (cfg, dict)

/-- dictionary.py:31-65 `__init__`. -/
def lateOpen (F : Floats) (R : Runtime) (M : Disk) (s : Settings) (configPath resourceDir dictType : Option PStr) :
    Settings × Res (LateConfig × Dict) :=
  match s.setUp M.toMachine configPath resourceDir dictType with
  | (s', .error e) => (s', .error e)
  | (s', .ok ()) => (s', lateOpenWith F R M s')

/-- dictionary.py:100-102 `create`, of a grammar with a matrix. -/
def lateCreate (cfg : LateConfig) (d : Dict) (mode : Option Mode) : LateTokenizer := d.lateTokenizer cfg cfg.pathPlugins (mode.getD .C)

end Sudachi
