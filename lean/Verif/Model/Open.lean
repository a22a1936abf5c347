/-
dictionary.py `Dictionary.__init__` from the settings and the files: plugin/input_text/utils.py, plugin/oov/utils.py,
plugin/path_rewrite/utils.py, and the constructors and `set_up`s of the plugins.
-/
import Verif.Model.Config
import Verif.Model.Definitions
import Verif.Model.TextStream
import Verif.Model.Dictionary
namespace Sudachi

/-- `'class'`, and the other keys of plugin settings. -/
def keyClass : PStr := [99, 108, 97, 115, 115]
def keyLeftId : PStr := [108, 101, 102, 116, 73, 100]
def keyRightId : PStr := [114, 105, 103, 104, 116, 73, 100]
def keyCost : PStr := [99, 111, 115, 116]
def keyOovPOS : PStr := [111, 111, 118, 80, 79, 83]
def keyCharDefName : PStr := [99, 104, 97, 114, 68, 101, 102]
def keyUnkDef : PStr := [117, 110, 107, 68, 101, 102]
def keyMarks : PStr :=
  [112, 114, 111, 108, 111, 110, 103, 101, 100, 83, 111, 117, 110, 100, 77, 97, 114, 107, 115]
def keySymbol : PStr := [114, 101, 112, 108, 97, 99, 101, 109, 101, 110, 116, 83, 121, 109, 98, 111, 108]
def keyNormalize : PStr := [101, 110, 97, 98, 108, 101, 78, 111, 114, 109, 97, 108, 105, 122, 101]
def keyMinLength : PStr := [109, 105, 110, 76, 101, 110, 103, 116, 104]

/-- `'inputTextPlugin'`, `'oovProviderPlugin'`, `'pathRewritePlugin'`. -/
def keyInputPlugins : PStr := [105, 110, 112, 117, 116, 84, 101, 120, 116, 80, 108, 117, 103, 105, 110]
def keyOovPlugins : PStr := [111, 111, 118, 80, 114, 111, 118, 105, 100, 101, 114, 80, 108, 117, 103, 105, 110]
def keyPathPlugins : PStr := [112, 97, 116, 104, 82, 101, 119, 114, 105, 116, 101, 80, 108, 117, 103, 105, 110]

/-- `'sudachipy.plugin.input_text.DefaultInputTextPlugin'` and the other class names. -/
def classDefault : PStr :=
  [115, 117, 100, 97, 99, 104, 105, 112, 121, 46, 112, 108, 117, 103, 105, 110, 46, 105, 110, 112, 117, 116, 95, 116, 101, 120, 116, 46,
   68, 101, 102, 97, 117, 108, 116, 73, 110, 112, 117, 116, 84, 101, 120, 116, 80, 108, 117, 103, 105, 110]
def classProlonged : PStr :=
  [115, 117, 100, 97, 99, 104, 105, 112, 121, 46, 112, 108, 117, 103, 105, 110, 46, 105, 110, 112, 117, 116, 95, 116, 101, 120, 116, 46,
   80, 114, 111, 108, 111, 110, 103, 101, 100, 83, 111, 117, 110, 100, 77, 97, 114, 107, 73, 110, 112, 117, 116, 84, 101, 120, 116, 80,
   108, 117, 103, 105, 110]
def classMeCab : PStr :=
  [115, 117, 100, 97, 99, 104, 105, 112, 121, 46, 112, 108, 117, 103, 105, 110, 46, 111, 111, 118, 46, 77, 101, 67, 97, 98, 79, 111, 118,
   80, 114, 111, 118, 105, 100, 101, 114, 80, 108, 117, 103, 105, 110]
def classSimple : PStr :=
  [115, 117, 100, 97, 99, 104, 105, 112, 121, 46, 112, 108, 117, 103, 105, 110, 46, 111, 111, 118, 46, 83, 105, 109, 112, 108, 101, 79,
   111, 118, 80, 114, 111, 118, 105, 100, 101, 114, 80, 108, 117, 103, 105, 110]
def classNumeric : PStr :=
  [115, 117, 100, 97, 99, 104, 105, 112, 121, 46, 112, 108, 117, 103, 105, 110, 46, 112, 97, 116, 104, 95, 114, 101, 119, 114, 105, 116,
   101, 46, 74, 111, 105, 110, 78, 117, 109, 101, 114, 105, 99, 80, 108, 117, 103, 105, 110]
def classKatakana : PStr :=
  [115, 117, 100, 97, 99, 104, 105, 112, 121, 46, 112, 108, 117, 103, 105, 110, 46, 112, 97, 116, 104, 95, 114, 101, 119, 114, 105, 116,
   101, 46, 74, 111, 105, 110, 75, 97, 116, 97, 107, 97, 110, 97, 79, 111, 118, 80, 108, 117, 103, 105, 110]

/-- `obj[key]`: `TypeError` for what is not an object. -/
def Json.at (j : Json) (key : PStr) : Res Json :=
  match j with
  | .obj d => JDict.get d key
  | _ => .error .type

/-- `key in obj`, for an object. -/
def Json.opt (j : Json) (key : PStr) : Option Json :=
  match j with
  | .obj d => JDict.find d key
  | _ => none

/-- `except KeyError: raise ValueError`. -/
def keyToValue {α : Type} : Res α → Res α
  | .error .key => .error .value
  | r => r

/-- A number.  (Something else is stored by the code and raises `TypeError` at its first use: Model/Late.) -/
def Json.int : Json → Res Int
  | .num n => .ok n
  | .bool b => .ok (if b then 1 else 0)
  | _ => .error .type

/-- `ord(c)`: `TypeError` unless it is a string of one character. -/
def Json.ord : Json → Res Nat
  | .str [c] => .ok c
  | _ => .error .type

/-- A list of strings as a part of speech; anything else equals no entry of `pos_list`. -/
def Json.strs : List Json → Option (List PStr)
  | [] => some []
  | .str s :: rest => (strs rest).map (s :: ·)
  | _ :: _ => none

/-- `grammar.get_part_of_speech_id(pos)` for a value of the settings. -/
def posIdOf (g : Grammar) : Json → Int
  | .list l =>
    match Json.strs l with
    | some pos => g.posId pos
    | none => -1
  | _ => -1

/-! ### The constructors -/

/-- A plugin before `set_up`. -/
inductive InputPluginObj
  | default
  | psm (marks : List Nat) (sym : PStr)

inductive OovPluginObj
  | mecab (charDef unkDef : Json)
  | simple (left right cost : Int) (pos : Json)

inductive PathPluginObj
  | numeric (normalize : Bool)
  | katakana (pos : Json) (minLength : Int)

/-- prolongedsoundmark.py:25-26. -/
def marksOf (j : Json) : Res (List Nat) :=
  match j.opt keyMarks with
  | none => pure []
  | some v => do
    let l ← Settings.iterate v
    l.mapM Json.ord

/-- prolongedsoundmark.py:20-28 `__init__`.  (A replacement that is not a string is stored by the code and raises
`AttributeError` at its first use: Model/Late.) -/
def prolongedInit (j : Json) : Res InputPluginObj := do
  let marks ← marksOf j
  match j.opt keySymbol with
  | none => pure (.psm marks [0x30FC])
  | some (.str s) => pure (.psm marks s)
  | some _ => .error .type

/-- plugin/input_text/utils.py:22-31 `get_input_text_plugin`. -/
def getInputPlugin (j : Json) : Res InputPluginObj :=
  keyToValue do
    match ← j.at keyClass with
    | .str s =>
      if s = classDefault then pure .default
      else if s = classProlonged then prolongedInit j
      else .error .value
    | _ => .error .value

/-- plugin/oov/utils.py:22-31 `get_oov_plugin`, mecab_oov_plugin.py:40-48, simple_oov_plugin.py:22-27. -/
def getOovPlugin (j : Json) : Res OovPluginObj :=
  keyToValue do
    match ← j.at keyClass with
    | .str s =>
      if s = classMeCab then do
        let c ← j.at keyCharDefName
        let u ← j.at keyUnkDef
        pure (.mecab c u)
      else if s = classSimple then do
        let l ← j.at keyLeftId
        let r ← j.at keyRightId
        let c ← j.at keyCost
        let p ← j.at keyOovPOS
        let l ← l.int
        let r ← r.int
        let c ← c.int
        pure (.simple l r c p)
      else .error .value
    | _ => .error .value

/-- plugin/path_rewrite/utils.py:22-31 `get_path_rewrite_plugin`, join_numeric_plugin.py:28-35,
join_katakana_oov_plugin.py:23-28. -/
def getPathPlugin (j : Json) : Res PathPluginObj :=
  keyToValue do
    match ← j.at keyClass with
    | .str s =>
      if s = classNumeric then
        match j.opt keyNormalize with
        | none => pure (.numeric true)
        | some v => pure (.numeric v.truthy)
      else if s = classKatakana then do
        let p ← j.at keyOovPOS
        match j.opt keyMinLength with
        | none => pure (.katakana p 1)
        | some v => do
          let n ← v.int
          pure (.katakana p n)
      else .error .value
    | _ => .error .value

/-- plugin/input_text/utils.py:34-41, plugin/oov/utils.py:34-41, plugin/path_rewrite/utils.py:34-40: the plugins of a key of
the settings, in order. -/
def getPlugins {α : Type} (d : JDict) (key : PStr) (get : Json → Res α) : Res (List α) :=
  match d.find key with
  | none => pure []
  | some v => do
    let l ← Settings.iterate v
    l.mapM get

/-! ### `set_up` -/

/-- The machine with its files: `file` is the content of a file, or the exception of `open`; `resources` is
`config.DEFAULT_RESOURCEDIR`. -/
structure Disk extends Machine where
  file : PStr → Res Bytes
  resources : PStr

/-- A loop over the lines of a text file, `for line in f`: lines are decoded in pieces while the loop runs (C90), so if the file is no
text an exception of the loop may come first. -/
def Disk.read {α : Type} (M : Disk) (loop : List PStr → Res α) (path : PStr) : Res α := do
  let b ← M.file path
  let a ← loop (streamLines b).1
  (streamLines b).2
  pure a

/-- `"rewrite.def"`. -/
def rewriteDef : PStr := [114, 101, 119, 114, 105, 116, 101, 46, 100, 101, 102]

/-- default_input_text_plugin.py:29-33 (the file is looked for in the package's resources, whatever the resource directory),
prolongedsoundmark.py:30-31. -/
def InputPluginObj.setUp (M : Disk) : InputPluginObj → Res InputPlugin
  | .default => do
    let tb ← M.read readRewriteDef (joinPath M.resources rewriteDef)
    pure (.default tb)
  | .psm marks sym => pure (.psm marks sym)

/-- `os.path.join(dir, x)` for a value of the settings. -/
def joinJson (dir : PStr) : Json → Res PStr
  | .str s => .ok (joinPath dir s)
  | _ => .error .type

/-- mecab_oov_plugin.py:52-53, 57-58: an empty path is an `AttributeError`. -/
def Disk.readDefined {α : Type} (M : Disk) (loop : List PStr → Res α) (path : PStr) : Res α :=
  if path.isEmpty then .error .attribute else M.read loop path

/-- mecab_oov_plugin.py:50-59 and simple_oov_plugin.py:29-30 `set_up`. -/
def OovPluginObj.setUp (M : Disk) (others : PStr → Option Attr) (dir : PStr) (g : Grammar) : OovPluginObj → Res OovPlugin
  | .mecab c u => do
    let charDef ← joinJson dir c
    let categories ← M.readDefined (readProperties others []) charDef
    let unkDef ← joinJson dir u
    let oovList ← M.readDefined (readUnk others g categories) unkDef
    pure (.mecab (members categories) (members oovList))
  | .simple l r c p => pure (.simple ⟨l, r, c, posIdOf g p⟩)

/-- `['名詞', '数詞', '*', '*', '*', '*']`, join_numeric_plugin.py:29. -/
def numericPos : List PStr := [[0x540D, 0x8A5E], [0x6570, 0x8A5E], [42], [42], [42], [42]]

/-- join_numeric_plugin.py:37-38 and join_katakana_oov_plugin.py:30-35 `set_up`. -/
def PathPluginObj.setUp (g : Grammar) : PathPluginObj → Res PathPlugin
  | .numeric n => pure (.numeric ⟨g.posId numericPos, n⟩)
  | .katakana p m =>
    if !p.truthy then .error .value
    else if posIdOf g p < 0 then .error .value
    else pure (.katakana ⟨posIdOf g p, m⟩)

/-! ### The dictionary -/

/-- What does not come from settings and files: the trie library, the recursion limit, the fuel of JoinNumericPlugin, the
Unicode functions, the ties of the priority queue, the attributes of the class `CategoryType`. -/
structure Runtime where
  D : Darts
  depth : Nat
  fuel : Nat
  lower : PStr → PStr
  nfkc : PStr → PStr
  pick : SweepState → Nat
  others : PStr → Option Attr

/-- dictionary.py:64-65 and 75-85: the files of the user dictionaries, opened one by one. -/
def Dict.openUsers (M : Disk) (cfg : DictConfig) (dict : Dict) : List PStr → Res Dict
  | [] => .ok dict
  | path :: paths => do
    let d ← if dict.set.isFull then .error .value
      else do
        let b ← M.file path
        dict.readUser cfg b
    d.openUsers M cfg paths

/-- dictionary.py:43-65, after `config.settings.set_up`: the configuration and the dictionaries. -/
def openWith (R : Runtime) (M : Disk) (s : Settings) : Res (DictConfig × Dict) := do
  let path ← s.systemDictPath
  let b ← M.file path
  let sys ← Dict.readSystem b
  let path ← s.charDefPath
  let ranges ← M.read charDefLines path
  let ranges ← compile R.pick ranges
  let d ← s.theDict
  let dir ← s.theDir
  let inputs ← getPlugins d keyInputPlugins getInputPlugin
  let inputs ← inputs.mapM (·.setUp M)
  let oovs ← getPlugins d keyOovPlugins getOovPlugin
  if oovs.isEmpty then .error .attribute
  else do
    let oovs ← oovs.mapM (·.setUp M R.others dir sys.grammar)
    let paths ← getPlugins d keyPathPlugins getPathPlugin
    let paths ← paths.mapM (·.setUp sys.grammar)
    let cfg : DictConfig := ⟨R.D, R.depth, R.fuel, getCategoryTypes ranges, R.lower, R.nfkc, inputs, oovs, paths⟩
    let users ← s.userDictPaths
    let dict ← sys.openUsers M cfg users
    pure (cfg, dict)

/-- dictionary.py:31-65 `__init__`: the settings afterwards and the dictionary.  (Settings are shared by all dictionaries of the
process.) -/
def openDictionary (R : Runtime) (M : Disk) (s : Settings) (configPath resourceDir dictType : Option PStr) :
    Settings × Res (DictConfig × Dict) :=
  match s.setUp M.toMachine configPath resourceDir dictType with
  | (s', .error e) => (s', .error e)
  | (s', .ok ()) => (s', openWith R M s')

/-- dictionary.py:100-102 `create`, of a grammar with a matrix. -/
def create (cfg : DictConfig) (d : Dict) (mode : Option Mode) : Tokenizer := d.tokenizer cfg cfg.pathPlugins (mode.getD .C)

/-- dictionary.py:100-102 `create`. -/
def createTokenizer (cfg : DictConfig) (d : Dict) (mode : Option Mode) : Res Tokenizer :=
  if d.noCells then .error .value else .ok (create cfg d mode)

end Sudachi
