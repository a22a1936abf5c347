/-
Which plugins the settings ask for, and what opening a dictionary means.
-/
import Verif.Model.Open
import Verif.Spec.Config
import Verif.Spec.Definitions
namespace Sudachi

/-- One after another. -/
inductive Each {α β : Type} (R : α → β → Prop) : List α → List β → Prop
  | nil : Each R [] []
  | cons {a : α} {b : β} {l : List α} {m : List β} : R a b → Each R l m → Each R (a :: l) (b :: m)

/-- An object with this value for the key. -/
def Json.Has (j : Json) (key : String) (v : Json) : Prop := ∃ d, j = .obj d ∧ Says d (codes key) v

/-- An object without the key. -/
def Json.Lacks (j : Json) (key : String) : Prop := ∃ d, j = .obj d ∧ Silent d (codes key)

/-- A number; `true` and `false` count as 1 and 0. -/
def Json.IsInt (v : Json) (n : Int) : Prop := v = .num n ∨ (v = .bool true ∧ n = 1) ∨ (v = .bool false ∧ n = 0)

/-- Characters one by one: a list of strings of one character, or a string, or an object with such keys. -/
def Json.IsChars (v : Json) (cs : List Nat) : Prop :=
  v = .list (cs.map fun c => .str [c]) ∨ v = .str cs ∨ ∃ kvs, v = .obj kvs ∧ kvs.map (·.1) = cs.map ([·])

/-- A part of speech. -/
def Json.IsPos (v : Json) (pos : List PStr) : Prop := v = .list (pos.map .str)

/-- The input text plugin that an object of the settings asks for. -/
def InputWanted (j : Json) : InputPluginObj → Prop
  | .default => j.Has "class" (.str (codes "sudachipy.plugin.input_text.DefaultInputTextPlugin"))
  | .psm marks sym =>
    j.Has "class" (.str (codes "sudachipy.plugin.input_text.ProlongedSoundMarkInputTextPlugin")) ∧
    ((j.Lacks "prolongedSoundMarks" ∧ marks = []) ∨ ∃ v, j.Has "prolongedSoundMarks" v ∧ v.IsChars marks) ∧
    ((j.Lacks "replacementSymbol" ∧ sym = [0x30FC]) ∨ j.Has "replacementSymbol" (.str sym))

/-- The OOV provider. -/
def OovWanted (j : Json) : OovPluginObj → Prop
  | .mecab c u =>
    j.Has "class" (.str (codes "sudachipy.plugin.oov.MeCabOovProviderPlugin")) ∧ j.Has "charDef" c ∧ j.Has "unkDef" u
  | .simple l r c p =>
    j.Has "class" (.str (codes "sudachipy.plugin.oov.SimpleOovProviderPlugin")) ∧ j.Has "oovPOS" p ∧
    (∃ v, j.Has "leftId" v ∧ v.IsInt l) ∧ (∃ v, j.Has "rightId" v ∧ v.IsInt r) ∧ ∃ v, j.Has "cost" v ∧ v.IsInt c

/-- The path rewriting plugin. -/
def PathWanted (j : Json) : PathPluginObj → Prop
  | .numeric b =>
    j.Has "class" (.str (codes "sudachipy.plugin.path_rewrite.JoinNumericPlugin")) ∧
    ((j.Lacks "enableNormalize" ∧ b = true) ∨ ∃ v, j.Has "enableNormalize" v ∧ (b = false ↔ v.Empty))
  | .katakana p m =>
    j.Has "class" (.str (codes "sudachipy.plugin.path_rewrite.JoinKatakanaOovPlugin")) ∧ j.Has "oovPOS" p ∧
    ((j.Lacks "minLength" ∧ m = 1) ∨ ∃ v, j.Has "minLength" v ∧ v.IsInt m)

/-- The plugins under a key of the settings, in order; none if the key is missing or its value is empty. -/
def Plugins {α : Type} (d : JDict) (key : String) (Wanted : Json → α → Prop) (objs : List α) : Prop :=
  (Silent d (codes key) ∧ objs = []) ∨ (∃ js, Says d (codes key) (.list js) ∧ Each Wanted js objs) ∨
    ((Says d (codes key) (.str []) ∨ Says d (codes key) (.obj [])) ∧ objs = [])

/-- The text file at `path` has these lines. -/
def Disk.HasLines (M : Disk) (path : PStr) (lines : List PStr) : Prop := ∃ b, M.file path = .ok b ∧ textLines b = .ok lines

/-- An input text plugin after `set_up`; rewrite.def is the package's, whatever the resource directory. -/
def InputReady (M : Disk) : InputPluginObj → InputPlugin → Prop
  | .default, .default tb => ∃ p lines, Resolves M.resources (codes "rewrite.def") p ∧ M.HasLines p lines ∧ readRewriteDef lines = .ok tb
  | .psm marks sym, .psm marks' sym' => marks' = marks ∧ sym' = sym
  | _, _ => False

/-- An OOV provider after `set_up`, with a grammar and a resource directory; the simple provider takes the number −1 for an
unknown part of speech. -/
def OovReady (R : Runtime) (M : Disk) (dir : PStr) (g : Grammar) : OovPluginObj → OovPlugin → Prop
  | .mecab c u, p =>
    ∃ cn un cp up ls us, c = .str cn ∧ u = .str un ∧ Resolves dir cn cp ∧ Resolves dir un up ∧ cp ≠ [] ∧ up ≠ [] ∧
      M.HasLines cp ls ∧ M.HasLines up us ∧ mecabSetUp R.others g ls us = .ok p
  | .simple l r c p, .simple e =>
    e.leftId = l ∧ e.rightId = r ∧ e.cost = c ∧
      ((∃ pos, p.IsPos pos ∧ PosNumber g.posList pos e.posId) ∨ (e.posId = -1 ∧ ∀ pos, ¬ p.IsPos pos))
  | .simple .., _ => False

/-- A path rewriting plugin after `set_up`. -/
def PathReady (g : Grammar) : PathPluginObj → PathPlugin → Prop
  | .numeric b, .numeric c => c.normalize = b ∧
      PosNumber g.posList [codes "名詞", codes "数詞", codes "*", codes "*", codes "*", codes "*"] c.posId
  | .katakana p m, .katakana c => c.minLength = m ∧ ∃ pos, pos ≠ [] ∧ p.IsPos pos ∧ PosNumber g.posList pos c.posId ∧ 0 ≤ c.posId
  | _, _ => False

/-- With the settings `s`, whose content is `d` and whose resource directory is `dir`, a `Dictionary` consists of `cfg` and
`dict`: the system dictionary file is `file`, the files of the user dictionaries are `files`. -/
structure Opens (R : Runtime) (M : Disk) (s : Settings) (d : JDict) (dir : PStr) (file : Bytes) (files : List Bytes)
    (cfg : DictConfig) (dict : Dict) : Prop where
  content : s.dict = some d
  directory : s.resourceDir = some dir
  system : ∃ p, s.systemDictPath = .ok p ∧ M.file p = .ok file
  users : ∃ ps, s.userDictPaths = .ok ps ∧ Each (fun p b => M.file p = .ok b) ps files
  categories : ∃ p lines ranges, s.charDefPath = .ok p ∧ M.HasLines p lines ∧ readCharDef R.pick lines = .ok ranges ∧
    cfg.catOf = getCategoryTypes ranges
  inputs : ∃ objs, Plugins d "inputTextPlugin" InputWanted objs ∧ Each (InputReady M) objs cfg.inputPlugins
  providers : ∃ sys objs, Dict.readSystem file = .ok sys ∧ Plugins d "oovProviderPlugin" OovWanted objs ∧
    Each (OovReady R M dir sys.grammar) objs cfg.oov
  rewriters : ∃ sys objs, Dict.readSystem file = .ok sys ∧ Plugins d "pathRewritePlugin" PathWanted objs ∧
    Each (PathReady sys.grammar) objs cfg.pathPlugins
  runtime : cfg.D = R.D ∧ cfg.depth = R.depth ∧ cfg.fuel = R.fuel ∧ cfg.lower = R.lower ∧ cfg.nfkc = R.nfkc
  loaded : Dict.load cfg file files = .ok dict

end Sudachi
