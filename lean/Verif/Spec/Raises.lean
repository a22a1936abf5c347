import Verif.Spec.Open
import Verif.Spec.TextStream

/-!
# What opening a dictionary raises

The steps in their order; the first one that fails decides.
-/

namespace Sudachi

/-- A step raises, or it answers and what comes after it raises. -/
def Next {α : Type} (answers : α → Prop) (raises : Err → Prop) (rest : α → Err → Prop) (e : Err) : Prop :=
  raises e ∨ ∃ a, answers a ∧ rest a e

/-- The first of the elements that fails, fails so. -/
def FirstFails {α β : Type} (Good : α → β → Prop) (Fails : α → Err → Prop) (l : List α) (e : Err) : Prop :=
  ∃ pre a post bs, l = pre ++ a :: post ∧ Each Good pre bs ∧ Fails a e

/-- What is no object is a `TypeError`; a class that is not one of these, or a key missing that the class needs, a `ValueError`. -/
def Refused (classes : List (String × List String)) (j : Json) (e : Err) : Prop :=
  ((∀ d, j ≠ .obj d) ∧ e = .type) ∨
  (e = .value ∧ (j.Lacks "class" ∨ (∃ v, j.Has "class" v ∧ ∀ n ∈ classes, v ≠ .str (codes n.1)) ∨
    ∃ n ∈ classes, j.Has "class" (.str (codes n.1)) ∧ ∃ k ∈ n.2, j.Lacks k))

/-- Marks that are not characters are a `TypeError`. -/
def InputRefused (j : Json) (e : Err) : Prop :=
  Refused [("sudachipy.plugin.input_text.DefaultInputTextPlugin", []),
    ("sudachipy.plugin.input_text.ProlongedSoundMarkInputTextPlugin", [])] j e ∨
  (e = .type ∧ j.Has "class" (.str (codes "sudachipy.plugin.input_text.ProlongedSoundMarkInputTextPlugin")) ∧
    ∃ v, j.Has "prolongedSoundMarks" v ∧ ∀ cs, ¬ v.IsChars cs)

def OovRefused : Json → Err → Prop :=
  Refused [("sudachipy.plugin.oov.MeCabOovProviderPlugin", ["charDef", "unkDef"]),
    ("sudachipy.plugin.oov.SimpleOovProviderPlugin", ["leftId", "rightId", "cost", "oovPOS"])]

def PathRefused : Json → Err → Prop :=
  Refused [("sudachipy.plugin.path_rewrite.JoinNumericPlugin", []),
    ("sudachipy.plugin.path_rewrite.JoinKatakanaOovPlugin", ["oovPOS"])]

/-- The plugins under a key cannot be made: one of the list is refused, or there is no list. -/
def PluginsFail {α : Type} (d : JDict) (key : String) (Wanted : Json → α → Prop) (Refuses : Json → Err → Prop) (e : Err) : Prop :=
  (∃ js, Says d (codes key) (.list js) ∧ FirstFails Wanted Refuses js e) ∨
  (e = .type ∧ ∃ v, Says d (codes key) v ∧ (∀ js, v ≠ .list js) ∧ v ≠ .str [] ∧ v ≠ .obj [])

/-- The values that are not looked at before they are used are of the right types. -/
def Json.Typed (j : Json) : Prop :=
  (∀ v, j.Has "replacementSymbol" v → ∃ s, v = .str s) ∧
  ∀ k ∈ ["leftId", "rightId", "cost", "minLength"], ∀ v, j.Has k v → ∃ n, v.IsInt n

def JDict.Typed (d : JDict) : Prop :=
  ∀ k ∈ ["inputTextPlugin", "oovProviderPlugin", "pathRewritePlugin"], ∀ js, Says d (codes k) (.list js) → ∀ j ∈ js, j.Typed

/-- What a loop over the lines of a text file gives. -/
def Disk.Reads {α : Type} (M : Disk) (loop : List PStr → Res α) (path : PStr) (a : α) : Prop := ∃ ls, M.HasLines path ls ∧ loop ls = .ok a

/-- What it raises: the file is not there, or one of its lines is wrong; or it is not UTF-8, and then a wrong line before the piece of
8192 bytes that shows it comes first. -/
def Disk.ReadFails {α : Type} (M : Disk) (loop : List PStr → Res α) (path : PStr) (e : Err) : Prop :=
  M.file path = .error e ∨ (∃ ls, M.HasLines path ls ∧ loop ls = .error e) ∨
  ∃ b ls, M.file path = .ok b ∧ LinesUpTo 8192 b ls ∧ (loop ls = .error e ∨ (∃ a, loop ls = .ok a) ∧ e = .unicode)

def InputSetupFails (M : Disk) : InputPluginObj → Err → Prop
  | .default, e => ∃ p, Resolves M.resources (codes "rewrite.def") p ∧
      M.ReadFails readRewriteDef p e
  | .psm .., _ => False

/-- A file of the settings. -/
def Disk.Named {α : Type} (M : Disk) (dir : PStr) (v : Json) (loop : List PStr → Res α) (a : α) : Prop :=
  ∃ s p, v = .str s ∧ Resolves dir s p ∧ p ≠ [] ∧ M.Reads loop p a

def Disk.NamedFails {α : Type} (M : Disk) (dir : PStr) (v : Json) (loop : List PStr → Res α) (e : Err) : Prop :=
  (e = .type ∧ ∀ s, v ≠ .str s) ∨
  ∃ s p, v = .str s ∧ Resolves dir s p ∧ ((p = [] ∧ e = .attribute) ∨ (p ≠ [] ∧ M.ReadFails loop p e))

def OovSetupFails (R : Runtime) (M : Disk) (dir : PStr) (g : Grammar) : OovPluginObj → Err → Prop
  | .mecab c u, e =>
    Next (M.Named dir c (readProperties R.others [])) (M.NamedFails dir c (readProperties R.others []))
      (fun cs => M.NamedFails dir u (readUnk R.others g cs)) e
  | .simple .., _ => False

def PathSetupFails (g : Grammar) (o : PathPluginObj) (e : Err) : Prop := e = .value ∧ ∃ p m, o = .katakana p m ∧ ¬ ∃ c, PathReady g o c

/-- The first user dictionary that cannot be added: the sixteenth is refused without a look at its file. -/
def UsersFail (M : Disk) (cfg : DictConfig) (sys : Dict) (paths : List PStr) (e : Err) : Prop :=
  ∃ pre p post files dict, paths = pre ++ p :: post ∧ Each (fun p b => M.file p = .ok b) pre files ∧ sys.readUsers cfg files = .ok dict ∧
    ((files.length = 15 ∧ e = .value) ∨
     (files.length < 15 ∧ Next (fun b => M.file p = .ok b) (fun e => M.file p = .error e) (fun b =>
        Next (fun du => fromUserDictionary b = .ok du) (fun e => fromUserDictionary b = .error e) fun du e =>
          (dict.grammar.left * dict.grammar.right = 0 ∧ e = .value) ∨ dict.grammar.left * dict.grammar.right ≠ 0 ∧
          calculateCost (dict.tokenizer cfg [] .C) cfg.depth (List.range du.lexicon.size) Lattice.init du.lexicon = .error e) e))

/-- Opening with the settings `s`, whose content is `d` and whose resource directory is `dir`. -/
def OpenRaises (R : Runtime) (M : Disk) (s : Settings) (d : JDict) (dir : PStr) : Err → Prop :=
  Next (fun p => s.systemDictPath = .ok p) (fun e => s.systemDictPath = .error e) fun p =>
  Next (fun b => M.file p = .ok b) (fun e => M.file p = .error e) fun b =>
  Next (fun sys => Dict.readSystem b = .ok sys) (fun e => Dict.readSystem b = .error e) fun sys =>
  Next (fun p => s.charDefPath = .ok p) (fun e => s.charDefPath = .error e) fun p =>
  Next (M.Reads charDefLines p) (M.ReadFails charDefLines p) fun ranges =>
  Next (fun rs => compile R.pick ranges = .ok rs) (fun e => compile R.pick ranges = .error e) fun rs =>
  Next (Plugins d "inputTextPlugin" InputWanted) (PluginsFail d "inputTextPlugin" InputWanted InputRefused) fun inputs =>
  Next (Each (InputReady M) inputs) (FirstFails (InputReady M) (InputSetupFails M) inputs) fun inputs =>
  Next (Plugins d "oovProviderPlugin" OovWanted) (PluginsFail d "oovProviderPlugin" OovWanted OovRefused) fun oovs e =>
  (oovs = [] ∧ e = .attribute) ∨ oovs ≠ [] ∧
  Next (Each (OovReady R M dir sys.grammar) oovs) (FirstFails (OovReady R M dir sys.grammar) (OovSetupFails R M dir sys.grammar) oovs) (fun oovs =>
  Next (Plugins d "pathRewritePlugin" PathWanted) (PluginsFail d "pathRewritePlugin" PathWanted PathRefused) fun paths =>
  Next (Each (PathReady sys.grammar) paths) (FirstFails (PathReady sys.grammar) (PathSetupFails sys.grammar) paths) fun paths =>
  Next (fun ps => s.userDictPaths = .ok ps) (fun e => s.userDictPaths = .error e) fun users =>
  UsersFail M ⟨R.D, R.depth, R.fuel, getCategoryTypes rs, R.lower, R.nfkc, inputs, oovs, paths⟩ sys users) e

end Sudachi
