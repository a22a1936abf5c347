/-
sudachipy/dictionary.py and doublearraylexicon.py `calculate_cost`
-/
import Verif.Model.LexiconSet
import Verif.Model.Tokenizer
namespace Sudachi

/-- dictionary.py:48-62: what a `Dictionary` holds besides grammar and lexicon; `fuel` and `depth` as in `Tokenizer` and
`DALex.wordInfo`. -/
structure DictConfig where
  D : Darts
  depth : Nat
  fuel : Nat
  catOf : Nat → CatSet
  lower : PStr → PStr
  nfkc : PStr → PStr
  inputPlugins : List InputPlugin
  oov : List OovPlugin
  pathPlugins : List PathPlugin

/-- dictionary.py:33-34: the part of a `Dictionary` that loading changes. -/
structure Dict where
  grammar : Grammar
  set : LexSet
  deriving DecidableEq, Repr

/-- dictionary.py:81 and 101-102 `Tokenizer(…)`: a tokenizer on the current grammar and lexicon; `lattice.pyx:35`: the
connection costs are the grammar's matrix (if it has cells, see `Dict.noCells`). -/
def Dict.tokenizer (cfg : DictConfig) (d : Dict) (pathPlugins : List PathPlugin) (mode : Mode) : Tokenizer :=
  ⟨cfg.catOf, cfg.lower, cfg.nfkc, cfg.inputPlugins, d.grammar.cell, d.set.toLex cfg.D cfg.depth, cfg.oov, pathPlugins, mode, cfg.fuel⟩

/-- grammar.py:44-45: a matrix without cells stays a view of one dimension; lattice.pyx:35, which wants two, then raises `ValueError`, so
that no tokenizer can be made. -/
def Dict.noCells (d : Dict) : Bool := d.grammar.left * d.grammar.right = 0

/-- doublearraylexicon.py:106-108: the cost given to a word whose surface was tokenized as `ms`. -/
def autoCost (ms : MorphemeList) : Res Int := do
  let ic ← ms.internalCost
  let cost := ic + (-20) * (ms.len : Int)
  pure (max (min cost 32767) (-32768))

/-- doublearraylexicon.py:100-109 `calculate_cost`: the loop over the word ids.  The lattice is that of the tokenizer. -/
def calculateCost (T : Tokenizer) (depth : Nat) : List Nat → Lattice → DALex → Res DALex
  | [], _, x => .ok x
  | w :: ws, L, x =>
    match x.cost w with
    | .error e => .error e
    | .ok c =>
      if c ≠ -32768 then calculateCost T depth ws L x
      else
        match x.wordInfo depth w with
        | .error e => .error e
        | .ok wi =>
          match T.tokenize L wi.surface none with
          | (_, .error e) => .error e
          | (L', .ok ms) =>
            match autoCost ms with
            | .error e => .error e
            | .ok cost =>
              match x.setCost w cost with
              | .error e => .error e
              | .ok x' => calculateCost T depth ws L' x'

namespace Dict

/-- dictionary.py:67-73 `_read_system_dictionary`, on the bytes of the file. -/
def readSystem (b : Bytes) : Res Dict := do
  let d ← fromSystemDictionary b
  match d.grammar with
  | some g => pure ⟨g, LexSet.init d.lexicon⟩
  | none => .error .attribute

/-- dictionary.py:75-85 `_read_user_dictionary`, on the bytes of the file. -/
def readUser (cfg : DictConfig) (dict : Dict) (b : Bytes) : Res Dict :=
  if dict.set.isFull then .error .value
  else do
    let d ← fromUserDictionary b
    if dict.noCells then .error .value
    else do
      let x ← calculateCost (dict.tokenizer cfg [] .C) cfg.depth (List.range d.lexicon.size) Lattice.init d.lexicon
      let set' := dict.set.add x dict.grammar.posSize
      match d.grammar with
      | some g => pure ⟨dict.grammar.addPosList g, set'⟩
      | none => pure ⟨dict.grammar, set'⟩

/-- dictionary.py:64-65: the user dictionaries in order. -/
def readUsers (cfg : DictConfig) (dict : Dict) : List Bytes → Res Dict
  | [] => .ok dict
  | b :: bs => do
    let d ← dict.readUser cfg b
    d.readUsers cfg bs

/-- dictionary.py:31-65 `__init__`: the system dictionary, then the user dictionaries.  (Settings, character definition
and plugins are given by the configuration; the check at line 55 for an OOV provider is included.) -/
def load (cfg : DictConfig) (system : Bytes) (users : List Bytes) : Res Dict := do
  let d ← readSystem system
  if cfg.oov.isEmpty then .error .attribute
  else d.readUsers cfg users

end Dict

end Sudachi
