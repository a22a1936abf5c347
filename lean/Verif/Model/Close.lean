/-
`Dictionary.close` and what keeps the files of a dictionary in memory.

A dictionary file is an `mmap`.  `mmap.close` raises `BufferError` while there are views of it.  The views of file `i` belong to its
`Grammar` (grammar.py:42-45) and to its `DoubleArrayLexicon` (doublearraylexicon.py:41-42, wordidtable.py:23, wordparameterlist.py:26-27),
and are released when these objects are freed (doublearraylexicon.py:53-54, wordidtable.py:25-26, wordparameterlist.py:31-32, and the
destructors of the memory views themselves).  Python frees an object as soon as nothing refers to it; the objects here form no cycles.
(Not followed: references that a caller takes out of these objects one by one, such as `ms.lexicon`, and those of tracebacks.)
-/
import Verif.Model.Basic
namespace Sudachi.Closing

/-- A `BinaryDictionary`, binarydictionary.py:25-29: whether the attributes `_grammar` and `_lexicon` are there, and whether the file is
mapped. -/
structure File where
  whole : Bool
  mapped : Bool
  deriving DecidableEq, Repr

/-- A `Dictionary`, dictionary.py:33-40: whether its `grammar` and `lexicon` are those of the files (and not `None`), and
`dictionaries`. -/
structure Dic where
  live : Bool
  files : List File
  deriving DecidableEq, Repr

/-- A process: the dictionaries; for each `Tokenizer` or `MorphemeList` the dictionary whose grammar and `LexiconSet` it refers to
(tokenizer.pyx:107-108, morphemelist.py:28-29); the keys of the cache of `LexiconSet.get_word_info` (lexiconset.py:61), the one used last
coming first.  The cache belongs to the function: it is shared by all dictionaries and refers to their `LexiconSet`s. -/
structure Process where
  dics : List Dic
  holders : List Nat
  cache : List (Nat × Int)
  deriving DecidableEq, Repr

/-- What closing can raise. -/
inductive Exc
  | attribute | buffer
  deriving DecidableEq, Repr

/-- When a program starts. -/
def Process.init : Process := ⟨[], [], []⟩

/-- `lru_cache(1024)`, lexiconset.py:61: the key goes to the front; of more than 1024 keys the one used longest ago is forgotten. -/
def touch (cache : List (Nat × Int)) (k : Nat × Int) : List (Nat × Int) := (k :: cache.erase k).take 1024

/-- Whether there are views of file `i` of dictionary `d`, when the dictionary and the file have given up their references to its
grammar and its lexicon: those of a `LexiconSet` that a tokenizer, a result or the cache refers to, and those of the grammar, which for
the system dictionary tokenizers and results refer to as well. -/
def Process.exported (s : Process) (d i : Nat) : Bool :=
  (s.holders.contains d || s.cache.any (fun k => k.1 == d)) || (i == 0 && s.holders.contains d)

/-- dictionary.py:97-98 with binarydictionary.py:62-65: file by file, from file `i` on.  `del` of a missing attribute is an
`AttributeError`. -/
def closeFiles (exported : Nat → Bool) : Nat → List File → List File × Except Exc Unit
  | _, [] => ([], .ok ())
  | i, f :: fs =>
    if !f.whole then (f :: fs, .error .attribute)
    else if exported i then ({ f with whole := false } :: fs, .error .buffer)
    else
      match closeFiles exported (i + 1) fs with
      | (fs', r) => (⟨false, false⟩ :: fs', r)

/-- What a program can do with dictionaries. -/
inductive Op
  /-- `Dictionary(...)` with this number of user dictionaries. -/
  | opens (users : Nat)
  /-- `d.create()`. -/
  | create (d : Nat)
  /-- A tokenizer or result makes another result: `tokenize`, `Morpheme.split`. -/
  | more (h : Nat)
  /-- The last reference to a tokenizer or result goes away. -/
  | drop (h : Nat)
  /-- `get_word_info` of the `LexiconSet` of `d` is called and does not raise: by a result of `d`, or otherwise. -/
  | look (d : Nat) (w : Int)
  /-- `d.close()`. -/
  | close (d : Nat)
  deriving DecidableEq, Repr

/-- dictionary.py:94-98 `close`. -/
def Process.close (s : Process) (d : Nat) (dic : Dic) : Process × Except Exc Unit :=
  match closeFiles (s.exported d) 0 dic.files with
  | (fs, r) => ({ s with dics := s.dics.set d ⟨false, fs⟩ }, r)

/-- One step.  A step about something that does not exist does nothing. -/
def step (s : Process) : Op → Process × Except Exc Unit
  | .opens users => ({ s with dics := s.dics ++ [⟨true, List.replicate (users + 1) ⟨true, true⟩⟩] }, .ok ())
  | .create d =>
    match s.dics[d]? with
    | none => (s, .ok ())
    | some dic =>
      -- dictionary.py:100-102: `Lattice(None)` asks for `None.get_eos_parameter`, lattice.pyx:29
      if dic.live then ({ s with holders := s.holders ++ [d] }, .ok ()) else (s, .error .attribute)
  | .more h =>
    match s.holders[h]? with
    | none => (s, .ok ())
    | some d => ({ s with holders := s.holders ++ [d] }, .ok ())
  | .drop h => ({ s with holders := s.holders.eraseIdx h }, .ok ())
  | .look d w =>
    match s.dics[d]? with
    | none => (s, .ok ())
    | some dic =>
      -- through a tokenizer or a result, or as `d.lexicon.get_word_info`, where `None` has no such attribute
      if dic.live || s.holders.contains d then ({ s with cache := touch s.cache (d, w) }, .ok ()) else (s, .error .attribute)
  | .close d =>
    match s.dics[d]? with
    | none => (s, .ok ())
    | some dic => s.close d dic

/-- Steps one after another, exceptions being caught. -/
def run (s : Process) : List Op → Process
  | [] => s
  | o :: os => run (step s o).1 os

end Sudachi.Closing
