/-
Which objects refer to which, and what is alive.
-/
import Verif.Model.Close
namespace Sudachi.Closing

/-- The objects: dictionary `d`, its `LexiconSet`, its files, their grammars and lexicons; the tokenizers and results; the cache. -/
inductive Obj
  | dictionary (d : Nat)
  | set (d : Nat)
  | file (d i : Nat)
  | grammar (d i : Nat)
  | lexicon (d i : Nat)
  | holder (h : Nat)
  | cache

/-- The references. -/
inductive Refers (s : Process) : Obj → Obj → Prop
  | dictionaryFile {d i : Nat} {dic : Dic} : s.dics[d]? = some dic → i < dic.files.length → Refers s (.dictionary d) (.file d i)
  | dictionaryGrammar {d : Nat} {dic : Dic} : s.dics[d]? = some dic → dic.live = true → Refers s (.dictionary d) (.grammar d 0)
  | dictionarySet {d : Nat} {dic : Dic} : s.dics[d]? = some dic → dic.live = true → Refers s (.dictionary d) (.set d)
  | fileGrammar {d i : Nat} {dic : Dic} {f : File} : s.dics[d]? = some dic → dic.files[i]? = some f → f.whole = true →
      Refers s (.file d i) (.grammar d i)
  | fileLexicon {d i : Nat} {dic : Dic} {f : File} : s.dics[d]? = some dic → dic.files[i]? = some f → f.whole = true →
      Refers s (.file d i) (.lexicon d i)
  | setLexicon {d i : Nat} {dic : Dic} : s.dics[d]? = some dic → i < dic.files.length → Refers s (.set d) (.lexicon d i)
  | holderGrammar {h d : Nat} : s.holders[h]? = some d → Refers s (.holder h) (.grammar d 0)
  | holderSet {h d : Nat} : s.holders[h]? = some d → Refers s (.holder h) (.set d)
  | cacheSet {d : Nat} {w : Int} : (d, w) ∈ s.cache → Refers s .cache (.set d)

/-- What a program can get at, and so is not freed. -/
inductive Alive (s : Process) : Obj → Prop
  | dictionary {d : Nat} : Alive s (.dictionary d)
  | holder {h : Nat} : Alive s (.holder h)
  | cache : Alive s .cache
  | step {a b : Obj} : Alive s a → Refers s a b → Alive s b

/-- There are views of file `i` of dictionary `d`. -/
def Viewed (s : Process) (d i : Nat) : Prop := Alive s (.grammar d i) ∨ Alive s (.lexicon d i)

/-- The states that a program can bring about. -/
def Happens (s : Process) : Prop := ∃ ops, s = run .init ops

/-- File `i` of dictionary `d` is mapped, and so its words can be read. -/
def Readable (s : Process) (d i : Nat) : Prop := ∃ dic f, s.dics[d]? = some dic ∧ dic.files[i]? = some f ∧ f.mapped = true

/-- The number of words asked for. -/
def looks : List Op → Nat
  | [] => 0
  | .look _ _ :: ops => looks ops + 1
  | _ :: ops => looks ops

end Sudachi.Closing
