/-
The generators of sudachipy/dictionarylib/doublearraylexicon.py and lexiconset.py item by item.  A generator is the list of the
items it yields and the exception that ends it, if one does.  The other models run `lookup` to its end (`DALex.lookup`,
`LexSet.lookup`); Props/Generators compares the two.
-/
import Verif.Model.LexiconSet
namespace Sudachi

/-- The items of a generator and what ends it (`none`: its return). -/
abbrev Gen (α : Type) := List α × Option Err

/-- doublearraylexicon.py:59-63: the loop of `lookup` over the matches of the trie. -/
def DALex.genLoop (x : DALex) (offset : Nat) : List (Nat × Nat) → Gen (Nat × Nat)
  | [] => ([], none)
  | (index, length) :: rest =>
    match x.widGet index with
    | .error e => ([], some e)
    | .ok ids => (ids.map (fun w => (w, length + offset)) ++ (x.genLoop offset rest).1, (x.genLoop offset rest).2)

/-- doublearraylexicon.py:56-63 `lookup`. -/
def DALex.gen (D : Darts) (x : DALex) (text : Bytes) (offset : Nat) : Gen (Nat × Nat) :=
  x.genLoop offset (D.search x.trie (text.drop offset))

/-- lexiconset.py:46-47: the inner loop over the items `pairs` of a generator that `stop` ends. -/
def LexSet.genTag (s : LexSet) (dictId : Nat) (stop : Option Err) : List (Nat × Nat) → Gen (Nat × Nat)
  | [] => ([], stop)
  | (w, e) :: rest =>
    match s.buildWordId dictId w with
    | .error err => ([], some err)
    | .ok v => ((v.toNat, e) :: (s.genTag dictId stop rest).1, (s.genTag dictId stop rest).2)

/-- lexiconset.py:44-47: the loop over the dictionaries. -/
def LexSet.genLoop (D : Darts) (s : LexSet) (text : Bytes) (offset : Nat) : List Nat → Gen (Nat × Nat)
  | [] => ([], none)
  | d :: ds =>
    match pyGet s.lexicons d with
    | .error e => ([], some e)
    | .ok x =>
      match s.genTag d (x.gen D text offset).2 (x.gen D text offset).1 with
      | (a, some e) => (a, some e)
      | (a, none) => (a ++ (LexSet.genLoop D s text offset ds).1, (LexSet.genLoop D s text offset ds).2)

/-- lexiconset.py:37-47 `lookup` and `__lookup`. -/
def LexSet.gen (D : Darts) (s : LexSet) (text : Bytes) (offset : Nat) : Gen (Nat × Nat) :=
  if s.lexicons.length = 1 then
    match pyGet s.lexicons 0 with
    | .error e => ([], some e)
    | .ok x => x.gen D text offset
  else LexSet.genLoop D s text offset ((List.range s.lexicons.length).drop 1 ++ [0])

end Sudachi
