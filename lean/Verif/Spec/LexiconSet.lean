/-
Several dictionaries together.
-/
import Verif.Model.LexiconSet
import Verif.Spec.Source
namespace Sudachi

/-- The id of word `w` of dictionary `d`: 28 bits for the word, the dictionary number above. -/
def combinedId (d w : Nat) : Nat := d * 268435456 + w

/-- The order in which `n` dictionaries are asked: the user dictionaries 1, 2, ..., then the system dictionary 0. -/
def askOrder (n : Nat) : List Nat := (List.range (n - 1)).map (· + 1) ++ [0]

/-- The matches of several dictionaries, given those of each. -/
def combineMatches (order : List Nat) (found : Nat → List (Nat × Nat)) : List (Nat × Nat) :=
  order.flatMap fun d => (found d).map fun p => (combinedId d p.1, p.2)

/-- The sets that loading dictionaries makes. -/
inductive LexSet.Made : LexSet → Prop
  | init (x : DALex) : Made (LexSet.init x)
  | add {s : LexSet} (x : DALex) (o : Nat) : Made s → Made (s.add x o)

/-- The cached sets after any sequence of requests and additions; the cache may forget results whenever it likes. -/
inductive CachedSet.After (depth : Nat) : CachedSet → Prop
  | init (x : DALex) : After depth ⟨LexSet.init x, []⟩
  | request {c : CachedSet} (keep : List (Int × WordInfo) → List (Int × WordInfo)) (w : Int) : After depth c →
      (∀ l e, e ∈ keep l → e ∈ l) → After depth (c.getWordInfo depth keep w).1
  | add {c : CachedSet} (x : DALex) (o : Nat) : After depth c → After depth (c.add x o)

/-- An id in a split list of dictionary `d`: words of user dictionaries are meant to be of `d` itself. -/
def ownUnit (d : Nat) (u : Int) : Int := if u < 268435456 then u else (combinedId d (u % 268435456).toNat : Nat)

/-- `x` is the lexicon of a dictionary compiled from `rows`; costs may have been set since. -/
def LexiconOf (D : Darts) (rows : List (List PStr)) (x : DALex) : Prop :=
  ∃ sys header matrix b, SourceOk header rows matrix ∧ Compiled D sys header rows matrix b ∧ CostHistory b.lexicon x

/-- Word `w` has the given surface, part-of-speech number and reading. -/
def DALex.Has (x : DALex) (depth w : Nat) (surface : PStr) (posId : Int) (reading : PStr) : Prop :=
  ∃ wi, x.wordInfo depth w = .ok wi ∧ wi.surface = surface ∧ wi.posId = posId ∧ wi.readingForm = reading

end Sudachi
