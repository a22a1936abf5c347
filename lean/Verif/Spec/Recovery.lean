import Verif.Spec.Tokenizer

/-!
# Recovery of a tokenizer after failed calls

Calls whose texts, once rewritten by the input plugins, have a limited number of bytes.
-/

namespace Sudachi

/-- The lattices after any sequence of calls, successful or not, on texts of at most `n` bytes (of the rewritten text; a text
whose rewriting fails counts for nothing). -/
inductive Tokenizer.HistoryUpTo (T : Tokenizer) (n : Nat) : Lattice → Prop
  | fresh : T.HistoryUpTo n Lattice.init
  | call {L L' : Lattice} {r : Res MorphemeList} (text : PStr) (mode : Option Mode) : T.HistoryUpTo n L →
      (∀ t, T.buildInput text = .ok t → t.bytes.length ≤ n) → T.tokenize L text mode = (L', r) → T.HistoryUpTo n L'

/-- The lattices after `L` and calls that all succeed. -/
inductive Tokenizer.Succeeds (T : Tokenizer) : Lattice → Lattice → Prop
  | done {L : Lattice} : T.Succeeds L L
  | call {L L' M : Lattice} {ml : MorphemeList} (text : PStr) (mode : Option Mode) : T.Succeeds M L →
      T.tokenize L text mode = (L', .ok ml) → T.Succeeds M L'

end Sudachi
