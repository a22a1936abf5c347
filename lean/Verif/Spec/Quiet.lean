/-
Connection ids that are all known, and what a tokenizer that drops exceptions goes through.
-/
import Verif.Model.Quiet
import Verif.Spec.Total
namespace Sudachi

/-- The connection costs answer for the ids of the words that lookup finds, of the unknown words, and of the sentence begin and end. -/
structure Tokenizer.IdsKnown (T : Tokenizer) (left right : Int → Prop) : Prop where
  conn : ∀ l r, left l → right r → ∃ c, T.conn l r = .ok c
  bos : right 0
  eos : left 0
  words : ∀ bytes i ws w e l r c, T.lex.lookup bytes i = .ok ws → (w, e) ∈ ws → T.lex.params w = .ok (l, r, c) → left l ∧ right r
  oov : ∀ p ∈ T.oov, ∀ o, p.Entry o → left o.leftId ∧ right o.rightId

/-- The lattices of a tokenizer whose lattice functions drop exceptions. -/
inductive Quiet.History (T : Tokenizer) : Lattice → Prop
  | fresh : Quiet.History T Lattice.init
  | call {L L' : Lattice} {r : Res MorphemeList} (text : PStr) (mode : Option Mode) : Quiet.History T L →
      Quiet.tokenize T L text mode = (L', r) → Quiet.History T L'

end Sudachi
