/-
What the lattice of a tokenizer keeps between calls.
-/
import Verif.Spec.Tokenizer
namespace Sudachi

/-- The lattices after calls with texts that are not empty, successful or not, and the bytes of the rewritten texts in order (0 for a
text that the plugins fail to rewrite). -/
inductive Tokenizer.Tried (T : Tokenizer) : List Nat → Lattice → Prop
  | fresh : T.Tried [] Lattice.init
  | call {ns : List Nat} {L L' : Lattice} {r : Res MorphemeList} {t : InputText} (text : PStr) (mode : Option Mode) : T.Tried ns L →
      text ≠ [] → T.buildInput text = .ok t → T.tokenize L text mode = (L', r) → T.Tried (ns ++ [t.bytes.length]) L'
  | unread {ns : List Nat} {L L' : Lattice} {r : Res MorphemeList} {x : Err} (text : PStr) (mode : Option Mode) : T.Tried ns L →
      text ≠ [] → T.buildInput text = .error x → T.tokenize L text mode = (L', r) → T.Tried (ns ++ [0]) L'

/-- The same, when every call succeeded. -/
inductive Tokenizer.Ran (T : Tokenizer) : List Nat → Lattice → Prop
  | fresh : T.Ran [] Lattice.init
  | call {ns : List Nat} {L L' : Lattice} {ml : MorphemeList} {t : InputText} (text : PStr) (mode : Option Mode) : T.Ran ns L →
      text ≠ [] → T.buildInput text = .ok t → T.tokenize L text mode = (L', .ok ml) → T.Ran (ns ++ [t.bytes.length]) L'

/-- The sum of the numbers that are larger than `m` and than all before them. -/
def records : Nat → List Nat → Nat
  | _, [] => 0
  | m, n :: ns => if m < n then n + records n ns else records m ns

end Sudachi
