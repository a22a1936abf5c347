/-
sudachipy/tokenizer.pyx: build_lattice_c
-/
import Verif.Model.Oov
namespace Sudachi

/-- What `build_lattice_c`, `LatticeNode` and `MorphemeList` use of the lexicon set; Model/LexiconSet.lean builds one
from dictionaries.  `lookup` stands for the generator `lexicon.lookup(bytes, i)`, run to its end before its first
element is used (running it has no side effect). `params` is `lexicons[word_id >> 28].word_params._array_view[...]`
(tokenizer.pyx:53-55), `wordInfo` is `lexicon.get_word_info`. -/
structure Lex where
  lookup : Bytes → Nat → Res (List (Nat × Nat))
  params : Nat → Res (Int × Int × Int)
  wordInfo : Int → Res WordInfo

/-- tokenizer.pyx:58, 65, 69 repeated. -/
def insertAll (conn : Conn) : Lattice → List NodeData → Lattice × Res Unit
  | L, [] => (L, .ok ())
  | L, d :: ds =>
    match L.insert conn d with
    | (L', .ok ()) => insertAll conn L' ds
    | (L', .error e) => (L', .error e)

/-- tokenizer.pyx:53-56: the node of a dictionary word.  `LatticeNode.word_id` is a C `int`
(latticenode.pxd:6): assigning a larger value raises `OverflowError`. -/
def wordNode (lex : Lex) (i : Nat) (w e : Nat) : Res NodeData := do
  let (l, r, c) ← lex.params w
  if w ≥ 2 ^ 31 then .error .overflow
  else pure ⟨i, e, l, r, c, w, false, none, true⟩

/-- tokenizer.pyx:49: `(end < len(bytes_)) and (not input_.can_bow(end))`. -/
def skipEnd (t : InputText) (e : Nat) : Res Bool :=
  if e < t.bytes.length then do
    let b ← t.canBow e
    pure (!b)
  else pure false

/-- tokenizer.pyx:48-58: the loop over the dictionary words at `i`; the flag is `has_words`. -/
def wordLoop (conn : Conn) (lex : Lex) (t : InputText) (i : Nat) :
    List (Nat × Nat) → Lattice → Bool → Lattice × Res Bool
  | [], L, has => (L, .ok has)
  | (w, e) :: rest, L, has =>
    match skipEnd t e with
    | .error x => (L, .error x)
    | .ok true => wordLoop conn lex t i rest L has
    | .ok false =>
      match wordNode lex i w e with
      | .error x => (L, .error x)
      | .ok d =>
        match L.insert conn d with
        | (L', .error x) => (L', .error x)
        | (L', .ok ()) => wordLoop conn lex t i rest L' true

/-- tokenizer.pyx:62-65 (and 67-69 for a single provider): the loop over OOV providers. -/
def oovLoop (conn : Conn) (t : InputText) (i : Nat) : List OovPlugin → Lattice → Bool → Lattice × Res Bool
  | [], L, has => (L, .ok has)
  | p :: ps, L, has =>
    match p.getOov t i has with
    | .error x => (L, .error x)
    | .ok ns =>
      match insertAll conn L ns with
      | (L', .error x) => (L', .error x)
      | (L', .ok ()) => oovLoop conn t i ps L' (has || !ns.isEmpty)

/-- tokenizer.pyx:61-65. -/
def oovPart (conn : Conn) (plugins : List OovPlugin) (t : InputText) (i : Nat) (L : Lattice) (has : Bool) :
    Lattice × Res Bool :=
  match t.charCategoryTypesAt i with
  | .error x => (L, .error x)
  | .ok cats => if Cat.NOOOVBOW ∈ cats then (L, .ok has) else oovLoop conn t i plugins L has

/-- tokenizer.pyx:66-69; `default_oov_provider` is the last plugin (tokenizer.pyx:117-118) and is missing when
there is none (`AttributeError`). -/
def defaultPart (conn : Conn) (plugins : List OovPlugin) (t : InputText) (i : Nat) (L : Lattice) (has : Bool) :
    Lattice × Res Bool :=
  if has then (L, .ok true)
  else
    match plugins.getLast? with
    | none => (L, .error .attribute)
    | some p => oovLoop conn t i [p] L false

/-- tokenizer.pyx:46-72: one position that is a possible word beginning with a previous node. -/
def buildPos (conn : Conn) (lex : Lex) (plugins : List OovPlugin) (t : InputText) (L : Lattice) (i : Nat) :
    Lattice × Res Unit :=
  match lex.lookup t.bytes i with
  | .error x => (L, .error x)
  | .ok ws =>
    match wordLoop conn lex t i ws L false with
    | (L1, .error x) => (L1, .error x)
    | (L1, .ok has1) =>
      match oovPart conn plugins t i L1 has1 with
      | (L2, .error x) => (L2, .error x)
      | (L2, .ok has2) =>
        match defaultPart conn plugins t i L2 has2 with
        | (L3, .error x) => (L3, .error x)
        | (L3, .ok true) => (L3, .ok ())
        | (L3, .ok false) => (L3, .error .runtime)

/-- tokenizer.pyx:44: `not input_.can_bow(i) or not lattice.has_previous_node(i)`. -/
def skipPos (t : InputText) (L : Lattice) (i : Nat) : Res Bool := do
  let b ← t.canBow i
  if !b then pure true
  else
    let p ← L.hasPreviousNode i
    pure (!p)

/-- tokenizer.pyx:43-72: the loop over positions. -/
def buildLoop (conn : Conn) (lex : Lex) (plugins : List OovPlugin) (t : InputText) :
    List Nat → Lattice → Lattice × Res Unit
  | [], L => (L, .ok ())
  | i :: is, L =>
    match skipPos t L i with
    | .error x => (L, .error x)
    | .ok true => buildLoop conn lex plugins t is L
    | .ok false =>
      match buildPos conn lex plugins t L i with
      | (L', .error x) => (L', .error x)
      | (L', .ok ()) => buildLoop conn lex plugins t is L'

/-- tokenizer.pyx:32-73 `build_lattice_c`.  Exceptions propagate (Cython ≥ 3 semantics of `cdef void`). -/
def buildLattice (conn : Conn) (lex : Lex) (plugins : List OovPlugin) (t : InputText) (L : Lattice) :
    Lattice × Res Unit :=
  match buildLoop conn lex plugins t (List.range t.bytes.length) (L.resize t.bytes.length) with
  | (L', .error x) => (L', .error x)
  | (L', .ok ()) => L'.connectEos conn

end Sudachi
