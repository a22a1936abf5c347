/-
sudachipy/tokenizer.pyx, sudachipy/lattice.pyx as Cython before version 3 compiles them: a `cdef void` or `cpdef void` function
without an `except` clause prints an exception and returns as if nothing had happened.  setup.py:27 asks for any version of Cython.
The functions concerned are `Lattice.resize`, `insert`, `connect_node` (lattice.pyx:37, 72, 88) and `build_lattice_c`
(tokenizer.pyx:32).
-/
import Verif.Model.Tokenizer
namespace Sudachi
namespace Quiet

/-- lattice.pyx:72-76 `insert`: whatever is raised in it, or in `connect_node`, is dropped.  A node whose connection raised stays in its
list, not connected (lattice.pyx:107 is not reached). -/
def insert (conn : Conn) (L : Lattice) (d : NodeData) : Lattice := (L.insert conn d).1

/-- tokenizer.pyx:63-65, 67-69: the nodes of one provider. -/
def insertAll (conn : Conn) : Lattice → List NodeData → Lattice
  | L, [] => L
  | L, d :: ds => insertAll conn (insert conn L d) ds

/-- tokenizer.pyx:48-58. -/
def wordLoop (conn : Conn) (lex : Lex) (t : InputText) (i : Nat) :
    List (Nat × Nat) → Lattice → Bool → Lattice × Res Bool
  | [], L, has => (L, .ok has)
  | (w, e) :: rest, L, has =>
    match skipEnd t e with
    | .error x => (L, .error x)
    | .ok true => wordLoop conn lex t i rest L has
    | .ok false =>
      match wordNode lex i w e with
      | .error x => (L, .error x)
      | .ok d => wordLoop conn lex t i rest (insert conn L d) true

/-- tokenizer.pyx:62-65 (and 67-69 for a single provider). -/
def oovLoop (conn : Conn) (t : InputText) (i : Nat) : List OovPlugin → Lattice → Bool → Lattice × Res Bool
  | [], L, has => (L, .ok has)
  | p :: ps, L, has =>
    match p.getOov t i has with
    | .error x => (L, .error x)
    | .ok ns => oovLoop conn t i ps (insertAll conn L ns) (has || !ns.isEmpty)

/-- tokenizer.pyx:61-65. -/
def oovPart (conn : Conn) (plugins : List OovPlugin) (t : InputText) (i : Nat) (L : Lattice) (has : Bool) :
    Lattice × Res Bool :=
  match t.charCategoryTypesAt i with
  | .error x => (L, .error x)
  | .ok cats => if Cat.NOOOVBOW ∈ cats then (L, .ok has) else oovLoop conn t i plugins L has

/-- tokenizer.pyx:66-69. -/
def defaultPart (conn : Conn) (plugins : List OovPlugin) (t : InputText) (i : Nat) (L : Lattice) (has : Bool) :
    Lattice × Res Bool :=
  if has then (L, .ok true)
  else
    match plugins.getLast? with
    | none => (L, .error .attribute)
    | some p => oovLoop conn t i [p] L false

/-- tokenizer.pyx:46-72. -/
def buildPos (conn : Conn) (lex : Lex) (plugins : List OovPlugin) (t : InputText) (L : Lattice) (i : Nat) :
    Lattice × Res Unit :=
  match lex.lookup t.bytes i with
  | .error x => (L, .error x)
  | .ok ws =>
    match wordLoop conn lex t i ws L false with
    | (L1, .error x) => (L1, .error x)
    | (L1, .ok has1) =>
      match oovPart conn plugins t i L1 has1 with
      | (L2, .error x) => (L2, .error x)
      | (L2, .ok has2) =>
        match defaultPart conn plugins t i L2 has2 with
        | (L3, .error x) => (L3, .error x)
        | (L3, .ok true) => (L3, .ok ())
        | (L3, .ok false) => (L3, .error .runtime)

/-- tokenizer.pyx:43-72. -/
def buildLoop (conn : Conn) (lex : Lex) (plugins : List OovPlugin) (t : InputText) :
    List Nat → Lattice → Lattice × Res Unit
  | [], L => (L, .ok ())
  | i :: is, L =>
    match skipPos t L i with
    | .error x => (L, .error x)
    | .ok true => buildLoop conn lex plugins t is L
    | .ok false =>
      match buildPos conn lex plugins t L i with
      | (L', .error x) => (L', .error x)
      | (L', .ok ()) => buildLoop conn lex plugins t is L'

/-- tokenizer.pyx:32-73 `build_lattice_c`: the lattice it leaves.  An exception ends it before line 73, and is dropped. -/
def buildLattice (conn : Conn) (lex : Lex) (plugins : List OovPlugin) (t : InputText) (L : Lattice) : Lattice :=
  match buildLoop conn lex plugins t (List.range t.bytes.length) (L.resize t.bytes.length) with
  | (L', .error _) => L'
  | (L', .ok ()) => (L'.connectEos conn).1

/-- tokenizer.pyx:120-167 `tokenize`. -/
def tokenize (T : Tokenizer) (L : Lattice) (text : PStr) (mode : Option Mode) : Lattice × Res MorphemeList :=
  if text.isEmpty then (L, .ok .empty)
  else
    match T.buildInput text with
    | .error x => (L, .error x)
    | .ok t =>
      let L1 := buildLattice T.conn T.lex T.oov t L
      match T.bestPath t L1 with
      | .error x => (L1, .error x)
      | .ok path =>
        match L1.clear with
        | (L2, .error x) => (L2, .error x)
        | (L2, .ok ()) =>
          match splitPath T.lex (mode.getD T.mode) path with
          | .error x => (L2, .error x)
          | .ok path' => (L2, .ok ⟨some t, path'⟩)

end Quiet
end Sudachi
