/-
What a segmentation of a text into candidate words is and what it costs, independently of the lattice algorithm.
-/
import Verif.Model.LatticeBuild
namespace Sudachi

/-- The words of `p` cover `[a, b)` without gap or overlap. -/
def Tiles : Nat → Nat → List NodeData → Prop
  | a, b, [] => a = b
  | a, b, d :: ds => d.begin_ = a ∧ d.begin_ < d.end_ ∧ Tiles d.end_ b ds

/-- The cost of putting a word with left id `l` after one with right id `r`; `none` if that is not allowed. -/
def linkCost (conn : Conn) (r l : Int) : Option Int :=
  match conn l r with
  | .ok k => if k = 0x7fff then none else some k
  | .error _ => none

/-- Exact cost of a sequence of words after a word with right id `r` up to the end of the sentence (whose left id is
0); `none` if two neighbours may not be connected. -/
def pathCost (conn : Conn) : Int → List NodeData → Option Int
  | r, [] => linkCost conn r 0
  | r, d :: ds =>
    match linkCost conn r d.leftId, pathCost conn d.rightId ds with
    | some k, some rest => some (k + d.cost + rest)
    | _, _ => none

/-- `p` is a segmentation of a text of `n` bytes into words satisfying `C`, with total cost `cost`
(the right id of the sentence begin is 0). -/
def IsPath (conn : Conn) (C : NodeData → Prop) (n : Nat) (p : List NodeData) (cost : Int) : Prop :=
  Tiles 0 n p ∧ (∀ d ∈ p, C d) ∧ pathCost conn 0 p = some cost

/-- The candidates a lattice holds: everything in its end lists except the sentence-begin node. -/
def Lattice.Cand (L : Lattice) (d : NodeData) : Prop :=
  ∃ e ns x, 0 < e ∧ L.endLists[e]? = some ns ∧ x ∈ ns ∧ x.data = d

/-- A 16-bit signed value. -/
def Short (x : Int) : Prop := -32768 ≤ x ∧ x ≤ 32767

/-- Every cost the connection table answers is a 16-bit value. -/
def Conn.Short (conn : Conn) : Prop := ∀ l r k, conn l r = .ok k → Sudachi.Short k

/-- The unk.def / configuration entry has a 16-bit cost. -/
def OovPlugin.Short : OovPlugin → Prop
  | .mecab _ oovList => ∀ p ∈ oovList, Sudachi.Short p.2.cost
  | .simple o => Sudachi.Short o.cost

/-- A C `int`. -/
def CInt (x : Int) : Prop := -2147483648 ≤ x ∧ x ≤ 2147483647

/-- An entry whose ids and cost are C `int`s. -/
def OovEntry.Stores (o : OovEntry) : Prop := CInt o.leftId ∧ CInt o.rightId ∧ CInt o.cost

/-- All entries of a provider are such. -/
def OovPlugin.Stores : OovPlugin → Prop
  | .mecab _ oovList => ∀ p ∈ oovList, p.2.Stores
  | .simple o => o.Stores

/-- What the lattice needs of dictionary lookup: matches are non-empty and inside the text, costs are 16-bit. -/
structure Lex.Ok (lex : Lex) : Prop where
  lookup_inside : ∀ bytes i ws, i < bytes.length → lex.lookup bytes i = .ok ws → ∀ w e, (w, e) ∈ ws → i < e ∧ e ≤ bytes.length
  params_short : ∀ w l r c, lex.params w = .ok (l, r, c) → Sudachi.Short c

/-- The texts for which 32-bit path costs cannot overflow. -/
def SafeLength (n : Nat) : Prop := (n + 1) * 65536 ≤ 2147483647

/-- A lattice without any candidate, as `__init__` and `clear` leave it, large enough for its capacity. -/
structure Lattice.Clean (L : Lattice) : Prop where
  bos : L.endLists[0]? = some [bosNode]
  empty : ∀ e ns, 0 < e → L.endLists[e]? = some ns → ns = []
  room : L.capacity < L.endLists.length
  size : L.size ≤ L.capacity

/-- `d` is a dictionary word or an unknown-word candidate that the lexicon / a provider offers at its position. -/
def Offered (lex : Lex) (plugins : List OovPlugin) (t : InputText) (d : NodeData) : Prop :=
  (d.oov = false ∧ d.extra = none ∧ ∃ ws w, lex.lookup t.bytes d.begin_ = .ok ws ∧ (w, d.end_) ∈ ws ∧ d.wordId = w ∧
    lex.params w = .ok (d.leftId, d.rightId, d.cost)) ∨
  (d.oov = true ∧ ∃ p ∈ plugins, ∃ has ns, p.getOov t d.begin_ has = .ok ns ∧ d ∈ ns)

end Sudachi
