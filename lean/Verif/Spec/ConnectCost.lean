/-
Pairs of ids that may not be neighbours.
-/
import Verif.Model.ConnectCost
import Verif.Spec.Lattice
import Verif.Spec.Open
namespace Sudachi

/-- The row or column `k` of `n` that an id names; negative ids count from the end. -/
def Place (n : Nat) (i : Int) (k : Nat) : Prop := k < n ∧ ((k : Int) = i ∨ (k : Int) = n + i)

/-- The ids name a cell of the matrix: `left` is the right id of the word on the left, `right` the left id of the word on the right. -/
def Grammar.Has (g : Grammar) (left right : Int) : Prop := (∃ a, Place g.left right a) ∧ ∃ b, Place g.right left b

/-- Two pairs of ids name the same cell of the matrix. -/
def Grammar.Same (g : Grammar) (left right left' right' : Int) : Prop :=
  (∃ a, Place g.left right a ∧ Place g.left right' a) ∧ ∃ b, Place g.right left b ∧ Place g.right left' b

/-- A list of two numbers (or more, which are not looked at). -/
def Json.IsPair (j : Json) (left right : Int) : Prop := ∃ x y rest, j = .list (x :: y :: rest) ∧ x.IsInt left ∧ y.IsInt right

/-- Something with fewer than two parts. -/
def Json.Short (j : Json) : Prop :=
  (∃ l, j = .list l ∧ l.length < 2) ∨ (∃ s, j = .str s ∧ s.length < 2) ∨ ∃ kvs, j = .obj kvs ∧ kvs.length < 2

/-- The exception for an item that is neither short nor a pair that names a cell: `KeyError` for an object, `IndexError` for two numbers that
do not name a cell of a matrix that has cells, `TypeError` for everything else. -/
def Grammar.Refuses (g : Grammar) (p : Json) (e : Err) : Prop :=
  ¬ p.Short ∧
  ((e = .key ∧ ∃ kvs, p = .obj kvs) ∨
   (e = .index ∧ g.left ≠ 0 ∧ g.right ≠ 0 ∧ ∃ l r, p.IsPair l r ∧ ¬ g.Has l r) ∨
   (e = .type ∧ (∀ kvs, p ≠ .obj kvs) ∧ ((g.left = 0 ∨ g.right = 0) ∨ ∀ l r, ¬ p.IsPair l r)))

/-- The connection is named by one of the pairs. -/
def Grammar.Named (g : Grammar) (ps : List Json) (left right : Int) : Prop := ∃ p ∈ ps, ∃ l r, p.IsPair l r ∧ g.Same l r left right

/-- `g'` is `g` with the pairs inhibited and nothing else changed. -/
structure Inhibits (g : Grammar) (ps : List Json) (g' : Grammar) : Prop where
  pos : g'.posList = g.posList
  left : g'.left = g.left
  right : g'.right = g.right
  storageSize : g'.storageSize = g.storageSize
  size : g'.matrix.length = g.matrix.length
  named : ∀ l r, g.Named ps l r → g'.getConnectCost l r = .ok 0x7fff
  others : ∀ l r, ¬ g.Named ps l r → g'.getConnectCost l r = g.getConnectCost l r

/-- No two neighbours of the path are one of the pairs: the word before has the right id `r`, and after the last word comes the end of
the sentence. -/
def Avoids (Bad : Int → Int → Prop) : Int → List NodeData → Prop
  | r, [] => ¬ Bad r 0
  | r, d :: ds => ¬ Bad r d.leftId ∧ Avoids Bad d.rightId ds

/-- The cells of a grammar are as many as its sizes say. -/
def Grammar.Full (g : Grammar) : Prop := g.matrix.length = g.left * g.right

end Sudachi
