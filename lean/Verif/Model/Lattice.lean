/-
sudachipy/dictionarylib/wordinfo.py, sudachipy/latticenode.pyx, sudachipy/lattice.pyx
-/
import Verif.Model.Basic
namespace Sudachi

/-- dictionarylib/wordinfo.py:16-39 `WordInfo`. -/
structure WordInfo where
  surface : PStr
  headWordLength : Nat
  posId : Int
  normalizedForm : PStr
  dictionaryFormWordId : Int
  dictionaryForm : PStr
  readingForm : PStr
  aUnitSplit : List Int
  bUnitSplit : List Int
  wordStructure : List Int
  synonymGroupIds : List Int
  deriving DecidableEq, Repr

/-- "(null)" -/
def nullSurface : PStr := [40, 110, 117, 108, 108, 41]

/-- latticenode.pyx:19-22 `UNK`. -/
def WordInfo.unk : WordInfo := ⟨nullSurface, 0, -1, nullSurface, -1, nullSurface, nullSurface, [], [], [], []⟩

/-- latticenode.pyx:24-44 and latticenode.pxd:3-16: the fields of a `LatticeNode` that do not change once it is in
the lattice.  Left/right ids, costs and word ids are C `int`s: what does not fit is refused where the node is made (`wordNode`,
`OovPlugin.getOov`). -/
structure NodeData where
  begin_ : Nat
  end_ : Nat
  leftId : Int
  rightId : Int
  cost : Int
  wordId : Int
  oov : Bool
  extra : Option WordInfo
  defined : Bool
  deriving DecidableEq, Repr

/-- `LatticeNode()` (latticenode.pyx:26-39 with every argument `None`; `cdef int` fields start at 0). -/
def NodeData.blank : NodeData := ⟨0, 0, 0, 0, 0, 0, false, none, false⟩

/-- A node in the lattice with its `total_cost` and `best_previous_node`.  Nodes are not modified after
`connect_node`, so the object graph is a tree; the sentinel that `get_best_path` recognises by identity
(lattice.pyx:119) is the constructor `bos`.  `lone`: `best_previous_node is None`, hence not `is_connected_to_bos`. -/
inductive LNode
  | bos (d : NodeData)
  | lone (d : NodeData) (total : Int)
  | link (d : NodeData) (total : Int) (prev : LNode)
  deriving DecidableEq, Repr

namespace LNode
def data : LNode → NodeData
  | bos d => d
  | lone d _ => d
  | link d _ _ => d
/-- `total_cost` (the sentinel's is the zero-initialised C field). -/
def total : LNode → Int
  | bos _ => 0
  | lone _ t => t
  | link _ t _ => t
/-- `is_connected_to_bos` (lattice.pyx:33, 107). -/
def connected : LNode → Bool
  | bos _ => true
  | lone _ _ => false
  | link _ _ _ => true
end LNode

/-- C `int` arithmetic: 32-bit two's complement. -/
def wrap32 (x : Int) : Int := Int.bmod x (2 ^ 32)

/-- `INT_MAX`. -/
def intMax : Int := 2147483647

/-- `Grammar.INHIBITED_CONNECTION` (grammar.py:17, lattice.pyx:99-100). -/
def inhibited : Int := 0x7fff

/-- `connect_costs[left_id of right node, right_id of left node]` (lattice.pyx:97); raises `IndexError` out of
bounds. -/
abbrev Conn := Int → Int → Res Int

/-- lattice.pyx:94-105: the loop of `connect_node` over `end_lists[begin]`; the accumulator is
(`total_cost`, `best_previous_node`). -/
def connectLoop (conn : Conn) (leftId : Int) : List LNode → Int → Option LNode → Res (Int × Option LNode)
  | [], total, best => .ok (total, best)
  | l :: ls, total, best =>
    if l.connected then
      match conn leftId l.data.rightId with
      | .error e => .error e
      | .ok c =>
        if c = inhibited then connectLoop conn leftId ls total best
        else
          let cost := wrap32 (l.total + c)
          if cost < total then connectLoop conn leftId ls cost (some l)
          else connectLoop conn leftId ls total best
    else connectLoop conn leftId ls total best

/-- lattice.pyx:88-108 `connect_node`, on the candidates `end_lists[begin]`. -/
def connectNode (conn : Conn) (d : NodeData) (prevs : List LNode) : Res LNode :=
  match connectLoop conn d.leftId prevs intMax none with
  | .error e => .error e
  | .ok (total, none) => .ok (.lone d (wrap32 (total + d.cost)))
  | .ok (total, some p) => .ok (.link d (wrap32 (total + d.cost)) p)

/-- lattice.pyx:20-35 `Lattice`. -/
structure Lattice where
  size : Nat
  capacity : Nat
  endLists : List (List LNode)
  eos : Option LNode
  deriving DecidableEq, Repr

/-- The BOS node (lattice.pyx:30-34, grammar.py:21): parameters 0, 0, 0. -/
def bosNode : LNode := .bos NodeData.blank

namespace Lattice

/-- lattice.pyx:22-35 `__init__`. -/
def init : Lattice := ⟨0, 0, [[bosNode]], none⟩

/-- lattice.pyx:51-54 `expand`. -/
def expand (L : Lattice) (newSize : Nat) : Lattice :=
  { L with endLists := L.endLists ++ List.replicate (newSize - L.size) [], capacity := newSize }

/-- lattice.pyx:37-43 `resize` (the EOS node has the parameters 0, 0, 0 of grammar.py:22). -/
def resize (L : Lattice) (size : Nat) : Lattice :=
  let L' := if size > L.capacity then L.expand size else L
  { L' with size := size, eos := some (.lone { NodeData.blank with begin_ := size, end_ := size } 0) }

/-- lattice.pyx:46-47: `for i in range(1, self.size + 1): self.end_lists[i].clear()`; `IndexError` past the end
(then the lists before it are already cleared). -/
def clearLoop : List (List LNode) → List Nat → List (List LNode) × Res Unit
  | ls, [] => (ls, .ok ())
  | ls, i :: is => if i < ls.length then clearLoop (ls.set i []) is else (ls, .error .index)

/-- lattice.pyx:45-49 `clear`. -/
def clear (L : Lattice) : Lattice × Res Unit :=
  match clearLoop L.endLists (List.range' 1 L.size) with
  | (ls, .ok ()) => ({ L with endLists := ls, size := 0, eos := none }, .ok ())
  | (ls, .error e) => ({ L with endLists := ls }, .error e)

/-- lattice.pyx:59-60 `get_nodes`. -/
def getNodes (L : Lattice) (b e : Nat) : Res (List LNode) := do
  let ns ← pyGet L.endLists e
  pure (ns.filter (fun x => x.data.begin_ = b))

/-- lattice.pyx:66-70: the first node with the least word cost (`get_path_cost` is the word cost,
latticenode.pyx:90-91). -/
def minNode : LNode → List LNode → LNode
  | m, [] => m
  | m, x :: xs => if x.data.cost < m.data.cost then minNode x xs else minNode m xs

/-- lattice.pyx:62-70 `get_minimum_node`. -/
def getMinimumNode (L : Lattice) (b e : Nat) : Res (Option LNode) := do
  let ns ← L.getNodes b e
  match ns with
  | [] => pure none
  | x :: xs => pure (some (minNode x xs))

/-- `self.end_lists[end].append(node)`. -/
def append (L : Lattice) (e : Nat) (x : LNode) : Lattice :=
  { L with endLists := L.endLists.modify e (· ++ [x]) }

/-- lattice.pyx:72-76 `insert(begin, end, node)`: the node is appended first and then connected.  (When
`begin = end` the loop of `connect_node` also meets the node itself, which is not connected yet and is skipped.)
If a lookup of the connection cost raises, the unconnected node stays in the list. -/
def insert (conn : Conn) (L : Lattice) (d : NodeData) : Lattice × Res Unit :=
  match L.endLists[d.end_]? with
  | none => (L, .error .index)
  | some _ =>
    match L.endLists[d.begin_]? with
    | none => (L.append d.end_ (.lone d intMax), .error .index)
    | some prevs =>
      match connectNode conn d prevs with
      | .ok x => (L.append d.end_ x, .ok ())
      | .error e => (L.append d.end_ (.lone d intMax), .error e)

/-- lattice.pyx:85-86 `has_previous_node`. -/
def hasPreviousNode (L : Lattice) (i : Nat) : Res Bool := do
  let ns ← pyGet L.endLists i
  pure (!ns.isEmpty)

/-- `lattice.connect_node(lattice.eos_node)` (tokenizer.pyx:73). -/
def connectEos (conn : Conn) (L : Lattice) : Lattice × Res Unit :=
  match L.eos with
  | none => (L, .error .attribute)
  | some eos =>
    match L.endLists[eos.data.begin_]? with
    | none => (L, .error .index)
    | some prevs =>
      match connectNode conn eos.data prevs with
      | .ok x => ({ L with eos := some x }, .ok ())
      | .error e => (L, .error e)

/-- lattice.pyx:118-121: following `best_previous_node` up to the BOS sentinel, last node first. -/
def backtrace : LNode → Res (List NodeData)
  | .bos _ => .ok []
  | .lone _ _ => .error .attribute
  | .link d _ prev => do
    let rest ← backtrace prev
    pure (d :: rest)

/-- lattice.pyx:113-122 `get_best_path`. -/
def getBestPath (L : Lattice) : Res (List NodeData) :=
  match L.eos with
  | none => .error .attribute
  | some (.link _ _ prev) => do
    let r ← backtrace prev
    pure r.reverse
  | some _ => .error .attribute

end Lattice
end Sudachi
