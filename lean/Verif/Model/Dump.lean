/-
The dump of `tokenize -d`: sudachipy/lattice.pyx `dump`, sudachipy/latticenode.pyx `__str__`, sudachipy/tokenizer.pyx `_dump_path` and
the log lines of `tokenize`, sudachipy/command_line.py `run`
-/
import Verif.Model.CommandLine
namespace Sudachi

/-- `'=== Inupt dump:'` (tokenizer.pyx:143) and the other titles. -/
def inputTitle : PStr := [61, 61, 61, 32, 73, 110, 117, 112, 116, 32, 100, 117, 109, 112, 58]
def latticeTitle : PStr := [61, 61, 61, 32, 76, 97, 116, 116, 105, 99, 101, 32, 100, 117, 109, 112, 58]
def beforeTitle : PStr := [61, 61, 61, 32, 66, 101, 102, 111, 114, 101, 32, 82, 101, 119, 114, 105, 116, 105, 110, 103, 58]
def afterTitle : PStr := [61, 61, 61, 32, 65, 102, 116, 101, 114, 32, 82, 101, 119, 114, 105, 116, 105, 110, 103, 58]
def endTitle : PStr := [61, 61, 61]

/-- lattice.pyx:131-140: surface and part of speech shown for a node. -/
def dumpWord (g : Grammar) (lex : Lex) (n : NodeData) : Res (PStr × PStr) :=
  if n.defined then do
    let wi ← nodeWordInfo lex n
    if wi.posId ≥ 0 then do
      let pos ← g.posString wi.posId
      pure (wi.surface, joinOn 44 pos)
    else pure (wi.surface, nullSurface)
  else pure (nullSurface, [66, 79, 83, 47, 69, 79, 83])

/-- lattice.pyx:142-145: the costs of the connections with the nodes before (grammar.py:60-71 `get_connect_cost` of the right id of the
node before and the left id of the node is the entry of the matrix at the left id of the node and the right id of the one before). -/
def dumpCosts (conn : Conn) (n : NodeData) : List LNode → Res (List PStr)
  | [] => .ok []
  | l :: ls => do
    let c ← conn n.leftId l.data.rightId
    let rest ← dumpCosts conn n ls
    pure (intStr c :: rest)

/-- lattice.pyx:131-151: the line of a node, `'%d: %d %d %s(%d) %s %d %d %d: %s'`. -/
def dumpNode (conn : Conn) (g : Grammar) (lex : Lex) (L : Lattice) (index : Nat) (n : NodeData) : Res PStr := do
  let (surface, pos) ← dumpWord g lex n
  let prevs ← pyGet L.endLists n.begin_
  let costs ← dumpCosts conn n prevs
  pure (intStr index ++ [58] ++ [32] ++ intStr n.begin_ ++ [32] ++ intStr n.end_ ++ [32] ++ surface ++ [40] ++ intStr n.wordId ++ [41] ++
    [32] ++ pos ++ [32] ++ intStr n.leftId ++ [32] ++ intStr n.rightId ++ [32] ++ intStr n.cost ++ [58] ++ [32] ++ joinOn 32 costs)

/-- lattice.pyx:130-151: the nodes of one list; `index` counts the lines before. -/
def dumpNodes (conn : Conn) (g : Grammar) (lex : Lex) (L : Lattice) : Nat → List LNode → List PStr × Res Unit
  | _, [] => ([], .ok ())
  | index, n :: ns =>
    match dumpNode conn g lex L (index + 1) n.data with
    | .error e => ([], .error e)
    | .ok line => (line :: (dumpNodes conn g lex L (index + 1) ns).1, (dumpNodes conn g lex L (index + 1) ns).2)

/-- lattice.pyx:128-151: the lists of the nodes that end at `k - 1`, …, 0. -/
def dumpEnds (conn : Conn) (g : Grammar) (lex : Lex) (L : Lattice) : Nat → Nat → List PStr × Res Unit
  | 0, _ => ([], .ok ())
  | k + 1, index =>
    match pyGet L.endLists k with
    | .error e => ([], .error e)
    | .ok ns =>
      match dumpNodes conn g lex L index ns with
      | (out, .error e) => (out, .error e)
      | (out, .ok ()) => (out ++ (dumpEnds conn g lex L k (index + ns.length)).1, (dumpEnds conn g lex L k (index + ns.length)).2)

/-- lattice.pyx:124-151 `dump`. -/
def Lattice.dump (conn : Conn) (g : Grammar) (lex : Lex) (L : Lattice) : List PStr × Res Unit :=
  match L.eos with
  | none => ([], .error .attribute)
  | some eos =>
    match dumpNodes conn g lex L 0 [eos] with
    | (out, .error e) => (out, .error e)
    | (out, .ok ()) => (out ++ (dumpEnds conn g lex L (L.size + 1) 1).1, (dumpEnds conn g lex L (L.size + 1) 1).2)

/-- latticenode.pyx:108-110: the surface shown for a node. -/
def nodeSurface (lex : Lex) (n : NodeData) : Res PStr :=
  if n.wordId ≥ 0 || n.extra.isSome then (nodeWordInfo lex n).map (·.surface) else .ok [40, 78, 111, 110, 101, 41]

/-- latticenode.pyx:107-114 `__str__`. -/
def nodeStr (lex : Lex) (n : NodeData) : Res PStr := do
  let surface ← nodeSurface lex n
  pure (intStr n.begin_ ++ [32] ++ intStr n.end_ ++ [32] ++ surface ++ [40] ++ intStr n.wordId ++ [41] ++ [32] ++ intStr n.leftId ++ [32] ++
    intStr n.rightId ++ [32] ++ intStr n.cost)

/-- tokenizer.pyx:193-197 `_dump_path`, from the index `i` on; the character at the end of the format is U+FFFF. -/
def dumpPath (lex : Lex) : Nat → List NodeData → List PStr × Res Unit
  | _, [] => ([], .ok ())
  | i, n :: ns =>
    match nodeStr lex n with
    | .error e => ([], .error e)
    | .ok s => ((intStr i ++ [58, 32] ++ s ++ [0xFFFF]) :: (dumpPath lex (i + 1) ns).1, (dumpPath lex (i + 1) ns).2)

/-- tokenizer.pyx:120-167 `tokenize` with a logger: the lines logged, the lattice after the call, and the result. -/
def Tokenizer.tokenizeDump (T : Tokenizer) (g : Grammar) (L : Lattice) (text : PStr) (mode : Option Mode) :
    List PStr × Lattice × Res MorphemeList :=
  if text.isEmpty then ([], L, .ok .empty)
  else
    match T.buildInput text with
    | .error x => ([], L, .error x)
    | .ok t =>
      match buildLattice T.conn T.lex T.oov t L with
      | (L1, .error x) => ([inputTitle, t.modified], L1, .error x)
      | (L1, .ok ()) =>
        match L1.dump T.conn g T.lex with
        | (o1, .error x) => ([inputTitle, t.modified, latticeTitle] ++ o1, L1, .error x)
        | (o1, .ok ()) =>
          match L1.getBestPath with
          | .error x => ([inputTitle, t.modified, latticeTitle] ++ o1, L1, .error x)
          | .ok path0 =>
            match dumpPath T.lex 0 path0 with
            | (o2, .error x) => ([inputTitle, t.modified, latticeTitle] ++ o1 ++ beforeTitle :: o2, L1, .error x)
            | (o2, .ok ()) =>
              match rewritePath T.lex T.fuel t L1 T.pathPlugins path0 with
              | .error x => ([inputTitle, t.modified, latticeTitle] ++ o1 ++ beforeTitle :: o2, L1, .error x)
              | .ok path =>
                match L1.clear with
                | (L2, .error x) => ([inputTitle, t.modified, latticeTitle] ++ o1 ++ beforeTitle :: o2, L2, .error x)
                | (L2, .ok ()) =>
                  match splitPath T.lex (mode.getD T.mode) path with
                  | .error x => ([inputTitle, t.modified, latticeTitle] ++ o1 ++ beforeTitle :: o2, L2, .error x)
                  | .ok path' =>
                    match dumpPath T.lex 0 path' with
                    | (o3, .error x) =>
                      ([inputTitle, t.modified, latticeTitle] ++ o1 ++ beforeTitle :: o2 ++ afterTitle :: o3, L2, .error x)
                    | (o3, .ok ()) =>
                      ([inputTitle, t.modified, latticeTitle] ++ o1 ++ beforeTitle :: o2 ++ afterTitle :: o3 ++ [endTitle], L2,
                        .ok ⟨some t, path'⟩)

/-- command_line.py:60-77 `run` with `-d`. -/
def runDump (T : Tokenizer) (g : Grammar) (mode : Mode) (printAll : Bool) : Lattice → List PStr → List PStr × Res Unit
  | _, [] => ([], .ok ())
  | L, line :: lines =>
    match T.tokenizeDump g L (rstripNewline line) (some mode) with
    | (d, _, .error e) => (d, .error e)
    | (d, L', .ok ml) =>
      match printMorphemes g T.lex ml printAll ml.iter with
      | (out, .error e) => (d ++ out, .error e)
      | (out, .ok ()) =>
        (d ++ out ++ [69, 79, 83] :: (runDump T g mode printAll L' lines).1, (runDump T g mode printAll L' lines).2)

end Sudachi
