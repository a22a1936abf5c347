/-
What the dump of `tokenize -d` shows.
-/
import Verif.Model.Dump
import Verif.Spec.CommandLine
import Verif.Spec.Open
namespace Sudachi

/-- Texts with spaces between them. -/
def spaced (texts : List PStr) : PStr := List.intercalate (lit " ") texts

/-- A number in decimal. -/
def dec (n : Int) : PStr := lit (toString n)

/-- The word shown for a node of the lattice: its surface and its part of speech; the two ends of the sentence have neither. -/
def WordShown (g : Grammar) (lex : Lex) (n : NodeData) (surface pos : PStr) : Prop :=
  (n.defined = false ∧ surface = lit "(null)" ∧ pos = lit "BOS/EOS") ∨
  (n.defined = true ∧ ∃ wi, nodeWordInfo lex n = .ok wi ∧ surface = wi.surface ∧
    ((wi.posId < 0 ∧ pos = lit "(null)") ∨ (0 ≤ wi.posId ∧ ∃ p, g.posString wi.posId = .ok p ∧ pos = commas p)))

/-- The line of a node of the lattice: its number, its place, its word, its parameters, and the costs of following each of the nodes
that end where it begins. -/
def NodeLine (conn : Conn) (g : Grammar) (lex : Lex) (L : Lattice) (k : Nat) (n : NodeData) (line : PStr) : Prop :=
  ∃ surface pos prevs costs, WordShown g lex n surface pos ∧ L.endLists[n.begin_]? = some prevs ∧
    Each (fun l c => conn n.leftId l.data.rightId = .ok c) prevs costs ∧
    line = dec k ++ lit ": " ++ spaced [dec n.begin_, dec n.end_, surface ++ lit "(" ++ dec n.wordId ++ lit ")", pos, dec n.leftId,
      dec n.rightId, dec n.cost] ++ lit ": " ++ spaced (costs.map dec)

/-- The nodes that end before `k`, the last first. -/
def EndsDown (L : Lattice) : Nat → List LNode → Prop
  | 0, ns => ns = []
  | k + 1, ns => ∃ here rest, L.endLists[k]? = some here ∧ EndsDown L k rest ∧ ns = here ++ rest

/-- The lines of a lattice: one for every node, from the end of the sentence to its beginning, numbered from 1. -/
def LatticeLines (conn : Conn) (g : Grammar) (lex : Lex) (L : Lattice) (lines : List PStr) : Prop :=
  ∃ eos nodes, L.eos = some eos ∧ EndsDown L (L.size + 1) nodes ∧ lines.length = nodes.length + 1 ∧
    ∀ i n line, (eos :: nodes)[i]? = some n → lines[i]? = some line → NodeLine conn g lex L (i + 1) n.data line

/-- The surface shown for a node of a path. -/
def SurfaceShown (lex : Lex) (n : NodeData) (surface : PStr) : Prop :=
  ((0 ≤ n.wordId ∨ n.extra ≠ none) ∧ ∃ wi, nodeWordInfo lex n = .ok wi ∧ surface = wi.surface) ∨
  (n.wordId < 0 ∧ n.extra = none ∧ surface = lit "(None)")

/-- The lines of a path, numbered from 0. -/
def PathLines (lex : Lex) (path : List NodeData) (lines : List PStr) : Prop :=
  lines.length = path.length ∧ ∀ (i : Nat) n line, path[i]? = some n → lines[i]? = some line → ∃ surface, SurfaceShown lex n surface ∧
    line = dec i ++ lit ": " ++ spaced [dec n.begin_, dec n.end_, surface ++ lit "(" ++ dec n.wordId ++ lit ")", dec n.leftId,
      dec n.rightId, dec n.cost] ++ [0xFFFF]

/-- The dump of the analysis of a text by a fresh tokenizer: the text after the input plugins, the lattice, the best path, and the
path of the result. -/
def DumpOf (T : Tokenizer) (g : Grammar) (mode : Mode) (text : PStr) (dump : List PStr) : Prop :=
  (text = [] ∧ dump = []) ∨
  (text ≠ [] ∧ ∃ t L path ml lattice before after, T.buildInput text = .ok t ∧
    buildLattice T.conn T.lex T.oov t Lattice.init = (L, .ok ()) ∧ L.getBestPath = .ok path ∧
    (T.tokenize Lattice.init text (some mode)).2 = .ok ml ∧
    LatticeLines T.conn g T.lex L lattice ∧ PathLines T.lex path before ∧ PathLines T.lex ml.path after ∧
    dump = [lit "=== Inupt dump:", t.modified, lit "=== Lattice dump:"] ++ lattice ++ lit "=== Before Rewriting:" :: before ++
      lit "=== After Rewriting:" :: after ++ [lit "==="])

/-- The dumps of the lines of input. -/
def DumpsOf (T : Tokenizer) (g : Grammar) (mode : Mode) : List PStr → List (List PStr) → Prop :=
  Each fun line dump => ∃ body, Chomped line body ∧ DumpOf T g mode body dump

end Sudachi
