/-
What "joining neighbouring words" means, independently of how the plugins walk over the path.
-/
import Verif.Model.PathRewrite
import Verif.Spec.Numeric
namespace Sudachi

/-- `p'` arises from `p` by replacing some disjoint blocks of neighbouring nodes by one node each (`J block node`),
leaving all other nodes as they are and in order. -/
inductive Coarsens (J : List NodeData → NodeData → Prop) : List NodeData → List NodeData → Prop
  | nil : Coarsens J [] []
  | keep {p p' : List NodeData} (d : NodeData) : Coarsens J p p' → Coarsens J (d :: p) (d :: p')
  | join {p p' : List NodeData} (block : List NodeData) (n : NodeData) : J block n → Coarsens J p p' →
      Coarsens J (block ++ p) (n :: p')

/-- `n` spans from the begin of the first to the end of the last node of the block. -/
def Spans (block : List NodeData) (n : NodeData) : Prop :=
  ∃ f l, block.head? = some f ∧ block.getLast? = some l ∧ n.begin_ = f.begin_ ∧ n.end_ = l.end_

/-- The word infos of the nodes of a block. -/
def InfosOf (lex : Lex) (block : List NodeData) (infos : List WordInfo) : Prop :=
  block.map (nodeWordInfo lex) = infos.map Except.ok

/-- The normalised forms one after the other. -/
def normText (infos : List WordInfo) : PStr := (infos.map (·.normalizedForm)).flatten

/-- The node's own word info is the concatenation of `infos`, apart from its normalised form `norm`. -/
structure Concatenation (infos : List WordInfo) (posId : Int) (norm : PStr) (n : NodeData) : Prop where
  notOov : n.oov = false
  defined : n.defined = true
  info : ∃ w, n.extra = some w ∧ w.surface = (infos.map (·.surface)).flatten ∧
    w.headWordLength = (infos.map (·.headWordLength)).sum ∧ w.posId = posId ∧ w.normalizedForm = norm ∧
    w.dictionaryForm = (infos.map (·.dictionaryForm)).flatten ∧ w.readingForm = (infos.map (·.readingForm)).flatten ∧
    w.dictionaryFormWordId = -1 ∧ w.aUnitSplit = [] ∧ w.bUnitSplit = [] ∧ w.wordStructure = [] ∧ w.synonymGroupIds = []

/-- What a node that `JoinNumericPlugin` made from a block is.  With normalisation its normalised form is what the
numeric parser makes of the parts' normalised forms - or, if a separator word occurs in the path and the parts do not
form an acceptable number, some numeral (see `C59_wrong_value`). -/
structure NumJoin (cfg : JoinNumeric) (lex : Lex) (path : List NodeData) (block : List NodeData) (n : NodeData) : Prop where
  spans : Spans block n
  fields : ∃ infos norm, InfosOf lex block infos ∧ (∃ f, infos.head? = some f ∧ f.posId = cfg.posId) ∧
    Concatenation infos cfg.posId norm n ∧
    (cfg.normalize = false → 2 ≤ block.length ∧ norm = normText infos) ∧
    (cfg.normalize = true → (2 ≤ block.length ∨ infos.map (·.normalizedForm) ≠ [norm]) ∧
      (parseNumber (normText infos) = some (.ok norm) ∨
       (parseNumber (normText infos) = none ∧ Canonical norm ∧
        ∃ d ∈ path, ∃ w, nodeWordInfo lex d = .ok w ∧ (w.normalizedForm = [44] ∨ w.normalizedForm = [46]))))

/-- A node whose characters share the category NUMERIC or KANJINUMERIC has no separator in its normalised form. -/
def PlainNumerals (lex : Lex) (t : InputText) (path : List NodeData) : Prop :=
  ∀ d ∈ path, ∀ types w, t.charCategoryTypes d.begin_ d.end_ = .ok types → nodeWordInfo lex d = .ok w →
    (Cat.NUMERIC ∈ types ∨ Cat.KANJINUMERIC ∈ types) → 44 ∉ w.normalizedForm ∧ 46 ∉ w.normalizedForm

/-- A node that is neither a number nor a separator. -/
def Breaker (lex : Lex) (t : InputText) (d : NodeData) : Prop :=
  ∃ types w, t.charCategoryTypes d.begin_ d.end_ = .ok types ∧ nodeWordInfo lex d = .ok w ∧ Cat.NUMERIC ∉ types ∧
    Cat.KANJINUMERIC ∉ types ∧ w.normalizedForm ≠ [44] ∧ w.normalizedForm ≠ [46]

/-- A node that is a number or a separator. -/
def NumberLike (lex : Lex) (t : InputText) (d : NodeData) : Prop :=
  ∃ types w, t.charCategoryTypes d.begin_ d.end_ = .ok types ∧ nodeWordInfo lex d = .ok w ∧
    (Cat.NUMERIC ∈ types ∨ Cat.KANJINUMERIC ∈ types ∨ w.normalizedForm = [44] ∨ w.normalizedForm = [46])

/-- All characters of the node are katakana (in one category run). -/
def KatakanaNode (t : InputText) (d : NodeData) : Prop :=
  ∃ types, t.charCategoryTypes d.begin_ d.end_ = .ok types ∧ Cat.KATAKANA ∈ types

/-- The node is unknown or shorter than the configured length. -/
def KatTrigger (cfg : JoinKatakana) (t : InputText) (d : NodeData) : Prop :=
  d.oov = true ∨ ∃ n, t.codePointCount d.begin_ d.end_ = .ok n ∧ n < cfg.minLength

/-- The node is a dictionary word and not shorter than the configured length. -/
def KatQuiet (cfg : JoinKatakana) (t : InputText) (d : NodeData) : Prop :=
  d.oov = false ∧ ∃ n, t.codePointCount d.begin_ d.end_ = .ok n ∧ cfg.minLength ≤ n

/-- The node's first character may not begin an unknown word. -/
def NoOovBow (t : InputText) (d : NodeData) : Prop := ∃ cats, t.charCategoryTypesAt d.begin_ = .ok cats ∧ Cat.NOOOVBOW ∈ cats

/-- `n` is the first of the cheapest nodes in the list. -/
def FirstCheapest (ns : List LNode) (n : NodeData) : Prop :=
  ∃ before x after, ns = before ++ x :: after ∧ x.data = n ∧ (∀ y ∈ before, n.cost < y.data.cost) ∧ ∀ y ∈ after, n.cost ≤ y.data.cost

/-- In the lattice, every node listed at an end position ends there. -/
def Lattice.EndsRight (L : Lattice) : Prop := ∀ e (ns : List LNode), L.endLists[e]? = some ns → ∀ x ∈ ns, x.data.end_ = e

/-- What a node that `JoinKatakanaOovPlugin` puts in the place of a block is. -/
structure KatJoin (cfg : JoinKatakana) (lex : Lex) (t : InputText) (L : Lattice) (block : List NodeData) (n : NodeData) :
    Prop where
  spans : Spans block n
  two : 2 ≤ block.length
  katakana : ∀ d ∈ block, KatakanaNode t d
  start : ∃ f cats, block.head? = some f ∧ t.charCategoryTypesAt f.begin_ = .ok cats ∧ Cat.NOOOVBOW ∉ cats
  node : (∃ ns, L.getNodes n.begin_ n.end_ = .ok ns ∧ FirstCheapest ns n) ∨
    (L.getNodes n.begin_ n.end_ = .ok [] ∧ n.oov = true ∧ n.defined = true ∧
      ∃ infos w, InfosOf lex block infos ∧ n.extra = some w ∧ w.surface = (infos.map (·.surface)).flatten ∧
      w.headWordLength = (infos.map (·.headWordLength)).sum ∧ w.posId = cfg.posId ∧ w.normalizedForm = w.surface ∧
      w.dictionaryForm = w.surface ∧ w.readingForm = [] ∧ w.dictionaryFormWordId = -1 ∧
      w.aUnitSplit = [] ∧ w.bUnitSplit = [] ∧ w.wordStructure = [] ∧ w.synonymGroupIds = [])

/-- Exactly which nodes `JoinKatakanaOovPlugin` joins: in every maximal run of katakana nodes that contains an unknown or
short node (`KatTrigger`), everything from the first node that may begin an unknown word, if that are at least two
nodes. -/
inductive KatRewrite (cfg : JoinKatakana) (lex : Lex) (t : InputText) (L : Lattice) : List NodeData → List NodeData → Prop
  | nil : KatRewrite cfg lex t L [] []
  | other {p p' : List NodeData} (d : NodeData) : ¬ KatakanaNode t d → KatRewrite cfg lex t L p p' →
      KatRewrite cfg lex t L (d :: p) (d :: p')
  | quiet {run p p' : List NodeData} : run ≠ [] → (∀ d ∈ run, KatakanaNode t d) → (∀ d, p.head? = some d → ¬ KatakanaNode t d) →
      (∀ d ∈ run, KatQuiet cfg t d) → KatRewrite cfg lex t L p p' → KatRewrite cfg lex t L (run ++ p) (run ++ p')
  | small {pre blk p p' : List NodeData} : (∀ d ∈ pre ++ blk, KatakanaNode t d) →
      (∀ d, p.head? = some d → ¬ KatakanaNode t d) → (∀ d ∈ pre, NoOovBow t d) → blk.length ≤ 1 →
      KatRewrite cfg lex t L p p' → KatRewrite cfg lex t L (pre ++ blk ++ p) (pre ++ blk ++ p')
  | join {pre blk p p' : List NodeData} {n : NodeData} : (∀ d ∈ pre ++ blk, KatakanaNode t d) →
      (∀ d, p.head? = some d → ¬ KatakanaNode t d) → (∀ d ∈ pre, NoOovBow t d) →
      (∃ d ∈ pre ++ blk, KatTrigger cfg t d) → KatJoin cfg lex t L blk n →
      KatRewrite cfg lex t L p p' → KatRewrite cfg lex t L (pre ++ blk ++ p) (pre ++ n :: p')

/-- Reading a word never reports "out of fuel" (which is not an exception of the code, but that of the model's loop in
`JoinNumericPlugin`). -/
def Lex.Honest (lex : Lex) : Prop := ∀ wid, lex.wordInfo wid ≠ .error .outOfFuel

end Sudachi
