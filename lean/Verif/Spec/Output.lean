/-
The output of the command `tokenize` in terms of the dictionary sources, the settings and the input alone: a cheapest segmentation of the
normalised text (Spec/Unknown), joined by the path rewriting plugins, divided in modes A and B, with the columns of the rows.
-/
import Verif.Spec.Unknown
import Verif.Spec.PathRewrite
import Verif.Spec.Open
import Verif.Spec.CommandLine
namespace Sudachi

/-- What there is to be said about a word: its part of speech, its surface in the dictionary, the normalised form, the dictionary form,
the reading, the number of the dictionary, the synonym groups, and whether it is unknown. -/
structure Told where
  pos : List PStr
  surface : PStr
  normalized : PStr
  form : PStr
  reading : PStr
  dictionary : Int
  synonyms : List Int
  unknown : Bool

/-- The line that is printed for a word, after its text in the input; with all columns if `all`. -/
def Told.line (x : Told) (all : Bool) (text : PStr) : PStr :=
  if all then
    tabbed ([text, commas x.pos, x.normalized, x.form, x.reading, lit (toString x.dictionary),
      lit "[" ++ commas (x.synonyms.map fun n => lit (toString n)) ++ lit "]"] ++ if x.unknown then [lit "(OOV)"] else [])
  else tabbed [text, commas x.pos, x.normalized]

/-- A word at a place of the normalised text (in bytes), and the row that it is, if it is one: dictionary, row number, columns. -/
structure Piece where
  begin_ : Nat
  end_ : Nat
  told : Told
  row : Option (Nat × Nat × Cols)

/-- The part of speech with number `id`; a negative number counts from the end. -/
def PosAt (table : List (List PStr)) (id : Int) (pos : List PStr) : Prop :=
  ∃ i : Nat, table[i]? = some pos ∧ ((i : Int) = id ∨ (id < 0 ∧ (i : Int) = table.length + id))

/-- `p'` arises from `p` by replacing some disjoint blocks of neighbours by one each. -/
inductive Merged {α : Type} (J : List α → α → Prop) : List α → List α → Prop
  | nil : Merged J [] []
  | keep {p p' : List α} (x : α) : Merged J p p' → Merged J (x :: p) (x :: p')
  | join {p p' : List α} (block : List α) (x : α) : J block x → Merged J p p' → Merged J (block ++ p) (x :: p')

/-- `p` spans from the begin of the first to the end of the last piece of the block. -/
def Piece.Covers (p : Piece) (block : List Piece) : Prop :=
  ∃ f l, block.head? = some f ∧ block.getLast? = some l ∧ p.begin_ = f.begin_ ∧ p.end_ = l.end_

/-- The normalised forms of the pieces one after the other. -/
def normalizedText (block : List Piece) : PStr := (block.map (·.told.normalized)).flatten

/-- A number that JoinNumericPlugin makes of a block of the pieces `all`, whose first has the part of speech of numbers: everything is
concatenated; the normalised form, if the plugin normalises, is the number that the parser makes of the normalised forms.  (Or some
number, if they make no number and there is a separator word among all: C59.) -/
structure NumberPiece (cfg : JoinNumeric) (table : List (List PStr)) (all block : List Piece) (p : Piece) : Prop where
  covers : p.Covers block
  row : p.row = none
  posId : PosAt table cfg.posId p.told.pos
  first : ∃ f, block.head? = some f ∧ f.told.pos = p.told.pos
  surface : p.told.surface = (block.map (·.told.surface)).flatten
  form : p.told.form = (block.map (·.told.form)).flatten
  reading : p.told.reading = (block.map (·.told.reading)).flatten
  dictionary : p.told.dictionary = -1
  synonyms : p.told.synonyms = []
  unknown : p.told.unknown = false
  plain : cfg.normalize = false → 2 ≤ block.length ∧ p.told.normalized = normalizedText block
  number : cfg.normalize = true → (2 ≤ block.length ∨ block.map (·.told.normalized) ≠ [p.told.normalized]) ∧
    (parseNumber (normalizedText block) = some (.ok p.told.normalized) ∨
     (parseNumber (normalizedText block) = none ∧ Canonical p.told.normalized ∧
      ∃ q ∈ all, q.told.normalized = [44] ∨ q.told.normalized = [46]))

/-- All characters of the piece are katakana. -/
def Piece.Katakana (t : InputText) (p : Piece) : Prop :=
  ∃ types, t.charCategoryTypes p.begin_ p.end_ = .ok types ∧ Cat.KATAKANA ∈ types

/-- The piece is unknown or shorter than the configured length. -/
def Piece.Triggers (cfg : JoinKatakana) (t : InputText) (p : Piece) : Prop :=
  p.told.unknown = true ∨ ∃ n, t.codePointCount p.begin_ p.end_ = .ok n ∧ n < cfg.minLength

/-- The piece is known and not shorter than the configured length. -/
def Piece.Calm (cfg : JoinKatakana) (t : InputText) (p : Piece) : Prop :=
  p.told.unknown = false ∧ ∃ n, t.codePointCount p.begin_ p.end_ = .ok n ∧ cfg.minLength ≤ n

/-- The piece's first character may not begin an unknown word. -/
def Piece.NoOovBow (t : InputText) (p : Piece) : Prop := ∃ cats, t.charCategoryTypesAt p.begin_ = .ok cats ∧ Cat.NOOOVBOW ∈ cats

/-- Which pieces JoinKatakanaOovPlugin joins (`J block p`): in every maximal run of katakana pieces with an unknown or short one,
everything from the first piece that may begin an unknown word, if that are at least two. -/
inductive KatakanaJoined (cfg : JoinKatakana) (t : InputText) (J : List Piece → Piece → Prop) : List Piece → List Piece → Prop
  | nil : KatakanaJoined cfg t J [] []
  | other {p p' : List Piece} (x : Piece) : ¬ x.Katakana t → KatakanaJoined cfg t J p p' → KatakanaJoined cfg t J (x :: p) (x :: p')
  | quiet {run p p' : List Piece} : run ≠ [] → (∀ x ∈ run, x.Katakana t) → (∀ x, p.head? = some x → ¬ x.Katakana t) →
      (∀ x ∈ run, x.Calm cfg t) → KatakanaJoined cfg t J p p' → KatakanaJoined cfg t J (run ++ p) (run ++ p')
  | small {pre blk p p' : List Piece} : (∀ x ∈ pre ++ blk, x.Katakana t) → (∀ x, p.head? = some x → ¬ x.Katakana t) →
      (∀ x ∈ pre, x.NoOovBow t) → blk.length ≤ 1 → KatakanaJoined cfg t J p p' → KatakanaJoined cfg t J (pre ++ blk ++ p) (pre ++ blk ++ p')
  | join {pre blk p p' : List Piece} {x : Piece} : (∀ x ∈ pre ++ blk, x.Katakana t) → (∀ x, p.head? = some x → ¬ x.Katakana t) →
      (∀ x ∈ pre, x.NoOovBow t) → 2 ≤ blk.length → (∀ f, blk.head? = some f → ¬ f.NoOovBow t) → (∃ x ∈ pre ++ blk, x.Triggers cfg t) → J blk x →
      KatakanaJoined cfg t J p p' → KatakanaJoined cfg t J (pre ++ blk ++ p) (pre ++ x :: p')

namespace Sources

/-- The parts of speech by number: those of the rows of the system dictionary in the order they first appear, then for each user
dictionary those of its rows that the system dictionary has not. -/
def PosTable (S : Sources) (table : List (List PStr)) : Prop :=
  ∃ cs css own, RowsRead S.system.rows cs ∧ Each (fun u cs => RowsRead u.rows cs) S.users css ∧ own = ownPos [] [] (cs.map Cols.pos) ∧
    table = own ++ (css.map fun cs => ownPos own [] (cs.map Cols.pos)).flatten

/-- The dictionary form of a row: the surface of the row that it names (in the same dictionary), or its own. -/
def FormOf (S : Sources) (d w : Nat) (c : Cols) (form : PStr) : Prop :=
  ∃ v, c.DicForm v ∧ (((v < 0 ∨ v = w) ∧ form = c.surface) ∨ ∃ (v' : Nat) (c' : Cols), v = v' ∧ v' ≠ w ∧ S.Row d v' c' ∧ form = c'.surface)

/-- What row `w` of dictionary `d` says. -/
structure RowTells (S : Sources) (d w : Nat) (c : Cols) (x : Told) : Prop where
  pos : x.pos = c.pos
  surface : x.surface = c.surface
  normalized : x.normalized = if c.normalized = [] then c.surface else c.normalized
  form : S.FormOf d w c x.form
  reading : x.reading = if c.reading = [] then c.surface else c.reading
  dictionary : x.dictionary = d
  synonyms : c.Synonyms x.synonyms
  unknown : x.unknown = false

/-- What is said about a candidate of a segmentation of the text `m`: what its row says; or, of an unknown word, its text and the part
of speech of its entry. -/
inductive PieceOf (S : Sources) (table : List (List PStr)) (m : PStr) : NodeData → Piece → Prop
  | row {x : NodeData} {d w : Nat} {c : Cols} {told : Told} : S.Row d w c → x.oov = false → x.wordId = (combinedId d w : Nat) →
      S.RowTells d w c told → PieceOf S table m x ⟨x.begin_, x.end_, told, some (d, w, c)⟩
  | unknown {k j : Nat} {o : OovEntry} {pos : List PStr} : PosAt table o.posId pos →
      PieceOf S table m (unknownWord m k j o) ⟨bytePos m k, bytePos m j,
        ⟨pos, (m.take j).drop k, (m.take j).drop k, (m.take j).drop k, [], -1, [], true⟩, none⟩

/-- The rows (dictionary, number, columns) that the units of a split column of dictionary `d` stand for. -/
def SplitUnits (S : Sources) (d : Nat) (col : PStr) (us : List (Nat × Nat × Cols)) : Prop :=
  ∃ src ids, S.at? d = some src ∧ SplitMeans (S.against d) src.rows col ids ∧
    Each (fun u r => (r.1, r.2.1) = unitWord d u ∧ S.Row r.1 r.2.1 r.2.2) ids us

/-- Rows one after the other from byte `b` on, each as long as its headword. -/
inductive InRow (S : Sources) : Nat → List (Nat × Nat × Cols) → List Piece → Prop
  | nil {b : Nat} : InRow S b [] []
  | cons {b d w : Nat} {c : Cols} {told : Told} {us : List (Nat × Nat × Cols)} {ps : List Piece} : S.RowTells d w c told →
      InRow S (b + (headBytes c).length) us ps →
      InRow S b ((d, w, c) :: us) (⟨b, b + (headBytes c).length, told, some (d, w, c)⟩ :: ps)

/-- What a piece becomes in a mode: in modes A and B a row is divided into the units of its split column, if there are at least two. -/
inductive Divides (S : Sources) (mode : Mode) : Piece → List Piece → Prop
  | whole {p : Piece} : (mode = .C ∨ p.row = none ∨ ∃ d w c us, p.row = some (d, w, c) ∧
      S.SplitUnits d (if mode = .A then c.aSplit else c.bSplit) us ∧ us.length ≤ 1) → Divides S mode p [p]
  | units {p : Piece} {d w : Nat} {c : Cols} {us : List (Nat × Nat × Cols)} {ps : List Piece} : mode ≠ .C → p.row = some (d, w, c) →
      S.SplitUnits d (if mode = .A then c.aSplit else c.bSplit) us → 2 ≤ us.length → S.InRow p.begin_ us ps → Divides S mode p ps

/-- A candidate that words reach from the beginning of the text. -/
def ReachedWord (S : Sources) (auto : Nat → Nat → Int) (cfg : DictConfig) (t : InputText) (x : NodeData) : Prop :=
  S.Candidate auto cfg.catOf cfg.oov t x ∧
    ∃ before, Tiles 0 x.begin_ before ∧ ∀ y ∈ before, S.Candidate auto cfg.catOf cfg.oov t y

/-- What JoinKatakanaOovPlugin puts in the place of a block: a cheapest one of the words of the text at this place, or, if there is none,
an unknown word with the surfaces together. -/
structure KatakanaPiece (S : Sources) (auto : Nat → Nat → Int) (cfg : DictConfig) (table : List (List PStr)) (t : InputText)
    (k : JoinKatakana) (block : List Piece) (p : Piece) : Prop where
  covers : p.Covers block
  is : (∃ x, S.ReachedWord auto cfg t x ∧ S.PieceOf table t.modified x p ∧
      ∀ y, S.ReachedWord auto cfg t y → y.begin_ = x.begin_ → y.end_ = x.end_ → x.cost ≤ y.cost) ∨
    ((∀ y, S.ReachedWord auto cfg t y → ¬ (y.begin_ = p.begin_ ∧ y.end_ = p.end_)) ∧ p.row = none ∧ ∃ pos s, PosAt table k.posId pos ∧
      s = (block.map (·.told.surface)).flatten ∧ p.told = ⟨pos, s, s, s, [], -1, [], true⟩)

/-- The path rewriting plugins, one after the other. -/
inductive JoinedBy (S : Sources) (auto : Nat → Nat → Int) (cfg : DictConfig) (table : List (List PStr)) (t : InputText) :
    List PathPlugin → List Piece → List Piece → Prop
  | nil {p : List Piece} : JoinedBy S auto cfg table t [] p p
  | numeric {k : JoinNumeric} {ps : List PathPlugin} {p p' p'' : List Piece} : Merged (NumberPiece k table p) p p' →
      JoinedBy S auto cfg table t ps p' p'' → JoinedBy S auto cfg table t (.numeric k :: ps) p p''
  | katakana {k : JoinKatakana} {ps : List PathPlugin} {p p' p'' : List Piece} :
      KatakanaJoined k t (S.KatakanaPiece auto cfg table t k) p p' →
      JoinedBy S auto cfg table t ps p' p'' → JoinedBy S auto cfg table t (.katakana k :: ps) p p''

/-- The words of a text: a cheapest segmentation into words of the sources and unknown words, joined and divided. -/
def Analysed (S : Sources) (auto : Nat → Nat → Int) (cfg : DictConfig) (table : List (List PStr)) (entries : List (Int × Int × Int))
    (ps : List PathPlugin) (mode : Mode) (t : InputText) (pieces : List Piece) : Prop :=
  ∃ best cost whole joined parts, IsPath (conn entries) (S.Candidate auto cfg.catOf cfg.oov t) t.bytes.length best cost ∧
    (∀ p' cost', IsPath (conn entries) (S.Candidate auto cfg.catOf cfg.oov t) t.bytes.length p' cost' → cost ≤ cost') ∧
    Each (S.PieceOf table t.modified) best whole ∧ S.JoinedBy auto cfg table t ps whole joined ∧
    Each (S.Divides mode) joined parts ∧ pieces = parts.flatten

/-- The lines printed for one line of input: one for each word, with its text in the input; then `EOS`. -/
def PrintsLine (S : Sources) (auto : Nat → Nat → Int) (cfg : DictConfig) (table : List (List PStr)) (entries : List (Int × Int × Int))
    (ps : List PathPlugin) (mode : Mode) (normalise : PStr → Res InputText) (all : Bool) (input : PStr) (block : List PStr) : Prop :=
  ∃ body lines, Chomped input body ∧ block = lines ++ [lit "EOS"] ∧
    ((body = [] ∧ lines = []) ∨
     (body ≠ [] ∧ ∃ t pieces, normalise body = .ok t ∧ S.Analysed auto cfg table entries ps mode t pieces ∧
      Each (fun p line => ∃ b e, t.getOriginalIndex p.begin_ = .ok b ∧ t.getOriginalIndex p.end_ = .ok e ∧
        line = p.told.line all ((body.take e).drop b)) pieces lines))

end Sources
end Sudachi
