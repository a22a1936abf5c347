/-
A whole installation: dictionaries built from their sources, loaded together, and tokenizers on them.
-/
import Verif.Model.Dictionary
import Verif.Spec.LexiconSet
import Verif.Spec.Total
import Verif.Spec.Dictionary
namespace Sudachi

/-- The source of a dictionary: header, rows of the lexicon, definition of the connection costs. -/
structure DictSource where
  header : Header
  rows : List (List PStr)
  matrix : Option (PStr × List PStr)

/-- `b` is the file that a successful build of the source wrote; `sys` is the system dictionary if it is a user dictionary. -/
def DictSource.Builds (D : Darts) (sys : Option SysDict) (src : DictSource) (b : Bytes) : Prop :=
  SourceOk src.header src.rows src.matrix ∧
  ∃ ops, (DictBuilder.init sys).build D src.header src.rows src.matrix = (ops, .ok ()) ∧ b = (runOps ops).data

/-- The sources of an installation, the system dictionary's first, and the system dictionary as the builder of the user
dictionaries sees it. -/
structure Sources where
  system : DictSource
  users : List DictSource
  sys : SysDict

namespace Sources

/-- The source of dictionary number `d`. -/
def at? (S : Sources) (d : Nat) : Option DictSource := (S.system :: S.users)[d]?

/-- The dictionary that dictionary number `d` was built against. -/
def against (S : Sources) (d : Nat) : Option SysDict := if d = 0 then none else some S.sys

/-- Row `w` of dictionary `d` reads as `c`. -/
def Row (S : Sources) (d w : Nat) (c : Cols) : Prop := ∃ src, S.at? d = some src ∧ RowIs src.rows w c

/-- `dict` is what `Dictionary` holds after all the dictionaries were built, the user dictionaries against the system
dictionary, and loaded. -/
def Installed (S : Sources) (cfg : DictConfig) (dict : Dict) : Prop :=
  ∃ file files ds depth, S.system.Builds cfg.D none file ∧ readDictionary file = .ok ds ∧ S.sys = ds.toSysDict cfg.D depth ∧
    files.length = S.users.length ∧
    (∀ (k : Nat) (src : DictSource) (b : Bytes), S.users[k]? = some src → files[k]? = some b → src.Builds cfg.D (some S.sys) b) ∧
    Dict.load cfg file files = .ok dict

/-- The strings of all rows fit the file format. -/
def Fit (S : Sources) : Prop := ∀ d w c, S.Row d w c → c.Fits

/-- The headword in UTF-8. -/
def headBytes (c : Cols) : Bytes := c.headword.flatMap utf8Cp

/-- The dictionary and the row that the id `u` in a split of dictionary `d` stands for. -/
def unitWord (d : Nat) (u : Int) : Nat × Nat := if u < 268435456 then (0, u.toNat) else (d, (u % 268435456).toNat)

/-- The rows that the units of a split column of dictionary `d` stand for. -/
def SplitRows (S : Sources) (d : Nat) (col : PStr) (cs : List Cols) : Prop :=
  ∃ src ids, S.at? d = some src ∧ SplitMeans (S.against d) src.rows col ids ∧ cs.length = ids.length ∧
    ∀ (k : Nat) (u : Int) (c : Cols), ids[k]? = some u → cs[k]? = some c → S.Row (unitWord d u).1 (unitWord d u).2 c

/-- The headwords of the units of a split, if there are at least two, are together as long as the headword. -/
def SplitsAddUp (S : Sources) : Prop :=
  ∀ d w c cs, S.Row d w c → c.left ≠ [45, 49] → S.SplitRows d c.aSplit cs ∨ S.SplitRows d c.bSplit cs → 2 ≤ cs.length →
    (cs.map fun c' => (headBytes c').length).sum = (headBytes c).length

/-- The connection costs: `n` and the lines of an `n` × `n` matrix. -/
def Matrix (S : Sources) (n : Nat) (entries : List (Int × Int × Int)) : Prop :=
  ∃ header lines, S.system.matrix = some (header, lines) ∧ pyInts (splitWs (strip header)) = .ok [(n : Int), (n : Int)] ∧
    entries = lines.filterMap matrixEntry

/-- An id of the matrix. -/
def InRange (n : Nat) (l : Int) : Prop := 0 ≤ l ∧ l < n

/-- The words that lookup finds have ids of the matrix. -/
def IdsInRange (S : Sources) (n : Nat) : Prop :=
  ∀ d w c, S.Row d w c → c.left ≠ [45, 49] → ∀ l r, pyInt c.left = .ok l → pyInt c.right = .ok r → InRange n l ∧ InRange n r

/-- The connection cost of two ids, as the lines say: the cost of the last line with these ids, 0 if there is none. -/
def conn (entries : List (Int × Int × Int)) : Conn := fun left right => .ok (lastCost entries right left)

/-- The cost of word `w` of dictionary `d`: that of its row, except -32768 in a user dictionary, which means an automatic
cost (C50). -/
def Cost (auto : Nat → Nat → Int) (d w : Nat) (c : Cols) (v : Int) : Prop :=
  if d ≠ 0 ∧ pyInt c.cost = .ok (-32768) then v = auto d w else pyInt c.cost = .ok v

/-- `n` is a node of the text `t` for a word of the sources: the bytes of the word's headword, at possible word boundaries. -/
def Word (S : Sources) (auto : Nat → Nat → Int) (t : InputText) (n : NodeData) : Prop :=
  n.oov = false ∧ n.extra = none ∧ n.defined = true ∧ ∃ d w c, S.Row d w c ∧ c.left ≠ [45, 49] ∧ n.wordId = (combinedId d w : Nat) ∧
    pyInt c.left = .ok n.leftId ∧ pyInt c.right = .ok n.rightId ∧ Cost auto d w c n.cost ∧
    n.end_ = n.begin_ + (headBytes c).length ∧ pySlice t.bytes n.begin_ n.end_ = headBytes c ∧
    t.canBow n.begin_ = .ok true ∧ (n.end_ = t.bytes.length ∨ t.canBow n.end_ = .ok true)

/-- The dictionary-form references end, within the recursion limit. -/
def ChainsEnd (S : Sources) (depth : Nat) : Prop :=
  ∀ d src w c, S.at? d = some src → RowIs src.rows w c → ∃ k, ChainEnds src.rows w k ∧ k < depth

/-- A dictionary word of numerals only has no separator in its normalised form. -/
def NoSeparators (S : Sources) (catOf : Nat → CatSet) : Prop :=
  ∀ d w c ty, S.Row d w c → c.left ≠ [45, 49] → (ty = Cat.NUMERIC ∨ ty = Cat.KANJINUMERIC) → (∀ x ∈ c.headword, ty ∈ catOf x) →
    44 ∉ (if c.normalized = [] then c.surface else c.normalized) ∧ 46 ∉ (if c.normalized = [] then c.surface else c.normalized)

/-- Sources with which tokenization cannot fail: the connection costs are an `n` × `n` matrix without forbidden connections,
the words have ids of it, there are at most 7 user dictionaries (C45), strings fit, dictionary-form references end. -/
structure Complete (S : Sources) (n : Nat) (entries : List (Int × Int × Int)) (depth : Nat) : Prop where
  matrix : S.Matrix n entries
  allowed : ∀ l r : Int, InRange n l → InRange n r → lastCost entries l r ≠ 0x7fff
  ids : S.IdsInRange n
  few : S.users.length ≤ 7
  fit : S.Fit
  chains : S.ChainsEnd depth

/-- `auto` are the automatic costs: those that C50 gives on the installation of the dictionaries before. -/
def AutoCosts (S : Sources) (cfg : DictConfig) (auto : Nat → Nat → Int) : Prop :=
  ∀ k w c, S.Row (k + 1) w c → pyInt c.cost = .ok (-32768) → c.Fits →
    ∃ mid ms, Installed { S with users := S.users.take k } cfg mid ∧
      ((mid.tokenizer cfg [] .C).tokenize Lattice.init c.surface none).2 = .ok ms ∧ AutoCostIs ms (auto (k + 1) w)

/-- A word info says what row `w` of dictionary `d` says. -/
structure InfoSays (S : Sources) (dict : Dict) (d w : Nat) (c : Cols) (info : WordInfo) : Prop where
  surface : info.surface = c.surface
  headWordLength : info.headWordLength = (headBytes c).length
  pos : dict.grammar.posString info.posId = .ok c.pos
  normalized : info.normalizedForm = if c.normalized = [] then c.surface else c.normalized
  reading : info.readingForm = if c.reading = [] then c.surface else c.reading
  ownForm : ∀ v, c.DicForm v → v < 0 ∨ v = w → info.dictionaryForm = c.surface
  otherForm : ∀ (v : Nat) (c' : Cols), c.DicForm v → v ≠ w → S.Row d v c' → info.dictionaryForm = c'.surface
  synonyms : c.Synonyms info.synonymGroupIds

/-- A morpheme of a dictionary word: not out of vocabulary, its word id is the row's, its dictionary id the dictionary's
number, and its word info, if it can be read, says what the row says. -/
def Shown (S : Sources) (cfg : DictConfig) (dict : Dict) (ml : MorphemeList) (i d w : Nat) (c : Cols) : Prop :=
  ml.isOov i = .ok false ∧ ml.wordId i = .ok (combinedId d w : Nat) ∧ ml.dictionaryId i = .ok (d : Int) ∧
  (∀ info, ml.getWordInfo (dict.set.toLex cfg.D cfg.depth) i = .ok info → S.InfoSays dict d w c info) ∧
  (S.ChainsEnd cfg.depth → ∃ info, ml.getWordInfo (dict.set.toLex cfg.D cfg.depth) i = .ok info)

end Sources

/-- The plugins and Unicode functions never make a text empty. -/
structure DictConfig.PluginsOk (cfg : DictConfig) : Prop where
  lower : ∀ c, cfg.lower [c] ≠ []
  nfkc : ∀ s, s ≠ [] → cfg.nfkc s ≠ []
  psm : ∀ marks sym, InputPlugin.psm marks sym ∈ cfg.inputPlugins → sym ≠ []

/-- Settings with which tokenization cannot fail, for a matrix of size `n`. -/
structure DictConfig.Complete (cfg : DictConfig) (n : Nat) : Prop where
  plugins : cfg.PluginsOk
  lowerEnc : ∀ c, encodable c = true → ∀ x ∈ cfg.lower [c], encodable x = true
  nfkcEnc : ∀ s : PStr, (∀ c ∈ s, encodable c = true) → ∀ x ∈ cfg.nfkc s, encodable x = true
  pluginEnc : ∀ p ∈ cfg.inputPlugins, p.Encodable
  categorised : ∀ c, cfg.catOf c ≠ []
  single : SingleAlphabets cfg.catOf
  prefixes : ∀ categories oovList, OovPlugin.mecab categories oovList ∈ cfg.oov → NoAlphabetPrefixes categories
  simpleLast : ∃ o, cfg.oov.getLast? = some (.simple o)
  oovShort : ∀ p ∈ cfg.oov, p.Short
  oovIds : ∀ p ∈ cfg.oov, ∀ o, p.Entry o → Sources.InRange n o.leftId ∧ Sources.InRange n o.rightId

end Sudachi
