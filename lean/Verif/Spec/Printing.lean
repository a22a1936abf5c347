/-
The words that are not rows of a dictionary, and what can be printed.
-/
import Verif.Spec.CommandLine
import Verif.Spec.Total
namespace Sudachi

/-- The word info of an unknown word with the text `s`. -/
structure UnknownInfo (s : PStr) (posId : Int) (info : WordInfo) : Prop where
  surface : info.surface = s
  pos : info.posId = posId
  normalized : info.normalizedForm = s
  form : info.dictionaryForm = s
  formId : info.dictionaryFormWordId = -1
  reading : info.readingForm = []
  aUnits : info.aUnitSplit = []
  bUnits : info.bUnitSplit = []
  structure_ : info.wordStructure = []
  synonyms : info.synonymGroupIds = []

/-- The kinds of word with their own word info: an unknown word that a provider made for the text at its place, unknown words
joined by JoinKatakanaOovPlugin, a number joined by JoinNumericPlugin. -/
inductive OwnInfo (T : Tokenizer) (t : InputText) (n : NodeData) (info : WordInfo) : Prop
  | unknown (p : OovPlugin) (o : OovEntry) (s : PStr) : p ∈ T.oov → p.Entry o → n.oov = true → t.getSubstring n.begin_ n.end_ = .ok s →
      UnknownInfo s o.posId info → OwnInfo T t n info
  | katakana (k : JoinKatakana) (s : PStr) : PathPlugin.katakana k ∈ T.pathPlugins → n.oov = true → UnknownInfo s k.posId info →
      OwnInfo T t n info
  | number (m : JoinNumeric) : PathPlugin.numeric m ∈ T.pathPlugins → n.oov = false → info.posId = m.posId →
      info.dictionaryFormWordId = -1 → info.aUnitSplit = [] → info.bUnitSplit = [] → info.wordStructure = [] →
      info.synonymGroupIds = [] → OwnInfo T t n info

/-- A number that stands for a part of speech in a list of `n`: its index, or, if it is negative, its index from the end. -/
def PosIndex (n : Nat) (id : Int) : Prop := -(n : Int) ≤ id ∧ id < n

/-- The parts of speech of the unknown words and of the joined words are in the list. -/
structure Tokenizer.PosOk (T : Tokenizer) (g : Grammar) : Prop where
  oov : ∀ p ∈ T.oov, ∀ o, p.Entry o → PosIndex g.posList.length o.posId
  katakana : ∀ k, PathPlugin.katakana k ∈ T.pathPlugins → PosIndex g.posList.length k.posId
  numeric : ∀ m, PathPlugin.numeric m ∈ T.pathPlugins → PosIndex g.posList.length m.posId

end Sudachi
