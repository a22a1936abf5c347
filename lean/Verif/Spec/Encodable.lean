/-
Texts that can be written in UTF-8.
-/
import Verif.Model.Dictionary
namespace Sudachi

/-- A text of Unicode scalar values: it can be written in UTF-8. -/
def Encodable (s : PStr) : Prop := ∀ c ∈ s, encodable c = true

/-- Bytes of a file. -/
def Octets (b : Bytes) : Prop := ∀ x ∈ b, x < 256

/-- The texts of a word. -/
structure WordInfo.Encodable (w : WordInfo) : Prop where
  surface : Sudachi.Encodable w.surface
  normalized : Sudachi.Encodable w.normalizedForm
  form : Sudachi.Encodable w.dictionaryForm
  reading : Sudachi.Encodable w.readingForm

/-- The texts of all words. -/
def Lex.Encodable (lex : Lex) : Prop := ∀ w info, lex.wordInfo w = .ok info → info.Encodable

/-- The texts of all parts of speech. -/
def Grammar.Encodable (g : Grammar) : Prop := ∀ pos ∈ g.posList, ∀ s ∈ pos, Sudachi.Encodable s

end Sudachi
