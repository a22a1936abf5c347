/-
The order of the categories of a character.
-/
import Verif.Spec.Ties
namespace Sudachi

/-- Every character has the same categories, in whatever order. -/
def SameSets (f g : Nat → CatSet) : Prop := ∀ ch c, c ∈ f ch ↔ c ∈ g ch

/-- No character has two categories for which the provider has entries. -/
def OneCategory (catOf : Nat → CatSet) (p : OovPlugin) : Prop :=
  ∀ categories oovList, p = OovPlugin.mecab categories oovList → ∀ ch ty ty' o o', ty ∈ catOf ch → ty' ∈ catOf ch →
    (ty, o) ∈ oovList → (ty', o') ∈ oovList → ty = ty'

/-- The text with the categories of its characters in another order. -/
def InputText.withCats (g : Nat → CatSet) (t : InputText) : InputText := { t with charCats := t.modified.map g }

/-- A list of morphemes, with the categories of the characters of its text in another order. -/
def MorphemeList.withCats (g : Nat → CatSet) (ml : MorphemeList) : MorphemeList := ⟨ml.input.map (InputText.withCats g), ml.path⟩

/-- Two unknown words at character `k` that a MeCab provider makes because of two different categories of the character. -/
def OfTwoCategories (m : PStr) (catOf : Nat → CatSet) (providers : List OovPlugin) (k : Nat) (x x' : NodeData) : Prop :=
  x ≠ x' ∧ x.begin_ = bytePos m k ∧ x'.begin_ = bytePos m k ∧ x.end_ = x'.end_ ∧
  ∃ ch ty ty' o o' categories oovList other, m[k]? = some ch ∧ ty ∈ catOf ch ∧ ty' ∈ catOf ch ∧ ty ≠ ty' ∧
    OovPlugin.mecab categories oovList ∈ providers ∧ (ty, o) ∈ oovList ∧ (ty', o') ∈ oovList ∧
    MecabMakes m catOf k other categories oovList ty o x ∧ MecabMakes m catOf k other categories oovList ty' o' x'

end Sudachi
