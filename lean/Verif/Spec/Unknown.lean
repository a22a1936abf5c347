import Verif.Spec.EndToEnd
import Verif.Spec.Total

/-!
# The words of a text, unknown ones included

What can be in a segmentation, in terms of the normalised text, the character categories, the sources and the settings of the
providers of unknown words.
-/

namespace Sudachi

/-- The unknown word made of the characters `[k, j)` with the parameters of an entry. -/
def unknownWord (m : PStr) (k j : Nat) (o : OovEntry) : NodeData :=
  ⟨bytePos m k, bytePos m j, o.leftId, o.rightId, o.cost, 0, true,
    some ⟨(m.take j).drop k, bytePos m j - bytePos m k, o.posId, (m.take j).drop k, -1, (m.take j).drop k, [], [], [], [], []⟩, true⟩

/-- The unknown words a provider makes at character `k`, if there are `other` words there or not.

MeCab, for each category of the character that is defined (and invoked also beside other words), with each of its entries: the rest
of the run the character is in, if the category is grouped; and the next 1, 2, ... characters as far as the category says, within
the run (less one byte for every entry, if grouped).  Simple: only if there are no others, the characters up to the next possible
beginning of a word. -/
def OovPlugin.Makes (m : PStr) (catOf : Nat → CatSet) (k : Nat) (other : Prop) : OovPlugin → NodeData → Prop
  | .mecab categories oovList, x => ∃ a b ch ty cinfo o j, RunStart (m.map catOf) a ∧ IsRun (m.map catOf) a b ∧ a ≤ k ∧ k < b ∧
      m[k]? = some ch ∧ ty ∈ catOf ch ∧ dictGet categories ty = some cinfo ∧ (ty, o) ∈ oovList ∧ (cinfo.isInvoke = true ∨ ¬ other) ∧
      x = unknownWord m k j o ∧
      ((cinfo.isGroup = true ∧ j = b) ∨
       ∃ n : Nat, 1 ≤ n ∧ (n : Int) ≤ cinfo.length ∧ j = min (k + n) m.length ∧
        (bytePos m j : Int) - bytePos m k ≤ (bytePos m b : Int) - bytePos m k -
          (if cinfo.isGroup then ((oovList.filter (fun p => p.1 = ty)).length : Int) else 0))
  | .simple o, x => ¬ other ∧ ∃ j, k < j ∧ j ≤ m.length ∧ (j = m.length ∨ BowChar (m.map catOf) j) ∧
      (∀ i, k < i → i < j → ¬ BowChar (m.map catOf) i) ∧ x = unknownWord m k j o

/-- What some providers make, one after the other: each is told about the words of those before it. -/
def MadeBy (m : PStr) (catOf : Nat → CatSet) (k : Nat) : Prop → List OovPlugin → NodeData → Prop
  | _, [], _ => False
  | other, p :: ps, x => p.Makes m catOf k other x ∨ MadeBy m catOf k (other ∨ ∃ y, p.Makes m catOf k other y) ps x

/-- The unknown words at character `k`: those of the providers, unless the character is marked NOOOVBOW; if there is no word at all,
those of the last provider. -/
def UnknownAt (m : PStr) (catOf : Nat → CatSet) (providers : List OovPlugin) (other : Prop) (k : Nat) (x : NodeData) : Prop :=
  ∃ ch, m[k]? = some ch ∧
    ((Cat.NOOOVBOW ∉ catOf ch ∧ MadeBy m catOf k other providers x) ∨
     (¬ other ∧ (Cat.NOOOVBOW ∈ catOf ch ∨ ∀ y, ¬ MadeBy m catOf k other providers y) ∧
       ∃ p, providers.getLast? = some p ∧ p.Makes m catOf k False x))

/-- A word of the text: of the sources, or an unknown one, at a possible beginning of a word. -/
def Sources.Candidate (S : Sources) (auto : Nat → Nat → Int) (catOf : Nat → CatSet) (providers : List OovPlugin) (t : InputText)
    (x : NodeData) : Prop :=
  S.Word auto t x ∨ ∃ k, BowChar (t.modified.map catOf) k ∧
    UnknownAt t.modified catOf providers (∃ y, S.Word auto t y ∧ y.begin_ = bytePos t.modified k) k x

end Sudachi
