/-
Which of several equally cheap segmentations is chosen.
-/
import Verif.Spec.Unknown
namespace Sudachi

/-- `x` is in `l` and no `y` comes before its first occurrence. -/
def FirstIn {α : Type} (l : List α) (x y : α) : Prop := ∃ pre post, l = pre ++ x :: post ∧ y ∉ pre

/-- Read from the end, the first words in which `p` and `p'` differ are `x` in `p` and `x'` in `p'`, and `x` is `before` `x'`. -/
def Preferred (before : NodeData → NodeData → Prop) (p p' : List NodeData) : Prop :=
  ∃ q q' x x' s, p = q ++ x :: s ∧ p' = q' ++ x' :: s ∧ x ≠ x' ∧ x.end_ = x'.end_ ∧ before x x'

/-- The order of the words in the list of those ending at the same place. -/
def Lattice.Listed (L : Lattice) (x y : NodeData) : Prop :=
  ∃ ns, L.endLists[x.end_]? = some ns ∧ FirstIn (ns.map LNode.data) x y

/-! ### The order of the words of an installation -/

/-- Words of the dictionaries: those of the user dictionaries 1, 2, ... before those of the system dictionary 0, those of the same
dictionary in the order of their rows. -/
def WordBefore (x y : NodeData) : Prop :=
  ∃ d w d' w', x.wordId = (combinedId d w : Nat) ∧ y.wordId = (combinedId d' w' : Nat) ∧ w < 268435456 ∧ w' < 268435456 ∧
    ((d = d' ∧ w < w') ∨ (d ≠ 0 ∧ (d' = 0 ∨ d < d')))

/-- The MeCab provider makes `x` at character `k` because of the category `ty` and its entry `o` (compare `OovPlugin.Makes`). -/
def MecabMakes (m : PStr) (catOf : Nat → CatSet) (k : Nat) (other : Prop) (categories : List (Cat × CategoryInfo))
    (oovList : List (Cat × OovEntry)) (ty : Cat) (o : OovEntry) (x : NodeData) : Prop :=
  ∃ a b cinfo j, RunStart (m.map catOf) a ∧ IsRun (m.map catOf) a b ∧ a ≤ k ∧ k < b ∧ dictGet categories ty = some cinfo ∧
    (cinfo.isInvoke = true ∨ ¬ other) ∧ x = unknownWord m k j o ∧
    ((cinfo.isGroup = true ∧ j = b) ∨
     ∃ n : Nat, 1 ≤ n ∧ (n : Int) ≤ cinfo.length ∧ j = min (k + n) m.length ∧
      (bytePos m j : Int) - bytePos m k ≤ (bytePos m b : Int) - bytePos m k -
        (if cinfo.isGroup then ((oovList.filter (fun p => p.1 = ty)).length : Int) else 0))

/-- A provider makes `x`, the MeCab provider because of category number `r.1` of the character and entry number `r.2`. -/
def OovPlugin.MakesBy (m : PStr) (catOf : Nat → CatSet) (k : Nat) (other : Prop) (p : OovPlugin) (r : Nat × Nat) (x : NodeData) : Prop :=
  match p with
  | .mecab categories oovList => ∃ ch ty o, m[k]? = some ch ∧ (catOf ch)[r.1]? = some ty ∧ oovList[r.2]? = some (ty, o) ∧
      MecabMakes m catOf k other categories oovList ty o x
  | .simple o => r = (0, 0) ∧ (OovPlugin.simple o).Makes m catOf k other x

/-- Provider number `i` makes `x` (compare `MadeBy`). -/
def MadeAt (m : PStr) (catOf : Nat → CatSet) (k : Nat) : Prop → List OovPlugin → Nat → Nat × Nat → NodeData → Prop
  | _, [], _, _, _ => False
  | other, p :: _, 0, r, x => p.MakesBy m catOf k other r x
  | other, p :: ps, i + 1, r, x => MadeAt m catOf k (other ∨ ∃ y, p.Makes m catOf k other y) ps i r x

/-- `x` is an unknown word at character `k`, made by provider number `i` because of `r` (compare `UnknownAt`). -/
def UnknownBy (m : PStr) (catOf : Nat → CatSet) (providers : List OovPlugin) (other : Prop) (k : Nat) (i : Nat) (r : Nat × Nat)
    (x : NodeData) : Prop :=
  ∃ ch, m[k]? = some ch ∧
    ((Cat.NOOOVBOW ∉ catOf ch ∧ MadeAt m catOf k other providers i r x) ∨
     (¬ other ∧ (Cat.NOOOVBOW ∈ catOf ch ∨ ∀ y, ¬ MadeBy m catOf k other providers y) ∧ i = 0 ∧
       ∃ p, providers.getLast? = some p ∧ p.MakesBy m catOf k False r x))

/-- Earlier providers first, then earlier categories of the character, then earlier entries. -/
def RankLe (i : Nat) (r : Nat × Nat) (i' : Nat) (r' : Nat × Nat) : Prop :=
  i < i' ∨ (i = i' ∧ (r.1 < r'.1 ∨ (r.1 = r'.1 ∧ r.2 ≤ r'.2)))

/-- `x` is made at a rank that no `y` precedes. -/
def UnknownBefore (m : PStr) (catOf : Nat → CatSet) (providers : List OovPlugin) (other : Prop) (k : Nat) (x y : NodeData) : Prop :=
  ∃ i r, UnknownBy m catOf providers other k i r x ∧ ∀ i' r', UnknownBy m catOf providers other k i' r' y → RankLe i r i' r'

/-- The order of words with the same end: longer words first; of the same length, words of the dictionaries before unknown words. -/
def Sources.Before (S : Sources) (auto : Nat → Nat → Int) (catOf : Nat → CatSet) (providers : List OovPlugin) (t : InputText)
    (x y : NodeData) : Prop :=
  x.begin_ < y.begin_ ∨ (x.begin_ = y.begin_ ∧
    ((x.oov = false ∧ (y.oov = true ∨ WordBefore x y)) ∨
     (x.oov = true ∧ y.oov = true ∧ ∃ k, k < t.modified.length ∧ x.begin_ = bytePos t.modified k ∧
       UnknownBefore t.modified catOf providers (∃ w, S.Word auto t w ∧ w.begin_ = bytePos t.modified k) k x y)))

end Sudachi
