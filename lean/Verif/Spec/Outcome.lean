import Verif.Spec.Unknown

/-!
# What a call can meet on its way through a text
-/

namespace Sudachi
namespace Sources

/-- Words can begin at character `k`, and words reach it from the beginning of the text. -/
def Visited (S : Sources) (auto : Nat → Nat → Int) (cfg : DictConfig) (t : InputText) (k : Nat) : Prop :=
  k < t.modified.length ∧ BowChar (t.modified.map cfg.catOf) k ∧
    ∃ before, Tiles 0 (bytePos t.modified k) before ∧ ∀ y ∈ before, S.Candidate auto cfg.catOf cfg.oov t y

/-- A word at character `k` whose id does not fit a C `int`: one of the dictionaries from number 8 on. -/
def TooLarge (S : Sources) (auto : Nat → Nat → Int) (t : InputText) (k : Nat) : Prop :=
  ∃ x, S.Word auto t x ∧ x.begin_ = bytePos t.modified k ∧ 2147483648 ≤ x.wordId

/-- No word, known or unknown, begins at character `k`. -/
def NoWord (S : Sources) (auto : Nat → Nat → Int) (cfg : DictConfig) (t : InputText) (k : Nat) : Prop :=
  ¬ ∃ x, S.Candidate auto cfg.catOf cfg.oov t x ∧ x.begin_ = bytePos t.modified k

/-- A call cannot go on at character `k`. -/
def Stuck (S : Sources) (auto : Nat → Nat → Int) (cfg : DictConfig) (t : InputText) (k : Nat) : Prop :=
  S.Visited auto cfg t k ∧ (S.TooLarge auto t k ∨ S.NoWord auto cfg t k)

end Sources
end Sudachi
