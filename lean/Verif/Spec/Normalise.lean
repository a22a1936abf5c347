/-
What the input text plugins are meant to compute.
-/
import Verif.Model.Basic
namespace Sudachi

/-- Leftmost longest-match rewriting: at each position the longest key of `table` that starts there is replaced by its
value; otherwise the lower-cased character is kept when `ignored`, NFKC-normalised when not. -/
inductive Normalised (table : PStr → PStr → Prop) (ignored : PStr → Prop) (lower nfkc : PStr → PStr) :
    PStr → PStr → Prop
  | nil : Normalised table ignored lower nfkc [] []
  | key {k v rest out : PStr} : k ≠ [] → table k v →
      (∀ k' v', table k' v' → k' <+: (k ++ rest) → k'.length ≤ k.length) →
      Normalised table ignored lower nfkc rest out →
      Normalised table ignored lower nfkc (k ++ rest) (v ++ out)
  | keep {c : Nat} {rest out : PStr} : (∀ k' v', table k' v' → ¬ k' <+: (c :: rest)) →
      ignored (lower [c]) → Normalised table ignored lower nfkc rest out →
      Normalised table ignored lower nfkc (c :: rest) (lower [c] ++ out)
  | norm {c : Nat} {rest out : PStr} : (∀ k' v', table k' v' → ¬ k' <+: (c :: rest)) →
      ¬ ignored (lower [c]) → Normalised table ignored lower nfkc rest out →
      Normalised table ignored lower nfkc (c :: rest) (nfkc (lower [c]) ++ out)

/-- `rest` does not begin with a mark. -/
def NoMarkFirst (mark : Nat → Prop) (rest : PStr) : Prop := ∀ c cs, rest = c :: cs → ¬ mark c

/-- Every maximal run of at least two marks becomes one `sym`; nothing else changes. -/
inductive Collapsed (mark : Nat → Prop) (sym : Nat) : PStr → PStr → Prop
  | nil : Collapsed mark sym [] []
  | other {c : Nat} {rest out : PStr} : ¬ mark c → Collapsed mark sym rest out →
      Collapsed mark sym (c :: rest) (c :: out)
  | single {c : Nat} {rest out : PStr} : mark c → NoMarkFirst mark rest → Collapsed mark sym rest out →
      Collapsed mark sym (c :: rest) (c :: out)
  | run {marks rest out : PStr} : 2 ≤ marks.length → (∀ c ∈ marks, mark c) → NoMarkFirst mark rest →
      Collapsed mark sym rest out → Collapsed mark sym (marks ++ rest) (sym :: out)

end Sudachi
