/-
Character categories: sudachipy/dictionarylib/categorytype.py, sudachipy/dictionarylib/charactercategory.py
-/
import Verif.Model.Basic
namespace Sudachi

/-- categorytype.py:18-34 `class CategoryType(Enum)`. -/
inductive Cat
  | DEFAULT | SPACE | KANJI | SYMBOL | NUMERIC | ALPHA | HIRAGANA | KATAKANA | KANJINUMERIC
  | GREEK | CYRILLIC | USER1 | USER2 | USER3 | USER4 | NOOOVBOW
  deriving DecidableEq, Repr

/-- A Python `set` of `CategoryType`: a list whose order stands for the (unspecified) iteration order. -/
abbrev CatSet := List Cat

/-- `a & b` on Python sets. -/
def CatSet.inter (a b : CatSet) : CatSet := a.filter (fun c => decide (c ∈ b))

/-- charactercategory.py:24-32 `class Range` (`low`, `high`, `categories`); `high` is exclusive.
`categories` is a list while reading char.def and a set after `_compile`. -/
structure CRange where
  low : Nat
  high : Nat
  cats : CatSet
  deriving DecidableEq, Repr

namespace CRange
/-- charactercategory.py:34-35 `Range.contains`. -/
def contains (r : CRange) (cp : Nat) : Bool := decide (r.low ≤ cp) && decide (cp < r.high)
/-- charactercategory.py:44-45 `Range.lower`. -/
def lower (r : CRange) (cp : Nat) : Bool := decide (r.high ≤ cp)
end CRange

/-- `set(states)` (charactercategory.py:83,89): the distinct elements. -/
def toSet (l : List Cat) : CatSet := l.eraseDups

/-- Python set equality `a == b` (charactercategory.py:98). -/
def setEq (a b : CatSet) : Bool := a.all (fun c => decide (c ∈ b)) && b.all (fun c => decide (c ∈ a))

/-- Insertion of `x` before the first element whose key is not smaller. -/
def insertBy {α : Type} (key : α → Nat) (x : α) : List α → List α
  | [] => [x]
  | y :: ys => if key x ≤ key y then x :: y :: ys else y :: insertBy key x ys

/-- `list.sort(key=...)`: Python's sort is stable, so its result is determined; this is the stable insertion sort. -/
def sortBy {α : Type} (key : α → Nat) (l : List α) : List α := l.foldr (insertBy key) []

/-- `list.sort(key=lambda x: x.high)` then `list.sort(key=lambda x: x.low)` (charactercategory.py:62-63). -/
def sortRanges (l : List CRange) : List CRange := sortBy CRange.low (sortBy CRange.high l)

/-- The state of the `while True` loop of `_compile` (charactercategory.py:64-69):
`new_range_list`, `left_chain`, `right_chain`, `states`, `pivot`. -/
structure SweepState where
  out : List CRange
  left : List CRange
  right : List CRange
  states : List Cat
  pivot : Nat

/-- Removal of `left.categories` from `states` (charactercategory.py:85-86); `list.remove` raises `ValueError`
when the element is missing. -/
def removeCats (states : List Cat) : List Cat → Res (List Cat)
  | [] => .ok states
  | c :: cs => if c ∈ states then removeCats (states.erase c) cs else .error .value

/-- Index `i` of the queue holds an element with the least `high` (`Range.__lt__`, charactercategory.py:26-27). -/
def isMinIdx (q : List CRange) (i : Nat) : Bool :=
  match q[i]? with
  | some r => q.all (fun x => decide (r.high ≤ x.high))
  | none => false

/-- `left_chain.get()` (charactercategory.py:78): `PriorityQueue` returns *some* element with the least `high`.
Which one is chosen among ties depends on heap internals, so it is an oracle `pick`, asked anew in every iteration; an oracle answer that
is not a minimum falls back to the first minimum. -/
def minIdx (pick : Nat) (q : List CRange) : Nat :=
  if isMinIdx q pick then pick else (List.range q.length).findIdx (isMinIdx q)

/-- `left_chain.get()` (charactercategory.py:78): the element and the rest of the queue. -/
def popMin (pick : Nat) (q : List CRange) : Option (CRange × List CRange) :=
  match q[minIdx pick q]? with
  | some r => some (r, q.eraseIdx (minIdx pick q))
  | none => none

/-- charactercategory.py:82-87: the current range ends before the next one begins. -/
def sweepEmitLeft (s : SweepState) (left : CRange) (leftRest : List CRange) : Res (Option SweepState) := do
  let states ← removeCats s.states left.cats
  pure (some { s with out := s.out ++ [⟨s.pivot, left.high, toSet s.states⟩], left := leftRest,
                      pivot := left.high, states := states })

/-- One iteration of the `while True` loop of `_compile` (charactercategory.py:69-94); `none` = `break`. -/
def sweepStep (pick : SweepState → Nat) (s : SweepState) : Res (Option SweepState) :=
  match popMin (pick s) s.left with
  | none =>                                            -- line 70: left_chain.empty()
    match s.right with
    | [] => .ok none                                   -- line 71-72: break
    | right :: rest =>                                 -- line 73-77
      .ok (some { s with left := [right], right := rest, pivot := right.low, states := s.states ++ right.cats })
  | some (left, leftRest) =>
    match s.right with
    | [] => sweepEmitLeft s left leftRest              -- right_begin = math.inf, so line 82 is true
    | right :: rest =>
      if left.high ≤ right.low then sweepEmitLeft s left leftRest   -- line 82-87
      else                                             -- line 88-94
        .ok (some { out := s.out ++ [⟨s.pivot, right.low, toSet s.states⟩], left := leftRest ++ [right, left],
                    right := rest, states := s.states ++ right.cats, pivot := right.low })

/-- The `while True` loop (charactercategory.py:69-94) with fuel. -/
def sweep (pick : SweepState → Nat) : Nat → SweepState → Res (List CRange)
  | 0, _ => .error .outOfFuel
  | fuel + 1, s =>
    match sweepStep pick s with
    | .error e => .error e
    | .ok none => .ok s.out
    | .ok (some s') => sweep pick fuel s'

/-- charactercategory.py:96-103: merge adjacent ranges with equal categories. -/
def mergeRanges : CRange → List CRange → List CRange
  | cur, [] => [cur]
  | cur, r :: rest =>
    if r.low = cur.high ∧ setEq r.cats cur.cats = true then
      mergeRanges ⟨cur.low, r.high, cur.cats⟩ rest
    else cur :: mergeRanges r rest

/-- charactercategory.py:56-103 `_compile`.  `new_range_list[0]` raises `IndexError` when there is no range.
The fuel `2 * n + 1` always suffices (`C10_categories`). -/
def compile (pick : SweepState → Nat) (ranges : List CRange) : Res (List CRange) :=
  match sweep pick (2 * ranges.length + 1) ⟨[], [], sortRanges ranges, [], 0⟩ with
  | .error e => .error e
  | .ok [] => .error .index
  | .ok (r :: rest) => .ok (mergeRanges r rest)

/-- The `while` loop of `get_category_types` (charactercategory.py:110-121) with fuel. `none` = fell through to
the default (line 122) or out of fuel (`n + 1` iterations suffice, see `Lemmas/Category`). -/
def searchLoop (rs : List CRange) (cp : Nat) : Nat → Nat → Nat → Nat → Option CatSet
  | 0, _, _, _ => none
  | fuel + 1, b, e, pivot =>
    match rs[pivot]? with
    | none => none                                     -- loop condition 0 <= pivot < n
    | some r =>
      if r.contains cp then some r.cats
      else
        let b' := if r.lower cp then pivot else b
        let e' := if r.lower cp then e else pivot
        let np := (b' + e') / 2
        if np = pivot then none else searchLoop rs cp fuel b' e' np

/-- charactercategory.py:105-122 `get_category_types`. -/
def getCategoryTypes (rs : List CRange) (cp : Nat) : CatSet :=
  match searchLoop rs cp (rs.length + 1) 0 rs.length ((0 + rs.length) / 2) with
  | some cs => cs
  | none => [.DEFAULT]

end Sudachi
