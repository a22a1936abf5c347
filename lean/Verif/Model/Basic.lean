/-
Basic vocabulary of the model: Python values, exceptions as values, Python list access.
-/
namespace Sudachi

/-- A Python `str`: its list of code points.  Lone surrogates are representable, as in Python. -/
abbrev PStr := List Nat

/-- A Python `bytes`: every entry is meant to be `< 256`. -/
abbrev Bytes := List Nat

/-- The Python exceptions the modelled code can raise (class only; messages are dropped).
`outOfFuel` is not an exception: it marks a loop of the code that has not finished within the given fuel. -/
inductive Err
  | index | attribute | value | runtime | overflow | unicode | type | key | io | struct | recursion
  | exception | moduleNotFound | outOfFuel
  deriving DecidableEq, Repr

/-- Results of operations that may raise. -/
abbrev Res := Except Err

instance {ε α : Type} [DecidableEq ε] [DecidableEq α] : DecidableEq (Except ε α)
  | .ok a, .ok b => if h : a = b then isTrue (by rw [h]) else isFalse (fun e => h (Except.ok.inj e))
  | .error a, .error b => if h : a = b then isTrue (by rw [h]) else isFalse (fun e => h (Except.error.inj e))
  | .ok _, .error _ => isFalse (fun e => by cases e)
  | .error _, .ok _ => isFalse (fun e => by cases e)

/-- `l[i]` for a non-negative index: `IndexError` past the end. -/
def pyGet {α : Type} (l : List α) (i : Nat) : Res α :=
  match l[i]? with
  | some x => .ok x
  | none => .error .index

/-- `l[a:b]` for non-negative bounds (Python slices clip silently). -/
def pySlice {α : Type} (l : List α) (a b : Nat) : List α := (l.take b).drop a

end Sudachi
