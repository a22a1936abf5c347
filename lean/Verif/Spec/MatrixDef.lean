import Verif.Spec.Buildable

/-!
# What a definition of connection costs must look like
-/

namespace Sudachi

/-- The first line of matrix.def: two numbers. -/
def MatrixHeader (header : PStr) (n p : Int) : Prop := ∃ a b, splitWs (strip header) = [a, b] ∧ pyInt a = .ok n ∧ pyInt b = .ok p

/-- A line that is passed over: blank, a comment, or one of fewer than three words. -/
def MatrixSilent (line : PStr) : Prop := strip line = [] ∨ (strip line).head? = some 35 ∨ (splitWs (strip line)).length < 3

/-- A line of three numbers. -/
def MatrixLine (line : PStr) (l r cost : Int) : Prop :=
  ∃ a b c, splitWs (strip line) = [a, b, c] ∧ pyInt a = .ok l ∧ pyInt b = .ok r ∧ pyInt c = .ok cost

/-- A line that can be written into a matrix of `n` left ids: it has a place in the file and a cost of 16 bits. -/
def MatrixFits (n : Int) (line : PStr) : Prop :=
  MatrixSilent line ∨ ∃ l r cost, MatrixLine line l r cost ∧ 0 ≤ l + n * r ∧ FitsShort cost

end Sudachi
