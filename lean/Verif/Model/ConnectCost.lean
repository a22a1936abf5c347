/-
sudachipy/plugin/connect_cost/*.py and `Grammar.set_connect_cost`.  The class is there, but nothing in the package makes an instance:
the lines in dictionary.py:43-46 are comments.
-/
import Verif.Model.Open
namespace Sudachi

namespace Grammar

/-- grammar.py:73-85 `set_connect_cost`: `_matrix_view[right, left] = cost`.  A view of a map opened for reading only is a `TypeError`
whatever the arguments; so are a view without cells, which has one dimension, and an index that is no number; `ValueError` for a
cost of more than 16 bits. -/
def setConnectCost (g : Grammar) (writable : Bool) (left right : Res Int) (cost : Int) : Res Grammar :=
  if !writable then .error .type
  else do
    let x ← right
    let y ← left
    if g.left * g.right = 0 then .error .type
    else do
      let a ← viewIndex g.left x
      let b ← viewIndex g.right y
      if cost < -32768 ∨ cost > 32767 then .error .value
      else pure { g with matrix := g.matrix.set (a * g.right + b) cost }

end Grammar

/-- What can be an index of a view: a number; `True` and `False` are 1 and 0. -/
def Json.index : Json → Res Int
  | .num n => .ok n
  | .bool b => .ok (if b then 1 else 0)
  | _ => .error .type

/-- `'inhibitedPair'`, inhibitconnectioncost.py:44. -/
def keyInhibited : PStr := [105, 110, 104, 105, 98, 105, 116, 101, 100, 80, 97, 105, 114]

/-- inhibitconnectioncost.py:40-45 `__init__` and `set_up`, with config.py:103-104: `AttributeError` if the settings have not been read. -/
def inhibitSetUp (s : Settings) : Res Json :=
  match s.dict with
  | none => .error .attribute
  | some d => .ok ((d.find keyInhibited).getD (.list []))

/-- inhibitconnectioncost.py:48-51 with editconnectioncost.py:55-65, for one pair: what is shorter than 2 is passed over. -/
def inhibitPair (writable : Bool) (g : Grammar) : Json → Res Grammar
  | .list (l :: r :: _) => g.setConnectCost writable l.index r.index inhibited
  | .list _ => .ok g
  | .str (_ :: _ :: _) => g.setConnectCost writable (.error .type) (.error .type) inhibited
  | .str _ => .ok g
  | .obj (_ :: _ :: _) => .error .key
  | .obj _ => .ok g
  | _ => .error .type

/-- inhibitconnectioncost.py:48-51, for the pairs in order: the grammar afterwards, also when an exception has ended the loop.  A
`set_connect_cost` that raises has set nothing. -/
def inhibitPairsM (writable : Bool) : Grammar → List Json → Grammar × Res Unit
  | g, [] => (g, .ok ())
  | g, p :: ps =>
    match inhibitPair writable g p with
    | .error e => (g, .error e)
    | .ok g' => inhibitPairsM writable g' ps

/-- inhibitconnectioncost.py:47-51 `edit`: the grammar afterwards, and the outcome. -/
def inhibitEditM (writable : Bool) (g : Grammar) (pairs : Json) : Grammar × Res Unit :=
  match Settings.iterate pairs with
  | .error e => (g, .error e)
  | .ok ps => inhibitPairsM writable g ps

/-- inhibitconnectioncost.py:47-51 `edit`, for a caller who has no use for the grammar after an exception. -/
def inhibitEdit (writable : Bool) (g : Grammar) (pairs : Json) : Res Grammar :=
  match inhibitEditM writable g pairs with
  | (g', .ok ()) => .ok g'
  | (_, .error e) => .error e

/-- binarydictionary.py:32-34, 48-52: a system dictionary is mapped with `ACCESS_READ`. -/
def systemWritable : Bool := false

/-- binarydictionary.py:54-59: a user dictionary is mapped with `ACCESS_COPY`. -/
def userWritable : Bool := true

end Sudachi
