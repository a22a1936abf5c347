/-
sudachipy/plugin/path_rewrite/numericparser.py
-/
import Verif.Model.Basic
namespace Sudachi

/-- numericparser.py:21-28 `NumericParser.StringNumber`: `sig`/`pos` are the content and position of the `StringIO`
`_significand` (`tell()` is `pos`). -/
structure SNum where
  sig : PStr
  pos : Nat
  scale : Int
  point : Int
  allZero : Bool
  deriving DecidableEq, Repr

namespace SNum

/-- numericparser.py:23-27, 29-34: `__init__` and `clear` give the same state. -/
def empty : SNum := ⟨[], 0, 0, -1, true⟩

/-- `StringIO.write(s)`: overwrites at the position, padding with NUL beyond the end. -/
def write (n : SNum) (s : PStr) : SNum :=
  { n with
    sig := n.sig.take n.pos ++ List.replicate (n.pos - n.sig.length) 0 ++ s ++ n.sig.drop (n.pos + s.length)
    pos := n.pos + s.length }

/-- `StringIO.truncate(k)`: the position does not change. -/
def truncate (n : SNum) (k : Nat) : SNum := { n with sig := n.sig.take k }

/-- numericparser.py:36-39 `append(i)` for a digit `i`. -/
def append (n : SNum) (d : Nat) : SNum :=
  ({ n with allZero := if d ≠ 0 then false else n.allZero }).write [48 + d]

/-- numericparser.py:80-81 `is_zero`. -/
def isZero (n : SNum) : Bool := n.pos = 0

/-- numericparser.py:41-44 `shift_scale`. -/
def shiftScale (n : SNum) (i : Int) : SNum :=
  let m := if n.isZero then n.write [49] else n
  { m with scale := m.scale + i }

/-- numericparser.py:83-92 `normalize_scale`. -/
def normalizeScale (n : SNum) : SNum :=
  if n.point < 0 then n
  else
    let nScale : Int := n.pos - n.point
    if nScale > n.scale then { n with point := n.point + n.scale, scale := 0 }
    else { n with scale := n.scale - nScale, point := -1 }

/-- numericparser.py:74-78 `int_length` (after which the number is normalised). -/
def intLength (n : SNum) : SNum × Int :=
  let m := n.normalizeScale
  if m.point ≥ 0 then (m, m.point) else (m, m.pos + m.scale)

/-- numericparser.py:94-96 `fill_zero`. -/
def fillZero (n : SNum) (k : Int) : SNum := if k > 0 then n.write (List.replicate k.toNat 48) else n

/-- numericparser.py:46-66 `self.add(number)`: the new `self`, the (possibly normalised) `number`, the answer. -/
def add (self number : SNum) : SNum × SNum × Bool :=
  if number.isZero then (self, number, true)
  else if self.isZero then
    ({ self.write number.sig with scale := number.scale, point := number.point }, number, true)
  else
    let self := self.normalizeScale
    let (number, length) := number.intLength
    if self.scale ≥ length then
      let self := self.fillZero (self.scale - length)
      let self := if number.point ≥ 0 then { self with point := self.pos + number.point } else self
      let self := self.write number.sig
      ({ self with scale := number.scale }, number, true)
    else (self, number, false)

/-- numericparser.py:68-72 `set_point`. -/
def setPoint (n : SNum) : SNum × Bool :=
  if n.scale = 0 ∧ n.point < 0 then ({ n with point := n.pos }, true) else (n, false)

/-- numericparser.py:113-118 `insert_significand`. -/
def insertSig (n : SNum) (idx : Nat) (text : PStr) : SNum :=
  let post := n.sig.drop idx
  (({ n with pos := idx }).write text).write post

/-- numericparser.py:132-135: `while i >= 0 and read(1) == '0': i -= 1; seek(i)`, with `i = k - 1`; `seek(-1)` raises
`ValueError`.  Gives the final `i`. -/
def stripLoop (sig : PStr) : Nat → Res Int
  | 0 => .ok (-1)
  | k + 1 =>
    if sig[k]? = some 48 then
      if k = 0 then .error .value else stripLoop sig k
    else .ok k

/-- numericparser.py:120-141 `__str__`. -/
def str (n : SNum) : SNum × Res PStr :=
  if n.isZero then (n, .ok [48])
  else
    let n := n.normalizeScale
    if n.scale > 0 then
      let n := n.fillZero n.scale
      (n, .ok n.sig)
    else if n.point ≥ 0 then
      let n := n.insertSig n.point.toNat [46]
      let n := if n.point = 0 then n.insertSig 0 [48] else n
      match stripLoop n.sig n.pos with
      | .error e => (n, .error e)
      | .ok i =>
        let n := n.truncate (i + 1).toNat
        -- `seek(i)` with i = -1 raises
        if i < 0 then (n, .error .value)
        else
          let dot := n.sig[i.toNat]? = some 46
          let n := { n with pos := min (i.toNat + 1) (max n.sig.length i.toNat) }
          let n := if dot then n.truncate i.toNat else n
          (n, .ok n.sig)
    else (n, .ok n.sig)

end SNum

/-- numericparser.py:143-147 `Error`. -/
inductive NumErr | none | point | comma | other
  deriving DecidableEq, Repr

/-- numericparser.py:149-156 and 185-192: the parser state. -/
structure NumParser where
  digitLength : Nat
  firstDigit : Bool
  hasComma : Bool
  hangingPoint : Bool
  error : NumErr
  total : SNum
  subTotal : SNum
  tmp : SNum
  deriving DecidableEq, Repr

/-- numericparser.py:158-177 `_char_to_num`. -/
def charToNum (c : Nat) : Option Int :=
  if 48 ≤ c ∧ c ≤ 57 then some (c - 48)
  else match c with
    | 0x3007 => some 0
    | 0x4E00 => some 1
    | 0x4E8C => some 2
    | 0x4E09 => some 3
    | 0x56DB => some 4
    | 0x4E94 => some 5
    | 0x516D => some 6
    | 0x4E03 => some 7
    | 0x516B => some 8
    | 0x4E5D => some 9
    | 0x5341 => some (-1)
    | 0x767E => some (-2)
    | 0x5343 => some (-3)
    | 0x4E07 => some (-4)
    | 0x5104 => some (-8)
    | 0x5146 => some (-12)
    | _ => none

namespace NumParser

/-- numericparser.py:158-192: `__init__` and `clear` give the same state. -/
def init : NumParser := ⟨0, true, false, false, .none, .empty, .empty, .empty⟩

/-- numericparser.py:262-267 `check_comma`. -/
def checkComma (p : NumParser) : Bool :=
  if p.firstDigit then false
  else if !p.hasComma then decide (p.digitLength ≤ 3) && !p.tmp.isZero && !p.tmp.allZero
  else decide (p.digitLength = 3)

/-- numericparser.py:197-209: `append('.')`. -/
def appendPoint (p : NumParser) : NumParser × Bool :=
  let p := { p with hangingPoint := true }
  if p.firstDigit then ({ p with error := .point }, false)
  else if p.hasComma && !p.checkComma then ({ p with error := .comma }, false)
  else
    match p.tmp.setPoint with
    | (_, false) => ({ p with error := .point }, false)
    | (tmp, true) => ({ p with tmp := tmp, hasComma := false }, true)

/-- numericparser.py:210-216: `append(',')`. -/
def appendComma (p : NumParser) : NumParser × Bool :=
  if !p.checkComma then ({ p with error := .comma }, false)
  else ({ p with hasComma := true, digitLength := 0 }, true)

/-- numericparser.py:222-230: a small unit (10, 100, 1000) with exponent `e`. -/
def appendSmall (p : NumParser) (e : Int) : NumParser × Bool :=
  let tmp := p.tmp.shiftScale e
  match p.subTotal.add tmp with
  | (sub, tmp, false) => ({ p with subTotal := sub, tmp := tmp }, false)
  | (sub, _, true) =>
    ({ p with subTotal := sub, tmp := .empty, firstDigit := true, digitLength := 0, hasComma := false }, true)

/-- numericparser.py:231-242: a large unit with exponent `e`. -/
def appendLarge (p : NumParser) (e : Int) : NumParser × Bool :=
  match p.subTotal.add p.tmp with
  | (sub, tmp, false) => ({ p with subTotal := sub, tmp := tmp }, false)
  | (sub, tmp, true) =>
    if sub.isZero then ({ p with subTotal := sub, tmp := tmp }, false)
    else
      let sub := sub.shiftScale e
      match p.total.add sub with
      | (total, sub, false) => ({ p with total := total, subTotal := sub, tmp := tmp }, false)
      | (total, _, true) =>
        ({ p with total := total, subTotal := .empty, tmp := .empty, firstDigit := true, digitLength := 0,
                  hasComma := false }, true)

/-- numericparser.py:194-247 `append(char)` (callers pass single characters). -/
def append (p : NumParser) (c : Nat) : NumParser × Bool :=
  if c = 46 then p.appendPoint
  else if c = 44 then p.appendComma
  else
    match charToNum c with
    | none => (p, false)
    | some num =>
      if -3 ≤ num ∧ num < 0 then p.appendSmall (-num)
      else if num ≤ -4 then p.appendLarge (-num)
      else
        ({ p with tmp := p.tmp.append num.toNat, firstDigit := false, digitLength := p.digitLength + 1,
                  hangingPoint := false }, true)

/-- join_numeric_plugin.py:59-60 / callers: `append` for each character until one is refused. -/
def appendAll (p : NumParser) : PStr → NumParser × Bool
  | [] => (p, true)
  | c :: cs =>
    match p.append c with
    | (p', true) => p'.appendAll cs
    | (p', false) => (p', false)

/-- numericparser.py:249-257 `done`. -/
def done (p : NumParser) : NumParser × Bool :=
  let (p, ret) :=
    match p.subTotal.add p.tmp with
    | (sub, tmp, false) => ({ p with subTotal := sub, tmp := tmp }, false)
    | (sub, tmp, true) =>
      match p.total.add sub with
      | (total, sub, r) => ({ p with total := total, subTotal := sub, tmp := tmp }, r)
  if p.hangingPoint then ({ p with error := .point }, false)
  else if p.hasComma && p.digitLength ≠ 3 then ({ p with error := .comma }, false)
  else (p, ret)

/-- numericparser.py:259-260 `get_normalized`. -/
def getNormalized (p : NumParser) : NumParser × Res PStr :=
  match p.total.str with
  | (total, r) => ({ p with total := total }, r)

end NumParser

/-- Feeding a whole string to a fresh parser: the normalised form if every character and the end are accepted. -/
def parseNumber (s : PStr) : Option (Res PStr) :=
  match NumParser.init.appendAll s with
  | (_, false) => none
  | (p, true) =>
    match p.done with
    | (_, false) => none
    | (p, true) => some p.getNormalized.2

end Sudachi
