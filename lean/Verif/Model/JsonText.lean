/-
`json.load` of the setting file (config.py:69-70): the text as `JSONDecoder.decode` and the scanner of CPython's `json` read it.
-/
import Verif.Model.Config
import Verif.Model.Definitions
namespace Sudachi
namespace JsonText

/-- The white space of JSON: `[ \t\n\r]`. -/
def isSpace (c : Nat) : Bool := c == 32 || c == 9 || c == 10 || c == 13

/-- The white space between two tokens. -/
def skipSpace (s : PStr) : PStr := s.dropWhile isSpace

/-- A decimal digit. -/
def isDigit (c : Nat) : Bool := decide (48 ≤ c) && decide (c ≤ 57)

/-- Four hexadecimal digits. -/
def hex4 (a b c d : Nat) : Option Nat := do
  let a ← hexVal a
  let b ← hexVal b
  let c ← hexVal c
  let d ← hexVal d
  pure (((a * 16 + b) * 16 + c) * 16 + d)

/-- What follows a backslash, if not `u`. -/
def escape : Nat → Option Nat
  | 34 => some 34
  | 92 => some 92
  | 47 => some 47
  | 98 => some 8
  | 102 => some 12
  | 110 => some 10
  | 114 => some 13
  | 116 => some 9
  | _ => none

/-- A character before the rest of a string. -/
def cons (c : Nat) : Res (PStr × PStr) → Res (PStr × PStr)
  | .ok (s, rest) => .ok (c :: s, rest)
  | .error e => .error e

/-- `scanstring` after the opening quote, `strict`: the string and what follows the closing quote.  An escaped high surrogate followed by an
escaped low one gives one character. -/
def scanString : PStr → Res (PStr × PStr)
  | [] => .error .value
  | 34 :: rest => .ok ([], rest)
  | 92 :: 117 :: a :: b :: c :: d :: 92 :: 117 :: e :: f :: g :: h :: rest =>
    match hex4 a b c d with
    | none => .error .value
    | some hi =>
      if 0xD800 ≤ hi ∧ hi ≤ 0xDBFF then
        match hex4 e f g h with
        | none => .error .value
        | some lo =>
          if 0xDC00 ≤ lo ∧ lo ≤ 0xDFFF then cons (0x10000 + (hi - 0xD800) * 0x400 + (lo - 0xDC00)) (scanString rest)
          else cons hi (scanString (92 :: 117 :: e :: f :: g :: h :: rest))
      else cons hi (scanString (92 :: 117 :: e :: f :: g :: h :: rest))
  | 92 :: 117 :: a :: b :: c :: d :: rest =>
    match hex4 a b c d with
    | none => .error .value
    | some x => cons x (scanString rest)
  | 92 :: x :: rest =>
    match escape x with
    | none => .error .value
    | some c => cons c (scanString rest)
  | c :: rest => if c ≤ 0x1F then .error .value else if c = 92 then .error .value else cons c (scanString rest)

/-- The value of decimal digits. -/
def decimal (s : PStr) : Nat := s.foldl (fun n c => 10 * n + (c - 48)) 0

/-- `_match_number_unicode`, the fraction: the digits after the point, which must not be missing. -/
def fraction : PStr → PStr × PStr
  | 46 :: s => if (s.takeWhile isDigit).isEmpty then ([], 46 :: s) else (s.takeWhile isDigit, s.dropWhile isDigit)
  | s => ([], s)

/-- The sign of an exponent: whether it is a minus, and what follows it. -/
def exponentSign : PStr → Bool × PStr
  | 43 :: s => (false, s)
  | 45 :: s => (true, s)
  | s => (false, s)

/-- The digits of an exponent, which must not be missing. -/
def exponentDigits (negative : Bool) (s : PStr) : Option (Int × PStr) :=
  if (s.takeWhile isDigit).isEmpty then none
  else some (if negative then -(decimal (s.takeWhile isDigit) : Int) else decimal (s.takeWhile isDigit), s.dropWhile isDigit)

/-- `_match_number_unicode`, the exponent, if there is one. -/
def exponent : PStr → Option (Int × PStr)
  | c :: s => if c = 101 ∨ c = 69 then exponentDigits (exponentSign s).1 (exponentSign s).2 else none
  | [] => none

/-- `_match_number_unicode`, the digits before the point: no more digits after a leading zero. -/
def integer : PStr → Option (PStr × PStr)
  | 48 :: s => some ([48], s)
  | c :: s => if isDigit c then some ((c :: s).takeWhile isDigit, (c :: s).dropWhile isDigit) else none
  | [] => none

/-- `_match_number_unicode` after the sign. -/
def number (negative : Bool) (s : PStr) : Option (Json × PStr) := do
  let (digits, s1) ← integer s
  let (frac, s2) := fraction s1
  match exponent s2 with
  | some (e, s3) => pure (.real (.decimal negative (decimal (digits ++ frac)) (e - frac.length)), s3)
  | none =>
    if frac.isEmpty then pure (.num (if negative then -(decimal digits : Int) else decimal digits), s2)
    else pure (.real (.decimal negative (decimal (digits ++ frac)) (-(frac.length : Int))), s2)

/-- `scan_once` for what is no string, list or object: `StopIteration`, which becomes a `JSONDecodeError`, if it is nothing. -/
def scanPlain (s : PStr) : Res (Json × PStr) :=
  match s with
  | 110 :: 117 :: 108 :: 108 :: r => .ok (.null, r)
  | 116 :: 114 :: 117 :: 101 :: r => .ok (.bool true, r)
  | 102 :: 97 :: 108 :: 115 :: 101 :: r => .ok (.bool false, r)
  | 78 :: 97 :: 78 :: r => .ok (.real .nan, r)
  | 73 :: 110 :: 102 :: 105 :: 110 :: 105 :: 116 :: 121 :: r => .ok (.real (.infinity false), r)
  | 45 :: 73 :: 110 :: 102 :: 105 :: 110 :: 105 :: 116 :: 121 :: r => .ok (.real (.infinity true), r)
  | 45 :: t =>
    match number true t with
    | some x => .ok x
    | none => .error .value
  | t =>
    match number false t with
    | some x => .ok x
    | none => .error .value

mutual

/-- `scan_once`: a value and what follows it.  `depth` is how deep lists and objects may be nested before `RecursionError`. -/
def scanOnce : Nat → Nat → PStr → Res (Json × PStr)
  | 0, _, _ => .error .outOfFuel
  | fuel + 1, depth, s =>
    match s with
    | 34 :: t => (scanString t).map fun (x, r) => (.str x, r)
    | 123 :: t =>
      match depth with
      | 0 => .error .recursion
      | depth + 1 =>
        match skipSpace t with
        | 125 :: r => .ok (.obj [], r)
        | u => (scanMembers fuel depth [] u).map fun (d, r) => (.obj d, r)
    | 91 :: t =>
      match depth with
      | 0 => .error .recursion
      | depth + 1 =>
        match skipSpace t with
        | 93 :: r => .ok (.list [], r)
        | u => (scanElements fuel depth u).map fun (l, r) => (.list l, r)
    | t => scanPlain t

/-- `_parse_array_unicode`: the elements and what follows the bracket. -/
def scanElements : Nat → Nat → PStr → Res (List Json × PStr)
  | 0, _, _ => .error .outOfFuel
  | fuel + 1, depth, s =>
    match scanOnce fuel depth s with
    | .error e => .error e
    | .ok (v, r) =>
      match skipSpace r with
      | 93 :: r => .ok ([v], r)
      | 44 :: r => (scanElements fuel depth (skipSpace r)).map fun (vs, r) => (v :: vs, r)
      | _ => .error .value

/-- `_parse_object_unicode`: the dictionary and what follows the brace. -/
def scanMembers : Nat → Nat → JDict → PStr → Res (JDict × PStr)
  | 0, _, _, _ => .error .outOfFuel
  | fuel + 1, depth, d, s =>
    match s with
    | 34 :: t =>
      match scanString t with
      | .error e => .error e
      | .ok (k, r) =>
        match skipSpace r with
        | 58 :: r =>
          match scanOnce fuel depth (skipSpace r) with
          | .error e => .error e
          | .ok (v, r) =>
            match skipSpace r with
            | 125 :: r => .ok (d.set k v, r)
            | 44 :: r => scanMembers fuel depth (d.set k v) (skipSpace r)
            | _ => .error .value
        | _ => .error .value
    | _ => .error .value

end

/-- `json.loads`: `JSONDecoder.decode`, after a test for a byte order mark.  (Each value takes a character and at most two calls.) -/
def loadText (depth : Nat) (s : PStr) : Res Json :=
  if s.head? = some 0xFEFF then .error .value
  else
    match scanOnce (2 * s.length + 2) depth (skipSpace s) with
    | .error e => .error e
    | .ok (v, r) => if (skipSpace r).isEmpty then .ok v else .error .value

/-- config.py:69-70: the file is decoded, its line ends translated, and the text read. -/
def loadFile (depth : Nat) (b : Bytes) : Res Json := do
  let text ← decodeUtf8 b
  loadText depth (linesAux [] text).flatten

end JsonText
end Sudachi
