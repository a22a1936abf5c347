/-
The Python string functions the dictionary builder uses: `str.split`, `str.join`, `str.strip`, `int`, and two regular
expressions.
-/
import Verif.Model.Basic
namespace Sudachi

/-- `s.split(sep)` for a separator of one character: never an empty list. -/
def splitOn (sep : Nat) : PStr → List PStr
  | [] => [[]]
  | c :: cs =>
    if c = sep then [] :: splitOn sep cs
    else
      match splitOn sep cs with
      | [] => [[c]]
      | h :: t => (c :: h) :: t

/-- `sep.join(l)` for a separator of one character. -/
def joinOn (sep : Nat) : List PStr → PStr
  | [] => []
  | [s] => s
  | s :: t :: ts => s ++ sep :: joinOn sep (t :: ts)

/-- `str.isspace` of a character (the class `\s` of `re` and what `strip`, `split` and `int` skip). -/
def isSpace (c : Nat) : Bool :=
  (decide (9 ≤ c) && decide (c ≤ 13)) || (decide (28 ≤ c) && decide (c ≤ 32)) || decide (c = 0x85) || decide (c = 0xA0) ||
  decide (c = 0x1680) || (decide (0x2000 ≤ c) && decide (c ≤ 0x200A)) || decide (c = 0x2028) || decide (c = 0x2029) ||
  decide (c = 0x202F) || decide (c = 0x205F) || decide (c = 0x3000)

/-- `s.strip()`. -/
def strip (s : PStr) : PStr := ((s.dropWhile isSpace).reverse.dropWhile isSpace).reverse

/-- The loop of `s.split()`: `cur` is the word being read. -/
def splitWsAux : PStr → PStr → List PStr
  | cur, [] => if cur.isEmpty then [] else [cur]
  | cur, c :: cs =>
    if isSpace c then (if cur.isEmpty then splitWsAux [] cs else cur :: splitWsAux [] cs)
    else splitWsAux (cur ++ [c]) cs

/-- `s.split()`: the words between white space. -/
def splitWs (s : PStr) : List PStr := splitWsAux [] s

/-- The code points of decimal digits zero (general category Nd, Unicode 14; the nine code points after each are the
digits 1 to 9). -/
def digitZeros : List Nat :=
  [48, 1632, 1776, 1984, 2406, 2534, 2662, 2790, 2918, 3046, 3174, 3302, 3430, 3558, 3664, 3792, 3872, 4160, 4240, 6112, 6160,
   6470, 6608, 6784, 6800, 6992, 7088, 7232, 7248, 42528, 43216, 43264, 43472, 43504, 43600, 44016, 65296, 66720, 68912, 69734,
   69872, 69942, 70096, 70384, 70736, 70864, 71248, 71360, 71472, 71904, 72016, 72784, 73040, 73120, 92768, 92864, 93008,
   120782, 120792, 120802, 120812, 120822, 123200, 123632, 125264, 130032]

/-- The value of a decimal digit (the class `\d` of `re`). -/
def digitVal (c : Nat) : Option Nat :=
  match digitZeros.find? (fun z => decide (z ≤ c) && decide (c < z + 10)) with
  | some z => some (c - z)
  | none => none

/-- The digits of a number after its first one; single underscores may stand between digits. -/
def digitsFrom : PStr → Nat → Option Nat
  | [], acc => some acc
  | c :: cs, acc =>
    match digitVal c with
    | some d => digitsFrom cs (acc * 10 + d)
    | none =>
      if c = 95 then
        match cs with
        | [] => none
        | c' :: cs' =>
          match digitVal c' with
          | some d => digitsFrom cs' (acc * 10 + d)
          | none => none
      else none

/-- An unsigned decimal number. -/
def digits : PStr → Option Nat
  | [] => none
  | c :: cs =>
    match digitVal c with
    | some d => digitsFrom cs d
    | none => none

/-- The white space that `int` skips: that of `str.isspace` without the separators U+001C to U+001F. -/
def isIntSpace (c : Nat) : Bool := isSpace c && !(decide (28 ≤ c) && decide (c ≤ 31))

/-- The text of a number without white space around it. -/
def stripInt (s : PStr) : PStr := ((s.dropWhile isIntSpace).reverse.dropWhile isIntSpace).reverse

/-- `int(s)`: `ValueError` if it is not a decimal number.  (The interpreter's limit on the number of digits is ignored.) -/
def pyInt (s : PStr) : Res Int :=
  match
    match stripInt s with
    | 45 :: r => (digits r).map (fun n => -(n : Int))
    | 43 :: r => (digits r).map (fun n => (n : Int))
    | r => (digits r).map (fun n => (n : Int)) with
  | some v => .ok v
  | none => .error .value

/-- `[int(x) for x in l]`. -/
def pyInts : List PStr → Res (List Int)
  | [] => .ok []
  | s :: ss => do
    let v ← pyInt s
    let vs ← pyInts ss
    pure (v :: vs)

/-- A hexadecimal digit. -/
def hexVal (c : Nat) : Option Nat :=
  if 48 ≤ c ∧ c ≤ 57 then some (c - 48)
  else if 65 ≤ c ∧ c ≤ 70 then some (c - 55)
  else if 97 ≤ c ∧ c ≤ 102 then some (c - 87)
  else none

/-- The class `[0-9a-fA-F]`. -/
def isHex (c : Nat) : Bool := (hexVal c).isSome

/-- The value of hexadecimal digits. -/
def hexValue (s : PStr) : Nat := s.foldl (fun acc c => acc * 16 + (hexVal c).getD 0) 0

/-- dictionarybuilder.py:33 `__PATTERN_UNICODE_LITERAL`, matched at the start: the digits and the rest of the text. -/
def matchLiteral : PStr → Option (PStr × PStr)
  | 92 :: 117 :: r =>
    if (r.take 4).length = 4 ∧ (r.take 4).all isHex then some (r.take 4, r.drop 4)
    else
      match r with
      | 123 :: r' =>
        if (r'.takeWhile isHex).isEmpty then none
        else
          match r'.dropWhile isHex with
          | 125 :: r'' => some (r'.takeWhile isHex, r'')
          | _ => none
      | _ => none
  | _ => none

/-- dictionarybuilder.py:307-312 `replace`: the text for the digits of a literal.  More than four digits are prefixed with
`\U000`, which makes an escape of exactly eight digits; the codec then takes the first five and leaves the others as text.
Fewer than four are a truncated escape: `UnicodeDecodeError`. -/
def replaceLiteral (hex : PStr) : Res PStr :=
  if hex.length > 4 then .ok (hexValue (hex.take 5) :: hex.drop 5)
  else if hex.length = 4 then .ok [hexValue hex]
  else .error .unicode

/-- dictionarybuilder.py:313: `re.sub` from left to right; the fuel is the length of the text. -/
def decodeAux : Nat → PStr → Res PStr
  | 0, s => .ok s
  | _ + 1, [] => .ok []
  | fuel + 1, c :: cs =>
    match matchLiteral (c :: cs) with
    | some (hex, rest) => do
      let a ← replaceLiteral hex
      let b ← decodeAux fuel rest
      pure (a ++ b)
    | none => do
      let b ← decodeAux fuel cs
      pure (c :: b)

/-- dictionarybuilder.py:306-313 `decode`. -/
def decodeText (s : PStr) : Res PStr := decodeAux s.length s

/-- `[self.decode(col) for col in cols]`. -/
def decodeCols : List PStr → Res (List PStr)
  | [] => .ok []
  | s :: ss => do
    let a ← decodeText s
    let b ← decodeCols ss
    pure (a :: b)

/-- dictionarybuilder.py:335-337 `__is_id`: `re.match(r'U?\d+$', text)` (`$` also matches before a final newline). -/
def isId (text : PStr) : Bool :=
  let t := match text with
    | 85 :: r => r
    | r => r
  !(t.takeWhile (fun c => (digitVal c).isSome)).isEmpty &&
    (t.dropWhile (fun c => (digitVal c).isSome) == [] || t.dropWhile (fun c => (digitVal c).isSome) == [10])

end Sudachi
