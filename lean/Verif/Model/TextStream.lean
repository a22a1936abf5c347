/-
Text files read line by line: `io.TextIOWrapper` with the encoding UTF-8 and universal newlines, as `fileinput` opens the input of
`tokenize` (command_line.py:161).

The standard library reads a file in pieces of 8192 bytes.  A decoder keeps the bytes of a character that is not complete at the end of
a piece, and a carriage return at the end of the text so far; both are written here as machines that take one byte and one character at
a time.  A piece with bytes that cannot be decoded raises before any line that ends in it is given out.
-/
import Verif.Model.Bytes
namespace Sudachi

/-- The incremental UTF-8 decoder: the bytes kept and the next byte give a character or more bytes to keep. -/
def stepByte (held : Bytes) (x : Nat) : Res (Option Nat × Bytes) :=
  match held with
  | [] =>
    if x ≤ 0x7F then .ok (some x, [])
    else if 0xC2 ≤ x ∧ x ≤ 0xF4 then .ok (none, [x])
    else .error .unicode
  | [a] =>
    if !isCont x then .error .unicode
    else if a ≤ 0xDF then .ok (some ((a - 0xC0) * 64 + (x - 0x80)), [])
    else if (a = 0xE0 ∧ x < 0xA0) ∨ (a = 0xED ∧ 0xA0 ≤ x) ∨ (a = 0xF0 ∧ x < 0x90) ∨ (a = 0xF4 ∧ 0x90 ≤ x) then .error .unicode
    else .ok (none, [a, x])
  | [a, b] =>
    if !isCont x then .error .unicode
    else if a ≤ 0xEF then .ok (some ((a - 0xE0) * 4096 + (b - 0x80) * 64 + (x - 0x80)), [])
    else .ok (none, [a, b, x])
  | a :: b :: c :: _ =>
    if !isCont x then .error .unicode
    else .ok (some ((a - 0xF0) * 262144 + (b - 0x80) * 4096 + (c - 0x80) * 64 + (x - 0x80)), [])

/-- A piece: the characters, and the bytes kept. -/
def decodePiece : Bytes → Bytes → Res (PStr × Bytes)
  | held, [] => .ok ([], held)
  | held, x :: xs =>
    match stepByte held x with
    | .error e => .error e
    | .ok (c, held') =>
      match decodePiece held' xs with
      | .error e => .error e
      | .ok (cs, held'') => .ok ((match c with | some c => c :: cs | none => cs), held'')

/-- The text after the last line that is complete; `cr`: it is followed by a carriage return that is kept. -/
structure LineState where
  cur : PStr
  cr : Bool

/-- The next characters of a text: the lines that they complete. -/
def feedText : LineState → PStr → List PStr × LineState
  | s, [] => ([], s)
  | s, c :: cs =>
    if s.cr then
      let next := feedText (if c = 10 then ⟨[], false⟩ else if c = 13 then ⟨[], true⟩ else ⟨[c], false⟩) cs
      ((s.cur ++ [10]) :: next.1, next.2)
    else if c = 10 then
      let next := feedText ⟨[], false⟩ cs
      ((s.cur ++ [10]) :: next.1, next.2)
    else if c = 13 then feedText ⟨s.cur, true⟩ cs
    else feedText ⟨s.cur ++ [c], false⟩ cs

/-- The last line, at the end of the file. -/
def LineState.last (s : LineState) : List PStr :=
  if s.cr then [s.cur ++ [10]] else if s.cur.isEmpty then [] else [s.cur]

/-- The lines of the pieces of a file, and how reading them ends.  At the end of the file no bytes may be left. -/
def readPieces : Bytes → LineState → List Bytes → List PStr × Res Unit
  | held, s, [] => if held.isEmpty then (s.last, .ok ()) else ([], .error .unicode)
  | held, s, p :: ps =>
    match decodePiece held p with
    | .error e => ([], .error e)
    | .ok (text, held') =>
      let now := feedText s text
      let next := readPieces held' now.2 ps
      (now.1 ++ next.1, next.2)

/-- The pieces of a file: `size` bytes each, but the last. -/
def piecesAux (size : Nat) : Nat → Bytes → List Bytes
  | 0, _ => []
  | n + 1, b => if b.isEmpty then [] else b.take size :: piecesAux size n (b.drop size)

/-- `TextIOWrapper._CHUNK_SIZE`. -/
def CHUNK_SIZE : Nat := 8192

/-- The lines of a text file, and how reading them ends. -/
def streamLines (b : Bytes) : List PStr × Res Unit :=
  readPieces [] ⟨[], false⟩ (piecesAux CHUNK_SIZE b.length b)

end Sudachi
