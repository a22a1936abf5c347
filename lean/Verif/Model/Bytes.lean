/-
Bytes as the dictionary code uses them: `int.to_bytes`/`from_bytes`, `struct`, the codecs, `BytesIO` and `mmap`;
sudachipy/dictionarylib/jtypedbytebuffer.py
-/
import Verif.Model.InputText
namespace Sudachi

/-- The `n` low bytes of `v`, least significant first. -/
def leBytes : Nat → Nat → Bytes
  | 0, _ => []
  | n + 1, v => v % 256 :: leBytes n (v / 256)

/-- `int.from_bytes(b, 'little')` (of as many bytes as there are: `from_bytes(b'')` is 0). -/
def fromLe : Bytes → Nat
  | [] => 0
  | b :: bs => b + 256 * fromLe bs

/-- `int.from_bytes(b, 'little', signed=True)`. -/
def fromLeSigned (b : Bytes) : Int :=
  if 2 ^ (8 * b.length) ≤ 2 * fromLe b then (fromLe b : Int) - 2 ^ (8 * b.length) else fromLe b

/-- `v.to_bytes(n, 'little', signed=signed)`: `OverflowError` if it does not fit. -/
def toBytes (n : Nat) (signed : Bool) (v : Int) : Res Bytes :=
  if signed then
    if -(2 ^ (8 * n)) ≤ 2 * v ∧ 2 * v < 2 ^ (8 * n) then .ok (leBytes n (v % 2 ^ (8 * n)).toNat) else .error .overflow
  else
    if 0 ≤ v ∧ v < 2 ^ (8 * n) then .ok (leBytes n v.toNat) else .error .overflow

/-- The type names of `write_int`. -/
inductive IntType
  | byte | int | char | short | long
  deriving DecidableEq, Repr

/-- jtypedbytebuffer.py:29-44 `write_int`: the bytes written.  (The `ValueError` for other type names cannot happen.) -/
def writeInt (v : Int) (ty : IntType) (signed : Bool := true) : Res Bytes :=
  match ty with
  | .byte => toBytes 1 false v
  | .int => toBytes 4 signed v
  | .char => toBytes 2 false v
  | .short => toBytes 2 signed v
  | .long => toBytes 8 signed v

/-- The UTF-16 code units of a code point above 0xFFFF: `[high surrogate, low surrogate]`; otherwise itself. -/
def utf16Units (c : Nat) : List Nat :=
  if c < 0x10000 then [c] else [0xD800 + (c - 0x10000) / 1024, 0xDC00 + (c - 0x10000) % 1024]

/-- `text.encode('utf-16-le')` (jtypedbytebuffer.py:46-47 `write_str`): `UnicodeEncodeError` on surrogates. -/
def encodeUtf16 (s : PStr) : Res Bytes :=
  if s.all encodable then .ok ((s.flatMap utf16Units).flatMap (leBytes 2)) else .error .unicode

/-- The 16-bit units of bytes, two at a time; a trailing single byte cannot be decoded. -/
def unitsLe : Bytes → Res (List Nat)
  | [] => .ok []
  | [_] => .error .unicode
  | a :: b :: r => do
    let us ← unitsLe r
    pure ((a + 256 * b) :: us)

/-- The 16-bit units of bytes in big-endian order. -/
def unitsBe : Bytes → Res (List Nat)
  | [] => .ok []
  | [_] => .error .unicode
  | a :: b :: r => do
    let us ← unitsBe r
    pure ((256 * a + b) :: us)

/-- Strict UTF-16 decoding of units: surrogates must come in pairs, high first. -/
def decodeUnits : List Nat → Res PStr
  | [] => .ok []
  | u :: us =>
    if u < 0xD800 ∨ 0xDFFF < u then do
      let r ← decodeUnits us
      pure (u :: r)
    else
      match us with
      | [] => .error .unicode
      | v :: vs =>
        if u ≤ 0xDBFF ∧ 0xDC00 ≤ v ∧ v ≤ 0xDFFF then do
          let r ← decodeUnits vs
          pure ((0x10000 + (u - 0xD800) * 1024 + (v - 0xDC00)) :: r)
        else .error .unicode

/-- `b.decode('utf-16-le')`. -/
def decodeUtf16Le (b : Bytes) : Res PStr := do
  let us ← unitsLe b
  decodeUnits us

/-- `b.decode('utf-16')`: a byte-order mark at the start selects the byte order and is dropped; without one the order is
that of the machine (taken to be little-endian). -/
def decodeUtf16 (b : Bytes) : Res PStr :=
  match b with
  | 0xFF :: 0xFE :: r => decodeUtf16Le r
  | 0xFE :: 0xFF :: r => do
    let us ← unitsBe r
    decodeUnits us
  | _ => decodeUtf16Le b

/-- A UTF-8 continuation byte. -/
def isCont (b : Nat) : Bool := decide (0x80 ≤ b) && decide (b ≤ 0xBF)

/-- `b.decode('utf-8')` (strict: no overlong forms, no surrogates, nothing above 0x10FFFF; RFC 3629). -/
def decodeUtf8 : Bytes → Res PStr
  | [] => .ok []
  | a :: r =>
    if a ≤ 0x7F then do
      let s ← decodeUtf8 r
      pure (a :: s)
    else if 0xC2 ≤ a ∧ a ≤ 0xDF then
      match r with
      | b :: r' =>
        if isCont b then do
          let s ← decodeUtf8 r'
          pure (((a - 0xC0) * 64 + (b - 0x80)) :: s)
        else .error .unicode
      | _ => .error .unicode
    else if 0xE0 ≤ a ∧ a ≤ 0xEF then
      match r with
      | b :: c :: r' =>
        let v := (a - 0xE0) * 4096 + (b - 0x80) * 64 + (c - 0x80)
        if isCont b && isCont c && decide (0x800 ≤ v) && !(decide (0xD800 ≤ v) && decide (v ≤ 0xDFFF)) then do
          let s ← decodeUtf8 r'
          pure (v :: s)
        else .error .unicode
      | _ => .error .unicode
    else if 0xF0 ≤ a ∧ a ≤ 0xF4 then
      match r with
      | b :: c :: d :: r' =>
        let v := (a - 0xF0) * 262144 + (b - 0x80) * 4096 + (c - 0x80) * 64 + (d - 0x80)
        if isCont b && isCont c && isCont d && decide (0x10000 ≤ v) && decide (v ≤ 0x10FFFF) then do
          let s ← decodeUtf8 r'
          pure (v :: s)
        else .error .unicode
      | _ => .error .unicode
    else .error .unicode

/-- A seekable byte stream open for writing: `BytesIO` (jtypedbytebuffer.py:18) or a file opened with mode `wb`
(command_line.py:111, 122). -/
structure Stream where
  data : Bytes
  pos : Nat
  deriving DecidableEq, Repr

namespace Stream

/-- An empty stream. -/
def empty : Stream := ⟨[], 0⟩

/-- `write`: overwrites from the position on; a gap after the end is filled with zeros (not by an empty write). -/
def write (s : Stream) (b : Bytes) : Stream :=
  if b.isEmpty then s
  else ⟨(s.data ++ List.replicate (s.pos - s.data.length) 0).take s.pos ++ b ++ s.data.drop (s.pos + b.length), s.pos + b.length⟩

/-- `seek(p)`: `ValueError` for a negative position. -/
def seek (s : Stream) (p : Int) : Res Stream :=
  if p < 0 then .error .value else .ok { s with pos := p.toNat }

/-- `read()`: the bytes from the position to the end. -/
def read (s : Stream) : Bytes := s.data.drop s.pos

end Stream

/-- `mmap.seek(i)`: `ValueError` beyond the end of the map. -/
def mSeek (b : Bytes) (i : Nat) : Res Nat := if i ≤ b.length then .ok i else .error .value

/-- `mmap.read(n)` at position `i`: at most `n` bytes; the new position. -/
def mRead (b : Bytes) (i n : Nat) : Bytes × Nat := (pySlice b i (i + n), min (i + n) (max i b.length))

/-- `mmap.read_byte()` at position `i`: `ValueError` at the end of the map. -/
def mReadByte (b : Bytes) (i : Nat) : Res (Nat × Nat) :=
  match b[i]? with
  | some x => .ok (x, i + 1)
  | none => .error .value

end Sudachi
