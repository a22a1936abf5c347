/-
`csv.reader` with its default dialect, as dictionarybuilder.py:93 uses it on the lines of a source file.  The state machine is
that of CPython 3.11 (Modules/_csv.c `parse_process_char`, `Reader_iternext`): delimiter `,`, quote `"`, doubled quotes, no
escape character, not strict.  (Up to 3.10 a line with a NUL character is an error.)
-/
import Verif.Model.Definitions
namespace Sudachi

/-- The states of the reader. -/
inductive CsvState
  | startRecord | startField | inField | inQuotedField | quoteInQuotedField | eatCrnl
  deriving DecidableEq, Repr

/-- The reader: the fields of the record that are complete, the field being read. -/
structure CsvReader where
  state : CsvState
  fields : List PStr
  field : PStr
  deriving DecidableEq, Repr

namespace CsvReader

/-- `csv.field_size_limit()`. -/
def fieldLimit : Nat := 131072

/-- `parse_reset`. -/
def reset : CsvReader := ⟨.startRecord, [], []⟩

/-- `parse_add_char`: `_csv.Error` for a field that is too long. -/
def addChar (r : CsvReader) (c : Nat) : Res CsvReader :=
  if r.field.length ≥ fieldLimit then .error .exception else .ok { r with field := r.field ++ [c] }

/-- `parse_save_field`. -/
def saveField (r : CsvReader) : CsvReader := { r with fields := r.fields ++ [r.field], field := [] }

/-- The state after the end of a record: `none` is the end of a line. -/
def afterRecord : Option Nat → CsvState
  | none => .startRecord
  | some _ => .eatCrnl

/-- A line break, or the end of a line. -/
def isEol : Option Nat → Bool
  | none => true
  | some c => c == 10 || c == 13

/-- `parse_process_char`, case `START_FIELD`. -/
def stepField (r : CsvReader) (c : Option Nat) : Res CsvReader :=
  if isEol c then .ok { r.saveField with state := afterRecord c }
  else
    match c with
    | none => .ok r
    | some c =>
      if c = 34 then .ok { r with state := .inQuotedField }
      else if c = 44 then .ok r.saveField
      else ({ r with state := .inField } : CsvReader).addChar c

/-- `parse_process_char`; `none` is the end of a line. -/
def step (r : CsvReader) (c : Option Nat) : Res CsvReader :=
  match r.state with
  | .startRecord =>
    match c with
    | none => .ok r
    | some x =>
      if x = 10 ∨ x = 13 then .ok { r with state := .eatCrnl } else ({ r with state := .startField } : CsvReader).stepField c
  | .startField => r.stepField c
  | .inField =>
    if isEol c then .ok { r.saveField with state := afterRecord c }
    else
      match c with
      | none => .ok r
      | some c => if c = 44 then .ok { r.saveField with state := .startField } else r.addChar c
  | .inQuotedField =>
    match c with
    | none => .ok r
    | some c => if c = 34 then .ok { r with state := .quoteInQuotedField } else r.addChar c
  | .quoteInQuotedField =>
    if isEol c then .ok { r.saveField with state := afterRecord c }
    else
      match c with
      | none => .ok r
      | some c =>
        if c = 34 then ({ r with state := .inQuotedField } : CsvReader).addChar 34
        else if c = 44 then .ok { r.saveField with state := .startField }
        else ({ r with state := .inField } : CsvReader).addChar c
  | .eatCrnl =>
    match c with
    | none => .ok { r with state := .startRecord }
    | some c => if c = 10 ∨ c = 13 then .ok r else .error .exception

/-- The characters of a line, then its end. -/
def line (r : CsvReader) : PStr → Res CsvReader
  | [] => r.step none
  | c :: cs => do
    let r' ← r.step (some c)
    r'.line cs

/-- `Reader_iternext`, repeated: the rows, and whether reading ended with an exception.  A record goes on in the next line as
long as a quoted field is open; at the end of the input an open field ends. -/
def rows (r : CsvReader) : List PStr → List (List PStr) × Res Unit
  | [] => if r.field ≠ [] ∨ r.state = .inQuotedField then ([r.saveField.fields], .ok ()) else ([], .ok ())
  | l :: ls =>
    match r.line l with
    | .error e => ([], .error e)
    | .ok r' => if r'.state = .startRecord then (r'.fields :: (rows reset ls).1, (rows reset ls).2) else r'.rows ls

/-- The same when the lines end with an exception: a record that is not complete is lost. -/
def rowsBefore (r : CsvReader) (e : Err) : List PStr → List (List PStr) × Res Unit
  | [] => ([], .error e)
  | l :: ls =>
    match r.line l with
    | .error e' => ([], .error e')
    | .ok r' => if r'.state = .startRecord then (r'.fields :: (rowsBefore reset e ls).1, (rowsBefore reset e ls).2) else r'.rowsBefore e ls

end CsvReader

/-- `csv.reader(lines)`. -/
def csvRows (lines : List PStr) : List (List PStr) × Res Unit := CsvReader.reset.rows lines

/-- `csv.reader(f)` of a file whose lines may end with an exception. -/
def csvStream : List PStr × Res Unit → List (List PStr) × Res Unit
  | (lines, .ok ()) => csvRows lines
  | (lines, .error e) => CsvReader.reset.rowsBefore e lines

end Sudachi
