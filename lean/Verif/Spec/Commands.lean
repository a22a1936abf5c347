/-
What the commands `build` and `ubuild` start from.
-/
import Verif.Model.Commands
import Verif.Spec.Csv
import Verif.Spec.Open
import Verif.Spec.Loads
namespace Sudachi

/-- The CSV reader reads these rows in the file, without an error. -/
def Disk.HasRows (M : Disk) (path : PStr) (rows : List (List PStr)) : Prop :=
  ∃ ls, M.HasLines path ls ∧ csvRows ls = (rows, .ok ())

/-- The file is a table of these rows, written as CSV in UTF-8. -/
def Disk.IsTable (M : Disk) (path : PStr) (rows : List (List PStr)) : Prop :=
  ∃ b text ls, M.file path = .ok b ∧ encodeUtf8 text = .ok b ∧ Lines text ls ∧ CsvText rows ls.flatten ∧
    ∀ row ∈ rows, ∀ f ∈ row, f.length ≤ 131072

/-- The file is a definition of connection costs: a first line and further lines, in the locale's encoding. -/
def Shell.IsMatrix (S : Shell) (path : PStr) (header : PStr) (lines : List PStr) : Prop :=
  ∃ b text ls, S.file path = .ok b ∧ S.decode b = .ok text ∧ Lines text ls ∧
    ((ls = [] ∧ header = [] ∧ lines = []) ∨ ls = header :: lines)

/-- All the files exist. -/
def Shell.AllPresent (S : Shell) (paths : List PStr) : Prop := ∀ p ∈ paths, S.present p = true

/-- Nothing but the file `path` differs. -/
structure Shell.SameBut (S S' : Shell) (path : PStr) : Prop where
  machine : S'.toMachine = S.toMachine
  resources : S'.resources = S.resources
  file : ∀ p, p ≠ path → S'.file p = S.file p
  present : ∀ p, p ≠ path → S'.present p = S.present p
  opens : S'.opens = S.opens
  decode : S'.decode = S.decode
  headLine : S'.headLine = S.headLine
  time : S'.time = S.time

/-- The system dictionary that `ubuild` builds against: the one named, or without a name the one of the package's settings. -/
def Shell.Against (S : Shell) (name : Option PStr) (path : PStr) : Prop :=
  (name = some path ∧ path ≠ []) ∨
    ((name = none ∨ name = some []) ∧ ∃ s, Settings.init.setUp S.toMachine none none none = (s, .ok ()) ∧ s.systemDictPath = .ok path)

/-- The file was made with `build`, from tables and a matrix in other files, which are together this source. -/
def Disk.BuiltSystem (M : Disk) (D : Darts) (path : PStr) (src : DictSource) : Prop :=
  ∃ S S' m ins description header lines tables, commandBuild D S m ins path description = (S', .done) ∧ M.file path = S'.file path ∧
    S.IsMatrix m header lines ∧ Each S.toDisk.IsTable ins tables ∧ path ∉ m :: ins ∧
    src = ⟨⟨SYSTEM_DICT_VERSION_2, S.time, description⟩, tables.flatten, some (header, lines)⟩

/-- The file was made with `ubuild` against the system dictionary, from tables in other files, which are together this source. -/
def Disk.BuiltUser (M : Disk) (D : Darts) (depth : Nat) (system path : PStr) (src : DictSource) : Prop :=
  ∃ S S' name ins description tables, commandUserBuild D depth S name ins path description = (S', .done) ∧ S.Against name system ∧
    S.file system = M.file system ∧ M.file path = S'.file path ∧ Each S.toDisk.IsTable ins tables ∧ path ∉ system :: ins ∧
    src = ⟨⟨USER_DICT_VERSION_3, S.time, description⟩, tables.flatten, none⟩

end Sudachi
