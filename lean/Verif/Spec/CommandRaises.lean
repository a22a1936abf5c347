/-
Which exception ends the commands `build` and `ubuild`.
-/
import Verif.Spec.Commands
import Verif.Spec.CsvBroken
import Verif.Spec.BuildRaises
import Verif.Spec.Raises
namespace Sudachi

/-- The rows that the CSV reader gives from a source file, and how reading ends.  If the file is not UTF-8, there are the rows that are
certain with the lines that can be read. -/
def Disk.RowsEnd (M : Disk) (path : PStr) (rows : List (List PStr)) (ended : Res Unit) : Prop :=
  ∃ b, M.file path = .ok b ∧ ((∃ ls, textLines b = .ok ls ∧ csvRows ls = (rows, ended)) ∨
    ∃ ls, LinesUpTo 8192 b ls ∧ Settled ls rows ∧
      (((csvRows ls).2 = ended ∧ ended ≠ .ok ()) ∨ (csvRows ls).2 = .ok () ∧ ended = .error .unicode))

/-- Rows without an error. -/
def RowsPass (rows : List (List PStr)) : Prop := ∀ e, ¬ Fails (rows.flatMap rowChecks) e

/-- The source files are read in order; the rows are checked as they are read. -/
def Disk.SourcesFail (M : Disk) (ins : List PStr) (e : Err) : Prop :=
  ∃ pre p post tables, ins = pre ++ p :: post ∧ Each M.HasRows pre tables ∧ RowsPass tables.flatten ∧
    (M.file p = .error e ∨
     ∃ rows ended, M.RowsEnd p rows ended ∧ (Fails (rows.flatMap rowChecks) e ∨ RowsPass rows ∧ ended = .error e))

/-- What is checked of a matrix that cannot be decoded, before this is seen: its first line, if that can be read. -/
def headChecks : Option PStr → List Check
  | none => []
  | some h => matrixChecks (some (h, []))

/-- A build from files: the header is written, the sources are read; if the matrix is no text this is seen after the parts of speech
have been written, and after the matrix's first line if that can be read. -/
def BuildFromFails (D : Darts) (sys : Option SysDict) (header : Header) (M : Disk) (ins : List PStr)
    (matrix : MatrixInput) : Err → Prop :=
  Next (fun _ : Unit => ∀ e, ¬ Fails header.checks e) (Fails header.checks) fun _ =>
  Next (fun tables => Each M.HasRows ins tables ∧ RowsPass tables.flatten) (M.SourcesFail ins) fun tables e =>
    (∃ m, matrix = .ok m ∧ ((DictBuilder.init sys).build D header tables.flatten m).2 = .error e) ∨
    ∃ h x cs, matrix = .error (h, x) ∧ RowsRead tables.flatten cs ∧
      Fails (posChecks (ownPos (sysPos sys) [] (cs.map Cols.pos)) ++ headChecks h ++ [(x, True)]) e

/-- `build`: the output file is opened, and emptied; then the matrix is opened. -/
def Shell.BuildFails (S : Shell) (D : Darts) (m : PStr) (ins : List PStr) (out description : PStr) (e : Err) : Prop :=
  S.present m = true ∧ S.AllPresent ins ∧
  Next (fun _ : Unit => S.opens out = .ok ()) (fun e => S.opens out = .error e) (fun _ =>
  Next (fun b => (S.put out []).file m = .ok b) (fun e => (S.put out []).file m = .error e) fun b =>
  BuildFromFails D none ⟨SYSTEM_DICT_VERSION_2, S.time, description⟩ (S.put out []).toDisk ins
    (match S.decode b with
     | .ok text => .ok (some (headAndRest (linesAux [] text)))
     | .error e => .error (S.headLine b, e))) e

/-- No system dictionary for `ubuild` is named, and the settings of the package do not give one. -/
def Shell.AgainstFails (S : Shell) (name : Option PStr) (e : Err) : Prop :=
  (name = none ∨ name = some []) ∧ ∃ s, Settings.init.setUp S.toMachine none none none = (s, .error e) ∨
    Settings.init.setUp S.toMachine none none none = (s, .ok ()) ∧ s.systemDictPath = .error e

/-- `ubuild`: the system dictionary is read before the output file is opened. -/
def Shell.UserBuildFails (S : Shell) (D : Darts) (depth : Nat) (system : Option PStr) (ins : List PStr) (out description : PStr) (e : Err) : Prop :=
  Next (S.Against system) (S.AgainstFails system) (fun path e =>
    S.present path = true ∧ S.AllPresent ins ∧
    Next (fun b => S.file path = .ok b) (fun e => S.file path = .error e) (fun b =>
    Next (fun d => fromSystemDictionary b = .ok d) (fun e => fromSystemDictionary b = .error e) fun d =>
    Next (fun _ : Unit => S.opens out = .ok ()) (fun e => S.opens out = .error e) fun _ =>
    BuildFromFails D (some (d.toSysDict D depth)) ⟨USER_DICT_VERSION_3, S.time, description⟩ (S.put out []).toDisk ins (.ok none)) e) e

end Sudachi
