/-
What the command `tokenize` reads and writes.
-/
import Verif.Model.TokenizeCommand
import Verif.Spec.Commands
import Verif.Spec.Dump
import Verif.Spec.TextStream
namespace Sudachi

/-- The lines of the files, one after another; `-` is the standard input, of which nothing is left after it was read. -/
inductive InputIs (M : Disk) : List PStr × Res Unit → List PStr → List PStr → Prop
  | nil {stdin : List PStr × Res Unit} : InputIs M stdin [] []
  | stdin {ls files lines : List PStr} : InputIs M ([], .ok ()) files lines → InputIs M (ls, .ok ()) (lit "-" :: files) (ls ++ lines)
  | file {stdin : List PStr × Res Unit} {p : PStr} {ls files lines : List PStr} : p ≠ lit "-" → M.HasLines p ls →
      InputIs M stdin files lines → InputIs M stdin (p :: files) (ls ++ lines)

/-- Reading the files fails with the exception `e` after these lines. -/
inductive InputFails (M : Disk) : List PStr × Res Unit → List PStr → List PStr → Err → Prop
  | stdin {ls files : List PStr} {e : Err} : InputFails M (ls, .error e) (lit "-" :: files) ls e
  | afterStdin {ls files lines : List PStr} {e : Err} : InputFails M ([], .ok ()) files lines e →
      InputFails M (ls, .ok ()) (lit "-" :: files) (ls ++ lines) e
  | absent {stdin : List PStr × Res Unit} {p : PStr} {files : List PStr} {e : Err} : p ≠ lit "-" → M.file p = .error e →
      InputFails M stdin (p :: files) [] e
  | notText {stdin : List PStr × Res Unit} {p : PStr} {ls files : List PStr} {b : Bytes} : p ≠ lit "-" → M.file p = .ok b →
      LinesUpTo 8192 b ls → InputFails M stdin (p :: files) ls .unicode
  | afterFile {stdin : List PStr × Res Unit} {p : PStr} {ls files lines : List PStr} {e : Err} : p ≠ lit "-" → M.HasLines p ls →
      InputFails M stdin files lines e → InputFails M stdin (p :: files) (ls ++ lines) e

/-- The files that are read: without any, the standard input. -/
def TokenizeArgs.Files (a : TokenizeArgs) (files : List PStr) : Prop :=
  (a.inFiles = [] ∧ files = [lit "-"]) ∨ (a.inFiles ≠ [] ∧ files = a.inFiles)

/-- The mode of `-m`: any other argument than `A` and `B` is mode C. -/
def TokenizeArgs.InMode (a : TokenizeArgs) (mode : Mode) : Prop :=
  (a.mode = lit "A" ∧ mode = .A) ∨ (a.mode = lit "B" ∧ mode = .B) ∨ (a.mode ≠ lit "A" ∧ a.mode ≠ lit "B" ∧ mode = .C)

/-- Lines written one by one in an encoding, each with a newline; those that cannot be written are lost. -/
inductive Written (encode : PStr → Res Bytes) : List PStr → Bytes → Prop
  | nil : Written encode [] []
  | line {l : PStr} {ls : List PStr} {b bs : Bytes} : encode (l ++ lit "\n") = .ok b → Written encode ls bs → Written encode (l :: ls) (b ++ bs)
  | lost {l : PStr} {ls : List PStr} {e : Err} {bs : Bytes} : encode (l ++ lit "\n") = .error e → Written encode ls bs → Written encode (l :: ls) bs

/-- The output goes to a file. -/
def TokenizeArgs.ToFile (a : TokenizeArgs) (p : PStr) : Prop := a.out = some p ∧ p ≠ []

/-- The output goes to the standard output. -/
def TokenizeArgs.ToStdout (a : TokenizeArgs) : Prop := a.out = none ∨ a.out = some []

/-- The machine on which dictionaries and input are read: the output file has been emptied before. -/
def Terminal.Starts (S : Terminal) (a : TokenizeArgs) (M : Shell) : Prop :=
  (a.ToStdout ∧ M = S.toShell) ∨ ∃ p, a.ToFile p ∧ S.opens p = .ok () ∧ M = S.put p []

/-- The lines that are left, on the standard output or in the output file; nothing else is changed. -/
def Terminal.Leaves (S : Terminal) (a : TokenizeArgs) (lines : List PStr) (o : Outcome) : Prop :=
  (a.ToStdout ∧ o.shell = S.toShell ∧ Written S.encode lines o.stdout) ∨
  ∃ p, a.ToFile p ∧ o.stdout = [] ∧ S.SameBut o.shell p ∧ o.shell.present p = true ∧
    ∃ bytes, Written encodeUtf8 lines bytes ∧ o.shell.file p = .ok bytes

/-- The lines printed for lines of input, with or without dumps. -/
def TokenizeArgs.Prints (a : TokenizeArgs) (T : Tokenizer) (g : Grammar) (mode : Mode) (input out : List PStr) : Prop :=
  ∃ blocks, BlocksOf T g mode a.all input blocks ∧
    ((a.dump = false ∧ out = blocks.flatten) ∨
     (a.dump = true ∧ ∃ dumps, DumpsOf T g mode input dumps ∧ out = (List.zipWith (· ++ ·) dumps blocks).flatten))

/-- The matrix of connection costs is not empty. -/
def Dict.HasCells (d : Dict) : Prop := 0 < d.grammar.left ∧ 0 < d.grammar.right

/-- The command has something to do and can do all of it: the input files exist, the output file can be opened, and then the
dictionary can be opened and has connection costs, the files have these lines, and `out` is printed for them. -/
def Terminal.Runs (R : Runtime) (S : Terminal) (a : TokenizeArgs) (input out : List PStr) : Prop :=
  S.AllPresent a.inFiles ∧ ∃ M s cfg dict files mode, S.Starts a M ∧
    openDictionary R M.toDisk Settings.init a.setting none a.dictType = (s, .ok (cfg, dict)) ∧ dict.HasCells ∧
    a.Files files ∧ InputIs M.toDisk S.stdin files input ∧ a.InMode mode ∧ a.Prints (create cfg dict none) dict.grammar mode input out

end Sudachi
