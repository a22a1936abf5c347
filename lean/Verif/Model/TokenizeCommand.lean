/-
sudachipy/command_line.py: the command `tokenize`

Left out: usage messages, output devices that fail.  An input file is read as it was when the command had opened its output file (an
output file that is also an input file after others would be read while it grows).
-/
import Verif.Model.Commands
import Verif.Model.Dump
import Verif.Model.TextStream
namespace Sudachi

/-- The machine with its standard streams: the lines of the standard input and how reading them ends, the encoding of the standard
output. -/
structure Terminal extends Shell where
  stdin : List PStr × Res Unit
  encode : PStr → Res Bytes

/-- command_line.py:179-188: the arguments. -/
structure TokenizeArgs where
  version : Bool
  inFiles : List PStr
  mode : PStr
  out : Option PStr
  setting : Option PStr
  dictType : Option PStr
  all : Bool
  dump : Bool

/-- What a command leaves: the machine, what it wrote to the standard output, and how it ended. -/
structure Outcome where
  shell : Shell
  stdout : Bytes
  ended : Ended

/-- `logging.StreamHandler.emit` for some lines: each is written with a newline; one that cannot be encoded is left out (with a
message on the standard error). -/
def logLines (encode : PStr → Res Bytes) : List PStr → Bytes
  | [] => []
  | l :: ls =>
    match encode (l ++ [10]) with
    | .ok b => b ++ logLines encode ls
    | .error _ => logLines encode ls

/-- `fileinput.input(files, openhook=hook_encoded("utf-8"))`: the lines of the files one after another, and how reading them ends;
`-` is the standard input, which is read once. -/
def inputLines (M : Disk) (stdin : List PStr × Res Unit) : List PStr → List PStr × Res Unit
  | [] => ([], .ok ())
  | p :: ps =>
    if p = [45] then
      match stdin with
      | (ls, .error e) => (ls, .error e)
      | (ls, .ok ()) => (ls ++ (inputLines M ([], .ok ()) ps).1, (inputLines M ([], .ok ()) ps).2)
    else
      match M.file p with
      | .error e => ([], .error e)
      | .ok b =>
        match streamLines b with
        | (ls, .error e) => (ls, .error e)
        | (ls, .ok ()) => (ls ++ (inputLines M stdin ps).1, (inputLines M stdin ps).2)

/-- `fileinput.input` without files reads the standard input. -/
def inputOf (M : Disk) (stdin : List PStr × Res Unit) (files : List PStr) : List PStr × Res Unit :=
  if files.isEmpty then inputLines M stdin [[45]] else inputLines M stdin files

/-- command_line.py:155-162 with 60-77: the lines printed and how it ends.  The lines are read while they are analysed. -/
def runInput (R : Runtime) (M : Disk) (stdin : List PStr × Res Unit) (a : TokenizeArgs) : List PStr × Ended :=
  match openDictionary R M Settings.init a.setting none a.dictType with
  | (_, .error e) => ([], .raised e)
  | (_, .ok (cfg, dict)) =>
    match createTokenizer cfg dict none with
    | .error e => ([], .raised e)
    | .ok T =>
      let input := inputOf M stdin a.inFiles
      match (if a.dump then runDump else runLines) T dict.grammar (modeArg a.mode) a.all Lattice.init input.1 with
      | (out, .error e) => (out, .raised e)
      | (out, .ok ()) => (out, .of input.2)

/-- command_line.py:128-165 `_command_tokenize` with 90-95 and 168-169. -/
def commandTokenize (R : Runtime) (S : Terminal) (version : PStr) (a : TokenizeArgs) : Outcome :=
  if a.version then
    match S.encode ([115, 117, 100, 97, 99, 104, 105, 112, 121, 32] ++ version ++ [10]) with
    | .ok b => ⟨S.toShell, b, .done⟩
    | .error e => ⟨S.toShell, [], .raised e⟩
  else if !a.inFiles.all S.present then ⟨S.toShell, [], .exit 1⟩
  else
    match a.out with
    | some (c :: p) =>
      match S.opens (c :: p) with
      | .error e => ⟨S.toShell, [], .raised e⟩
      | .ok () =>
        let r := runInput R (S.put (c :: p) []).toDisk S.stdin a
        ⟨S.put (c :: p) (logLines encodeUtf8 r.1), [], r.2⟩
    | _ =>
      let r := runInput R S.toDisk S.stdin a
      ⟨S.toShell, logLines S.encode r.1, r.2⟩

end Sudachi
