/-
sudachipy/command_line.py: the commands `build` and `ubuild`

Left out: `argparse` (the arguments are taken as parsed), the usage and log messages, an output device that fails or fills up.
-/
import Verif.Model.Builder
import Verif.Model.Csv
import Verif.Model.Open
namespace Sudachi

/-- The machine as a command sees it.  `present` is `os.path.exists`; `opens` is the exception of opening a file for writing, if
there is one (a file that can be written is an ordinary file that can be read afterwards, and different paths are different
files); `decode` is the locale's text encoding, and `headLine` the first line of a file that cannot be decoded, if `readline` returns it
(the text is decoded piece by piece, so the bytes at fault may not have been read by then); `time` is `int(time.time())`.  Setting files
are not among those written. -/
structure Shell extends Disk where
  present : PStr → Bool
  opens : PStr → Res Unit
  decode : Bytes → Res PStr
  headLine : Bytes → Option PStr
  time : Int

/-- The machine after a file was written. -/
def Shell.put (S : Shell) (path : PStr) (b : Bytes) : Shell :=
  { S with file := fun p => if p = path then .ok b else S.file p
           present := fun p => if p = path then true else S.present p }

/-- How a command ends: normally, with `exit`, or with an exception. -/
inductive Ended
  | done
  | exit (code : Nat)
  | raised (e : Err)
  deriving DecidableEq, Repr

/-- The end of something that may raise. -/
def Ended.of : Res Unit → Ended
  | .ok () => .done
  | .error e => .raised e

/-- What `open(args.matrix_file, 'r')` gives with `readline()` and then `readlines()`: the first line and the others, or the first line, if
it can be read, and the exception. -/
abbrev MatrixInput := Except (Option PStr × Err) (Option (PStr × List PStr))

/-- dictionarybuilder.py:192-203 `convert_matrix` of a file that cannot be decoded: the exception is that of `readline()`, or that of the
header, or that of `readlines()`. -/
def unreadMatrix (header : Option PStr) (e : Err) : Err :=
  match header with
  | none => e
  | some h =>
    match convertMatrix h [] with
    | .error x => x
    | .ok _ => e

namespace DictBuilder

/-- dictionarybuilder.py:90-103 `build_lexicon` on an open file, whose lines may end with an exception: the rows are added while
they are read. -/
def addLines (db : DictBuilder) (lines : List PStr × Res Unit) : Res DictBuilder := do
  let db' ← db.addRows (csvStream lines).1
  (csvStream lines).2
  pure db'

/-- dictionarybuilder.py:82-84 and userdictionarybuilder.py:34-36: the files one by one. -/
def addFiles (M : Disk) (db : DictBuilder) : List PStr → Res DictBuilder
  | [] => .ok db
  | path :: paths => do
    let b ← M.file path
    let db' ← db.addLines (streamLines b)
    db'.addFiles M paths

/-- dictionarybuilder.py:162-184 `write_grammar` with a matrix file that may not be text: the part-of-speech table is written
before the matrix file is read. -/
def writeGrammarOf (db : DictBuilder) (matrix : MatrixInput) : Out :=
  match matrix with
  | .ok m => db.writeGrammar m
  | .error (header, e) => (Out.withRes (convertPosTable db.posTable) Out.write).andThen fun _ => ([], .error (unreadMatrix header e))

/-- command_line.py:111-114, 122-125 with dictionarybuilder.py:80-88 and userdictionarybuilder.py:26-40, as `build` but with what
reading the sources gave. -/
def buildOf (D : Darts) (header : Header) (read : Res DictBuilder) (matrix : MatrixInput) : Out :=
  (Out.withRes header.toBytes Out.write).andThen fun _ =>
  Out.withRes read fun db' =>
    let front := ((Out.withRes header.toBytes Out.write).andThen fun _ =>
      (db'.writeGrammarOf matrix).andThen fun _ => db'.writeTables D).1
    (db'.writeGrammarOf matrix).andThen fun _ => (db'.writeTables D).andThen fun _ => db'.writeWordInfo (runOps front).pos

end DictBuilder

/-- `readline()` and then `readlines()` of a text (dictionarybuilder.py:193, 203). -/
def headAndRest : List PStr → PStr × List PStr
  | [] => ([], [])
  | l :: ls => (l, ls)

/-- The matrix file as text: `open(args.matrix_file, 'r')`, with the locale's encoding. -/
def Shell.matrixText (S : Shell) (b : Bytes) : MatrixInput :=
  match S.decode b with
  | .ok text => .ok (some (headAndRest (linesAux [] text)))
  | .error e => .error (S.headLine b, e)

/-- command_line.py:117-125 `_command_build` with 90-95 and 98-102.  Opening the output file empties it; the header stays in the
file's buffer while the sources are read; whatever was written is in the file when it is closed. -/
def commandBuild (D : Darts) (S : Shell) (matrixFile : PStr) (inFiles : List PStr) (outFile description : PStr) : Shell × Ended :=
  if !S.present matrixFile then (S, .exit 1)
  else if !inFiles.all S.present then (S, .exit 1)
  else
    match S.opens outFile with
    | .error e => (S, .raised e)
    | .ok () =>
      let S1 := S.put outFile []
      match S1.file matrixFile with
      | .error e => (S1, .raised e)
      | .ok m =>
        let out := DictBuilder.buildOf D ⟨SYSTEM_DICT_VERSION_2, S.time, description⟩
          ((DictBuilder.init none).addFiles S1.toDisk inFiles) (S1.matrixText m)
        (S.put outFile (runOps out.1).data, .of out.2)

/-- command_line.py:80-83: the system dictionary of `ubuild`: that of `-s`, or that of the settings. -/
def systemDicOf (S : Shell) (systemDic : Option PStr) : Res PStr :=
  match systemDic with
  | some (c :: p) => .ok (c :: p)
  | _ =>
    match Settings.init.setUp S.toMachine none none none with
    | (_, .error e) => .error e
    | (s, .ok ()) => s.systemDictPath

/-- command_line.py:104-114 `_command_user_build` with 80-95.  (Writing over the system dictionary itself, which is mapped into
memory meanwhile, is not modelled.) -/
def commandUserBuild (D : Darts) (depth : Nat) (S : Shell) (systemDic : Option PStr) (inFiles : List PStr) (outFile description : PStr) :
    Shell × Ended :=
  match systemDicOf S systemDic with
  | .error e => (S, .raised e)
  | .ok system =>
    if !S.present system then (S, .exit 1)
    else if !inFiles.all S.present then (S, .exit 1)
    else
      match S.file system >>= fromSystemDictionary with
      | .error e => (S, .raised e)
      | .ok d =>
        match S.opens outFile with
        | .error e => (S, .raised e)
        | .ok () =>
          let out := DictBuilder.buildOf D ⟨USER_DICT_VERSION_3, S.time, description⟩
            ((DictBuilder.init (some (d.toSysDict D depth))).addFiles (S.put outFile []).toDisk inFiles) (.ok none)
          (S.put outFile (runOps out.1).data, .of out.2)

end Sudachi
