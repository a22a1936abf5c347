/-
The machine on which the repository's tests run: the files of tests/resources, and the dictionaries that scripts/test.sh builds from them
before the tests (lines 14-15), here built by the model of the commands.
-/
import Verif.Replay.Resources
import Verif.Spec.SimpleTrie
import Verif.Spec.Shipped
import Verif.Model.Commands
import Verif.Model.JsonText
namespace Sudachi.Replay

/-- A Python string. -/
def u (x : String) : PStr := x.toList.map Char.toNat

/-- A file of tests/resources. -/
def inResources (p : String) : PStr := u ("/tests/resources/" ++ p)

/-- The files there are before scripts/test.sh runs. -/
def givenFile (p : PStr) : Res Bytes :=
  if p = inResources "dict/lex.csv" then .ok lexCsv
  else if p = inResources "dict/matrix.def" then .ok matrixDef
  else if p = inResources "dict/user.csv" then .ok userCsv
  else if p = inResources "dict/user2.csv" then .ok user2Csv
  else if p = inResources "char.def" then .ok charDef
  else if p = inResources "joinnumeric/char.def" then .ok numericCharDef
  else if p = inResources "sudachi.json" then .ok sudachiJson
  else if p = inResources "numeric_sudachi.json" then .ok numericJson
  else if p = inResources "rewrite_error_dup.def" then .ok rewriteErrorDup
  else if p = inResources "rewrite_error_ignorelist.def" then .ok rewriteErrorIgnore
  else if p = inResources "rewrite_error_replacelist.def" then .ok rewriteErrorReplace
  else if p = u "/sudachipy/resources/rewrite.def" then .ok (textFile shippedRewriteDef)
  else if p = u "/sudachipy/resources/char.def" then .ok (textFile shippedCharDef)
  else .error .io

/-- `json.load` of a file of settings. -/
def settingsIn (file : PStr → Res Bytes) (p : PStr) : Res JDict := do
  let b ← file p
  match ← JsonText.loadFile 100 b with
  | .obj d => .ok d
  | _ => .error .type

/-- The machine before scripts/test.sh runs. -/
def start : Shell where
  defaultSetting := u "/sudachipy/resources/sudachi.json"
  settings := settingsIn givenFile
  package _ := none
  file := givenFile
  resources := u "/sudachipy/resources"
  present _ := true
  opens _ := .ok ()
  decode := decodeUtf8
  headLine _ := none
  time := 100

/-- scripts/test.sh:14: `build -o tests/resources/system.dic -d "the system dictionary for the unit tests" -m ... lex.csv`. -/
def system : Shell × Ended :=
  commandBuild SimpleTrie.trie start (inResources "dict/matrix.def") [inResources "dict/lex.csv"] (inResources "system.dic")
    (u "the system dictionary for the unit tests")

#guard system.2 = .done

/-- scripts/test.sh:15: `ubuild -o tests/resources/user.dic -s tests/resources/system.dic tests/resources/dict/user.csv`. -/
def user : Shell × Ended :=
  commandUserBuild SimpleTrie.trie 100 system.1 (some (inResources "system.dic")) [inResources "dict/user.csv"]
    (inResources "user.dic") []

#guard user.2 = .done

/-- The built dictionaries (constants, so that they are built once). -/
def systemDic : Bytes := (system.1.file (inResources "system.dic")).toOption.getD []
def userDic : Bytes := (user.1.file (inResources "user.dic")).toOption.getD []

/-- The machine of the tests. -/
def machine : Disk :=
  { start with file := fun p => if p = inResources "system.dic" then .ok systemDic
                  else if p = inResources "user.dic" then .ok userDic else givenFile p }

/-- `str.lower`, on the characters that the tests use. -/
def lowerOf (x : PStr) : PStr :=
  x.map (fun c =>
    if 65 ≤ c && c ≤ 90 then c + 32
    else if c = 0xC2 then 0xE2 else if c = 0x393 then 0x3B3 else if c = 0x414 then 0x434 else if c = 0xFF22 then 0xFF42
    else if c = 0x2162 then 0x2172 else c)

/-- `unicodedata.normalize("NFKC", ...)`, on the characters that the tests use. -/
def nfkcOf (x : PStr) : PStr :=
  x.flatMap (fun c =>
    if c = 0xFF42 then [98] else if c = 0x3231 then u "(株)" else if c = 0x2026 then u "..."
    else if c = 0x2F3C then u "心" else if c = 0x2172 then u "iii" else [c])

/-- The rest of the machine. -/
def runtime : Runtime := ⟨SimpleTrie.trie, 100, 100000, lowerOf, nfkcOf, fun _ => 0, fun _ => none⟩

/-- `Dictionary(os.path.join(resource_dir, json), resource_dir)`. -/
def opened (json : String) : Res (DictConfig × Dict) :=
  (openDictionary runtime machine Settings.init (some (inResources json)) (some (u "/tests/resources")) none).2

/-- `assertEqual` on a result that may be an exception. -/
def is {α : Type} [DecidableEq α] (r : Res α) (a : α) : Bool :=
  match r with
  | .ok x => decide (x = a)
  | .error _ => false

/-- `assertRaises`. -/
def raises {α : Type} (r : Res α) (e : Err) : Bool :=
  match r with
  | .ok _ => false
  | .error x => decide (x = e)

/-- `assertTrue` of a property of the result. -/
def sat {α : Type} (r : Res α) (p : α → Bool) : Bool :=
  match r with
  | .ok x => p x
  | .error _ => false

end Sudachi.Replay
