/-
sudachipy/config.py
-/
import Verif.Model.Basic
namespace Sudachi

/-- A number that `json.load` makes a `float`: `m * 10 ^ e` as it is written, infinity, or not a number. -/
inductive JReal
  | decimal (negative : Bool) (m : Nat) (e : Int)
  | infinity (negative : Bool)
  | nan
  deriving DecidableEq, Repr

/-- What `json.load` can put in a setting. -/
inductive Json
  | null
  | bool (b : Bool)
  | num (n : Int)
  | real (x : JReal)
  | str (s : PStr)
  | list (l : List Json)
  | obj (kvs : List (PStr × Json))

/-- A Python dictionary with string keys; the first pair of a key is its value. -/
abbrev JDict := List (PStr × Json)

namespace JDict

/-- `d[key]`, if there. -/
def find (d : JDict) (key : PStr) : Option Json :=
  match d with
  | [] => none
  | (k, v) :: rest => if k = key then some v else find rest key

/-- `d[key]`: `KeyError` if missing. -/
def get (d : JDict) (key : PStr) : Res Json :=
  match d.find key with
  | some v => .ok v
  | none => .error .key

/-- `d[key] = v`: an existing key keeps its place. -/
def set (d : JDict) (key : PStr) (v : Json) : JDict :=
  match d with
  | [] => [(key, v)]
  | (k, w) :: rest => if k = key then (k, v) :: rest else (k, w) :: set rest key v

end JDict

/-- `x == 0.0`: a number of at most half the smallest `float`, 2^-1074, is read as zero. -/
def JReal.isZero : JReal → Bool
  | .decimal _ m e => if 0 ≤ e then m == 0 else decide (m * 2 ^ 1075 ≤ 10 ^ (-e).toNat)
  | _ => false

/-- `bool(x)`. -/
def Json.truthy : Json → Bool
  | .null => false
  | .bool b => b
  | .num n => n != 0
  | .real x => !x.isZero
  | .str s => !s.isEmpty
  | .list l => !l.isEmpty
  | .obj kvs => !kvs.isEmpty

/-- `sub in s` for strings. -/
def isInfix (sub : PStr) : PStr → Bool
  | [] => sub.isEmpty
  | c :: s => sub.isPrefixOf (c :: s) || isInfix sub s

/-- `name in x`: `TypeError` for what is not a container. -/
def Json.contains (name : PStr) : Json → Res Bool
  | .str s => .ok (isInfix name s)
  | .list l => .ok (l.any (fun x => match x with | .str s => s == name | _ => false))
  | .obj kvs => .ok (kvs.any (fun kv => kv.1 == name))
  | _ => .error .type

/-- `'systemDict'`, config.py:55. -/
def keySystemDict : PStr := [115, 121, 115, 116, 101, 109, 68, 105, 99, 116]

/-- `'characterDefinitionFile'`, config.py:56. -/
def keyCharDef : PStr :=
  [99, 104, 97, 114, 97, 99, 116, 101, 114, 68, 101, 102, 105, 110, 105, 116, 105, 111, 110, 70, 105, 108, 101]

/-- `'userDict'`, config.py:57. -/
def keyUserDict : PStr := [117, 115, 101, 114, 68, 105, 99, 116]

/-- `'sudachidict_'`, config.py:30, 43. -/
def packagePrefix : PStr := [115, 117, 100, 97, 99, 104, 105, 100, 105, 99, 116, 95]

/-- `'small'`, `'core'`, `'full'`, config.py:74. -/
def small : PStr := [115, 109, 97, 108, 108]
def core : PStr := [99, 111, 114, 101]
def full : PStr := [102, 117, 108, 108]

/-- `s.rstrip('/')`. -/
def rstripSlash (s : PStr) : PStr := (s.reverse.dropWhile (· == 47)).reverse

/-- posixpath.py `dirname`: up to and with the last slash; trailing slashes removed unless there is nothing else. -/
def dirname (p : PStr) : PStr :=
  let head := (p.reverse.dropWhile (· != 47)).reverse
  if head.all (· == 47) then head else rstripSlash head

/-- posixpath.py `join` of two paths. -/
def joinPath (a b : PStr) : PStr :=
  if b.head? = some 47 then b
  else if a.isEmpty || a.getLast? == some 47 then a ++ b
  else a ++ 47 :: b

/-- What the machine provides: the setting file shipped with the package, the setting files by path (`open` and
`json.load`; the content is taken to be an object), and the dictionary packages: the absolute path of `system.dic` in the
package, if it is installed. -/
structure Machine where
  defaultSetting : PStr
  settings : PStr → Res JDict
  package : PStr → Option PStr

/-- config.py:35-39 `to_absolute_resource_path` (on POSIX a path is absolute if it begins with a slash). -/
def toAbsoluteResourcePath (resourceDir : PStr) (path : PStr) : PStr :=
  if path.head? = some 47 then path else joinPath resourceDir path

/-- The same for a value of the setting file: `Path(x)` is a `TypeError` for what is not a string. -/
def toAbsolute (resourceDir : PStr) : Json → Res PStr
  | .str s => .ok (toAbsoluteResourcePath resourceDir s)
  | _ => .error .type

/-- config.py:29-32, 42-50 `find_dict_path`, `get_absolute_dict_path`. -/
def findDictPath (M : Machine) (dictType : PStr) : Res PStr :=
  match M.package (packagePrefix ++ dictType) with
  | some p => .ok p
  | none => .error .moduleNotFound

/-- config.py:53-63 `_Settings`: the fields. `is_active` is `active`. -/
structure Settings where
  active : Bool
  dict : Option JDict
  configPath : Option PStr
  resourceDir : Option PStr

/-- config.py:59-63 `__init__`. -/
def Settings.init : Settings := ⟨false, none, none, none⟩

/-- `x or y` for an optional string. -/
def strOr (x : Option PStr) (y : PStr) : PStr :=
  match x with
  | some s => if s.isEmpty then y else s
  | none => y

namespace Settings

/-- config.py:75-76: whether the file names a dictionary other than the one of the package. -/
def warning (d : JDict) (dictType : PStr) : Res Bool :=
  match d.find keySystemDict with
  | none => .ok false
  | some v => if v.truthy then (v.contains (packagePrefix ++ dictType)).map (fun b => !b) else .ok false

/-- config.py:75-80: the test may raise; the warning itself changes nothing (see `warns`). -/
def warningTest (d : JDict) (dictType : PStr) : Res Unit := (warning d dictType).map (fun _ => ())

/-- config.py:73-86: the system dictionary put into the settings. -/
def chooseDict (M : Machine) (d : JDict) (dictType : Option PStr) : Res JDict :=
  match dictType with
  | some t =>
    if t ∈ [small, core, full] then do
      warningTest d t
      let p ← findDictPath M t
      pure (d.set keySystemDict (.str p))
    else .error .value
  | none =>
    match d.find keySystemDict with
    | some v =>
      if v.truthy then pure d
      else do
        let p ← findDictPath M core
        pure (d.set keySystemDict (.str p))
    | none => do
      let p ← findDictPath M core
      pure (d.set keySystemDict (.str p))

/-- config.py:65-86 `set_up`: the settings afterwards, and whether it succeeded.  The content of the file is stored before
`dict_type` is looked at. -/
def setUp (M : Machine) (s : Settings) (configPath resourceDir dictType : Option PStr) : Settings × Res Unit :=
  let path := strOr configPath M.defaultSetting
  let dir := strOr resourceDir (dirname path)
  match M.settings path with
  | .error e => ({ s with configPath := some path }, .error e)
  | .ok d =>
    match chooseDict M d dictType with
    | .error e => (⟨true, some d, some path, some dir⟩, .error e)
    | .ok d' => (⟨true, some d', some path, some dir⟩, .ok ())

/-- config.py:73-80: whether `set_up` warns that two dictionaries are specified. -/
def warns (M : Machine) (configPath dictType : Option PStr) : Bool :=
  match M.settings (strOr configPath M.defaultSetting), dictType with
  | .ok d, some t => decide (t ∈ [small, core, full]) && decide (warning d t = .ok true)
  | _, _ => false

/-- `self.__dict_` when it is subscripted or iterated: `TypeError` for `None`. -/
def theDict (s : Settings) : Res JDict :=
  match s.dict with
  | some d => .ok d
  | none => .error .type

/-- `self.resource_dir` given to `os.path.join`; `None` is a `TypeError` there. It is set whenever `self.__dict_` is. -/
def theDir (s : Settings) : Res PStr :=
  match s.resourceDir with
  | some d => .ok d
  | none => .error .type

/-- config.py:88-91 `__setitem__`. -/
def setItem (M : Machine) (s : Settings) (key : PStr) (v : Json) : Settings × Res Unit :=
  let (s', r) := if s.active then (s, .ok ()) else s.setUp M none none none
  match r with
  | .error e => (s', .error e)
  | .ok () =>
    match s'.theDict with
    | .error e => (s', .error e)
    | .ok d => ({ s' with dict := some (d.set key v) }, .ok ())

/-- config.py:93-96 `__getitem__`. -/
def getItem (M : Machine) (s : Settings) (key : PStr) : Settings × Res Json :=
  let (s', r) := if s.active then (s, .ok ()) else s.setUp M none none none
  match r with
  | .error e => (s', .error e)
  | .ok () => (s', s'.theDict.bind (fun d => d.get key))

/-- config.py:98-99 `keys`: `AttributeError` for `None`. -/
def keys (s : Settings) : Res (List PStr) :=
  match s.dict with
  | some d => .ok (d.map (·.1))
  | none => .error .attribute

/-- config.py:101-102 `__contains__`. -/
def contains (s : Settings) (item : PStr) : Res Bool := do
  let ks ← s.keys
  pure (decide (item ∈ ks))

/-- config.py:104-106 `system_dict_path`. -/
def systemDictPath (s : Settings) : Res PStr := do
  let d ← s.theDict
  let v ← d.get keySystemDict
  let dir ← s.theDir
  toAbsolute dir v

/-- config.py:108-112 `char_def_path`. -/
def charDefPath (s : Settings) : Res PStr := do
  let d ← s.theDict
  let v ← d.get keyCharDef
  let dir ← s.theDir
  toAbsolute dir v

/-- `for path in x`: the characters of a string, the elements of a list, the keys of an object. -/
def iterate : Json → Res (List Json)
  | .str s => .ok (s.map (fun c => .str [c]))
  | .list l => .ok l
  | .obj kvs => .ok (kvs.map (fun kv => .str kv.1))
  | _ => .error .type

/-- config.py:114-118 `user_dict_paths`. -/
def userDictPaths (s : Settings) : Res (List PStr) := do
  let d ← s.theDict
  match d.find keyUserDict with
  | none => pure []
  | some v => do
    let l ← iterate v
    let dir ← s.theDir
    l.mapM (toAbsolute dir)

end Settings

end Sudachi
