/-
sudachipy/config.py with whatever value the setting file has; Model/Config takes it to be an object.
-/
import Verif.Model.Open
import Verif.Model.JsonText
namespace Sudachi

/-- `x[key]`: strings and lists take no string as an index, and numbers, `True` and `None` no index: `TypeError`. -/
def Json.subscript (key : PStr) : Json → Res Json
  | .obj d => JDict.get d key
  | _ => .error .type

/-- `x[key] = v`: `TypeError` for what is no `dict`. -/
def Json.assign (x : Json) (key : PStr) (v : Json) : Res Json :=
  match x with
  | .obj d => .ok (.obj (JDict.set d key v))
  | _ => .error .type

/-- config.py:53-63 `_Settings`: the fields; `None` and `null` are the same value. -/
structure AnySettings where
  active : Bool
  value : Json
  configPath : Option PStr
  resourceDir : Option PStr

namespace AnySettings

/-- config.py:59-63 `__init__`. -/
def init : AnySettings := ⟨false, .null, none, none⟩

/-- config.py:69-70: the file is opened and read; lists and objects may be nested `depth` deep. -/
def read (M : Disk) (depth : Nat) (path : PStr) : Res Json := do
  let b ← M.file path
  JsonText.loadFile depth b

/-- config.py:75-76: the three tests joined by `and`. -/
def warningTest (v : Json) (dictType : PStr) : Res Unit := do
  if ← v.contains keySystemDict then
    let x ← v.subscript keySystemDict
    if x.truthy then
      let y ← v.subscript keySystemDict
      let _ ← y.contains (packagePrefix ++ dictType)
      pure ()
    else pure ()
  else pure ()

/-- config.py:85: `not in … or not …`. -/
def unnamed (v : Json) : Res Bool := do
  if ← v.contains keySystemDict then
    let x ← v.subscript keySystemDict
    pure (!x.truthy)
  else pure true

/-- config.py:73-86: the value of `self.__dict_` afterwards.  The path is found before it is assigned. -/
def chooseDict (M : Machine) (v : Json) (dictType : Option PStr) : Res Json :=
  match dictType with
  | some t =>
    if t ∈ [small, core, full] then do
      warningTest v t
      let p ← findDictPath M t
      v.assign keySystemDict (.str p)
    else .error .value
  | none => do
    if ← unnamed v then
      let p ← findDictPath M core
      v.assign keySystemDict (.str p)
    else pure v

/-- config.py:65-86 `set_up`: the settings afterwards, and whether it succeeded. -/
def setUp (M : Disk) (depth : Nat) (s : AnySettings) (configPath resourceDir dictType : Option PStr) : AnySettings × Res Unit :=
  let path := strOr configPath M.defaultSetting
  let dir := strOr resourceDir (dirname path)
  match read M depth path with
  | .error e => ({ s with configPath := some path }, .error e)
  | .ok v =>
    match chooseDict M.toMachine v dictType with
    | .error e => (⟨true, v, some path, some dir⟩, .error e)
    | .ok v' => (⟨true, v', some path, some dir⟩, .ok ())

/-- config.py:89-90, 94-95: the default settings are set up at the first use. -/
def activate (M : Disk) (depth : Nat) (s : AnySettings) : AnySettings × Res Unit :=
  if s.active then (s, .ok ()) else s.setUp M depth none none none

/-- config.py:88-91 `__setitem__`. -/
def setItem (M : Disk) (depth : Nat) (s : AnySettings) (key : PStr) (x : Json) : AnySettings × Res Unit :=
  match s.activate M depth with
  | (s', .error e) => (s', .error e)
  | (s', .ok ()) =>
    match s'.value.assign key x with
    | .error e => (s', .error e)
    | .ok v => ({ s' with value := v }, .ok ())

/-- config.py:93-96 `__getitem__`. -/
def getItem (M : Disk) (depth : Nat) (s : AnySettings) (key : PStr) : AnySettings × Res Json :=
  match s.activate M depth with
  | (s', .error e) => (s', .error e)
  | (s', .ok ()) => (s', s'.value.subscript key)

/-- config.py:98-99 `keys`: `AttributeError` for what is no `dict`. -/
def keys (s : AnySettings) : Res (List PStr) :=
  match s.value with
  | .obj d => .ok (d.map (·.1))
  | _ => .error .attribute

/-- config.py:101-102 `__contains__`. -/
def contains (s : AnySettings) (item : PStr) : Res Bool := do
  let ks ← s.keys
  pure (decide (item ∈ ks))

/-- `self.resource_dir` given to `os.path.join`. -/
def theDir (s : AnySettings) : Res PStr :=
  match s.resourceDir with
  | some d => .ok d
  | none => .error .type

/-- config.py:104-106 `system_dict_path`. -/
def systemDictPath (s : AnySettings) : Res PStr := do
  let x ← s.value.subscript keySystemDict
  let dir ← s.theDir
  toAbsolute dir x

/-- config.py:108-112 `char_def_path`. -/
def charDefPath (s : AnySettings) : Res PStr := do
  if ← s.value.contains keyCharDef then
    let x ← s.value.subscript keyCharDef
    let dir ← s.theDir
    toAbsolute dir x
  else .error .key

/-- config.py:114-118 `user_dict_paths`. -/
def userDictPaths (s : AnySettings) : Res (List PStr) := do
  if ← s.value.contains keyUserDict then
    let x ← s.value.subscript keyUserDict
    let l ← Settings.iterate x
    let dir ← s.theDir
    l.mapM (toAbsolute dir)
  else pure []

end AnySettings
end Sudachi
