/-
Setting files whose value is no object: what setting up raises and what the settings are good for afterwards.
-/
import Verif.Spec.Config
import Verif.Model.SettingsValue
namespace Sudachi

/-- A value that is no object. -/
def Json.NoObject (v : Json) : Prop := ∀ d, v ≠ .obj d

/-- A text or a list: `in` can be asked of it. -/
def Json.Sequence (v : Json) : Prop := (∃ s, v = .str s) ∨ ∃ l, v = .list l

/-- The dictionary type that is looked for: `core` if none is given. -/
def wantedType (t : Option PStr) : PStr := t.getD ("core".toList.map Char.toNat)

/-- What `set_up` raises with a setting file whose value is `v`, no object: a `ValueError` for an unknown `dict_type`; else a
`ModuleNotFoundError` if the package of the dictionary is not installed and `v` is a text or a list without the name of the key;
else a `TypeError`. -/
def NoObjectRaises (package : PStr → Option PStr) (v : Json) (t : Option PStr) (e : Err) : Prop :=
  (e = .value ∧ ∃ u, t = some u ∧ ¬ KnownType u) ∨
  (KnownType (wantedType t) ∧
    ((e = .moduleNotFound ∧ v.Sequence ∧ ¬ v.Names systemKey ∧ package (packageOf (wantedType t)) = none) ∨
     (e = .type ∧ ¬ (v.Sequence ∧ ¬ v.Names systemKey ∧ package (packageOf (wantedType t)) = none))))

/-- The settings of Model/Config as settings with any value. -/
def Settings.any (s : Settings) : AnySettings :=
  ⟨s.active, match s.dict with | some d => .obj d | none => .null, s.configPath, s.resourceDir⟩

/-- The file at `path`, if it is read at all, is an object. -/
def Disk.NoOther (M : Disk) (depth : Nat) (path : PStr) : Prop :=
  ∀ b v, M.file path = .ok b → JsonText.loadFile depth b = .ok v → ∃ d, v = .obj d

end Sudachi
