import Verif.Spec.ShippedMachine
import Verif.Spec.UsersAdded

/-!
# The package with user dictionaries
-/

namespace Sudachi

/-- The package's resources are the shipped files, but the setting file has an entry for user dictionaries; the package
`sudachidict_core` is installed, its dictionary being at the absolute path `core`. -/
structure Disk.ShippedUsers (M : Disk) (core : PStr) (paths : List PStr) : Prop where
  directory : ∃ d c, M.resources = d ++ [c] ∧ c ≠ 47
  setting : M.defaultSetting = M.resources ++ codes "/sudachi.json"
  settings : M.settings M.defaultSetting = .ok (shippedSettings ++ [(userKey, .list (paths.map .str))])
  charDef : M.file (M.resources ++ codes "/char.def") = .ok (textFile shippedCharDef)
  unkDef : M.file (M.resources ++ codes "/unk.def") = .ok (textFile shippedUnkDef)
  rewriteDef : M.file (M.resources ++ codes "/rewrite.def") = .ok (textFile shippedRewriteDef)
  package : M.package (codes "sudachidict_core") = some core
  absolute : Absolute core

/-- The machine with the shipped settings again. -/
def Disk.withoutUsers (M : Disk) : Disk := M.withSettings fun _ => .ok shippedSettings

end Sudachi
