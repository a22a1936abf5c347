import Verif.Spec.Open

/-!
# Settings that differ in the user dictionaries only
-/

namespace Sudachi

/-- The machine with other setting files. -/
def Disk.withSettings (M : Disk) (f : PStr → Res JDict) : Disk := { M with settings := f }

/-- The same under every key but that of the user dictionaries. -/
def SameButUsers (d d' : JDict) : Prop := ∀ key, key ≠ userKey → ∀ v, Says d key v ↔ Says d' key v

end Sudachi
