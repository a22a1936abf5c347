/-
Sources from which an installation can be made.
-/
import Verif.Spec.Buildable
namespace Sudachi

/-- A source that fits the file format, whose rows can be read, that is not too large and can be written (C71). -/
def DictSource.Buildable (D : Darts) (sys : Option SysDict) (src : DictSource) : Prop :=
  SourceOk src.header src.rows src.matrix ∧ ∃ cs T, RowsRead src.rows cs ∧ src.HasRoom D sys cs T ∧ src.Writable sys cs

namespace Sources

/-- All sources can be built, with the kinds of header they should have; the user dictionaries against the system dictionary. -/
structure Buildable (S : Sources) (D : Darts) : Prop where
  system : S.system.Buildable D none
  users : ∀ src ∈ S.users, src.Buildable D (some S.sys)
  systemKind : S.system.header.version = SYSTEM_DICT_VERSION_2
  userKind : ∀ src ∈ S.users, src.header.version = USER_DICT_VERSION_3
  sys : ∃ depth, ∀ file ds, S.system.Builds D none file → readDictionary file = .ok ds → S.sys = ds.toSysDict D depth

/-- The words of the user dictionaries with automatic costs have a surface that is not empty and, as input text, not too long. -/
def AutoTexts (S : Sources) (cfg : DictConfig) : Prop :=
  ∀ d w c, S.Row (d + 1) w c → pyInt c.cost = .ok (-32768) → c.surface ≠ [] ∧
    ∀ (dict : Dict) (t : InputText), (dict.tokenizer cfg [] .C).buildInput c.surface = .ok t → SafeLength t.bytes.length

end Sources
end Sudachi
