/-
A machine on which the package is installed with the files it ships.
-/
import Verif.Spec.Shipped
import Verif.Spec.Open
import Verif.Spec.EndToEnd
namespace Sudachi

/-- The package's resources are the shipped files, and the package `sudachidict_core` is installed, its dictionary being at the
absolute path `core`. -/
structure Disk.Shipped (M : Disk) (core : PStr) : Prop where
  directory : ∃ d c, M.resources = d ++ [c] ∧ c ≠ 47
  setting : M.defaultSetting = M.resources ++ codes "/sudachi.json"
  settings : M.settings M.defaultSetting = .ok shippedSettings
  charDef : M.file (M.resources ++ codes "/char.def") = .ok (textFile shippedCharDef)
  unkDef : M.file (M.resources ++ codes "/unk.def") = .ok (textFile shippedUnkDef)
  rewriteDef : M.file (M.resources ++ codes "/rewrite.def") = .ok (textFile shippedRewriteDef)
  package : M.package (codes "sudachidict_core") = some core
  absolute : Absolute core

/-- What is true of `str.lower` of one character and `unicodedata.normalize('NFKC', …)`: nothing becomes empty, and no surrogate
comes up. -/
structure Runtime.UnicodeOk (R : Runtime) : Prop where
  lower : ∀ c, R.lower [c] ≠ []
  nfkc : ∀ s, s ≠ [] → R.nfkc s ≠ []
  lowerEnc : ∀ c, encodable c = true → ∀ x ∈ R.lower [c], encodable x = true
  nfkcEnc : ∀ s : PStr, (∀ c ∈ s, encodable c = true) → ∀ x ∈ R.nfkc s, encodable x = true

/-- The part of speech of joined Katakana words in the shipped settings: 名詞,普通名詞,一般,*,*,*. -/
def commonNoun : List PStr := [codes "名詞", codes "普通名詞", codes "一般", codes "*", codes "*", codes "*"]

/-- The source of a system dictionary with the shipped part of speech. -/
structure DictSource.ForShipped (src : DictSource) : Prop where
  system : src.header.version = SYSTEM_DICT_VERSION_2
  noun : ∃ w c, RowIs src.rows w c ∧ c.Fits ∧ c.pos = commonNoun

end Sudachi
