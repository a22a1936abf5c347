/-
The setting file shipped with the package (data, not code), and machines whose files are the shipped ones.
-/
import Verif.Spec.ShippedMachine
import Verif.Spec.JsonText
import Verif.Model.JsonText
namespace Sudachi

/-- sudachipy/resources/sudachi.json. -/
def shippedSettingFile : List PStr := lines! "{
    \"systemDict\" : \"\",
    \"characterDefinitionFile\" : \"char.def\",
    \"inputTextPlugin\" : [
        { \"class\" : \"sudachipy.plugin.input_text.DefaultInputTextPlugin\" },
        { \"class\" : \"sudachipy.plugin.input_text.ProlongedSoundMarkInputTextPlugin\",
          \"prolongedSoundMarks\": [\"ー\", \"-\", \"⁓\", \"〜\", \"〰\"],
          \"replacementSymbol\": \"ー\"}
    ],
    \"oovProviderPlugin\" : [
        { \"class\" : \"sudachipy.plugin.oov.MeCabOovProviderPlugin\",
          \"charDef\" : \"char.def\",
          \"unkDef\" : \"unk.def\" },
        { \"class\" : \"sudachipy.plugin.oov.SimpleOovProviderPlugin\",
          \"oovPOS\" : [ \"補助記号\", \"一般\", \"*\", \"*\", \"*\", \"*\" ],
          \"leftId\" : 5968,
          \"rightId\" : 5968,
          \"cost\" : 3857 }
    ],
    \"pathRewritePlugin\" : [
        { \"class\" : \"sudachipy.plugin.path_rewrite.JoinNumericPlugin\",
          \"enableNormalize\" : true },
        { \"class\" : \"sudachipy.plugin.path_rewrite.JoinKatakanaOovPlugin\",
          \"oovPOS\" : [ \"名詞\", \"普通名詞\", \"一般\", \"*\", \"*\", \"*\" ],
          \"minLength\": 3 }
    ]
}
"

/-- The package's resources are the shipped files, the setting file among them, and the package `sudachidict_core` is installed, its
dictionary being at the absolute path `core`. -/
structure Disk.ShippedFiles (M : Disk) (core : PStr) : Prop where
  directory : ∃ d c, M.resources = d ++ [c] ∧ c ≠ 47
  setting : M.defaultSetting = M.resources ++ codes "/sudachi.json"
  settingFile : M.file (M.resources ++ codes "/sudachi.json") = .ok (textFile shippedSettingFile)
  charDef : M.file (M.resources ++ codes "/char.def") = .ok (textFile shippedCharDef)
  unkDef : M.file (M.resources ++ codes "/unk.def") = .ok (textFile shippedUnkDef)
  rewriteDef : M.file (M.resources ++ codes "/rewrite.def") = .ok (textFile shippedRewriteDef)
  package : M.package (codes "sudachidict_core") = some core
  absolute : Absolute core

/-- The settings of the machine are what `json.load` makes of its files, where lists and objects may be nested `depth` deep (config.py:69-70;
what happens with a file that is no object is left open). -/
structure Disk.ReadsSettings (M : Disk) (depth : Nat) : Prop where
  missing : ∀ path e, M.file path = .error e → M.settings path = .error e
  refused : ∀ path b e, M.file path = .ok b → JsonText.loadFile depth b = .error e → M.settings path = .error e
  read : ∀ path b d, M.file path = .ok b → JsonText.loadFile depth b = .ok (.obj d) → M.settings path = .ok d

/-- Whatever the settings were, `set_up` with this file raises `e` and changes no more than the path. -/
def Disk.Refuses (M : Disk) (path : PStr) (e : Err) : Prop :=
  M.settings path = .error e ∧
  ∀ (s : Settings) (dir dictType : Option PStr), path ≠ [] →
    s.setUp M.toMachine (some path) dir dictType = ({ s with configPath := some path }, .error e)

end Sudachi
