/-
tests/plugin/test_prolongedsoundmarkinput.py and tests/plugin/test_default_input_text_plugin.py
-/
import Verif.Replay.Machine
namespace Sudachi.Replay.InputPlugins

/-- tests/mock_grammar.py: sudachipy/resources/char.def. -/
def ranges : List CRange := (machine.read charDefLines (u "/sudachipy/resources/char.def") >>= compile runtime.pick).toOption.getD []

#guard ranges.length > 0

/-- The text after a plugin. -/
def rewritten (p : InputPlugin) (text : String) : Res InputText := do
  let b ← p.rewrite lowerOf nfkcOf (Builder.init (u text))
  b.build (getCategoryTypes ranges)

/-! ### test_prolongedsoundmarkinput.py -/

/-- lines 25-28 `setUp`; the constructor's symbol is `ー` (prolongedsoundmark.py:21). -/
def prolonged (text : String) : Res InputText := rewritten (.psm [0x30FC, 0x301C, 0x3030] (u "ー")) text

/-! line 30 `test_combine_continuous_prolonged_sound_mark` -/
#guard is ((prolonged "ゴーール").map (·.original)) (u "ゴーール")
#guard is ((prolonged "ゴーール").map (·.modified)) (u "ゴール")
#guard is ((prolonged "ゴーール").map (·.bytes.length)) 9
#guard is ((prolonged "ゴーール").map (·.bytes)) [227, 130, 180, 227, 131, 188, 227, 131, 171]
#guard is (prolonged "ゴーール" >>= (·.getOriginalIndex 0)) 0
#guard is (prolonged "ゴーール" >>= (·.getOriginalIndex 3)) 1
#guard is (prolonged "ゴーール" >>= (·.getOriginalIndex 6)) 3
#guard is (prolonged "ゴーール" >>= (·.getOriginalIndex 9)) 4

/-! line 48 `test_combined_continuous_prolonged_sound_marks_at_end` -/
#guard is ((prolonged "スーパーー").map (·.original)) (u "スーパーー")
#guard is ((prolonged "スーパーー").map (·.modified)) (u "スーパー")
#guard is ((prolonged "スーパーー").map (·.bytes.length)) 12
#guard is ((prolonged "スーパーー").map (·.bytes)) [227, 130, 185, 227, 131, 188, 227, 131, 145, 227, 131, 188]
#guard is (prolonged "スーパーー" >>= (·.getOriginalIndex 0)) 0
#guard is (prolonged "スーパーー" >>= (·.getOriginalIndex 3)) 1
#guard is (prolonged "スーパーー" >>= (·.getOriginalIndex 6)) 2
#guard is (prolonged "スーパーー" >>= (·.getOriginalIndex 9)) 3
#guard is (prolonged "スーパーー" >>= (·.getOriginalIndex 12)) 5

/-! line 67 `test_combine_continuous_prolonged_sound_marks_multi_times` -/
#guard is ((prolonged "エーービーーーシーーーー").map (·.original)) (u "エーービーーーシーーーー")
#guard is ((prolonged "エーービーーーシーーーー").map (·.modified)) (u "エービーシー")
#guard is ((prolonged "エーービーーーシーーーー").map (·.bytes.length)) 18
#guard is ((prolonged "エーービーーーシーーーー").map (·.bytes)) [227, 130, 168, 227, 131, 188, 227, 131, 147, 227, 131, 188, 227, 130, 183, 227, 131, 188]
#guard is (prolonged "エーービーーーシーーーー" >>= (·.getOriginalIndex 0)) 0
#guard is (prolonged "エーービーーーシーーーー" >>= (·.getOriginalIndex 3)) 1
#guard is (prolonged "エーービーーーシーーーー" >>= (·.getOriginalIndex 6)) 3
#guard is (prolonged "エーービーーーシーーーー" >>= (·.getOriginalIndex 9)) 4
#guard is (prolonged "エーービーーーシーーーー" >>= (·.getOriginalIndex 12)) 7
#guard is (prolonged "エーービーーーシーーーー" >>= (·.getOriginalIndex 15)) 8
#guard is (prolonged "エーービーーーシーーーー" >>= (·.getOriginalIndex 18)) 12

/-! line 88 `test_combine_continuous_prolonged_sound_marks_multi_symbol_types` -/
#guard is ((prolonged "エーービ〜〜〜シ〰〰〰〰").map (·.original)) (u "エーービ〜〜〜シ〰〰〰〰")
#guard is ((prolonged "エーービ〜〜〜シ〰〰〰〰").map (·.modified)) (u "エービーシー")
#guard is ((prolonged "エーービ〜〜〜シ〰〰〰〰").map (·.bytes.length)) 18
#guard is ((prolonged "エーービ〜〜〜シ〰〰〰〰").map (·.bytes)) [227, 130, 168, 227, 131, 188, 227, 131, 147, 227, 131, 188, 227, 130, 183, 227, 131, 188]
#guard is (prolonged "エーービ〜〜〜シ〰〰〰〰" >>= (·.getOriginalIndex 0)) 0
#guard is (prolonged "エーービ〜〜〜シ〰〰〰〰" >>= (·.getOriginalIndex 3)) 1
#guard is (prolonged "エーービ〜〜〜シ〰〰〰〰" >>= (·.getOriginalIndex 6)) 3
#guard is (prolonged "エーービ〜〜〜シ〰〰〰〰" >>= (·.getOriginalIndex 9)) 4
#guard is (prolonged "エーービ〜〜〜シ〰〰〰〰" >>= (·.getOriginalIndex 12)) 7
#guard is (prolonged "エーービ〜〜〜シ〰〰〰〰" >>= (·.getOriginalIndex 15)) 8
#guard is (prolonged "エーービ〜〜〜シ〰〰〰〰" >>= (·.getOriginalIndex 18)) 12

/-! line 109 `test_combine_continuous_prolonged_sound_marks_multi_mixed_symbol_types` -/
#guard is ((prolonged "エー〜ビ〜〰ーシ〰ー〰〜").map (·.original)) (u "エー〜ビ〜〰ーシ〰ー〰〜")
#guard is ((prolonged "エー〜ビ〜〰ーシ〰ー〰〜").map (·.modified)) (u "エービーシー")
#guard is ((prolonged "エー〜ビ〜〰ーシ〰ー〰〜").map (·.bytes.length)) 18
#guard is ((prolonged "エー〜ビ〜〰ーシ〰ー〰〜").map (·.bytes)) [227, 130, 168, 227, 131, 188, 227, 131, 147, 227, 131, 188, 227, 130, 183, 227, 131, 188]
#guard is (prolonged "エー〜ビ〜〰ーシ〰ー〰〜" >>= (·.getOriginalIndex 0)) 0
#guard is (prolonged "エー〜ビ〜〰ーシ〰ー〰〜" >>= (·.getOriginalIndex 3)) 1
#guard is (prolonged "エー〜ビ〜〰ーシ〰ー〰〜" >>= (·.getOriginalIndex 6)) 3
#guard is (prolonged "エー〜ビ〜〰ーシ〰ー〰〜" >>= (·.getOriginalIndex 9)) 4
#guard is (prolonged "エー〜ビ〜〰ーシ〰ー〰〜" >>= (·.getOriginalIndex 12)) 7
#guard is (prolonged "エー〜ビ〜〰ーシ〰ー〰〜" >>= (·.getOriginalIndex 15)) 8
#guard is (prolonged "エー〜ビ〜〰ーシ〰ー〰〜" >>= (·.getOriginalIndex 18)) 12

/-! ### test_default_input_text_plugin.py -/

/-- lines 30-36 `setUp`: sudachipy/resources/rewrite.def. -/
def table : Res RewriteTable := machine.read readRewriteDef (u "/sudachipy/resources/rewrite.def")

/-- The text without the plugin. -/
def plain (text : String) : Res InputText := (Builder.init (u text)).build (getCategoryTypes ranges)

/-- The text after the plugin. -/
def default (text : String) : Res InputText := table >>= fun tb => rewritten (.default tb) text

/-! line 44 `test_before_rewrite` -/
#guard is ((plain "ÂＢΓД㈱ｶﾞウ゛⼼Ⅲ").map (·.original)) (u "ÂＢΓД㈱ｶﾞウ゛⼼Ⅲ")
#guard is ((plain "ÂＢΓД㈱ｶﾞウ゛⼼Ⅲ").map (·.modified)) (u "ÂＢΓД㈱ｶﾞウ゛⼼Ⅲ")
#guard is ((plain "ÂＢΓД㈱ｶﾞウ゛⼼Ⅲ").map (·.bytes.length)) 30
#guard is ((plain "ÂＢΓД㈱ｶﾞウ゛⼼Ⅲ").map (·.bytes)) [195, 130, 239, 188, 162, 206, 147, 208, 148, 227, 136, 177, 239, 189, 182, 239, 190, 158, 227, 130, 166, 227, 130, 155, 226, 188, 188, 226, 133, 162]
#guard is (plain "ÂＢΓД㈱ｶﾞウ゛⼼Ⅲ" >>= (·.getOriginalIndex 0)) 0
#guard is (plain "ÂＢΓД㈱ｶﾞウ゛⼼Ⅲ" >>= (·.getOriginalIndex 1)) 0
#guard is (plain "ÂＢΓД㈱ｶﾞウ゛⼼Ⅲ" >>= (·.getOriginalIndex 2)) 1
#guard is (plain "ÂＢΓД㈱ｶﾞウ゛⼼Ⅲ" >>= (·.getOriginalIndex 4)) 1
#guard is (plain "ÂＢΓД㈱ｶﾞウ゛⼼Ⅲ" >>= (·.getOriginalIndex 8)) 3
#guard is (plain "ÂＢΓД㈱ｶﾞウ゛⼼Ⅲ" >>= (·.getOriginalIndex 12)) 5
#guard is (plain "ÂＢΓД㈱ｶﾞウ゛⼼Ⅲ" >>= (·.getOriginalIndex 24)) 9
#guard is (plain "ÂＢΓД㈱ｶﾞウ゛⼼Ⅲ" >>= (·.getOriginalIndex 26)) 9

/-! line 63 `test_after_rewrite` -/
#guard is ((default "ÂＢΓД㈱ｶﾞウ゛⼼Ⅲ").map (·.original)) (u "ÂＢΓД㈱ｶﾞウ゛⼼Ⅲ")
#guard is ((default "ÂＢΓД㈱ｶﾞウ゛⼼Ⅲ").map (·.modified)) (u "âbγд(株)ガヴ⼼ⅲ")
#guard is ((default "ÂＢΓД㈱ｶﾞウ゛⼼Ⅲ").map (·.bytes.length)) 24
#guard is ((default "ÂＢΓД㈱ｶﾞウ゛⼼Ⅲ").map (·.bytes)) [195, 162, 98, 206, 179, 208, 180, 40, 230, 160, 170, 41, 227, 130, 172, 227, 131, 180, 226, 188, 188, 226, 133, 178]
#guard is (default "ÂＢΓД㈱ｶﾞウ゛⼼Ⅲ" >>= (·.getOriginalIndex 0)) 0
#guard is (default "ÂＢΓД㈱ｶﾞウ゛⼼Ⅲ" >>= (·.getOriginalIndex 1)) 0
#guard is (default "ÂＢΓД㈱ｶﾞウ゛⼼Ⅲ" >>= (·.getOriginalIndex 2)) 1
#guard is (default "ÂＢΓД㈱ｶﾞウ゛⼼Ⅲ" >>= (·.getOriginalIndex 3)) 2
#guard is (default "ÂＢΓД㈱ｶﾞウ゛⼼Ⅲ" >>= (·.getOriginalIndex 7)) 4
#guard is (default "ÂＢΓД㈱ｶﾞウ゛⼼Ⅲ" >>= (·.getOriginalIndex 8)) 5
#guard is (default "ÂＢΓД㈱ｶﾞウ゛⼼Ⅲ" >>= (·.getOriginalIndex 11)) 5
#guard is (default "ÂＢΓД㈱ｶﾞウ゛⼼Ⅲ" >>= (·.getOriginalIndex 15)) 7
#guard is (default "ÂＢΓД㈱ｶﾞウ゛⼼Ⅲ" >>= (·.getOriginalIndex 17)) 7

/-! line 86 `test_invalid_format_ignorelist` -/
#guard raises (machine.read readRewriteDef (inResources "rewrite_error_ignorelist.def")) .runtime

/-! line 92 `test_invalid_format_replacelist` -/
#guard raises (machine.read readRewriteDef (inResources "rewrite_error_replacelist.def")) .runtime

/-! line 98 `test_duplicated_lines_replacelist` -/
#guard raises (machine.read readRewriteDef (inResources "rewrite_error_dup.def")) .runtime

end Sudachi.Replay.InputPlugins
