/-
tests/dictionarylib/test_charactercategory.py
-/
import Verif.Replay.Machine
import Verif.Model.Ranges
namespace Sudachi.Replay.Categories

/-- `read_character_definition` of a text. -/
def defined (text : String) : Res (List CRange) := do
  let lines ← textLines (file text)
  readCharDef runtime.pick lines

/-- `assertEqual` on sets. -/
def has (ranges : Res (List CRange)) (c : Nat) (cats : List Cat) : Bool := sat ranges (fun r => setEq (getCategoryTypes r c) cats)


/-! line 37 `test_range_containing_length` -/
#guard (⟨0x41, 0x54, []⟩ : CRange).containingLength (codes "ABC12") == 3
#guard (⟨0x41, 0x54, []⟩ : CRange).containingLength (codes "熙") == 0

/-! line 44 `test_get_category_types` -/
#guard has (machine.read (readCharDef runtime.pick) (inResources "char.def")) 29081 [.KANJI]
#guard !has (machine.read (readCharDef runtime.pick) (inResources "char.def")) 29081 [.DEFAULT]

/-! line 50 `test_read_character_definition` -/
#guard has (defined "#\n \n0x0030..0x0039 NUMERIC\n0x0032         KANJI\n") 0x0030 [.NUMERIC]
#guard has (defined "#\n \n0x0030..0x0039 NUMERIC\n0x0032         KANJI\n") 0x0031 [.NUMERIC]
#guard has (defined "#\n \n0x0030..0x0039 NUMERIC\n0x0032         KANJI\n") 0x0032 [.NUMERIC, .KANJI]
#guard has (defined "#\n \n0x0030..0x0039 NUMERIC\n0x0032         KANJI\n") 0x0033 [.NUMERIC]
#guard has (defined "#\n \n0x0030..0x0039 NUMERIC\n0x0032         KANJI\n") 0x0039 [.NUMERIC]
#guard has (defined "#\n \n0x0030..0x0039 NUMERIC\n0x0070..0x0079 ALPHA\n0x3007         KANJI\n0x0030         KANJI\n") 0x0030 [.NUMERIC, .KANJI]
#guard has (defined "#\n \n0x0030..0x0039 NUMERIC\n0x0070..0x0079 ALPHA\n0x3007         KANJI\n0x0030         KANJI\n") 0x0039 [.NUMERIC]
#guard has (defined "#\n \n0x0030..0x0039 NUMERIC\n0x0070..0x0079 ALPHA\n0x3007         KANJI\n0x0030         KANJI\n") 0x3007 [.KANJI]
#guard has (defined "#\n \n0x0030..0x0039 NUMERIC\n0x0070..0x0079 ALPHA\n0x3007         KANJI\n0x0030         KANJI\n") 0x0069 [.DEFAULT]
#guard has (defined "#\n \n0x0030..0x0039 NUMERIC\n0x0070..0x0079 ALPHA\n0x3007         KANJI\n0x0030         KANJI\n") 0x0070 [.ALPHA]
#guard has (defined "#\n \n0x0030..0x0039 NUMERIC\n0x0070..0x0079 ALPHA\n0x3007         KANJI\n0x0030         KANJI\n") 0x0080 [.DEFAULT]
#guard has (defined "#\n \n0x0030..0x0039 KATAKANA\n0x3007         KANJI KANJINUMERIC\n0x3008         KANJI KANJINUMERIC\n0x3009         KANJI KANJINUMERIC\n0x0039..0x0040 ALPHA\n0x0030..0x0039 NUMERIC\n0x0030         KANJI\n") 0x0029 [.DEFAULT]
#guard has (defined "#\n \n0x0030..0x0039 KATAKANA\n0x3007         KANJI KANJINUMERIC\n0x3008         KANJI KANJINUMERIC\n0x3009         KANJI KANJINUMERIC\n0x0039..0x0040 ALPHA\n0x0030..0x0039 NUMERIC\n0x0030         KANJI\n") 0x0030 [.NUMERIC, .KANJI, .KATAKANA]
#guard has (defined "#\n \n0x0030..0x0039 KATAKANA\n0x3007         KANJI KANJINUMERIC\n0x3008         KANJI KANJINUMERIC\n0x3009         KANJI KANJINUMERIC\n0x0039..0x0040 ALPHA\n0x0030..0x0039 NUMERIC\n0x0030         KANJI\n") 0x0039 [.NUMERIC, .KATAKANA, .ALPHA]
#guard has (defined "#\n \n0x0030..0x0039 KATAKANA\n0x3007         KANJI KANJINUMERIC\n0x3008         KANJI KANJINUMERIC\n0x3009         KANJI KANJINUMERIC\n0x0039..0x0040 ALPHA\n0x0030..0x0039 NUMERIC\n0x0030         KANJI\n") 0x0040 [.ALPHA]
#guard has (defined "#\n \n0x0030..0x0039 KATAKANA\n0x3007         KANJI KANJINUMERIC\n0x3008         KANJI KANJINUMERIC\n0x3009         KANJI KANJINUMERIC\n0x0039..0x0040 ALPHA\n0x0030..0x0039 NUMERIC\n0x0030         KANJI\n") 0x0041 [.DEFAULT]
#guard has (defined "#\n \n0x0030..0x0039 KATAKANA\n0x3007         KANJI KANJINUMERIC\n0x3008         KANJI KANJINUMERIC\n0x3009         KANJI KANJINUMERIC\n0x0039..0x0040 ALPHA\n0x0030..0x0039 NUMERIC\n0x0030         KANJI\n") 0x3007 [.KANJI, .KANJINUMERIC]
#guard has (defined "#\n \n0x0030..0x0039 KATAKANA\n0x3007         KANJI KANJINUMERIC\n0x3008         KANJI KANJINUMERIC\n0x3009         KANJI KANJINUMERIC\n0x0039..0x0040 ALPHA\n0x0030..0x0039 NUMERIC\n0x0030         KANJI\n") 0x4007 [.DEFAULT]
#guard has (defined "0x4E00..0x9FFF  KANJI\n0x4E8C KANJINUMERIC KANJI\n") 30007 [.KANJI]
#guard has (defined "0x4E00..0x9FFF  KANJI\n0x4E8C KANJINUMERIC KANJI\n") 0x4E8B [.KANJI]
#guard has (defined "0x4E00..0x9FFF  KANJI\n0x4E8C KANJINUMERIC KANJI\n") 0x4E8C [.KANJI, .KANJINUMERIC]
#guard has (defined "0x4E00..0x9FFF  KANJI\n0x4E8C KANJINUMERIC KANJI\n") 0x4E8D [.KANJI]

/-! line 111 `test_read_character_definition_with_invalid_format` -/
#guard raises (defined "0x0030..0x0039\n") .attribute

/-! line 120 `test_read_character_definition_with_invalid_range` -/
#guard raises (defined "0x0030..0x0029 NUMERIC\n") .attribute

/-! line 129 `test_read_character_definition_with_invalid_type` -/
#guard raises (defined "0x0030..0x0039 FOO\n") .attribute

end Sudachi.Replay.Categories
