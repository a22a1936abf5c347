/-
tests/test_utf8inputtext.py
-/
import Verif.Replay.Machine
namespace Sudachi.Replay.Text

def text : PStr := u "âｂC1あ234漢字𡈽アｺﾞ"

/-- test_utf8inputtext.py:41-44: tests/resources/char.def. -/
def ranges : List CRange := (machine.read charDefLines (inResources "char.def") >>= compile runtime.pick).toOption.getD []

#guard ranges.length > 0

/-- The text after replacements. -/
def replaced (rs : List (Int × Int × String)) : Res Builder :=
  rs.foldl (fun b r => b >>= fun b => b.replace r.1 r.2.1 (u r.2.2)) (.ok (Builder.init text))

/-- `builder.build()`. -/
def input (rs : List (Int × Int × String)) : Res InputText := replaced rs >>= fun b => b.build (getCategoryTypes ranges)


/-! line 46 `test_get_original_text` -/
#guard is ((replaced []).map (·.original)) (text)
#guard is ((replaced []).map (·.modified)) (text)
#guard is ((input []).map (·.original)) (text)
#guard is ((input []).map (·.modified)) (text)

/-! line 53 `test_get_byte_text` -/
#guard is ((input []).map (·.bytes.length)) 32
#guard is ((input []).map (·.bytes)) (file "âｂC1あ234漢字𡈽アｺﾞ")

/-! line 58 `test_get_original_index` -/
#guard is (input [] >>= (·.getOriginalIndex 0)) 0
#guard is (input [] >>= (·.getOriginalIndex 1)) 0
#guard is (input [] >>= (·.getOriginalIndex 2)) 1
#guard is (input [] >>= (·.getOriginalIndex 4)) 1
#guard is (input [] >>= (·.getOriginalIndex 6)) 3
#guard is (input [] >>= (·.getOriginalIndex 7)) 4
#guard is (input [] >>= (·.getOriginalIndex 10)) 5
#guard is (input [] >>= (·.getOriginalIndex 18)) 9
#guard is (input [] >>= (·.getOriginalIndex 19)) 10
#guard is (input [] >>= (·.getOriginalIndex 22)) 10
#guard is (input [] >>= (·.getOriginalIndex 23)) 11
#guard is (input [] >>= (·.getOriginalIndex 28)) 12
#guard is (input [] >>= (·.getOriginalIndex 31)) 13

/-! line 74 `test_get_char_category_types` -/
#guard sat (input [] >>= (·.charCategoryTypesAt 0)) (fun s => decide (Cat.ALPHA ∈ s))
#guard sat (input [] >>= (·.charCategoryTypesAt 2)) (fun s => decide (Cat.ALPHA ∈ s))
#guard sat (input [] >>= (·.charCategoryTypesAt 5)) (fun s => decide (Cat.ALPHA ∈ s))
#guard sat (input [] >>= (·.charCategoryTypesAt 6)) (fun s => decide (Cat.NUMERIC ∈ s))
#guard sat (input [] >>= (·.charCategoryTypesAt 7)) (fun s => decide (Cat.HIRAGANA ∈ s))
#guard sat (input [] >>= (·.charCategoryTypesAt 9)) (fun s => decide (Cat.HIRAGANA ∈ s))
#guard sat (input [] >>= (·.charCategoryTypesAt 10)) (fun s => decide (Cat.NUMERIC ∈ s))
#guard sat (input [] >>= (·.charCategoryTypesAt 13)) (fun s => decide (Cat.KANJI ∈ s))
#guard sat (input [] >>= (·.charCategoryTypesAt 18)) (fun s => decide (Cat.KANJI ∈ s))
#guard sat (input [] >>= (·.charCategoryTypesAt 19)) (fun s => decide (Cat.DEFAULT ∈ s))
#guard sat (input [] >>= (·.charCategoryTypesAt 22)) (fun s => decide (Cat.DEFAULT ∈ s))
#guard sat (input [] >>= (·.charCategoryTypesAt 23)) (fun s => decide (Cat.KATAKANA ∈ s))
#guard sat (input [] >>= (·.charCategoryTypesAt 26)) (fun s => decide (Cat.KATAKANA ∈ s))
#guard sat (input [] >>= (·.charCategoryTypesAt 31)) (fun s => decide (Cat.KATAKANA ∈ s))

/-! line 91 `test_get_char_category_continuous_length` -/
#guard is (input [] >>= (·.charCategoryContinuousLength 0)) 6
#guard is (input [] >>= (·.charCategoryContinuousLength 1)) 5
#guard is (input [] >>= (·.charCategoryContinuousLength 2)) 4
#guard is (input [] >>= (·.charCategoryContinuousLength 5)) 1
#guard is (input [] >>= (·.charCategoryContinuousLength 6)) 1
#guard is (input [] >>= (·.charCategoryContinuousLength 7)) 3
#guard is (input [] >>= (·.charCategoryContinuousLength 10)) 3
#guard is (input [] >>= (·.charCategoryContinuousLength 11)) 2
#guard is (input [] >>= (·.charCategoryContinuousLength 12)) 1
#guard is (input [] >>= (·.charCategoryContinuousLength 19)) 4
#guard is (input [] >>= (·.charCategoryContinuousLength 22)) 1
#guard is (input [] >>= (·.charCategoryContinuousLength 23)) 9
#guard is (input [] >>= (·.charCategoryContinuousLength 26)) 6
#guard is (input [] >>= (·.charCategoryContinuousLength 31)) 1

/-! line 108 `test_replace_with_same_length` -/
#guard is ((replaced [(8, 10, "ああ")]).map (·.original)) (text)
#guard is ((replaced [(8, 10, "ああ")]).map (·.modified)) (u "âｂC1あ234ああ𡈽アｺﾞ")
#guard is ((input [(8, 10, "ああ")]).map (·.original)) (text)
#guard is ((input [(8, 10, "ああ")]).map (·.modified)) (u "âｂC1あ234ああ𡈽アｺﾞ")
#guard is ((input [(8, 10, "ああ")]).map (·.bytes.length)) 32
#guard is (input [(8, 10, "ああ")] >>= (·.getOriginalIndex 0)) 0
#guard is (input [(8, 10, "ああ")] >>= (·.getOriginalIndex 12)) 7
#guard is (input [(8, 10, "ああ")] >>= (·.getOriginalIndex 13)) 8
#guard is (input [(8, 10, "ああ")] >>= (·.getOriginalIndex 15)) 8
#guard is (input [(8, 10, "ああ")] >>= (·.getOriginalIndex 16)) 10
#guard is (input [(8, 10, "ああ")] >>= (·.getOriginalIndex 18)) 10
#guard is (input [(8, 10, "ああ")] >>= (·.getOriginalIndex 19)) 10
#guard is (input [(8, 10, "ああ")] >>= (·.getOriginalIndex 22)) 10
#guard is (input [(8, 10, "ああ")] >>= (·.getOriginalIndex 31)) 13

/-! line 126 `test_replaceWithDeletion` -/
#guard is ((replaced [(8, 10, "あ")]).map (·.original)) (text)
#guard is ((replaced [(8, 10, "あ")]).map (·.modified)) (u "âｂC1あ234あ𡈽アｺﾞ")
#guard is ((input [(8, 10, "あ")]).map (·.original)) (text)
#guard is ((input [(8, 10, "あ")]).map (·.modified)) (u "âｂC1あ234あ𡈽アｺﾞ")
#guard is ((input [(8, 10, "あ")]).map (·.bytes.length)) 29
#guard is (input [(8, 10, "あ")] >>= (·.getOriginalIndex 0)) 0
#guard is (input [(8, 10, "あ")] >>= (·.getOriginalIndex 12)) 7
#guard is (input [(8, 10, "あ")] >>= (·.getOriginalIndex 13)) 8
#guard is (input [(8, 10, "あ")] >>= (·.getOriginalIndex 15)) 8
#guard is (input [(8, 10, "あ")] >>= (·.getOriginalIndex 16)) 10
#guard is (input [(8, 10, "あ")] >>= (·.getOriginalIndex 19)) 10
#guard is (input [(8, 10, "あ")] >>= (·.getOriginalIndex 28)) 13

/-! line 142 `test_replaceWithInsertion` -/
#guard is ((replaced [(8, 10, "あああ")]).map (·.original)) (text)
#guard is ((replaced [(8, 10, "あああ")]).map (·.modified)) (u "âｂC1あ234あああ𡈽アｺﾞ")
#guard is ((input [(8, 10, "あああ")]).map (·.original)) (text)
#guard is ((input [(8, 10, "あああ")]).map (·.modified)) (u "âｂC1あ234あああ𡈽アｺﾞ")
#guard is ((input [(8, 10, "あああ")]).map (·.bytes.length)) 35
#guard is (input [(8, 10, "あああ")] >>= (·.getOriginalIndex 0)) 0
#guard is (input [(8, 10, "あああ")] >>= (·.getOriginalIndex 12)) 7
#guard is (input [(8, 10, "あああ")] >>= (·.getOriginalIndex 13)) 8
#guard is (input [(8, 10, "あああ")] >>= (·.getOriginalIndex 21)) 10
#guard is (input [(8, 10, "あああ")] >>= (·.getOriginalIndex 22)) 10
#guard is (input [(8, 10, "あああ")] >>= (·.getOriginalIndex 25)) 10
#guard is (input [(8, 10, "あああ")] >>= (·.getOriginalIndex 35)) 14

/-! line 158 `test_replaceMultiTimes` -/
#guard is ((input [(0, 1, "a"), (1, 2, "b"), (2, 3, "c"), (10, 11, "土"), (12, 14, "ゴ")]).map (·.original)) (text)
#guard is ((input [(0, 1, "a"), (1, 2, "b"), (2, 3, "c"), (10, 11, "土"), (12, 14, "ゴ")]).map (·.modified)) (u "abc1あ234漢字土アゴ")
#guard is ((input [(0, 1, "a"), (1, 2, "b"), (2, 3, "c"), (10, 11, "土"), (12, 14, "ゴ")]).map (·.bytes.length)) 25
#guard is (input [(0, 1, "a"), (1, 2, "b"), (2, 3, "c"), (10, 11, "土"), (12, 14, "ゴ")] >>= (·.getOriginalIndex 0)) 0
#guard is (input [(0, 1, "a"), (1, 2, "b"), (2, 3, "c"), (10, 11, "土"), (12, 14, "ゴ")] >>= (·.getOriginalIndex 1)) 1
#guard is (input [(0, 1, "a"), (1, 2, "b"), (2, 3, "c"), (10, 11, "土"), (12, 14, "ゴ")] >>= (·.getOriginalIndex 2)) 2
#guard is (input [(0, 1, "a"), (1, 2, "b"), (2, 3, "c"), (10, 11, "土"), (12, 14, "ゴ")] >>= (·.getOriginalIndex 7)) 5
#guard is (input [(0, 1, "a"), (1, 2, "b"), (2, 3, "c"), (10, 11, "土"), (12, 14, "ゴ")] >>= (·.getOriginalIndex 8)) 6
#guard is (input [(0, 1, "a"), (1, 2, "b"), (2, 3, "c"), (10, 11, "土"), (12, 14, "ゴ")] >>= (·.getOriginalIndex 9)) 7
#guard is (input [(0, 1, "a"), (1, 2, "b"), (2, 3, "c"), (10, 11, "土"), (12, 14, "ゴ")] >>= (·.getOriginalIndex 15)) 9
#guard is (input [(0, 1, "a"), (1, 2, "b"), (2, 3, "c"), (10, 11, "土"), (12, 14, "ゴ")] >>= (·.getOriginalIndex 16)) 10
#guard is (input [(0, 1, "a"), (1, 2, "b"), (2, 3, "c"), (10, 11, "土"), (12, 14, "ゴ")] >>= (·.getOriginalIndex 18)) 10
#guard is (input [(0, 1, "a"), (1, 2, "b"), (2, 3, "c"), (10, 11, "土"), (12, 14, "ゴ")] >>= (·.getOriginalIndex 19)) 11
#guard is (input [(0, 1, "a"), (1, 2, "b"), (2, 3, "c"), (10, 11, "土"), (12, 14, "ゴ")] >>= (·.getOriginalIndex 21)) 11
#guard is (input [(0, 1, "a"), (1, 2, "b"), (2, 3, "c"), (10, 11, "土"), (12, 14, "ゴ")] >>= (·.getOriginalIndex 22)) 12
#guard is (input [(0, 1, "a"), (1, 2, "b"), (2, 3, "c"), (10, 11, "土"), (12, 14, "ゴ")] >>= (·.getOriginalIndex 24)) 12

/-! line 182 `test_getByteLengthByCodePoints` -/
#guard is (input [] >>= (·.codePointsOffsetLength 0 1)) 2
#guard is (input [] >>= (·.codePointsOffsetLength 0 4)) 7
#guard is (input [] >>= (·.codePointsOffsetLength 10 1)) 1
#guard is (input [] >>= (·.codePointsOffsetLength 11 1)) 1
#guard is (input [] >>= (·.codePointsOffsetLength 12 1)) 1
#guard is (input [] >>= (·.codePointsOffsetLength 13 2)) 6
#guard is (input [] >>= (·.codePointsOffsetLength 19 1)) 4
#guard is (input [] >>= (·.codePointsOffsetLength 23 3)) 9

/-! line 193 `test_codePointCount` -/
#guard is (input [] >>= (·.codePointCount 0 2)) 1
#guard is (input [] >>= (·.codePointCount 0 7)) 4
#guard is (input [] >>= (·.codePointCount 13 19)) 2

/-! line 199 `test_canBow` -/
#guard is (input [] >>= (·.canBow 0)) true
#guard is (input [] >>= (·.canBow 1)) false
#guard is (input [] >>= (·.canBow 2)) false
#guard is (input [] >>= (·.canBow 3)) false
#guard is (input [] >>= (·.canBow 4)) false
#guard is (input [] >>= (·.canBow 5)) false
#guard is (input [] >>= (·.canBow 6)) true
#guard is (input [] >>= (·.canBow 7)) true
#guard is (input [] >>= (·.canBow 19)) true
#guard is (input [] >>= (·.canBow 20)) false
#guard is (input [] >>= (·.canBow 21)) false
#guard is (input [] >>= (·.canBow 22)) false
#guard is (input [] >>= (·.canBow 23)) true

/-! line 216 `test_getWordCandidateLength` -/
#guard is (input [] >>= (·.wordCandidateLength 0)) 6
#guard is (input [] >>= (·.wordCandidateLength 6)) 1
#guard is (input [] >>= (·.wordCandidateLength 19)) 4
#guard is (input [] >>= (·.wordCandidateLength 29)) 3

end Sudachi.Replay.Text
