/-
The contents of the shipped character definition file, sudachipy/resources/char.def (data, not code).
-/
import Verif.Model.Oov
namespace Sudachi

/-- char.def:36-165: one entry for every line that maps a code point or an inclusive range `a..b` to categories, in the
order of the file, with the exclusive upper bound that charactercategory.py:146-149 stores. -/
def shippedRanges : List CRange :=
  [
   ⟨0x0020, 0x0021, [.SPACE]⟩,
   ⟨0x000D, 0x000E, [.SPACE]⟩,
   ⟨0x0009, 0x000A, [.SPACE]⟩,
   ⟨0x000B, 0x000C, [.SPACE]⟩,
   ⟨0x000A, 0x000B, [.SPACE]⟩,
   ⟨0x0021, 0x0030, [.SYMBOL]⟩,
   ⟨0x0030, 0x003A, [.NUMERIC]⟩,
   ⟨0x003A, 0x0041, [.SYMBOL]⟩,
   ⟨0x0041, 0x005B, [.ALPHA]⟩,
   ⟨0x005B, 0x0061, [.SYMBOL]⟩,
   ⟨0x0061, 0x007B, [.ALPHA]⟩,
   ⟨0x007B, 0x007F, [.SYMBOL]⟩,
   ⟨0x00A1, 0x00C0, [.SYMBOL]⟩,
   ⟨0x00C0, 0x00D7, [.ALPHA]⟩,
   ⟨0x00D7, 0x00D8, [.SYMBOL]⟩,
   ⟨0x00D8, 0x00F7, [.ALPHA]⟩,
   ⟨0x00F7, 0x00F8, [.SYMBOL]⟩,
   ⟨0x00F8, 0x0100, [.ALPHA]⟩,
   ⟨0x0100, 0x0180, [.ALPHA]⟩,
   ⟨0x0180, 0x0237, [.ALPHA]⟩,
   ⟨0x1E00, 0x1EFA, [.ALPHA]⟩,
   ⟨0x0400, 0x04FA, [.CYRILLIC]⟩,
   ⟨0x0500, 0x0510, [.CYRILLIC]⟩,
   ⟨0x0374, 0x03FC, [.GREEK]⟩,
   ⟨0x3041, 0x30A0, [.HIRAGANA]⟩,
   ⟨0x30A1, 0x30FB, [.KATAKANA]⟩,
   ⟨0x30FC, 0x3100, [.KATAKANA]⟩,
   ⟨0x31F0, 0x3200, [.KATAKANA]⟩,
   ⟨0x30A1, 0x30A2, [.NOOOVBOW]⟩,
   ⟨0x30A3, 0x30A4, [.NOOOVBOW]⟩,
   ⟨0x30A5, 0x30A6, [.NOOOVBOW]⟩,
   ⟨0x30A7, 0x30A8, [.NOOOVBOW]⟩,
   ⟨0x30A9, 0x30AA, [.NOOOVBOW]⟩,
   ⟨0x30E3, 0x30E4, [.NOOOVBOW]⟩,
   ⟨0x30E5, 0x30E6, [.NOOOVBOW]⟩,
   ⟨0x30E7, 0x30E8, [.NOOOVBOW]⟩,
   ⟨0x30EE, 0x30EF, [.NOOOVBOW]⟩,
   ⟨0x30FB, 0x30FF, [.NOOOVBOW]⟩,
   ⟨0xFF66, 0xFF9E, [.KATAKANA]⟩,
   ⟨0xFF9E, 0xFFA0, [.KATAKANA]⟩,
   ⟨0x2E80, 0x2EF4, [.KANJI]⟩,
   ⟨0x2F00, 0x2FD6, [.KANJI]⟩,
   ⟨0x3005, 0x3006, [.KANJI, .NOOOVBOW]⟩,
   ⟨0x3007, 0x3008, [.KANJI]⟩,
   ⟨0x3400, 0x4DB6, [.KANJI]⟩,
   ⟨0x4E00, 0xA000, [.KANJI]⟩,
   ⟨0xF900, 0xFA2E, [.KANJI]⟩,
   ⟨0xFA30, 0xFA6B, [.KANJI]⟩,
   ⟨0x4E00, 0x4E01, [.KANJINUMERIC, .KANJI]⟩,
   ⟨0x4E8C, 0x4E8D, [.KANJINUMERIC, .KANJI]⟩,
   ⟨0x4E09, 0x4E0A, [.KANJINUMERIC, .KANJI]⟩,
   ⟨0x56DB, 0x56DC, [.KANJINUMERIC, .KANJI]⟩,
   ⟨0x4E94, 0x4E95, [.KANJINUMERIC, .KANJI]⟩,
   ⟨0x516D, 0x516E, [.KANJINUMERIC, .KANJI]⟩,
   ⟨0x4E03, 0x4E04, [.KANJINUMERIC, .KANJI]⟩,
   ⟨0x516B, 0x516C, [.KANJINUMERIC, .KANJI]⟩,
   ⟨0x4E5D, 0x4E5E, [.KANJINUMERIC, .KANJI]⟩,
   ⟨0x5341, 0x5342, [.KANJINUMERIC, .KANJI]⟩,
   ⟨0x767E, 0x767F, [.KANJINUMERIC, .KANJI]⟩,
   ⟨0x5343, 0x5344, [.KANJINUMERIC, .KANJI]⟩,
   ⟨0x4E07, 0x4E08, [.KANJINUMERIC, .KANJI]⟩,
   ⟨0x5104, 0x5105, [.KANJINUMERIC, .KANJI]⟩,
   ⟨0x5146, 0x5147, [.KANJINUMERIC, .KANJI]⟩,
   ⟨0xFF10, 0xFF1A, [.NUMERIC]⟩,
   ⟨0xFF21, 0xFF3B, [.ALPHA]⟩,
   ⟨0xFF41, 0xFF5B, [.ALPHA]⟩,
   ⟨0xFF01, 0xFF10, [.SYMBOL]⟩,
   ⟨0xFF1A, 0xFF21, [.SYMBOL]⟩,
   ⟨0xFF3B, 0xFF41, [.SYMBOL]⟩,
   ⟨0xFF5B, 0xFF66, [.SYMBOL]⟩,
   ⟨0xFFE0, 0xFFF0, [.SYMBOL]⟩,
   ⟨0x2000, 0x2070, [.SYMBOL]⟩,
   ⟨0x2070, 0x20A0, [.NUMERIC]⟩,
   ⟨0x20A0, 0x20D0, [.SYMBOL]⟩,
   ⟨0x20D0, 0x2100, [.SYMBOL]⟩,
   ⟨0x2100, 0x2150, [.SYMBOL]⟩,
   ⟨0x2150, 0x2190, [.NUMERIC]⟩,
   ⟨0x2100, 0x214C, [.SYMBOL]⟩,
   ⟨0x2190, 0x2200, [.SYMBOL]⟩,
   ⟨0x2200, 0x2300, [.SYMBOL]⟩,
   ⟨0x2300, 0x2400, [.SYMBOL]⟩,
   ⟨0x2460, 0x2500, [.SYMBOL]⟩,
   ⟨0x2501, 0x2580, [.SYMBOL]⟩,
   ⟨0x2580, 0x25A0, [.SYMBOL]⟩,
   ⟨0x25A0, 0x2600, [.SYMBOL]⟩,
   ⟨0x2600, 0x26FF, [.SYMBOL]⟩,
   ⟨0x2700, 0x27C0, [.SYMBOL]⟩,
   ⟨0x27F0, 0x2800, [.SYMBOL]⟩,
   ⟨0x27C0, 0x27F0, [.SYMBOL]⟩,
   ⟨0x2800, 0x2900, [.SYMBOL]⟩,
   ⟨0x2900, 0x2980, [.SYMBOL]⟩,
   ⟨0x2B00, 0x2C00, [.SYMBOL]⟩,
   ⟨0x2A00, 0x2B00, [.SYMBOL]⟩,
   ⟨0x3300, 0x3400, [.SYMBOL]⟩,
   ⟨0x3200, 0x32FF, [.SYMBOL]⟩,
   ⟨0x3000, 0x3040, [.SYMBOL]⟩,
   ⟨0xFE30, 0xFE50, [.SYMBOL]⟩,
   ⟨0xFE50, 0xFE6C, [.SYMBOL]⟩,
   ⟨0x3007, 0x3008, [.SYMBOL, .KANJINUMERIC]⟩,
   ⟨0x309B, 0x309D, [.HIRAGANA, .KATAKANA]⟩]

/-- char.def:18-28: the category lines (`NAME INVOKE GROUP LENGTH`). -/
def shippedCategories : List (Cat × CategoryInfo) :=
  [
   (.DEFAULT, ⟨false, true, 0⟩),
   (.SPACE, ⟨false, true, 0⟩),
   (.KANJI, ⟨false, false, 2⟩),
   (.SYMBOL, ⟨true, true, 0⟩),
   (.NUMERIC, ⟨true, true, 0⟩),
   (.ALPHA, ⟨true, true, 0⟩),
   (.HIRAGANA, ⟨false, true, 2⟩),
   (.KATAKANA, ⟨true, true, 2⟩),
   (.KANJINUMERIC, ⟨false, true, 0⟩),
   (.GREEK, ⟨true, true, 0⟩),
   (.CYRILLIC, ⟨true, true, 0⟩)]

end Sudachi
