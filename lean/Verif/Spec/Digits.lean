/-
The decimal digits of Unicode 14 (general category Nd), by the names the Unicode character database gives their zeros.
-/
import Verif.Model.Basic
namespace Sudachi

/-- The decimal zeros of Unicode 14. -/
def decimalZeros : List (Nat × String) := [
  (0x30, "DIGIT ZERO"),
  (0x660, "ARABIC-INDIC DIGIT ZERO"),
  (0x6F0, "EXTENDED ARABIC-INDIC DIGIT ZERO"),
  (0x7C0, "NKO DIGIT ZERO"),
  (0x966, "DEVANAGARI DIGIT ZERO"),
  (0x9E6, "BENGALI DIGIT ZERO"),
  (0xA66, "GURMUKHI DIGIT ZERO"),
  (0xAE6, "GUJARATI DIGIT ZERO"),
  (0xB66, "ORIYA DIGIT ZERO"),
  (0xBE6, "TAMIL DIGIT ZERO"),
  (0xC66, "TELUGU DIGIT ZERO"),
  (0xCE6, "KANNADA DIGIT ZERO"),
  (0xD66, "MALAYALAM DIGIT ZERO"),
  (0xDE6, "SINHALA LITH DIGIT ZERO"),
  (0xE50, "THAI DIGIT ZERO"),
  (0xED0, "LAO DIGIT ZERO"),
  (0xF20, "TIBETAN DIGIT ZERO"),
  (0x1040, "MYANMAR DIGIT ZERO"),
  (0x1090, "MYANMAR SHAN DIGIT ZERO"),
  (0x17E0, "KHMER DIGIT ZERO"),
  (0x1810, "MONGOLIAN DIGIT ZERO"),
  (0x1946, "LIMBU DIGIT ZERO"),
  (0x19D0, "NEW TAI LUE DIGIT ZERO"),
  (0x1A80, "TAI THAM HORA DIGIT ZERO"),
  (0x1A90, "TAI THAM THAM DIGIT ZERO"),
  (0x1B50, "BALINESE DIGIT ZERO"),
  (0x1BB0, "SUNDANESE DIGIT ZERO"),
  (0x1C40, "LEPCHA DIGIT ZERO"),
  (0x1C50, "OL CHIKI DIGIT ZERO"),
  (0xA620, "VAI DIGIT ZERO"),
  (0xA8D0, "SAURASHTRA DIGIT ZERO"),
  (0xA900, "KAYAH LI DIGIT ZERO"),
  (0xA9D0, "JAVANESE DIGIT ZERO"),
  (0xA9F0, "MYANMAR TAI LAING DIGIT ZERO"),
  (0xAA50, "CHAM DIGIT ZERO"),
  (0xABF0, "MEETEI MAYEK DIGIT ZERO"),
  (0xFF10, "FULLWIDTH DIGIT ZERO"),
  (0x104A0, "OSMANYA DIGIT ZERO"),
  (0x10D30, "HANIFI ROHINGYA DIGIT ZERO"),
  (0x11066, "BRAHMI DIGIT ZERO"),
  (0x110F0, "SORA SOMPENG DIGIT ZERO"),
  (0x11136, "CHAKMA DIGIT ZERO"),
  (0x111D0, "SHARADA DIGIT ZERO"),
  (0x112F0, "KHUDAWADI DIGIT ZERO"),
  (0x11450, "NEWA DIGIT ZERO"),
  (0x114D0, "TIRHUTA DIGIT ZERO"),
  (0x11650, "MODI DIGIT ZERO"),
  (0x116C0, "TAKRI DIGIT ZERO"),
  (0x11730, "AHOM DIGIT ZERO"),
  (0x118E0, "WARANG CITI DIGIT ZERO"),
  (0x11950, "DIVES AKURU DIGIT ZERO"),
  (0x11C50, "BHAIKSUKI DIGIT ZERO"),
  (0x11D50, "MASARAM GONDI DIGIT ZERO"),
  (0x11DA0, "GUNJALA GONDI DIGIT ZERO"),
  (0x16A60, "MRO DIGIT ZERO"),
  (0x16AC0, "TANGSA DIGIT ZERO"),
  (0x16B50, "PAHAWH HMONG DIGIT ZERO"),
  (0x1D7CE, "MATHEMATICAL BOLD DIGIT ZERO"),
  (0x1D7D8, "MATHEMATICAL DOUBLE-STRUCK DIGIT ZERO"),
  (0x1D7E2, "MATHEMATICAL SANS-SERIF DIGIT ZERO"),
  (0x1D7EC, "MATHEMATICAL SANS-SERIF BOLD DIGIT ZERO"),
  (0x1D7F6, "MATHEMATICAL MONOSPACE DIGIT ZERO"),
  (0x1E140, "NYIAKENG PUACHUE HMONG DIGIT ZERO"),
  (0x1E2F0, "WANCHO DIGIT ZERO"),
  (0x1E950, "ADLAM DIGIT ZERO"),
  (0x1FBF0, "SEGMENTED DIGIT ZERO")]

/-- `c` is a decimal digit of some script and its value is `d`: the ten digits of a script are in a row. -/
def DecimalDigit (c d : Nat) : Prop := d < 10 ∧ ∃ name, (c - d, name) ∈ decimalZeros ∧ d ≤ c

end Sudachi
