/-
Test data of the repository, tests/resources (data, not code), as text.
-/
import Verif.Model.Bytes
namespace Sudachi.Replay

/-- The bytes of a text. -/
def file (s : String) : Bytes := s.toUTF8.toList.map UInt8.toNat

/-- tests/resources/dict/lex.csv -/
def lexCsv : Bytes := file "た,1,1,8729,た,助動詞,*,*,*,助動詞-タ,終止形-一般,タ,た,*,A,*,*,*,*
に,2,2,11406,に,助詞,接続助詞,*,*,*,*,ニ,に,*,A,*,*,*,*
に,3,3,4481,に,助詞,格助詞,*,*,*,*,ニ,に,*,A,*,*,*,*
京都,6,6,5293,京都,名詞,固有名詞,地名,一般,*,*,キョウト,京都,*,A,*,*,*,1/5
東,7,7,4675,東,名詞,普通名詞,一般,*,*,*,ヒガシ,東,*,A,*,*,*,*
東京,6,6,2816,東京,名詞,固有名詞,地名,一般,*,*,トウキョウ,東京,*,A,*,*,*,*
東京都,6,8,5320,東京都,名詞,固有名詞,地名,一般,*,*,トウキョウト,東京都,*,B,5/9,*,5/9,*
行く,4,4,5105,行く,動詞,非自立可能,*,*,五段-カ行,終止形-一般,イク,行く,*,A,*,*,*,*
行っ,5,5,5122,行っ,動詞,非自立可能,*,*,五段-カ行,連用形-促音便,イッ,行く,7,A,*,*,*,*
都,8,8,2914,都,名詞,普通名詞,一般,*,*,*,ト,都,*,A,*,*,*,*
アイ,7,7,4675,アイ,名詞,普通名詞,一般,*,*,*,アイ,アイ,*,A,*,*,*,*
アイウ,7,7,4675,アイウ,名詞,普通名詞,一般,*,*,*,アイウ,アイウ,*,A,*,*,*,*
アイアイウ,6,6,32766,アイウ,名詞,固有名詞,地名,一般,*,*,アイアイウ,アイアイウ,*,A,*,*,*,*
0,9,9,2478,0,名詞,数詞,*,*,*,*,ゼロ,0,*,A,*,*,*,*
1,9,9,2478,1,名詞,数詞,*,*,*,*,イチ,1,*,A,*,*,*,*
2,9,9,2478,2,名詞,数詞,*,*,*,*,ニ,2,*,A,*,*,*,*
3,9,9,2478,3,名詞,数詞,*,*,*,*,サン,3,*,A,*,*,*,*
4,9,9,2478,4,名詞,数詞,*,*,*,*,ヨン,4,*,A,*,*,*,*
5,9,9,2478,5,名詞,数詞,*,*,*,*,ゴ,5,*,A,*,*,*,*
6,9,9,2478,6,名詞,数詞,*,*,*,*,ロク,6,*,A,*,*,*,*
7,9,9,2478,7,名詞,数詞,*,*,*,*,ナナ,7,*,A,*,*,*,*
8,9,9,2478,8,名詞,数詞,*,*,*,*,ハチ,8,*,A,*,*,*,*
9,9,9,2478,9,名詞,数詞,*,*,*,*,キュウ,9,*,A,*,*,*,*
〇,9,9,2478,〇,名詞,数詞,*,*,*,*,ゼロ,〇,*,A,*,*,*,*
一,9,9,2478,一,名詞,数詞,*,*,*,*,イチ,一,*,A,*,*,*,*
二,9,9,2478,二,名詞,数詞,*,*,*,*,ニ,二,*,A,*,*,*,*
三,9,9,2478,三,名詞,数詞,*,*,*,*,サン,三,*,A,*,*,*,*
四,9,9,2478,四,名詞,数詞,*,*,*,*,ヨン,四,*,A,*,*,*,*
五,9,9,2478,五,名詞,数詞,*,*,*,*,ゴ,五,*,A,*,*,*,*
六,9,9,2478,六,名詞,数詞,*,*,*,*,ロク,六,*,A,*,*,*,*
七,9,9,2478,七,名詞,数詞,*,*,*,*,ナナ,七,*,A,*,*,*,*
八,9,9,2478,八,名詞,数詞,*,*,*,*,ハチ,八,*,A,*,*,*,*
九,9,9,2478,九,名詞,数詞,*,*,*,*,キュウ,九,*,A,*,*,*,*
六三四,6,6,0,六三四,名詞,固有名詞,地名,一般,*,*,ムサシ,六三四,*,A,*,*,*,*
いく,4,4,5105,いく,動詞,非自立可能,*,*,五段-カ行,終止形-一般,イク,行く,*,A,*,*,*,*
いっ,5,5,5122,いっ,動詞,非自立可能,*,*,五段-カ行,連用形-促音便,イッ,行く,34,A,*,*,*,*
012345678901234567890123456789012345678901234567890123456789012345678901234567890123456789012345678901234567890123456789012345678901234567890123456789012345678901234567890123456789012345678901234567890123456789012345678901234567890123456789012345678901234567890123456789012345678901234567890123456789,9,9,2478,012345678901234567890123456789012345678901234567890123456789012345678901234567890123456789012345678901234567890123456789012345678901234567890123456789012345678901234567890123456789012345678901234567890123456789012345678901234567890123456789012345678901234567890123456789012345678901234567890123456789,名詞,数詞,*,*,*,*,ゼロイチニサンヨンゴロクナナハチキュウゼロイチニサンヨンゴロクナナハチキュウゼロイチニサンヨンゴロクナナハチキュウゼロイチニサンヨンゴロクナナハチキュウゼロイチニサンヨンゴロクナナハチキュウゼロイチニサンヨンゴロクナナハチキュウゼロイチニサンヨンゴロクナナハチキュウゼロイチニサンヨンゴロクナナハチキュウゼロイチニサンヨンゴロクナナハチキュウゼロイチニサンヨンゴロクナナハチキュウゼロイチニサンヨンゴロクナナハチキュウゼロイチニサンヨンゴロクナナハチキュウゼロイチニサンヨンゴロクナナハチキュウゼロイチニサンヨンゴロクナナハチキュウゼロイチニサンヨンゴロクナナハチキュウゼロイチニサンヨンゴロクナナハチキュウゼロイチニサンヨンゴロクナナハチキュウゼロイチニサンヨンゴロクナナハチキュウゼロイチニサンヨンゴロクナナハチキュウゼロイチニサンヨンゴロクナナハチキュウゼロイチニサンヨンゴロクナナハチキュウゼロイチニサンヨンゴロクナナハチキュウゼロイチニサンヨンゴロクナナハチキュウゼロイチニサンヨンゴロクナナハチキュウゼロイチニサンヨンゴロクナナハチキュウゼロイチニサンヨンゴロクナナハチキュウゼロイチニサンヨンゴロクナナハチキュウゼロイチニサンヨンゴロクナナハチキュウゼロイチニサンヨンゴロクナナハチキュウゼロイチニサンヨンゴロクナナハチキュウ,012345678901234567890123456789012345678901234567890123456789012345678901234567890123456789012345678901234567890123456789012345678901234567890123456789012345678901234567890123456789012345678901234567890123456789012345678901234567890123456789012345678901234567890123456789012345678901234567890123456789,*,A,*,*,*,*
特a,8,8,2914,特a,名詞,普通名詞,一般,*,*,*,トクエー,特a,*,A,*,*,*,*
な。な,8,8,2914,な。な,名詞,普通名詞,一般,*,*,*,ナナ,な。な,*,A,*,*,*,*"

/-- tests/resources/dict/matrix.def -/
def matrixDef : Bytes := file "10 10
0 0 0
0 1 863
0 2 2124
0 3 1032
0 4 591
0 5 -162
0 6 -79
0 7 887
0 8 447
0 9 -535
1 0 -3689
1 1 -3361
1 2 -7643
1 3 -3267
1 4 809
1 5 -1098
1 6 4606
1 7 4269
1 8 4567
1 9 1635
2 0 -1959
2 1 2457
2 2 811
2 3 840
2 4 903
2 5 -958
2 6 517
2 7 2037
2 8 1392
2 9 -193
3 0 -2288
3 1 1741
3 2 487
3 3 792
3 4 -1474
3 5 -3429
3 6 126
3 7 437
3 8 605
3 9 -547
4 0 -2809
4 1 -3584
4 2 -6743
4 3 -2869
4 4 -2805
4 5 -407
4 6 3422
4 7 5642
4 8 6382
4 9 2165
5 0 -509
5 1 -3665
5 2 -3882
5 3 -572
5 4 -1036
5 5 -54
5 6 2570
5 7 3319
5 8 4059
5 9 882
6 0 101
6 1 2933
6 2 2198
6 3 -2004
6 4 4392
6 5 4017
6 6 569
6 7 475
6 8 -390
6 9 852
7 0 -852
7 1 2079
7 2 1180
7 3 -3084
7 4 2010
7 5 1570
7 6 746
7 7 2341
7 8 2051
7 9 1393
8 0 -522
8 1 3354
8 2 2037
8 3 -2542
8 4 3071
8 5 2631
8 6 -352
8 7 2847
8 8 1134
8 9 1256
9 0 -975
9 1 2498
9 2 1690
9 3 -1523
9 4 3023
9 5 3139
9 6 2562
9 7 3962
9 8 418
9 9 -2490
"

/-- tests/resources/dict/user.csv -/
def userCsv : Bytes := file "ぴらる,8,8,-32768,ぴらる,名詞,普通名詞,一般,*,*,*,ピラル,ぴらる,*,A,*,*,*,*
府,8,8,2914,府,名詞,普通名詞,一般,*,*,*,フ,府,*,A,*,*,*,*
東京府,6,6,2816,東京府,名詞,固有名詞,地名,一般,*,*,トウキョウフ,東京府,*,B,5/U1,*,5/U1,1/3
すだち,6,6,2816,すだち,被子植物門,双子葉植物綱,ムクロジ目,ミカン科,ミカン属,スダチ,スダチ,すだち,*,A,*,*,*,*
"

/-- tests/resources/dict/user2.csv -/
def user2Csv : Bytes := file "ぴさる,8,8,-32768,ぴさる,名詞,普通名詞,一般,*,*,*,ピサル,ぴさる,*,A,*,*,*,*
かぼす,6,6,2816,かぼす,被子植物門,双子葉植物綱,ムクロジ目,ミカン科,ミカン属,カボス,カボス,かぼす,*,A,*,*,*,*
"

/-- tests/resources/char.def -/
def charDef : Bytes := file "0x0030..0x0039 NUMERIC  #0-9
0x0041..0x005A ALPHA    #A-Z
0x0061..0x007A ALPHA    #a-z
0x00C0..0x00FF ALPHA  # Latin 1 #À->ÿ
0x3041..0x309F  HIRAGANA
0x30A1..0x30FF  KATAKANA
0x30A1          NOOOVBOW
0xFF66..0xFF9D  KATAKANA
0xFF9E..0xFF9F  KATAKANA
0x2E80..0x2EF3  KANJI # CJK Raidcals Supplement
0x2F00..0x2FD5  KANJI
0x3005          KANJI
0x3007          KANJI
0x3400..0x4DB5  KANJI # CJK Unified Ideographs Extention
0x4E00..0x9FA5  KANJI
0xF900..0xFA2D  KANJI
0xFA30..0xFA6A  KANJI
0xFF10..0xFF19 NUMERIC
0xFF21..0xFF3A ALPHA
0xFF41..0xFF5A ALPHA
"

/-- tests/resources/joinnumeric/char.def -/
def numericCharDef : Bytes := file "#
#   Japanese charcter category map
#
#   $Id: char.def 9 2012-12-12 04:13:15Z togiso $;
#

###################################################################################
# 
#  CHARACTER CATEGORY DEFINITION
#
#  CATEGORY_NAME INVOKE GROUP LENGTH
#
#   - CATEGORY_NAME: Name of category. you have to define DEFAULT class.
#   - INVOKE: 1/0:   always invoke unknown word processing, evan when the word can be found in the lexicon
#   - GROUP:  1/0:   make a new word by grouping the same chracter category
#   - LENGTH: n:     1 to n length new words are added
#
DEFAULT         0 1 0  # DEFAULT is a mandatory category!
SPACE           0 1 0  
KANJI           0 0 2
SYMBOL          1 1 0
NUMERIC         1 1 0
ALPHA           1 1 0
HIRAGANA        0 1 2
KATAKANA        1 1 2
KANJINUMERIC    0 1 0  #change INVOKE 1->0
GREEK           1 1 0
CYRILLIC        1 1 0

###################################################################################
#
# CODE(UCS2) TO CATEGORY MAPPING
#

# SPACE
0x0020 SPACE  # DO NOT REMOVE THIS LINE, 0x0020 is reserved for SPACE

# ASCII
0x0030..0x0039 NUMERIC  #0-9

# KANJI-NUMERIC (〇 一 二 三 四 五 六 七 八 九 十 百 千 万 億 兆)
0x3007 KANJINUMERIC KANJI
0x4E00 KANJINUMERIC KANJI
0x4E8C KANJINUMERIC KANJI
0x4E09 KANJINUMERIC KANJI
0x56DB KANJINUMERIC KANJI
0x4E94 KANJINUMERIC KANJI
0x516D KANJINUMERIC KANJI
0x4E03 KANJINUMERIC KANJI
0x516B KANJINUMERIC KANJI
0x4E5D KANJINUMERIC KANJI
0x5341 KANJINUMERIC KANJI
0x767E KANJINUMERIC KANJI
0x5343 KANJINUMERIC KANJI
0x4E07 KANJINUMERIC KANJI
0x5104 KANJINUMERIC KANJI
0x5146 KANJINUMERIC KANJI
"

/-- tests/resources/rewrite_error_dup.def -/
def rewriteErrorDup : Bytes := file "# there are ad uplicated replacement.
12 21
12 31
"

/-- tests/resources/rewrite_error_ignorelist.def -/
def rewriteErrorIgnore : Bytes := file "# there are two characters in ignore list
12"

/-- tests/resources/rewrite_error_replacelist.def -/
def rewriteErrorReplace : Bytes := file "# there are three columns in replace list
12 21 31
"

/-- tests/resources/sudachi.json -/
def sudachiJson : Bytes := file "{
    \"systemDict\" : \"system.dic\",
    \"userDict\" : [ \"user.dic\" ],
    \"characterDefinitionFile\" : \"char.def\",
    \"inputTextPlugin\" : [
        { \"class\" : \"sudachipy.plugin.input_text.DefaultInputTextPlugin\" }
    ],
    \"oovProviderPlugin\" : [
        { \"class\" : \"sudachipy.plugin.oov.SimpleOovProviderPlugin\",
          \"oovPOS\" : [ \"名詞\", \"普通名詞\", \"一般\", \"*\", \"*\", \"*\" ],
          \"leftId\" : 8,
          \"rightId\" : 8,
          \"cost\" : 6000 }
    ],
    \"pathRewritePlugin\" : [
        { \"class\" : \"sudachipy.plugin.path_rewrite.JoinNumericPlugin\",
          \"enableNormalize\" : true },
        { \"class\" : \"sudachipy.plugin.path_rewrite.JoinKatakanaOovPlugin\",
          \"oovPOS\" : [ \"名詞\", \"普通名詞\", \"一般\", \"*\", \"*\", \"*\" ],
          \"minLength\" : 3
        }
    ]
}
"

/-- tests/resources/numeric_sudachi.json -/
def numericJson : Bytes := file "{
    \"systemDict\" : \"system.dic\",
    \"userDict\" : [ \"user.dic\" ],
    \"characterDefinitionFile\" : \"joinnumeric/char.def\",
    \"inputTextPlugin\" : [
        { \"class\" : \"sudachipy.plugin.input_text.DefaultInputTextPlugin\" }
    ],
    \"oovProviderPlugin\" : [
        { \"class\" : \"sudachipy.plugin.oov.SimpleOovProviderPlugin\",
          \"oovPOS\" : [ \"名詞\", \"普通名詞\", \"一般\", \"*\", \"*\", \"*\" ],
          \"leftId\" : 8,
          \"rightId\" : 8,
          \"cost\" : 6000 }
    ],
    \"pathRewritePlugin\" : [
        { \"class\" : \"sudachipy.plugin.path_rewrite.JoinNumericPlugin\",
          \"enableNormalize\" : true },
        { \"class\" : \"sudachipy.plugin.path_rewrite.JoinKatakanaOovPlugin\",
          \"oovPOS\" : [ \"名詞\", \"普通名詞\", \"一般\", \"*\", \"*\", \"*\" ],
          \"minLength\" : 3
        }
    ]
}
"

end Sudachi.Replay
