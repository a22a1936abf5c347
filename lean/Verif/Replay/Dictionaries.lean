/-
tests/dictionarylib/test_dictionaryheader.py, test_doublearraylexicon.py, test_dictionarybuilder.py, test_userdictionarybuilder.py and
tests/test_grammar.py
-/
import Verif.Replay.Machine
import Verif.Model.ConnectCost
namespace Sudachi.Replay.Dictionaries

/-! ### test_dictionaryheader.py -/

def header : Res Header := Header.fromBytes systemDic 0

#guard is (header.map (·.version)) (SYSTEM_DICT_VERSION_2 : Int)
#guard sat header (fun h => decide (h.createTime > 0))
#guard is (header.map (·.description)) (u "the system dictionary for the unit tests")

/-! ### test_doublearraylexicon.py -/

/-- lines 26-38 `setUp`: the lexicon begins 470 bytes after the header. -/
def lexicon : Res DALex := DALex.read systemDic (HEADER_SIZE + 470) true

#guard is (Grammar.read systemDic HEADER_SIZE |>.map (·.storageSize)) 470

def lookup (text : String) (offset : Nat) : Res (List (Nat × Nat)) := lexicon >>= (·.lookup SimpleTrie.trie (file text) offset)

/-! line 40 `test_lookup` -/
#guard is (lookup "東京都" 0) [(4, 3), (5, 6), (6, 9)]
#guard is (lookup "東京都に" 9) [(1, 12), (2, 12)]
#guard is (lookup "あれ" 0) []

/-! line 61 `test_parameters` -/
#guard is (lexicon >>= (·.leftId 0)) 1
#guard is (lexicon >>= (·.rightId 0)) 1
#guard is (lexicon >>= (·.cost 0)) 8729
#guard is (lexicon >>= (·.leftId 6)) 6
#guard is (lexicon >>= (·.rightId 6)) 8
#guard is (lexicon >>= (·.cost 6)) 5320
#guard is (lexicon >>= (·.leftId 9)) 8
#guard is (lexicon >>= (·.rightId 9)) 8
#guard is (lexicon >>= (·.cost 9)) 2914

/-! line 77 `test_wordinfo` -/
#guard is (lexicon >>= (·.wordInfo 100 0)) ⟨u "た", 3, 0, u "た", -1, u "た", u "タ", [], [], [], []⟩
#guard sat (lexicon >>= (·.wordInfo 100 8)) (fun w => decide (w.surface = u "行っ" ∧ w.normalizedForm = u "行く" ∧
  w.dictionaryFormWordId = 7 ∧ w.dictionaryForm = u "行く"))
#guard sat (lexicon >>= (·.wordInfo 100 6)) (fun w => decide (w.surface = u "東京都" ∧ w.aUnitSplit = [5, 9] ∧ w.bUnitSplit = [] ∧
  w.wordStructure = [5, 9] ∧ w.synonymGroupIds = []))

/-! line 107 `test_wordinfo_with_longword` -/
#guard sat (lexicon >>= (·.wordInfo 100 36)) (fun w => decide (w.surface.length = 300 ∧ w.headWordLength = 300 ∧
  w.normalizedForm.length = 300 ∧ w.dictionaryFormWordId = -1 ∧ w.dictionaryForm.length = 300 ∧ w.readingForm.length = 570))

/-! line 117 `test_size` -/
#guard is (lexicon.map (·.size)) 39

/-! ### test_grammar.py -/

/-- lines 83-103 `build_partofspeech` and 105-121 `build_connect_table`. -/
def storage : Bytes :=
  [3, 0, 7, 66, 0, 79, 0, 83, 0, 47, 0, 69, 0, 79, 0, 83, 0, 1, 42, 0, 1, 42, 0, 1, 42, 0, 1, 42, 0, 1, 42, 0, 2, 13, 84, 58, 82, 2, 0,
   78, 44, 130, 1, 42, 0, 1, 42, 0, 1, 42, 0, 1, 42, 0, 2, 213, 82, 94, 138, 2, 0, 78, 44, 130, 1, 42, 0, 1, 42, 0, 5, 148, 78, 181, 107,
   45, 0, 181, 48, 76, 136, 6, 66, 125, 98, 107, 98, 95, 45, 0, 0, 78, 44, 130, 3, 0, 3, 0, 0, 0, 212, 254, 184, 11, 44, 1, 12, 254, 156,
   255, 72, 244, 200, 0, 208, 7]

def grammar : Res Grammar := Grammar.read storage 0

#guard is (grammar.map (·.storageSize)) storage.length
#guard is (grammar >>= (·.posString 0)) [u "BOS/EOS", u "*", u "*", u "*", u "*", u "*"]
#guard sat (grammar >>= (·.posString 1)) (fun p => decide (p[1]? = some (u "一般") ∧ p[5]? = some (u "*")))
#guard sat (grammar >>= (·.posString 2)) (fun p => decide (p[4]? = some (u "五段-サ行") ∧ p[5]? = some (u "終止形-一般")))
#guard is (grammar >>= (·.getConnectCost 0 0)) 0
#guard is (grammar >>= (·.getConnectCost 2 1)) (-100)
#guard is (grammar >>= (·.getConnectCost 1 2)) 200

/-! `test_set_connect_cost`: the map of the test can be written (`mmap.ACCESS_COPY`). -/
#guard is (grammar >>= (·.setConnectCost true (.ok 0) (.ok 0) 300) >>= (·.getConnectCost 0 0)) 300

/-! ### test_dictionarybuilder.py -/

/-- `builder.parse_line(line.split(','))` of a new builder. -/
def parsed (line : String) : Res Entry := ((DictBuilder.init none).parseLine (splitOn 44 (u line))).map (·.2)

/-! line 50 `test_parseline` -/
#guard sat (parsed "京都,6,6,5293,京都,名詞,固有名詞,地名,一般,*,*,キョウト,京都,*,A,*,*,*,*") (fun e => decide (e.headword = some (u "京都") ∧
  e.params = (6, 6, 5293) ∧ e.info.posId = 0 ∧ e.aSplit = u "*" ∧ e.bSplit = u "*"))
#guard sat (parsed "京都,-1,-1,0,京都,名詞,固有名詞,地名,一般,*,*,キョウト,京都,*,A,*,*,*,*") (fun e => decide (e.headword = none ∧
  e.info.posId = 0))
#guard is ((parsed "京都,6,6,5293,京都,名詞,固有名詞,地名,一般,*,*,キョウト,京都,*,A,*,*,*").map (·.info.synonymGroupIds)) []

/-! line 70 `test_parse_line_invalid_columns` and the next three -/
#guard raises (parsed "京都,6,6,5293,京都,名詞,固有名詞,地名,一般,*,*,キョウト,京都,*,A,*,*") .value
#guard raises (parsed ",6,6,5293,京都,名詞,固有名詞,地名,一般,*,*,キョウト,京都,*,A,*,*,*,*") .value
#guard raises (parsed (String.ofList (List.replicate 32768 'a') ++
  ",6,6,5293,京都,名詞,固有名詞,地名,一般,*,*,キョウト,京都,*,A,*,*,*,*")) .value
#guard raises (parsed "京都,6,6,5293,京都,名詞,固有名詞,地名,一般,*,*,キョウト,京都,*,B,0/1/2/3/4/5/6/7/8/9/0/0/1/2/3/4/5/6/7/8/9/0/0/1/2/3/4/5/6/7/8/9/0/0/1/2/3/4/5/6/7/8/9/0/0/1/2/3/4/5/6/7/8/9/0/0/1/2/3/4/5/6/7/8/9/0/0/1/2/3/4/5/6/7/8/9/0/0/1/2/3/4/5/6/7/8/9/0/0/1/2/3/4/5/6/7/8/9/0/0/1/2/3/4/5/6/7/8/9/0/0/1/2/3/4/5/6/7/8/9/0/0/1/2/3/4/5/6/7/8/9/0/0/1/2/3/4/5/6/7/8/9/0,*,*,*") .value

/-! line 96 `test_parse_line_same_readingform` -/
#guard is ((parsed "〒,6,6,5293,〒,名詞,普通名詞,一般,*,*,*,〒,〒,*,A,*,*,*,*").map (·.info.readingForm)) (u "〒")

/-! line 101 `test_add_to_trie` -/
def keys : List (Bytes × List Nat) :=
  DictBuilder.addKey (file "abcd") 2 (DictBuilder.addKey (file "abc") 1 (DictBuilder.addKey (file "abc") 0 []))
#guard (dictGet keys (file "abc")).any (fun ids => ids.contains 0 && ids.contains 1)

/-! line 109 `test_convert_postable` -/
#guard is ((convertPosTable [u "a,b,c,d,e,f", u "g,h,i,j,k,l"]).map (·.length)) (2 + 3 * 12)

/-! line 114 `test_convert_matrix` -/
def matrix : Res (Bytes × Bytes) :=
  convertMatrix (u "2 3\n") [u "0 0 0\n", u "0 1 1\n", u "0 2 2\n", u "\n", u "1 0 3\n", u "1 1 4\n", u "1 2 5\n"]
#guard is (matrix.map (fun m => fromLe (m.1.take 2))) 2
#guard is (matrix.map (fun m => fromLe ((m.1.drop 2).take 2))) 3
#guard is (matrix.map (fun m => fromLe (m.2.take 2))) 0
#guard is (matrix.map (fun m => fromLe ((m.2.drop ((2 + 1) * 2)).take 2))) 4

/-! line 123 `test_decode` -/
#guard is (decodeText (u "a\\u002cc")) (u "a,c")
#guard is (decodeText (u "a\\u{002c}c")) (u "a,c")
#guard is (decodeText (u "a\\u{20b9f}c")) (u "a𠮟c")

/-- A builder with entries (`builder.entries.extend([None] * n)`); `sys` is the size of the mocked system lexicon. -/
def builder (sys : Option Nat) (n : Nat) : DictBuilder :=
  { DictBuilder.init (sys.map (fun k => ⟨[], k, fun _ _ _ => .error .type⟩)) with
    entries := List.replicate n ⟨none, (0, 0, 0), WordInfo.unk, [], [], []⟩ }

def splitOf (b : DictBuilder) (s : String) : Res (List Int) := (b.parseSplitinfo (u s)).map (·.1)

/-! line 129 `test_parse_splitinfo` and the next three -/
#guard is (splitOf (builder none 4) "*") []
#guard is (splitOf (builder none 4) "1/2/3") [1, 2, 3]
#guard is ((splitOf (builder none 4) "1/U2/3").map (·[1]?)) (some 2)
#guard is (splitOf (builder (some 4) 3) "1/U2/3") [1, 2 + 2 ^ 28, 3]
#guard raises (splitOf (builder none 0) "1/2/3") .value
#guard raises (splitOf (builder (some 1) 0) "0/U1") .value
#guard raises (splitOf (builder (some 1) 1) "1/U0") .value

/-! line 166 `test_write_string` -/
#guard is (writeString (u "")) [0]
#guard is (writeString (u "あ𠮟")) [3, 0x42, 0x30, 55362 % 256, 55362 / 256, 57247 % 256, 57247 / 256]
def longString : String := "0123456789012345678901234567890123456789012345678901234567890123456789012345678901234567890123456789012345678901234567890123456789"
#guard sat (writeString (u longString)) (fun b => decide (b[0]? = some (longString.length / 256 + 0x80) ∧
  b[1]? = some (longString.length % 256) ∧ b.length = 2 + 2 * longString.length))

/-! line 190 `test_write_intarray` -/
#guard is (writeIntArray []) [0]
#guard is (writeIntArray [1, 2, 3]) [3, 1, 0, 0, 0, 2, 0, 0, 0, 3, 0, 0, 0]

/-- lines 30-41 `setUp`. -/
def inputCsv : Bytes := file "東京都,0,0,0,東京都,名詞,固有名詞,地名,一般,*,*,ヒガシキョウト,東京都,*,B,\"東,名詞,普通名詞,一般,*,*,*,ヒガシ/2\",*,1/2,1/2\n東,-1,-1,0,東,名詞,普通名詞,一般,*,*,*,ヒガシ,ひがし,*,A,*,*,*,*\n京都,0,0,0,京都,名詞,固有名詞,地名,一般,*,*,キョウト,京都,*,A,*,*,*,*\n1,-1,-1,0,1,名詞,数詞,*,*,*,*,イチ,1,*,A,*,*,*,*\n東1,0,0,0,東1,名詞,普通名詞,一般,*,*,*,ヒガシイチ,東1,*,C,\"東,名詞,普通名詞,一般,*,*,*,ヒガシ/1,名詞,数詞,*,*,*,*,イチ\",\"東,名詞,普通名詞,一般,*,*,*,ヒガシ/U3\",*"

/-- A dictionary built from `inputCsv`. -/
def built : Bytes :=
  let S := (start.put (u "/t/matrix.txt") (file "1 1\n0 0 200\n")).put (u "/t/input.txt") inputCsv
  ((commandBuild SimpleTrie.trie S (u "/t/matrix.txt") [u "/t/input.txt"] (u "/t/output.txt") (u "test")).1.file
    (u "/t/output.txt")).toOption.getD []

def builtDict : Res BinDict := fromSystemDictionary built
def builtLex : Res DALex := builtDict.map (·.lexicon)

/-- The grammar of a dictionary. -/
def grammarOf (d : Res BinDict) : Res Grammar :=
  d >>= fun d => match d.grammar with
    | some g => .ok g
    | none => .error .outOfFuel

/-! line 201 `test_build` -/
#guard is (builtDict.map (fun d => (d.header.version, d.header.description))) ((SYSTEM_DICT_VERSION_2 : Int), u "test")
#guard is ((grammarOf builtDict).map (·.posSize)) 3
#guard is (grammarOf builtDict >>= (·.posString 0)) [u "名詞", u "固有名詞", u "地名", u "一般", u "*", u "*"]
#guard is (grammarOf builtDict >>= (·.posString 1)) [u "名詞", u "普通名詞", u "一般", u "*", u "*", u "*"]
#guard is (grammarOf builtDict >>= (·.getConnectCost 0 0)) 200
#guard is (builtLex.map (·.size)) 5
#guard is (builtLex >>= (·.cost 0)) 0
#guard sat (builtLex >>= (·.wordInfo 100 0)) (fun w => decide (w.surface = u "東京都" ∧ w.normalizedForm = u "東京都" ∧
  w.dictionaryFormWordId = -1 ∧ w.readingForm = u "ヒガシキョウト" ∧ w.posId = 0 ∧ w.aUnitSplit = [1, 2] ∧ w.bUnitSplit = [] ∧
  w.synonymGroupIds = [1, 2]))
#guard is (builtLex >>= (·.lookup SimpleTrie.trie (file "東京都") 0)) [(0, 9)]
#guard is (builtLex >>= (·.leftId 1)) (-1)
#guard is (builtLex >>= (·.cost 1)) 0
#guard sat (builtLex >>= (·.wordInfo 100 1)) (fun w => decide (w.surface = u "東" ∧ w.normalizedForm = u "ひがし" ∧
  w.dictionaryFormWordId = -1 ∧ w.readingForm = u "ヒガシ" ∧ w.posId = 1 ∧ w.aUnitSplit = [] ∧ w.bUnitSplit = []))
#guard is (builtLex >>= (·.lookup SimpleTrie.trie (file "東") 0)) []

/-! ### test_userdictionarybuilder.py -/

/-- lines 31-40 `setUp`. -/
def userBuilder : Res DictBuilder :=
  (fromSystemDictionary systemDic).map (fun d => DictBuilder.init (some (d.toSysDict SimpleTrie.trie 100)))

/-! line 46 `test_parseline_with_userdefined_POS` -/
#guard is (userBuilder >>= (fun b => (b.parseLine (splitOn 44 (u
  "田中,0,0,0,田中,存在,しない,品詞,*,*,*,タナカ,田中,*,A,*,*,*,*"))).map (·.1.posTable.length))) 1

/-- The user dictionary of the test, which is written with the header of a system dictionary. -/
def userBuilt : Res Bytes := do
  let b ← userBuilder
  let out := DictBuilder.buildOf SimpleTrie.trie ⟨SYSTEM_DICT_VERSION_2, 100, u "test"⟩
    (b.addLines (streamLines (file "東京都市,0,0,0,東京都市,名詞,固有名詞,地名,一般,*,*,ヒガシキョウトシ,東京都市,*,B,\"東,名詞,普通名詞,一般,*,*,*,ヒガシ/3/U1\",*,\"4/3/市,名詞,普通名詞,一般,*,*,*,シ\",*\n市,-1,-1,0,市,名詞,普通名詞,一般,*,*,*,シ,市,*,A,*,*,*,*\n"))) (.ok none)
  match out.2 with
  | .ok () => .ok (runOps out.1).data
  | .error e => .error e

def userDict : Res BinDict := userBuilt >>= fromSystemDictionary
def userLex : Res DALex := userDict.map (·.lexicon)

/-! line 51 `test_build` -/
#guard is (userDict.map (fun d => (d.header.version, d.header.description))) ((SYSTEM_DICT_VERSION_2 : Int), u "test")
#guard is (userLex >>= (·.leftId 0)) 0
#guard is (userLex >>= (·.cost 0)) 0
#guard sat (userLex >>= (·.wordInfo 100 0)) (fun w => decide (w.surface = u "東京都市" ∧ w.normalizedForm = u "東京都市" ∧
  w.dictionaryFormWordId = -1 ∧ w.readingForm = u "ヒガシキョウトシ" ∧ w.posId = 3 ∧ w.aUnitSplit = [4, 3, 1 + 2 ^ 28] ∧
  w.bUnitSplit = [] ∧ w.wordStructure = [4, 3, 1 + 2 ^ 28]))
#guard is (userLex >>= (·.lookup SimpleTrie.trie (file "東京都市") 0)) [(0, 12)]
#guard is (userLex >>= (·.leftId 1)) (-1)
#guard is (userLex >>= (·.cost 1)) 0
#guard sat (userLex >>= (·.wordInfo 100 1)) (fun w => decide (w.surface = u "市" ∧ w.normalizedForm = u "市" ∧
  w.dictionaryFormWordId = -1 ∧ w.readingForm = u "シ" ∧ w.posId = 4 ∧ w.aUnitSplit = [] ∧ w.bUnitSplit = []))
#guard is (userLex >>= (·.lookup SimpleTrie.trie (file "東") 0)) []

end Sudachi.Replay.Dictionaries
