/-
tests/test_tokenizer.py, tests/test_dictionary.py and tests/test_switchdictionary.py
-/
import Verif.Replay.Machine
namespace Sudachi.Replay.Tokens

/-- test_tokenizer.py:23-26 `setUp`. -/
def dict : Option (DictConfig × Dict) := (opened "sudachi.json").toOption

#guard dict.isSome

/-- `self.tokenizer_obj.tokenize(text, mode)`. -/
def tokenize (text : String) (mode : Option Mode := none) : Res MorphemeList :=
  match dict with
  | none => .error .outOfFuel
  | some (cfg, d) => createTokenizer cfg d none >>= fun T => (T.tokenize Lattice.init (u text) mode).2

/-- `ms[i].get_word_info()`. -/
def info (ml : Res MorphemeList) (i : Nat) : Res WordInfo :=
  match dict with
  | none => .error .outOfFuel
  | some (cfg, d) => ml >>= (·.getWordInfo (create cfg d none).lex i)

/-- `ms[i].part_of_speech()`. -/
def pos (ml : Res MorphemeList) (i : Nat) : Res (List PStr) :=
  match dict with
  | none => .error .outOfFuel
  | some (_, d) => info ml i >>= (fun w => d.grammar.posString w.posId)

/-- `ms[i].surface()` with Python's index. -/
def surface (ml : Res MorphemeList) (i : Int) : Res PStr := ml >>= (fun m => m.getItem i >>= m.getSurface)

/-! line 28 `test_tokenize_small_katanana_only` -/
#guard is ((tokenize "ァ").map (·.len)) 1

/-! line 32 `test_part_of_speech` -/
#guard is ((tokenize "京都").map (·.len)) 1
#guard sat (info (tokenize "京都") 0) (fun w => match dict with
  | some (_, d) => decide ((d.grammar.posSize : Int) > w.posId)
  | none => false)

/-! line 41 `test_get_word_id` -/
#guard is (pos (tokenize "京都") 0) [u "名詞", u "固有名詞", u "地名", u "一般", u "*", u "*"]
#guard is ((tokenize "ぴらる").map (·.len)) 1
#guard sat (tokenize "京都" >>= (·.wordId 0)) (fun w => sat (tokenize "ぴらる" >>= (·.wordId 0)) (fun v => decide (v ≠ w)))
#guard is (pos (tokenize "ぴらる") 0) [u "名詞", u "普通名詞", u "一般", u "*", u "*", u "*"]
#guard is ((tokenize "京").map (·.len)) 1

/-! line 55 `test_get_dictionary_id` -/
#guard is (tokenize "京都" >>= (·.dictionaryId 0)) 0
#guard is (tokenize "ぴらる" >>= (·.dictionaryId 0)) 1
#guard sat (tokenize "京" >>= (·.dictionaryId 0)) (fun v => decide (v < 0))

/-! line 68 `test_get_synonym_group_ids` -/
#guard is ((info (tokenize "京都") 0).map (·.synonymGroupIds)) [1, 5]
#guard is ((info (tokenize "ぴらる") 0).map (·.synonymGroupIds)) []
#guard is ((tokenize "東京府").map (·.len)) 1
#guard is ((info (tokenize "東京府") 0).map (·.synonymGroupIds)) [1, 3]

/-! line 81 `test_tokenize_kanji_alphabet_word` -/
#guard is ((tokenize "特a").map (·.len)) 1
#guard is ((tokenize "ab").map (·.len)) 1
#guard is ((tokenize "特ab").map (·.len)) 2

/-! line 86 `test_tokenizer_with_dots` -/
#guard is ((tokenize "京都…").map (·.len)) 4
#guard is (surface (tokenize "京都…") 1) (u "…")
#guard is ((info (tokenize "京都…") 1).map (·.normalizedForm)) (u ".")
#guard is (surface (tokenize "京都…") 2) (u "")
#guard is ((info (tokenize "京都…") 2).map (·.normalizedForm)) (u ".")
#guard is (surface (tokenize "京都…") 3) (u "")
#guard is ((info (tokenize "京都…") 3).map (·.normalizedForm)) (u ".")

/-! line 96 `test_tokenizer_morpheme_split` -/
#guard is ((tokenize "東京都" (some .C)).map (·.len)) 1
#guard is (surface (tokenize "東京都" (some .C)) 0) (u "東京都")

/-- `ms[0].split(SplitMode.A)`, the surfaces. -/
def splitA : Res (List PStr) :=
  match dict with
  | none => .error .outOfFuel
  | some (cfg, d) => do
    let ml ← tokenize "東京都" (some .C)
    let ms ← ml.split (create cfg d none).lex .A 0
    ms.mapM (fun (m, i) => m.getSurface i)

#guard is splitA [u "東京", u "都"]

/-! line 107 `test_tokenizer_morpheme_list_range` -/
#guard is ((tokenize "東京都" (some .A)).map (·.len)) 2
#guard is (surface (tokenize "東京都" (some .A)) 0) (u "東京")
#guard is (surface (tokenize "東京都" (some .A)) 1) (u "都")
#guard is (surface (tokenize "東京都" (some .A)) (-1)) (u "都")
#guard is (surface (tokenize "東京都" (some .A)) (-2)) (u "東京")
#guard raises (surface (tokenize "東京都" (some .A)) 2) .index
#guard raises (surface (tokenize "東京都" (some .A)) (-3)) .index

/-! ### test_dictionary.py -/

/-! line 30 `test_create` -/
#guard (match dict with | some (cfg, d) => (createTokenizer cfg d none).isOk | none => false)

/-! line 33 `test_get_part_of_speech_size` -/
#guard (match dict with | some (_, d) => decide (d.grammar.posSize = 9) | none => false)

/-! line 36 `test_get_part_of_speech_string` -/
#guard (match dict with | some (_, d) => is ((d.grammar.posString 0).map (·.head?)) (some (u "助動詞")) | none => false)

/-! ### test_switchdictionary.py -/

def smallLex : String := "島,0,0,0,島,名詞,普通名詞,一般,*,*,*,シマ,島,*,A,*,*,*"
def coreLex : String := smallLex ++ "\n徳島本町,0,0,0,徳島本町,名詞,固有名詞,地名,一般,*,*,トクシマホンチョウ,徳島本町,*,A,*,*,*,*"
def fullLex : String := coreLex ++ "\n徳島堰,0,0,0,徳島堰,名詞,固有名詞,一般,*,*,*,トクシマセギ,徳島堰,*,A,*,*,*"

/-- lines 81-98 `_build_dictionary`. -/
def switchDic (lex : String) : Bytes :=
  let S := (start.put (u "/r/matrix.txt") (file "1 1\n0 0 200\n")).put (u "/r/in.csv") (file lex)
  ((commandBuild SimpleTrie.trie S (u "/r/matrix.txt") [u "/r/in.csv"] (u "/r/out.dic") (u "test")).1.file (u "/r/out.dic")).toOption.getD []

/-- The files of the test, with `systemDict` rewritten in the settings (lines 73-79). -/
def switchMachine (systemDict : String) : Disk :=
  { start with
    file := fun p =>
      if p = u "/r/small.dic" then .ok (switchDic smallLex)
      else if p = u "/r/core.dic" then .ok (switchDic coreLex)
      else if p = u "/r/full.dic" then .ok (switchDic fullLex)
      else if p = u "/r/char.def" then .ok charDef
      else givenFile p
    settings := fun _ => do
      let d ← settingsIn givenFile (inResources "sudachi.json")
      pure ((d.set (u "userDict") (.list [])).set (u "systemDict") (.str (u systemDict))) }

/-- `Dictionary(config_path=..., resource_dir=...)`, with the settings left by the dictionary before (they are global), and
`self.dict.lexicon.size()`. -/
def switchSize (s : Settings) (systemDict : String) : Settings × Res Nat :=
  let r := openDictionary runtime (switchMachine systemDict) s (some (u "/r/sudachi.json")) (some (u "/r")) none
  (r.1, r.2.map (fun x => x.2.set.size))

/-! line 100 `test_switch_dictionary` -/
#guard is (switchSize Settings.init "small.dic").2 1
#guard is (switchSize (switchSize Settings.init "small.dic").1 "/r/small.dic").2 1
#guard is (switchSize (switchSize Settings.init "small.dic").1 "core.dic").2 2
#guard is (switchSize (switchSize Settings.init "small.dic").1 "/r/core.dic").2 2
#guard is (switchSize (switchSize Settings.init "core.dic").1 "full.dic").2 3
#guard is (switchSize (switchSize Settings.init "core.dic").1 "/r/full.dic").2 3

/-! ### test_large_userdict.py -/

/-- The first words of dict/large_user.csv:2-2050, which go on to `dau` (the others are left out to save time). -/
def letters : List Char := "abcdefghijklmnopqrstuvwxyz".toList
def threes : List String := letters.map fun c => String.ofList ['a', 'a', c]

/-- The beginning of dict/large_user.csv. -/
def largeUserCsv : Bytes :=
  file ("やまもも,6,6,2816,やまもも,被子植物門,双子葉植物綱,ブナ目,ヤマモモ科,ヤマモモ属,ヤマモモ,ヤマモモ,やまもも,*,A,*,*,*,*\n" ++
    String.join (threes.map fun x => x ++ ",8,8,2914," ++ x ++ ",名詞,普通名詞,一般,*,*,*," ++ x ++ "," ++ x ++ ",*,A,*,*,*,*\n"))

/-- scripts/test.sh:16. -/
def largeUser : Shell × Ended :=
  commandUserBuild SimpleTrie.trie 100 (system.1.put (u "/r/large.csv") largeUserCsv) (some (inResources "system.dic"))
    [u "/r/large.csv"] (inResources "large_user.dic") []

#guard largeUser.2 = .done

def largeUserDic : Bytes := (largeUser.1.file (inResources "large_user.dic")).toOption.getD []

/-- test_large_userdict.py:25-28 `setUp`; sudachi_large_user.json differs from sudachi.json only in `userDict`. -/
def largeDict : Option (DictConfig × Dict) :=
  (openDictionary runtime
    { machine with
      file := fun p => if p = inResources "large_user.dic" then .ok largeUserDic else machine.file p
      settings := fun _ => do
        let d ← settingsIn givenFile (inResources "sudachi.json")
        pure (d.set (u "userDict") (.list [.str (u "user.dic"), .str (u "large_user.dic")])) }
    Settings.init (some (inResources "sudachi_large_user.json")) (some (u "/tests/resources")) none).2.toOption

/-- The part-of-speech ids of the morphemes of a text. -/
def posIds (text : String) : Res (List Int) :=
  match largeDict with
  | none => .error .outOfFuel
  | some (cfg, d) => do
    let T ← createTokenizer cfg d none
    let ml ← (T.tokenize Lattice.init (u text) none).2
    ml.iter.mapM (fun i => (ml.getWordInfo T.lex i).map (·.posId))

/-! line 30 `test_part_of_speech`: the part of speech of the user dictionary is added to the nine of the system dictionary, also after other
words have been looked up (the model's lexicon has no cache here; C48 is about the cache). -/
#guard is (posIds "やまもも") [9]
#guard (match largeDict with | some (_, d) => decide (d.grammar.posSize = 10) | none => false)

end Sudachi.Replay.Tokens
