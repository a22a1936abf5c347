/-
tests/plugin/test_join_katakana_oov_plugin.py and tests/plugin/test_join_numeric_plugin.py
-/
import Verif.Replay.Machine
namespace Sudachi.Replay.Paths

/-- A tokenizer of the dictionary, and its grammar. -/
def made (json : String) : Option (Tokenizer × Grammar) := (opened json).toOption.map (fun x => (create x.1 x.2 none, x.2.grammar))

def katakanaTokenizer : Option (Tokenizer × Grammar) := made "sudachi.json"
def numericTokenizer : Option (Tokenizer × Grammar) := made "numeric_sudachi.json"

#guard katakanaTokenizer.isSome
#guard numericTokenizer.isSome

/-- test_join_katakana_oov_plugin.py:72-78 `get_path`: no input text plugin, the best path, and one plugin. -/
def getPath (T : Tokenizer) (p : PathPlugin) (text : String) : Res (List NodeData) := do
  let t ← (Builder.init (u text)).build T.catOf
  match buildLattice T.conn T.lex T.oov t Lattice.init with
  | (_, .error e) => .error e
  | (L, .ok ()) =>
    let path ← L.getBestPath
    p.rewrite T.lex T.fuel t L path

/-- The word infos of the path. -/
def infosOf (T : Tokenizer) (path : Res (List NodeData)) : Res (List WordInfo) := path >>= nodeWordInfos T.lex

/-! ### test_join_katakana_oov_plugin.py -/

/-- The plugin is made from the settings but not set up (line 30), so it has no part of speech of its own
(join_katakana_oov_plugin.py:28); 0 stands for it, no test looks at it.  `_min_length` is set by the tests. -/
def katakana (minLength : Int) (text : String) : Res (List NodeData) :=
  match katakanaTokenizer with
  | none => .error .outOfFuel
  | some (T, _) => getPath T (.katakana ⟨0, minLength⟩) text

def katakanaInfos (minLength : Int) (text : String) : Res (List WordInfo) :=
  match katakanaTokenizer with
  | none => .error .outOfFuel
  | some (T, _) => infosOf T (katakana minLength text)


/-! line 32 `test_katakana_length` -/
#guard is ((katakana 0 "アイアイウ").map (·.length)) 2
#guard is ((katakana 1 "アイアイウ").map (·.length)) 2
#guard is ((katakana 2 "アイアイウ").map (·.length)) 2
#guard is ((katakana 3 "アイアイウ").map (·.length)) 1

/-! line 50 `test_pos` -/
#guard is ((katakana 3 "アイアイウ").map (·.length)) 1
#guard is ((katakana 3 "アイアイウ").map (·.map (·.oov))) [false]
#guard (match katakanaTokenizer with
  | some (_, g) => sat (katakanaInfos 3 "アイアイウ") (fun ws => ws.all fun w =>
      is (g.posString w.posId) [u "名詞", u "固有名詞", u "地名", u "一般", u "*", u "*"])
  | none => false)

/-! line 59 `test_starts_with_middle` -/
#guard is ((katakana 3 "アイウアイアイウ").map (·.length)) 1

/-! line 64 `test_starts_with_tail` -/
#guard is ((katakana 3 "アイウアイウアイ").map (·.length)) 1

/-! line 69 `test_with_nooovbow` -/
#guard is ((katakana 3 "ァアイアイウ").map (·.length)) 2
#guard is ((katakanaInfos 3 "ァアイアイウ").map (fun ws => (ws[0]?).map (·.surface))) (some (u "ァ"))
#guard is ((katakana 3 "アイウァアイウ").map (·.length)) 1

/-! ### test_join_numeric_plugin.py -/

/-- lines 27-30 `setUp`; `JoinNumericPlugin(None)` has `_enable_normalize` true (join_numeric_plugin.py:24-30). -/
def numeric (normalize : Bool) (text : String) : Res (List WordInfo) :=
  match numericTokenizer with
  | none => .error .outOfFuel
  | some (T, g) => infosOf T (getPath T (.numeric ⟨g.posId [u "名詞", u "数詞", u "*", u "*", u "*", u "*"], normalize⟩) text)


/-! line 33 `test_digit` -/
#guard is ((numeric true "123円20銭").map (·.length)) 4
#guard is ((numeric true "123円20銭").map (fun ws => (ws[0]?).map (·.surface))) (some (u "123"))
#guard is ((numeric true "123円20銭").map (fun ws => (ws[2]?).map (·.surface))) (some (u "20"))
#guard is ((numeric true "080-121").map (·.length)) 3
#guard is ((numeric true "080-121").map (fun ws => (ws[0]?).map (·.surface))) (some (u "080"))
#guard is ((numeric true "080-121").map (fun ws => (ws[2]?).map (·.surface))) (some (u "121"))

/-! line 44 `test_kanji_numeric` -/
#guard is ((numeric true "一二三万二千円").map (·.length)) 2
#guard is ((numeric true "一二三万二千円").map (fun ws => (ws[0]?).map (·.surface))) (some (u "一二三万二千"))
#guard is ((numeric true "二百百").map (·.length)) 3

/-! line 52 `test_normalize` -/
#guard is ((numeric true "一二三万二千円").map (·.length)) 2
#guard is ((numeric true "一二三万二千円").map (fun ws => (ws[0]?).map (·.normalizedForm))) (some (u "1232000"))

/-! line 58 `test_normalized_with_not_numeric` -/
#guard is ((numeric true "六三四").map (·.length)) 1
#guard is ((numeric true "六三四").map (fun ws => (ws[0]?).map (·.normalizedForm))) (some (u "六三四"))

/-! line 64 `test_point` -/
#guard is ((numeric true "1.002").map (·.length)) 1
#guard is ((numeric true "1.002").map (fun ws => (ws[0]?).map (·.normalizedForm))) (some (u "1.002"))
#guard is ((numeric true ".002").map (·.length)) 2
#guard is ((numeric true ".002").map (fun ws => (ws[0]?).map (·.normalizedForm))) (some (u "."))
#guard is ((numeric true ".002").map (fun ws => (ws[1]?).map (·.normalizedForm))) (some (u "002"))
#guard is ((numeric true "22.").map (·.length)) 2
#guard is ((numeric true "22.").map (fun ws => (ws[0]?).map (·.normalizedForm))) (some (u "22"))
#guard is ((numeric true "22.").map (fun ws => (ws[1]?).map (·.normalizedForm))) (some (u "."))
#guard is ((numeric true "22.節").map (·.length)) 3
#guard is ((numeric true "22.節").map (fun ws => (ws[0]?).map (·.normalizedForm))) (some (u "22"))
#guard is ((numeric true "22.節").map (fun ws => (ws[1]?).map (·.normalizedForm))) (some (u "."))
#guard is ((numeric true ".c").map (·.length)) 2
#guard is ((numeric true ".c").map (fun ws => (ws[0]?).map (·.normalizedForm))) (some (u "."))
#guard is ((numeric true "1.20.3").map (·.length)) 5
#guard is ((numeric true "1.20.3").map (fun ws => (ws[2]?).map (·.normalizedForm))) (some (u "20"))
#guard is ((numeric true "652...").map (·.length)) 4
#guard is ((numeric true "652...").map (fun ws => (ws[0]?).map (·.normalizedForm))) (some (u "652"))

/-! line 98 `test_comma` -/
#guard is ((numeric true "2,000,000").map (·.length)) 1
#guard is ((numeric true "2,000,000").map (fun ws => (ws[0]?).map (·.normalizedForm))) (some (u "2000000"))
#guard is ((numeric true "2,00,000,000円").map (·.length)) 8
#guard is ((numeric true "2,00,000,000円").map (fun ws => (ws[0]?).map (·.normalizedForm))) (some (u "2"))
#guard is ((numeric true "2,00,000,000円").map (fun ws => (ws[1]?).map (·.normalizedForm))) (some (u ","))
#guard is ((numeric true "2,00,000,000円").map (fun ws => (ws[2]?).map (·.normalizedForm))) (some (u "00"))
#guard is ((numeric true "2,00,000,000円").map (fun ws => (ws[3]?).map (·.normalizedForm))) (some (u ","))
#guard is ((numeric true "2,00,000,000円").map (fun ws => (ws[4]?).map (·.normalizedForm))) (some (u "000"))
#guard is ((numeric true "2,00,000,000円").map (fun ws => (ws[5]?).map (·.normalizedForm))) (some (u ","))
#guard is ((numeric true "2,00,000,000円").map (fun ws => (ws[6]?).map (·.normalizedForm))) (some (u "000"))
#guard is ((numeric true ",").map (·.length)) 1
#guard is ((numeric true "652,,,").map (·.length)) 4
#guard is ((numeric true "652,,,").map (fun ws => (ws[0]?).map (·.normalizedForm))) (some (u "652"))
#guard is ((numeric true "256,5.50389").map (·.length)) 3
#guard is ((numeric true "256,5.50389").map (fun ws => (ws[0]?).map (·.normalizedForm))) (some (u "256"))
#guard is ((numeric true "256,5.50389").map (fun ws => (ws[2]?).map (·.normalizedForm))) (some (u "5.50389"))
#guard is ((numeric true "256,550.389").map (·.length)) 1
#guard is ((numeric true "256,550.389").map (fun ws => (ws[0]?).map (·.normalizedForm))) (some (u "256550.389"))

/-! line 131 `test_single_node` -/
#guard is ((numeric false "猫三匹").map (·.length)) 3
#guard is ((numeric false "猫三匹").map (fun ws => (ws[1]?).map (·.normalizedForm))) (some (u "三"))
#guard is ((numeric true "猫三匹").map (·.length)) 3
#guard is ((numeric true "猫三匹").map (fun ws => (ws[1]?).map (·.normalizedForm))) (some (u "3"))

end Sudachi.Replay.Paths
