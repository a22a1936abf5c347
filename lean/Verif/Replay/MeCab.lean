/-
tests/plugin/test_mecab_oov_plugin.py
-/
import Verif.Replay.Machine
namespace Sudachi.Replay.MeCab

/-- tests/mock_inputtext.py: the text `あいうえお` whose positions are those of its characters, with one category for the first three
characters and none for the others. -/
def input (c : Cat) : InputText :=
  ⟨u "あいうえお", u "あいうえお", [0, 0, 0, 0, 0], [0, 1, 2, 3, 4, 5], [0, 1, 2, 3, 4, 5], [[c], [c], [c], [], []], [3, 2, 1, 1, 1],
    [true, false, false, true, true]⟩

/-- lines 28-34: the entries. -/
def entry (posId : Int) : OovEntry := ⟨0, 0, 0, posId⟩
def entries : List (Cat × OovEntry) := [(.KANJI, entry 1), (.KANJINUMERIC, entry 1), (.KANJINUMERIC, entry 2)]

/-- `self.plugin.provide_oov(self.mocked_input_text, 0, other)` with a `CategoryInfo`: surface, length and part of speech of the nodes. -/
def oovs (c : Cat) (cinfo : List (Cat × CategoryInfo)) (other : Bool) : Res (List (PStr × Nat × Int)) := do
  let ns ← (OovPlugin.mecab cinfo entries).getOov (input c) 0 other
  pure (ns.filterMap (fun n => n.extra.map (fun w => (w.surface, w.headWordLength, w.posId))))

def nodes (c : Cat) (cinfo : List (Cat × CategoryInfo)) (other : Bool) : Res Nat :=
  ((OovPlugin.mecab cinfo entries).getOov (input c) 0 other).map (·.length)


/-! line 40 `test_provide_oov000` -/
#guard is (nodes .KANJI [(.KANJI, ⟨false, false, 0⟩)] false) 0
#guard is (nodes .KANJI [(.KANJI, ⟨false, false, 0⟩)] true) 0

/-! line 56 `test_provide_oov100` -/
#guard is (nodes .KANJI [(.KANJI, ⟨true, false, 0⟩)] false) 0
#guard is (nodes .KANJI [(.KANJI, ⟨true, false, 0⟩)] true) 0

/-! line 72 `test_provide_oov010` -/
#guard is (nodes .KANJI [(.KANJI, ⟨false, true, 0⟩)] false) 1
#guard is (oovs .KANJI [(.KANJI, ⟨false, true, 0⟩)] false)
  [(u "あいう", 3, 1)]
#guard is (nodes .KANJI [(.KANJI, ⟨false, true, 0⟩)] true) 0

/-! line 93 `test_provide_oov110` -/
#guard is (nodes .KANJI [(.KANJI, ⟨true, true, 0⟩)] false) 1
#guard is (oovs .KANJI [(.KANJI, ⟨true, true, 0⟩)] false)
  [(u "あいう", 3, 1)]
#guard is (nodes .KANJI [(.KANJI, ⟨true, true, 0⟩)] true) 1

/-! line 114 `test_provide_oov002` -/
#guard is (nodes .KANJI [(.KANJI, ⟨false, false, 2⟩)] false) 2
#guard is (oovs .KANJI [(.KANJI, ⟨false, false, 2⟩)] false)
  [(u "あ", 1, 1), (u "あい", 2, 1)]
#guard is (nodes .KANJI [(.KANJI, ⟨false, false, 2⟩)] true) 0

/-! line 140 `test_provide_oov012` -/
#guard is (nodes .KANJI [(.KANJI, ⟨false, true, 2⟩)] false) 3
#guard is (oovs .KANJI [(.KANJI, ⟨false, true, 2⟩)] false)
  [(u "あいう", 3, 1), (u "あ", 1, 1), (u "あい", 2, 1)]
#guard is (nodes .KANJI [(.KANJI, ⟨false, true, 2⟩)] true) 0

/-! line 171 `test_provide_oov112` -/
#guard is (nodes .KANJI [(.KANJI, ⟨true, true, 2⟩)] false) 3
#guard is (oovs .KANJI [(.KANJI, ⟨true, true, 2⟩)] false)
  [(u "あいう", 3, 1), (u "あ", 1, 1), (u "あい", 2, 1)]
#guard is (nodes .KANJI [(.KANJI, ⟨true, true, 2⟩)] true) 3

/-! line 202 `test_provide_oov006` -/
#guard is (nodes .KANJI [(.KANJI, ⟨false, false, 6⟩)] false) 3
#guard is (oovs .KANJI [(.KANJI, ⟨false, false, 6⟩)] false)
  [(u "あ", 1, 1), (u "あい", 2, 1), (u "あいう", 3, 1)]
#guard is (nodes .KANJI [(.KANJI, ⟨false, false, 6⟩)] true) 0

/-! line 233 `test_provide_oov_multi_oov` -/
#guard is (nodes .KANJINUMERIC [(.KANJINUMERIC, ⟨false, true, 0⟩)] false) 2
#guard is (oovs .KANJINUMERIC [(.KANJINUMERIC, ⟨false, true, 0⟩)] false)
  [(u "あいう", 3, 1), (u "あいう", 3, 2)]

/-! line 256 `test_provide_oov_without_cinfo` -/
#guard is (nodes .KANJI [] false) 0

/-! line 261 `test_provide_oov_without_oov_list` -/
#guard is (nodes .HIRAGANA [(.HIRAGANA, ⟨false, true, 0⟩)] false) 0

/-! ### The files -/

/-- `read_character_property` of a text. -/
def properties (text : String) : Res (List (Attr × CategoryInfo)) := do
  let lines ← textLines (file text)
  readProperties runtime.others [] lines

/-! line 290 `test_read_character_property` -/
#guard sat (properties "#\n  \nDEFAULT 0 1 2\nALPHA 1 0 0\n0x0000...0x0002 ALPHA")
  (fun p => decide (dictGet p (.member .DEFAULT) = some ⟨false, true, 2⟩))

/-! `test_read_character_property_with_too_few_columns` -/
#guard raises (properties "DEFAULT 0 1\n") .value

/-! `test_read_character_property_with_undefined_type` -/
#guard raises (properties "FOO 0 1 2\n") .value

/-! `test_read_character_property_duplicate_definitions` -/
#guard raises (properties "DEFAULT 0 1 2\nDEFAULT 1 1 2") .value

/-- `read_oov` of a text after `categories[CategoryType.DEFAULT] = ...`; the mocked grammar gives every part of speech the id 0, as
does a grammar whose first part of speech is that of the lines. -/
def unknown (text : String) : Res (List (Attr × OovEntry)) := do
  let lines ← textLines (file text)
  readUnk runtime.others ⟨[[u "補助記号", u "一般", u "*", u "*", u "*", u "*"]], 0, 0, [], 0⟩ [(.member .DEFAULT, ⟨false, false, 0⟩)] lines

/-! `test_read_oov` -/
#guard is (unknown "DEFAULT,1,2,3,補助記号,一般,*,*,*,*\nDEFAULT,3,4,5,補助記号,一般,*,*,*,*\n")
  [(.member .DEFAULT, ⟨1, 2, 3, 0⟩), (.member .DEFAULT, ⟨3, 4, 5, 0⟩)]

/-! `test_read_oov_with_too_few_columns` -/
#guard raises (unknown "DEFAULT,1,2,3\n") .value

/-! `test_read_oov_with_undefined_type` -/
#guard raises (unknown "FOO,1,2,3,補助記号,一般,*,*,*,*\n") .value

/-! `test_read_oov_with_category_not_in_character_property` -/
#guard raises (unknown "ALPHA,1,2,3,補助記号,一般,*,*,*,*\n") .value

end Sudachi.Replay.MeCab
