/-
tests/plugin/test_numericparser.py
-/
import Verif.Replay.Machine
import Verif.Model.Numeric
namespace Sudachi.Replay

/-- test_numericparser.py:156-160 `parse`. -/
def parse (text : String) : NumParser × Bool :=
  match NumParser.init.appendAll (u text) with
  | (p, false) => (p, false)
  | (p, true) => p.done

/-! line 25 `test_digits` -/
#guard (parse "1000").2 = true
#guard is (parse "1000").1.getNormalized.2 (u "1000")
/-! line 30 `test_starts_with_zero` -/
#guard (parse "001000").2 = true
#guard is (parse "001000").1.getNormalized.2 (u "001000")
#guard (parse "〇一〇〇〇").2 = true
#guard is (parse "〇一〇〇〇").1.getNormalized.2 (u "01000")
#guard (parse "00.1000").2 = true
#guard is (parse "00.1000").1.getNormalized.2 (u "00.1")
#guard (parse "000").2 = true
#guard is (parse "000").1.getNormalized.2 (u "000")
/-! line 47 `test_use_small_unit` -/
#guard (parse "二十七").2 = true
#guard is (parse "二十七").1.getNormalized.2 (u "27")
#guard (parse "千三百二十七").2 = true
#guard is (parse "千三百二十七").1.getNormalized.2 (u "1327")
#guard (parse "千十七").2 = true
#guard is (parse "千十七").1.getNormalized.2 (u "1017")
#guard (parse "千三百二十七.〇五").2 = true
#guard is (parse "千三百二十七.〇五").1.getNormalized.2 (u "1327.05")
#guard (parse "三百二十百").2 = false
/-! line 67 `test_use_large_unit` -/
#guard (parse "1万").2 = true
#guard is (parse "1万").1.getNormalized.2 (u "10000")
#guard (parse "千三百二十七万").2 = true
#guard is (parse "千三百二十七万").1.getNormalized.2 (u "13270000")
#guard (parse "千三百二十七万一四").2 = true
#guard is (parse "千三百二十七万一四").1.getNormalized.2 (u "13270014")
#guard (parse "千三百二十七万一四.〇五").2 = true
#guard is (parse "千三百二十七万一四.〇五").1.getNormalized.2 (u "13270014.05")
#guard (parse "三兆2千億千三百二十七万一四.〇五").2 = true
#guard is (parse "三兆2千億千三百二十七万一四.〇五").1.getNormalized.2 (u "3200013270014.05")
#guard (parse "億万").2 = false
/-! line 91 `test_float_with_unit` -/
#guard (parse "1.5千").2 = true
#guard is (parse "1.5千").1.getNormalized.2 (u "1500")
#guard (parse "1.5百万").2 = true
#guard is (parse "1.5百万").1.getNormalized.2 (u "1500000")
#guard (parse "1.5百万1.5千20").2 = true
#guard is (parse "1.5百万1.5千20").1.getNormalized.2 (u "1501520")
#guard (parse "1.5千5百").2 = false
#guard (parse "1.5千500").2 = false
/-! line 110 `test_log_numeric` -/
#guard (parse "200000000000000000000万").2 = true
#guard is (parse "200000000000000000000万").1.getNormalized.2 (u "2000000000000000000000000")
/-! line 115 `test_with_comma` -/
#guard (parse "2,000,000").2 = true
#guard is (parse "2,000,000").1.getNormalized.2 (u "2000000")
#guard (parse "259万2,300").2 = true
#guard is (parse "259万2,300").1.getNormalized.2 (u "2592300")
#guard (parse "200,00,000").2 = false
#guard (parse "200,00,000").1.error = .comma
#guard (parse "2,4").2 = false
#guard (parse "2,4").1.error = .comma
#guard (parse "000,000").2 = false
#guard (parse "000,000").1.error = .comma
#guard (parse ",000").2 = false
#guard (parse ",000").1.error = .comma
#guard (parse "256,55.1").2 = false
#guard (parse "256,55.1").1.error = .comma
/-! line 144 `test_not_digit` -/
#guard (parse "@@@").2 = false
/-! line 148 `test_float_point` -/
#guard (parse "6.0").2 = true
#guard is (parse "6.0").1.getNormalized.2 (u "6")
#guard (parse "6.").2 = false
#guard (parse "6.").1.error = .point
#guard (parse "1.2.3").2 = false
#guard (parse "1.2.3").1.error = .point

end Sudachi.Replay
