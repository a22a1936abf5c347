import Verif.Lemmas.Recovery
import Verif.Props.Tokenizer

/-!
# C19: recovery after failed calls
-/

namespace Sudachi

/-- **C19, recovery (partial)** After any calls, failed or not, one successful call on a text at least as long as all texts tried
before makes the tokenizer as good as new: from then on, as long as calls succeed, every call answers (or raises) what a fresh
tokenizer would.  Missing are the calls between the failure and that text, for which the claim is false (`C19_violated`). -/
theorem C19_recovers_partial (T : Tokenizer) (hp : T.PluginsOk) (hlex : T.lex.Ok) (n : Nat) (L : Lattice) (hL : T.HistoryUpTo n L)
    (text : PStr) (mode : Option Mode) (t : InputText) (hne : text ≠ []) (ht : T.buildInput text = .ok t) (hn : n ≤ t.bytes.length)
    (M : Lattice) (ml : MorphemeList) (h : T.tokenize L text mode = (M, .ok ml)) (M' : Lattice) (hM : T.Succeeds M M')
    (text' : PStr) (mode' : Option Mode) : (T.tokenize M' text' mode').2 = (T.tokenize Lattice.init text' mode').2 :=
  tokenize_same hp hlex (hM.clean hp hlex (tokenize_recovers hp hlex hL hne ht hn h)) init_clean text' mode'

/-- "x" fails, "yz" is then analysed wrongly (`C19_violated`), but after that the tokenizer has recovered. -/
example : ∃ L t M ml, DemoTok.staleTok.HistoryUpTo 1 L ∧ (∃ ns n0, L.endLists[1]? = some ns ∧ n0 ∈ ns) ∧
    DemoTok.staleTok.buildInput [121, 122] = .ok t ∧ t.bytes.length = 2 ∧
    DemoTok.staleTok.tokenize L [121, 122] none = (M, .ok ml) :=
  ⟨_, _, _, _, .call (r := .error .attribute) [120] none .fresh (fun t ht => by cases ht; decide +kernel) rfl,
    ⟨_, _, rfl, List.mem_cons_self⟩, rfl, by decide +kernel, rfl⟩

/-- **C19, how long a failure lasts** Successful calls on shorter texts do not help, because `clear` empties only the positions of
the text of the call: here "zx" fails, "y" succeeds, and "yyz" is still analysed with the x that "zx" left at position 2. -/
theorem C19_lasts : ∃ L L1 ml ml1 ml', DemoTok.staleTok.tokenize Lattice.init [122, 120] none = (L, .error .attribute) ∧
    DemoTok.staleTok.tokenize L [121] none = (L1, .ok ml) ∧ (DemoTok.staleTok.tokenize L1 [121, 121, 122] none).2 = .ok ml1 ∧
    (DemoTok.staleTok.tokenize Lattice.init [121, 121, 122] none).2 = .ok ml' ∧
    ml1.getWordInfo DemoTok.staleTok.lex 1 ≠ ml'.getWordInfo DemoTok.staleTok.lex 1 :=
  ⟨_, _, _, _, _, rfl, rfl, rfl, rfl, by decide +kernel⟩

end Sudachi
