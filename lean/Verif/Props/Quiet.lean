import Verif.Lemmas.Quiet
import Verif.Props.Total
import Verif.Props.Unknown

/-!
# C80: exceptions that the lattice functions drop
-/

namespace Sudachi

/-- **C80** What a call answers without an exception, it answers too if the lattice functions drop exceptions. -/
theorem C80_success (T : Tokenizer) (L L' : Lattice) (text : PStr) (mode : Option Mode) (ml : MorphemeList)
    (h : T.tokenize L text mode = (L', .ok ml)) : Quiet.tokenize T L text mode = (L', .ok ml) := by
  unfold Tokenizer.tokenize at h
  unfold Quiet.tokenize
  split at h
  · rename_i h0; rw [if_pos h0]; exact h
  · rename_i h0
    rw [if_neg h0]
    cases ht : T.buildInput text with
    | error x => rw [ht] at h; cases h
    | ok t =>
      rw [ht] at h
      dsimp only at h ⊢
      cases hb : buildLattice T.conn T.lex T.oov t L with
      | mk L1 r1 =>
        rw [hb] at h
        cases r1 with
        | error x => cases h
        | ok u =>
          rw [buildLattice_quiet hb]
          exact h

/-- **C80** If the connection costs answer for all ids that occur, then it makes no difference to the lattice, after any calls, whether
exceptions are dropped, nor to the answers; only the kind of an exception can change, to `AttributeError`. -/
theorem C80_same (T : Tokenizer) (hp : T.PluginsOk) (hlex : T.lex.Ok) (left right : Int → Prop) (hT : T.IdsKnown left right)
    (L : Lattice) (hL : T.History L) (text : PStr) (mode : Option Mode) :
    (Quiet.tokenize T L text mode).1 = (T.tokenize L text mode).1 ∧
    ((Quiet.tokenize T L text mode).2 = (T.tokenize L text mode).2 ∨
      ∃ x, (T.tokenize L text mode).2 = .error x ∧ (Quiet.tokenize T L text mode).2 = .error .attribute) := by
  obtain ⟨h1, _, h2⟩ := IdsKnown.tokenize hT hp hlex (hL.sane hp hlex) (IdsKnown.history hT hp hlex hL) text mode
  exact ⟨h1, h2⟩

/-- **C80** The lattices after any calls are the same. -/
theorem C80_history (T : Tokenizer) (hp : T.PluginsOk) (hlex : T.lex.Ok) (left right : Int → Prop) (hT : T.IdsKnown left right)
    (L : Lattice) : Quiet.History T L ↔ T.History L := by
  constructor
  · intro h
    induction h with
    | fresh => exact .fresh
    | @call L L' r text mode _ heq ih =>
      have h1 := (C80_same T hp hlex left right hT L ih text mode).1
      rw [heq] at h1
      exact .call (r := (T.tokenize L text mode).2) text mode ih (Prod.ext h1.symm rfl)
  · intro h
    induction h with
    | fresh => exact .fresh
    | @call L L' r text mode hh heq ih =>
      have h1 := (C80_same T hp hlex left right hT L hh text mode).1
      rw [heq] at h1
      exact .call (r := (Quiet.tokenize T L text mode).2) text mode ih (Prod.ext h1 rfl)

namespace Sources

variable {S : Sources} {cfg : DictConfig} {dict : Dict}

theorem Installed.idsKnown (hD : cfg.D.Ok) (h : S.Installed cfg dict) {n : Nat} {entries : List (Int × Int × Int)}
    (hmat : S.Matrix n entries) (hids : S.IdsInRange n) (hoov : ∀ p ∈ cfg.oov, ∀ o, p.Entry o → InRange n o.leftId ∧ InRange n o.rightId)
    (ps : List PathPlugin) (mode0 : Mode) : (dict.tokenizer cfg ps mode0).IdsKnown (InRange n) (InRange n) := by
  have hn0 : InRange n 0 := ⟨Int.le_refl _, by have := h.matrix_pos hD hmat; omega⟩
  refine ⟨fun l r hl hr => ⟨_, h.cell hD hmat hl hr⟩, hn0, hn0, ?_, hoov⟩
  intro bytes i ws w e l r c hws hm hpar
  obtain ⟨found, h1, h2⟩ := h.lookup hD bytes i
  have hws : dict.set.lookup cfg.D bytes i = .ok ws := hws
  rw [h1] at hws
  cases hws
  obtain ⟨d, w0, col, rfl, hc, hleft, _⟩ := (h2 w e).1 hm
  obtain ⟨l', r', v', p1, p2, p3, _⟩ := h.params hD hc
  have hpar : dict.set.nodeParams (combinedId d w0) = .ok (l, r, c) := hpar
  rw [p3] at hpar
  cases hpar
  exact hids d w0 col hc hleft _ _ p1 p2

/-- **C80** On an installation whose words and unknown words have ids of the matrix, dropping exceptions makes no difference to the
lattices nor to the answers. -/
theorem C80_installed (hD : cfg.D.Ok) (h : S.Installed cfg dict) (hp : cfg.PluginsOk) {n : Nat} {entries : List (Int × Int × Int)}
    (hmat : S.Matrix n entries) (hids : S.IdsInRange n) (hoov : ∀ p ∈ cfg.oov, ∀ o, p.Entry o → InRange n o.leftId ∧ InRange n o.rightId)
    (ps : List PathPlugin) (mode0 : Mode) (L : Lattice) (hL : Quiet.History (dict.tokenizer cfg ps mode0) L) (text : PStr) (mode : Option Mode)
    (ml : MorphemeList) :
    (Quiet.tokenize (dict.tokenizer cfg ps mode0) L text mode).1 = ((dict.tokenizer cfg ps mode0).tokenize L text mode).1 ∧
    ((Quiet.tokenize (dict.tokenizer cfg ps mode0) L text mode).2 = .ok ml ↔ ((dict.tokenizer cfg ps mode0).tokenize L text mode).2 = .ok ml) := by
  have hpl : (dict.tokenizer cfg ps mode0).PluginsOk := ⟨hp.lower, hp.nfkc, hp.psm⟩
  have hT := h.idsKnown hD hmat hids hoov ps mode0
  have hL' := (C80_history _ hpl (h.lexOk hD) _ _ hT L).1 hL
  obtain ⟨h1, h2⟩ := C80_same _ hpl (h.lexOk hD) _ _ hT L hL' text mode
  refine ⟨h1, ?_⟩
  rcases h2 with h2 | ⟨x, h2, h3⟩
  · rw [h2]
  · rw [h2, h3]
    exact ⟨fun h => (by cases h), fun h => (by cases h)⟩

end Sources

/-! ### Ids outside of the matrix -/

namespace DemoTok

theorem deadTok_ids : deadTok.IdsKnown (fun _ => True) (fun _ => True) :=
  ⟨fun l r _ _ => deadTok_complete.joinable.connected l r trivial trivial, trivial, trivial, fun _ _ _ _ _ _ _ _ _ _ _ => ⟨trivial, trivial⟩,
    fun _ _ _ _ => ⟨trivial, trivial⟩⟩

/-- "東京都" -/
def tokyo : PStr := [0x6771, 0x4EAC, 0x90FD]

/-- A tokenizer whose dictionary words have ids that the matrix has not. -/
def lostTok : Tokenizer := { deadTok with conn := fun l r => if l = 1 ∨ r = 1 then .error .index else .ok 10 }

end DemoTok

/-- The hypotheses of C80 hold of a tokenizer that finds 東京都 in its dictionary. -/
example : DemoTok.deadTok.IdsKnown (fun _ => True) (fun _ => True) ∧ DemoTok.deadTok.PluginsOk ∧ DemoTok.deadTok.lex.Ok ∧
    (Quiet.tokenize DemoTok.deadTok Lattice.init DemoTok.tokyo none).2 = (DemoTok.deadTok.tokenize Lattice.init DemoTok.tokyo none).2 ∧
    ((Quiet.tokenize DemoTok.deadTok Lattice.init DemoTok.tokyo none).2.map fun ml => ml.path.map (·.oov)) = .ok [false] :=
  ⟨DemoTok.deadTok_ids, DemoTok.deadTok_complete.plugins, DemoTok.deadTok_complete.lexOk, by decide +kernel, by decide +kernel⟩

/-- **C80, the ids must be known** If the ids of the dictionary words are outside of the matrix, a call that raises `IndexError` answers,
if exceptions are dropped: it passes over the words of the dictionary and answers an unknown word. -/
theorem C80_differs :
    (DemoTok.lostTok.tokenize Lattice.init DemoTok.tokyo none).2 = .error .index ∧
    ((Quiet.tokenize DemoTok.lostTok Lattice.init DemoTok.tokyo none).2.map fun ml => ml.path.map fun d => (d.begin_, d.end_, d.oov)) =
      .ok [(0, 9, true)] := by
  constructor <;> decide +kernel

/-- **C80, the kind of exception** Where there is no word, `RuntimeError` is dropped and `AttributeError` is raised instead. -/
theorem C80_masked :
    (Tokenizer.tokenize { DemoTok.deadTok with
        catOf := fun _ => [.KATAKANA]
        oov := [.mecab [(.KANJI, ⟨true, true, 0⟩)] [(.KANJI, ⟨0, 0, 100, 1⟩)]] } Lattice.init [97] none).2 = .error .runtime ∧
    (Quiet.tokenize { DemoTok.deadTok with
        catOf := fun _ => [.KATAKANA]
        oov := [.mecab [(.KANJI, ⟨true, true, 0⟩)] [(.KANJI, ⟨0, 0, 100, 1⟩)]] } Lattice.init [97] none).2 = .error .attribute := by
  constructor <;> decide +kernel

/-- On the sample installation the text `aabx` is tokenized as well if exceptions are dropped. -/
example {dict : Dict} (h : Sample.sources.Installed Sample.config dict) : ∃ ml,
    (Quiet.tokenize (dict.tokenizer Sample.config [] .C) Lattice.init [97, 97, 98, 120] (some .C)).2 = .ok ml := by
  obtain ⟨L', ml, ht⟩ := Sample.tokenizes h .C
  exact ⟨ml, (Sources.C80_installed SimpleTrie.ok h Sample.plugins_ok Sample.matrix_two Sample.ids_in_range Sample.config_complete.oovIds
    [] .C Lattice.init .fresh _ (some .C) ml).2.2 (congrArg Prod.snd ht)⟩

end Sudachi
