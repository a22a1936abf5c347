/-
C74: the exception of a part of speech that there is not.
-/
import Verif.Props.Printing
import Verif.Lemmas.Output
namespace Sudachi

/-- **C74** The part of speech with a number is that of the table, counted from the end if negative; the others raise an `IndexError`. -/
theorem C74_pos (g : Grammar) (id : Int) :
    (∀ pos, g.posString id = .ok pos ↔ PosAt g.posList id pos) ∧ ∀ e, g.posString id = .error e ↔ e = .index ∧ ¬ PosIndex g.posList.length id := by
  have hok : ∀ pos, g.posString id = .ok pos ↔ PosAt g.posList id pos := by
    intro pos
    refine ⟨posAt_of, ?_⟩
    rintro ⟨i, hi, h⟩
    have hlt := (List.getElem?_eq_some_iff.1 hi).1
    unfold Grammar.posString
    rcases h with h | ⟨h0, h⟩
    · rw [if_neg (by omega), show id.toNat = i by omega]
      unfold pyGet
      rw [hi]
    · rw [if_pos h0, if_neg (by omega), show (g.posList.length + id).toNat = i by omega]
      unfold pyGet
      rw [hi]
  refine ⟨hok, fun e => ⟨fun h => ⟨?_, fun hi => ?_⟩, ?_⟩⟩
  · unfold Grammar.posString pyGet at h
    repeat' split at h
    all_goals cases h; try rfl
  · obtain ⟨pos, hp⟩ := posString_index hi
    rw [h] at hp
    cases hp
  · rintro ⟨rfl, hn⟩
    unfold Grammar.posString pyGet
    unfold PosIndex at hn
    split
    · split
      · rfl
      · rw [List.getElem?_eq_none (by omega)]
    · rw [List.getElem?_eq_none (by omega)]

/-- **C74** A morpheme whose surface and word info can be read has a line exactly if its part of speech is in the table; else printing it
raises an `IndexError`. -/
theorem C74_raises {g : Grammar} {lex : Lex} {ml : MorphemeList} {i : Nat} {surface : PStr} {wi : WordInfo} (hs : ml.getSurface i = .ok surface)
    (hw : ml.getWordInfo lex i = .ok wi) (all : Bool) :
    ((∃ line, LineOf g lex ml all i line) ↔ PosIndex g.posList.length wi.posId) ∧
    ∀ e, fieldsOf g lex ml all i = .error e ↔ e = .index ∧ ¬ PosIndex g.posList.length wi.posId := by
  obtain ⟨n, hn⟩ : ∃ n, pyGet ml.path i = .ok n := by
    unfold MorphemeList.getWordInfo at hw
    obtain ⟨n, hn, _⟩ := bind_ok hw
    exact ⟨n, hn⟩
  have hoov : ml.isOov i = .ok n.oov := by unfold MorphemeList.isOov; rw [hn]; rfl
  have hdid : ml.dictionaryId i = .ok (nodeDictionaryId n) := by unfold MorphemeList.dictionaryId; rw [hn]; rfl
  obtain ⟨h1, h2⟩ := C74_pos g wi.posId
  constructor
  · constructor
    · rintro ⟨line, hl⟩
      have : ∃ pos, g.posString wi.posId = .ok pos := by
        unfold LineOf at hl
        cases all with
        | true => obtain ⟨_, wi', pos, _, _, _, hw', hp, _⟩ := hl; rw [hw] at hw'; cases hw'; exact ⟨pos, hp⟩
        | false => obtain ⟨_, wi', pos, _, hw', hp, _⟩ := hl; rw [hw] at hw'; cases hw'; exact ⟨pos, hp⟩
      obtain ⟨pos, hp⟩ := this
      refine Classical.byContradiction fun hno => ?_
      rw [(h2 .index).2 ⟨rfl, hno⟩] at hp
      cases hp
    · intro hi
      obtain ⟨pos, hp⟩ := posString_index hi
      unfold LineOf
      cases all with
      | true => exact ⟨_, surface, wi, pos, _, _, hs, hw, hp, hdid, hoov, rfl⟩
      | false => exact ⟨_, surface, wi, pos, hs, hw, hp, rfl⟩
  · intro e
    rw [← h2 e]
    unfold fieldsOf
    rw [hs, hw]
    simp only [bind, Except.bind]
    cases g.posString wi.posId with
    | error x => exact Iff.rfl
    | ok pos =>
      dsimp only
      rw [hdid, hoov]
      cases all with
      | true => exact ⟨fun h => (by cases h), fun h => (by cases h)⟩
      | false => exact ⟨fun h => (by cases h), fun h => (by cases h)⟩

/-- With one part of speech: number 0 and number -1 are it, number 1 and number -2 are none. -/
example : PosAt [pos6 [0x41]] 0 (pos6 [0x41]) ∧ PosAt [pos6 [0x41]] (-1) (pos6 [0x41]) ∧ ¬ PosIndex 1 1 ∧ ¬ PosIndex 1 (-2) :=
  ⟨⟨0, rfl, .inl rfl⟩, ⟨0, rfl, .inr ⟨by decide, by decide⟩⟩, by unfold PosIndex; omega, by unfold PosIndex; omega⟩

/-- The first morpheme of the sample can be read; without its part of speech it could not be printed. -/
example : ∃ (dict : Dict) (L' : Lattice) (ml : MorphemeList) (surface : PStr) (wi : WordInfo),
    (dict.tokenizer Sample.config [] .C).tokenize Lattice.init [97, 97, 98, 120] (some .C) = (L', .ok ml) ∧ ml.getSurface 0 = .ok surface ∧
    ml.getWordInfo (dict.set.toLex Sample.config.D Sample.config.depth) 0 = .ok wi ∧
    ∀ all, fieldsOf { dict.grammar with posList := [] } (dict.set.toLex Sample.config.D Sample.config.depth) ml all 0 = .error .index := by
  obtain ⟨dict, h⟩ := Sample.installed
  obtain ⟨L', ml, ht⟩ := Sample.tokenizes h .C
  obtain ⟨spans, ⟨h1, _⟩, _, h3⟩ := C61_mode_c SimpleTrie.ok h Sample.plugins_ok [] .C .fresh rfl ht
  have hlen : 0 < ml.len := by
    cases spans with
    | nil => cases h3
    | cons _ _ => rw [h1]; exact Nat.succ_pos _
  obtain ⟨line, hl⟩ := C74_lines SimpleTrie.ok h Sample.plugins_ok Sample.sources_fit Sample.sources_complete.chains [] .C (Sample.pos_ok h) .fresh
    (.inr rfl) ht false hlen
  obtain ⟨surface, wi, _, hs, hw, _⟩ := hl
  refine ⟨dict, L', ml, surface, wi, ht, hs, hw, fun all => ((C74_raises hs hw all).2 _).2 ⟨rfl, ?_⟩⟩
  unfold PosIndex
  show ¬ (-(0 : Int) ≤ _ ∧ _ < (0 : Int))
  omega

end Sudachi
