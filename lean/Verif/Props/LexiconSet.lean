/-
Properties of several dictionaries together: C45, C46, C48, C49.
-/
import Verif.Lemmas.LexiconSet
import Verif.Lemmas.Sample
import Verif.Props.Lexicon
namespace Sudachi

/-! ## C45 -/

/-- **C45** The id of word `w < 2^28` of a dictionary `d` of the set decodes to `d` and `w`. -/
theorem C45_decodes (s : LexSet) {d w : Nat} (hd : d < s.lexicons.length) (hw : w < 2 ^ 28) :
    ∃ v : Nat, s.buildWordId d w = .ok v ∧ dictionaryIdOf v = d ∧ localId v = w := by
  rw [pow28] at hw
  exact ⟨_, buildWordId_nat (by omega) hw, dictionaryIdOf_combined hw, localId_combined hw⟩

/-- **C45** Different dictionaries or words have different ids. -/
theorem C45_distinct (s : LexSet) {d w d' w' : Nat} {v : Int} (h : s.buildWordId d w = .ok v) (h' : s.buildWordId d' w' = .ok v) :
    d = d' ∧ w = w' := by
  unfold LexSet.buildWordId at h h'
  rw [pow28i] at h h'
  split at h
  · cases h
  split at h
  · cases h
  split at h
  · omega
  split at h'
  · cases h'
  split at h'
  · cases h'
  split at h'
  · omega
  have e1 := Except.ok.inj h
  have e2 := Except.ok.inj h'
  omega

/-- **C45** A word id of more than 28 bits is refused. -/
theorem C45_refused (s : LexSet) {d : Int} {w : Nat} (hw : 2 ^ 28 ≤ w) : s.buildWordId d w = .error .attribute := by
  unfold LexSet.buildWordId
  rw [pow28] at hw
  rw [if_pos (by omega)]

/-- **C45** violated: ids of the dictionaries 8 to 15 are too large for the C `int` of a node.  The set accepts them
(`C45_decodes`), but a match in such a dictionary that ends at a word boundary makes the lattice construction fail. -/
theorem C45_violated_overflow (s : LexSet) (D : Darts) (depth : Nat) (conn : Conn) (t : InputText) (i : Nat) {d w e : Nat}
    (hd : 8 ≤ d) (hskip : skipEnd t e = .ok false) (found : List (Nat × Nat)) (L : Lattice) (has : Bool)
    (hm : (combinedId d w, e) ∈ found) : ∃ x, (wordLoop conn (s.toLex D depth) t i found L has).2 = .error x := by
  refine wordLoop_overflow hskip found L has hm ?_
  rw [show (2 : Nat) ^ 31 = 2147483648 by decide]
  unfold combinedId
  omega

example : ∃ s : LexSet, s.lexicons.length = 2 ∧ s.buildWordId 1 5 = .ok 268435461 ∧ dictionaryIdOf 268435461 = 1 ∧ localId 268435461 = 5 :=
  ⟨⟨[⟨[], [], 0, 0, 0, 0, 0, 0, false⟩, ⟨[], [], 0, 0, 0, 0, 0, 0, false⟩], [0, 0]⟩, rfl, by decide, by decide, by decide⟩

/-! ## C46 -/

/-- **C46** The matches of a set are those of every dictionary, user dictionaries first, in order, the system dictionary
last, with ids that decode to the dictionary and its word (C45). -/
theorem C46_lookup (D : Darts) (s : LexSet) (hs : s.Made) (text : Bytes) (offset : Nat) (found : Nat → List (Nat × Nat))
    (h : ∀ d x, s.lexicons[d]? = some x → x.lookup D text offset = .ok (found d) ∧ ∀ p ∈ found d, p.1 < 2 ^ 28) :
    s.lookup D text offset = .ok (combineMatches (askOrder s.lexicons.length) found) ∧
    ∀ v e, (v, e) ∈ combineMatches (askOrder s.lexicons.length) found ↔
      ∃ d w, v = combinedId d w ∧ d < s.lexicons.length ∧ (w, e) ∈ found d := by
  have hn := hs.lengths.2
  refine ⟨lookup_set hn (by rw [pow28] at h; exact h), fun v e => ?_⟩
  unfold combineMatches
  simp only [List.mem_flatMap, List.mem_map, mem_askOrder hn]
  constructor
  · rintro ⟨d, hd, ⟨w, e'⟩, hp, he⟩
    injection he with e1 e2
    subst e1 e2
    exact ⟨d, w, rfl, hd, hp⟩
  · rintro ⟨d, w, rfl, hd, hp⟩
    exact ⟨d, hd, (w, e), hp, rfl⟩

/-- **C46** The id of a match stands for that dictionary's word: its parameters, both as `LexiconSet` gives them and as the
tokenizer reads them, are the dictionary's. -/
theorem C46_parameters (s : LexSet) {d w : Nat} {x : DALex} (hd : s.lexicons[d]? = some x) (hw : w < 2 ^ 28) {l r c : Int}
    (hl : x.leftId w = .ok l) (hr : x.rightId w = .ok r) (hc : x.cost w = .ok c) :
    s.params (combinedId d w : Nat) = .ok (l, r, c) ∧ s.nodeParams (combinedId d w) = .ok (l, r, c) := by
  rw [pow28] at hw
  have hg : pyGet s.lexicons d = .ok x := by unfold pyGet; rw [hd]
  constructor
  · unfold LexSet.params
    rw [dictionaryIdOf_combined hw, localId_combined hw, pyGetI_nat, hg]
    simp only [bind, Except.bind]
    rw [hl, hr, hc]
    rfl
  · unfold LexSet.nodeParams
    rw [pow28, show combinedId d w / 268435456 = d by unfold combinedId; omega,
      show combinedId d w % 268435456 = w by unfold combinedId; omega, hg]
    simp only [bind, Except.bind]
    rw [hl, hr, hc]

/-- **C46** An id that stands for no word is refused: `ValueError` from the tokenizer and `IndexError` from `LexiconSet` if the
dictionary has no three parameters for it (they would end after the parameters of the dictionary), `IndexError` from both if
there is no such dictionary. -/
theorem C46_refused (s : LexSet) {d w : Nat} (hw : w < 2 ^ 28) :
    (∀ x, s.lexicons[d]? = some x → x.parLen < 6 * (w + 1) →
      s.nodeParams (combinedId d w) = .error .value ∧ s.params (combinedId d w : Nat) = .error .index) ∧
    (s.lexicons.length ≤ d →
      s.nodeParams (combinedId d w) = .error .index ∧ s.params (combinedId d w : Nat) = .error .index) := by
  rw [pow28] at hw
  have e1 : combinedId d w / 268435456 = d := by unfold combinedId; omega
  have e2 : combinedId d w % 268435456 = w := by unfold combinedId; omega
  constructor
  · intro x hd hp
    have hg : pyGet s.lexicons d = .ok x := by unfold pyGet; rw [hd]
    have hc : x.cost w = .error .index := by
      unfold DALex.cost DALex.param
      rw [if_neg (by omega)]
    constructor
    · unfold LexSet.nodeParams
      rw [pow28, e1, e2, hg]
      simp only [bind, Except.bind]
      rw [hc]
      split
      · rename_i h; cases h
      · rfl
    · unfold LexSet.params
      rw [dictionaryIdOf_combined hw, localId_combined hw, pyGetI_nat, hg]
      simp only [bind, Except.bind]
      rw [hc]
      cases hl : x.leftId w with
      | error e =>
        unfold DALex.leftId DALex.param at hl
        split at hl <;> cases hl
        rfl
      | ok l =>
        cases hr : x.rightId w with
        | error e =>
          unfold DALex.rightId DALex.param at hr
          split at hr <;> cases hr
          rfl
        | ok r => rfl
  · intro hd
    have hg : pyGet s.lexicons d = .error .index := by unfold pyGet; rw [List.getElem?_eq_none hd]
    constructor
    · unfold LexSet.nodeParams
      rw [pow28, e1, hg]
      rfl
    · unfold LexSet.params
      rw [dictionaryIdOf_combined hw, pyGetI_nat, hg]
      rfl

/-- In the sample dictionary, which has some ten words, number 1000 is refused; so is any word of a third dictionary. -/
example : ∃ x, (LexSet.init x).nodeParams (combinedId 0 1000) = .error .value ∧ (LexSet.init x).nodeParams (combinedId 2 0) = .error .index := by
  obtain ⟨x, hx⟩ := Sample.compiled
  have hp : x.lexicon.parLen < 6 * (1000 + 1) := by
    have : ((readDictionary (runOps Sample.built.1).data).map fun d => decide (d.lexicon.parLen < 6 * (1000 + 1))) = .ok true := by
      decide +kernel
    rw [Sample.compiled_eq hx] at this
    exact of_decide_eq_true (Except.ok.inj this)
  exact ⟨x.lexicon, ((C46_refused (LexSet.init x.lexicon) (d := 0) (w := 1000) (by decide)).1 _ rfl hp).1,
    ((C46_refused (LexSet.init x.lexicon) (d := 2) (w := 0) (by decide)).2 (by show 1 ≤ 2; decide)).1⟩

/-- **C46** Its word info is the dictionary's, apart from part of speech (C47) and split lists: in these, ids of the
dictionary itself get its number. -/
theorem C46_info (s : LexSet) {d w : Nat} {x : DALex} (hd : s.lexicons[d]? = some x) (hw : w < 2 ^ 28) {depth : Nat} {info : WordInfo}
    (h : s.wordInfo depth (combinedId d w : Nat) = .ok info) :
    ∃ wi, x.wordInfo depth w = .ok wi ∧ info = { wi with
      posId := info.posId, aUnitSplit := wi.aUnitSplit.map (ownUnit d), bUnitSplit := wi.bUnitSplit.map (ownUnit d),
      wordStructure := wi.wordStructure.map (ownUnit d) } := by
  rw [pow28] at hw
  have hg : pyGet s.lexicons d = .ok x := by unfold pyGet; rw [hd]
  unfold LexSet.wordInfo at h
  rw [dictionaryIdOf_combined hw, localId_combined hw, pyGetI_nat, hg] at h
  obtain ⟨y, h1, h⟩ := bind_ok h
  cases h1
  obtain ⟨wi, h2, h⟩ := bind_ok h
  obtain ⟨p, h3, h⟩ := bind_ok h
  obtain ⟨a, h4, h⟩ := bind_ok h
  obtain ⟨b, h5, h⟩ := bind_ok h
  obtain ⟨c, h6, h⟩ := bind_ok h
  cases h
  refine ⟨wi, h2, ?_⟩
  rw [convertSplit_spec h4, convertSplit_spec h5, convertSplit_spec h6]

/-- **C46** For compiled dictionaries (whose costs may have been set when they were loaded): the matches at an offset are
exactly the words of the rows, of all dictionaries, whose headword stands there and whose left id is not `-1`. -/
theorem C46_compiled {D : Darts} (hD : D.Ok) {s : LexSet} (hs : s.Made) (rows : Nat → List (List PStr))
    (hx : ∀ d x, s.lexicons[d]? = some x → LexiconOf D (rows d) x) (text : Bytes) (offset : Nat) :
    ∃ found, s.lookup D text offset = .ok found ∧ ∀ v e, (v, e) ∈ found ↔ ∃ d w c, v = combinedId d w ∧ d < s.lexicons.length ∧
      RowIs (rows d) w c ∧ c.left ≠ [45, 49] ∧ e = offset + (c.headword.flatMap utf8Cp).length ∧
      pySlice text offset e = c.headword.flatMap utf8Cp := by
  have hex : ∀ d, ∃ found : List (Nat × Nat), ∀ x, s.lexicons[d]? = some x → x.lookup D text offset = .ok found ∧
      (∀ p ∈ found, p.1 < 2 ^ 28) ∧ ∀ w e, (w, e) ∈ found ↔ ∃ c, RowIs (rows d) w c ∧ c.left ≠ [45, 49] ∧
        e = offset + (c.headword.flatMap utf8Cp).length ∧ pySlice text offset e = c.headword.flatMap utf8Cp := by
    intro d
    cases hd : s.lexicons[d]? with
    | none => exact ⟨[], fun x h => by cases h⟩
    | some x =>
      obtain ⟨sys, header, matrix, b, h1, h2, h3⟩ := hx d x hd
      obtain ⟨g, F⟩ := compiled_facts hD h1 h2
      obtain ⟨found, f1, f2, _⟩ := C42_lookup hD h1 h2 text offset
      refine ⟨found, fun y hy => ?_⟩
      cases hy
      refine ⟨by rw [history_lookup F.layout h3]; exact f1, ?_, f2⟩
      rintro ⟨w, e⟩ hp
      obtain ⟨c, ⟨row, hr, _⟩, _⟩ := (f2 w e).1 hp
      obtain ⟨hlt, _⟩ := List.getElem?_eq_some_iff.1 hr
      have := F.small
      rw [pow28]
      show w < _
      omega
  obtain ⟨found, hfound⟩ := Classical.axiomOfChoice hex
  obtain ⟨h1, h2⟩ := C46_lookup D s hs text offset found fun d x hd => ⟨(hfound d x hd).1, (hfound d x hd).2.1⟩
  refine ⟨_, h1, fun v e => (h2 v e).trans ⟨?_, ?_⟩⟩
  · rintro ⟨d, w, rfl, hd, hp⟩
    obtain ⟨c, hc⟩ := ((hfound d _ (List.getElem?_eq_getElem hd)).2.2 w e).1 hp
    exact ⟨d, w, c, rfl, hd, hc⟩
  · rintro ⟨d, w, c, rfl, hd, hc⟩
    exact ⟨d, w, rfl, hd, ((hfound d _ (List.getElem?_eq_getElem hd)).2.2 w e).2 ⟨c, hc⟩⟩

/-- Two dictionaries: both have the word `a`, and the second also `ab`. -/
example : ∃ s : LexSet, s.lexicons.length = 2 ∧ ∃ found, s.lookup SimpleTrie.trie [97, 98] 0 = .ok found ∧ (0, 1) ∈ found ∧
    (268435456, 1) ∈ found ∧ (268435457, 2) ∈ found := by
  obtain ⟨d, hd⟩ := Sample.compiled
  have h : ∀ (i : Nat) x, ((LexSet.init d.lexicon).add d.lexicon 2).lexicons[i]? = some x →
      LexiconOf SimpleTrie.trie Sample.rows x := by
    intro i x hi
    have : x ∈ [d.lexicon, d.lexicon] := List.mem_of_getElem? hi
    have : x = d.lexicon := by simpa using this
    subst this
    exact ⟨none, _, _, d, Sample.source_ok, hd, .refl⟩
  obtain ⟨found, h1, h2⟩ := C46_compiled SimpleTrie.ok (.add d.lexicon 2 (.init d.lexicon)) (fun _ => Sample.rows) h [97, 98] 0
  refine ⟨_, rfl, found, h1, (h2 _ _).2 ⟨0, 0, _, rfl, ?_, Sample.row0, ?_⟩, (h2 _ _).2 ⟨1, 0, _, rfl, ?_, Sample.row0, ?_⟩,
    (h2 _ _).2 ⟨1, 1, _, rfl, ?_, Sample.row1, ?_⟩⟩
  all_goals first | decide | exact Nat.zero_lt_succ _ | exact Nat.lt_succ_self _

/-! ## C48 -/

/-- **C48** Whatever requests and additions came before and whatever the cache forgot, a request for an id that is not
negative is answered as without a cache. -/
theorem C48_transparent {depth : Nat} {c : CachedSet} (h : c.After depth) {w : Int} (hw : 0 ≤ w)
    (keep : List (Int × WordInfo) → List (Int × WordInfo)) : (c.getWordInfo depth keep w).2 = c.set.wordInfo depth w := by
  unfold CachedSet.getWordInfo
  split
  · rename_i e he
    have h1 := List.find?_some he
    have h2 : e.1 = w := by simpa using h1
    have h3 := cache_ok h e (List.mem_of_find?_eq_some he) (by omega)
    rw [← h2, h3]
  · split
    · rename_i wi hwi; rw [hwi]
    · rename_i x hx; rw [hx]

/-- Dictionaries in which every word info is the stored one at the beginning of the bytes. -/
def cacheSample (c : Nat) : DALex := ⟨1 :: c :: List.replicate 20 0, [], 0, 0, 1, 0, 0, 30, false⟩

/-- The word info of `cacheSample c`. -/
def cacheInfo (c : Nat) : WordInfo := ⟨[c], 0, 0, [c], 0, [c], [c], [], [], [], []⟩

/-- A history: a request, an addition, and the same request, which is answered from the cache. -/
example : ∃ c, CachedSet.After 9 c ∧ c.set.lexicons.length = 2 ∧ c.cache ≠ [] ∧ (c.getWordInfo 9 id 0).2 = .ok (cacheInfo 97) :=
  ⟨((⟨LexSet.init (cacheSample 97), []⟩ : CachedSet).getWordInfo 9 id 0).1.add (cacheSample 98) 0,
    .add _ _ (.request id 0 (.init _) (fun _ _ h => h)), by decide +kernel, by decide +kernel,
    (C48_transparent (.add _ _ (.request id 0 (.init _) (fun _ _ h => h))) (by decide) id).trans (by decide +kernel)⟩

/-- **C48** violated for negative ids: -1 is a word of the last dictionary, so that an addition makes the cache outdated. -/
theorem C48_violated_negative : ∃ c, CachedSet.After 9 c ∧ (c.getWordInfo 9 id (-1)).2 = .ok (cacheInfo 97) ∧
    c.set.wordInfo 9 (-1) = .ok (cacheInfo 98) :=
  ⟨((⟨LexSet.init (cacheSample 97), []⟩ : CachedSet).getWordInfo 9 id (-1)).1.add (cacheSample 98) 0,
    .add _ _ (.request id (-1) (.init _) (fun _ _ h => h)), by decide +kernel, by decide +kernel⟩

/-! ## C49 -/

/-- **C49** (part) With a single dictionary the answer is a word with the given fields, or -1 if there is none.
Missing: several dictionaries, where it is false. -/
theorem C49_single_partial (D : Darts) (x : DALex) (depth : Nat) (surface : PStr) (posId : Int) (reading : PStr) {v : Int}
    (h : (LexSet.init x).getWordId D depth surface posId reading = .ok v) :
    (∃ w : Nat, v = w ∧ x.Has depth w surface posId reading) ∨ (v = -1 ∧ ∀ w, w < x.size → ¬ x.Has depth w surface posId reading) := by
  unfold LexSet.getWordId at h
  obtain ⟨r, h1, h⟩ := bind_ok h
  have hr : List.range (LexSet.init x).lexicons.length = [0] := rfl
  rw [hr] at h1
  unfold LexSet.getWordIdLoop at h1
  obtain ⟨y, hy, h1⟩ := bind_ok h1
  cases hy
  obtain ⟨wid, hw, h1⟩ := bind_ok h1
  split at h1
  · rename_i hle
    obtain ⟨v', hv', h1⟩ := bind_ok h1
    cases h1
    cases h
    have hspec := getWordId_spec hw
    have : v = wid := by
      unfold LexSet.buildWordId at hv'
      rw [if_neg (by omega), if_neg (by omega)] at hv'
      split at hv'
      · cases hv'
        rcases hspec with ⟨w, rfl, _⟩ | ⟨rfl, _⟩
        · omega
        · rfl
      · have := Except.ok.inj hv'
        omega
    rw [this]
    exact hspec
  · cases h1
    obtain ⟨z, hz, h⟩ := bind_ok h
    cases hz
    exact getWordId_spec h

/-- **C49** violated: with two dictionaries, a word that the system dictionary has with a positive id and the user dictionary
does not have is reported as -1, that is, as missing. -/
theorem C49_violated (D : Darts) (x y : DALex) (o depth : Nat) (surface : PStr) (posId : Int) (reading : PStr) {w : Int} (hw : 0 < w)
    (hx : x.getWordId D depth surface posId reading = .ok w) (hy : y.getWordId D depth surface posId reading = .ok (-1)) :
    ((LexSet.init x).add y o).getWordId D depth surface posId reading = .ok (-1) := by
  unfold LexSet.getWordId
  have hr : List.range ((LexSet.init x).add y o).lexicons.length = [0, 1] := rfl
  rw [hr]
  have h0 : pyGet ((LexSet.init x).add y o).lexicons 0 = .ok x := rfl
  have h1 : pyGet ((LexSet.init x).add y o).lexicons 1 = .ok y := rfl
  unfold LexSet.getWordIdLoop
  rw [h0]
  simp only [bind, Except.bind]
  rw [hx]
  dsimp only
  rw [if_neg (by omega)]
  unfold LexSet.getWordIdLoop
  rw [h1]
  simp only [bind, Except.bind]
  rw [hy]
  rfl

/-- A dictionary without words. -/
def emptyLex : DALex := ⟨[0], [], 0, 0, 0, 0, 0, 0, false⟩

/-- There are such dictionaries: the sample as system dictionary, whose word `ab` is looked for, and an empty one. -/
example : ∃ x y w, 0 < w ∧ x.getWordId SimpleTrie.trie 9 [97, 98] 1 [114] = .ok w ∧
    y.getWordId SimpleTrie.trie 9 [97, 98] 1 [114] = .ok (-1) ∧
    ((LexSet.init x).add y 2).getWordId SimpleTrie.trie 9 [97, 98] 1 [114] = .ok (-1) := by
  obtain ⟨x, hx⟩ := Sample.compiled
  have h1 : x.lexicon.getWordId SimpleTrie.trie 9 [97, 98] 1 [114] = .ok 1 := by
    have : ((readDictionary (runOps Sample.built.1).data).bind fun d => d.lexicon.getWordId SimpleTrie.trie 9 [97, 98] 1 [114]) = .ok 1 := by
      decide +kernel
    rw [Sample.compiled_eq hx] at this
    exact this
  have h2 : emptyLex.getWordId SimpleTrie.trie 9 [97, 98] 1 [114] = .ok (-1) := by decide +kernel
  exact ⟨_, _, 1, by decide, h1, h2, C49_violated _ _ _ _ _ _ _ _ (by decide) h1 h2⟩

/-- **C49** (exactly what the code answers; it is not what is wanted) The dictionaries are asked in order as long as they have the word with a
positive number.  The first that lacks it makes the answer -1; the first that has it as its word number 0 gives the answer; if neither comes
up, the answer is that of the system dictionary.  Missing: that a word some dictionary has is found. -/
theorem C49_exact_partial (D : Darts) (s : LexSet) (depth : Nat) (surface : PStr) (posId : Int) (reading : PStr) (v : Int) :
    s.getWordId D depth surface posId reading = .ok v ↔
      (∃ (d : Nat) (x : DALex), s.lexicons[d]? = some x ∧
        (∀ d', d' < d → ∃ x' w, s.lexicons[d']? = some x' ∧ x'.getWordId D depth surface posId reading = .ok w ∧ 0 < w) ∧
        ((x.getWordId D depth surface posId reading = .ok (-1) ∧ v = -1) ∨
          (x.getWordId D depth surface posId reading = .ok 0 ∧ v = d * 2 ^ 28))) ∨
      ((∀ (d : Nat) (x : DALex), s.lexicons[d]? = some x → ∃ w, x.getWordId D depth surface posId reading = .ok w ∧ 0 < w) ∧
        ∃ x, s.lexicons[0]? = some x ∧ x.getWordId D depth surface posId reading = .ok v) := by
  have hL := fun o => getWordIdLoop_exact (D := D) (s := s) (depth := depth) (h := surface) (p := posId) (r := reading) (o := o)
    s.lexicons.length 0 (by omega)
  unfold LexSet.getWordId
  rw [List.range_eq_range']
  constructor
  · intro h
    obtain ⟨o, h1, h2⟩ := bind_ok h
    rcases (hL o).mp h1 with ⟨d, x, v', _, a2, a3, rfl, a4⟩ | ⟨rfl, a⟩
    · cases h2
      exact .inl ⟨d, x, a2, fun d' => a3 d' (Nat.zero_le _), a4⟩
    · obtain ⟨x, hx, h2⟩ := bind_ok h2
      refine .inr ⟨fun d x => a d x (Nat.zero_le _), x, ?_, h2⟩
      unfold pyGet at hx
      split at hx
      · rename_i hk; cases hx; exact hk
      · cases hx
  · rintro (⟨d, x, a2, a3, a4⟩ | ⟨a, x, hx, h2⟩)
    · rw [(hL (some v)).mpr (.inl ⟨d, x, v, Nat.zero_le _, a2, fun d' _ => a3 d', rfl, a4⟩)]
      rfl
    · rw [(hL none).mpr (.inr ⟨rfl, fun d x _ => a d x⟩)]
      show (pyGet s.lexicons 0 >>= _) = _
      have : pyGet s.lexicons 0 = .ok x := by unfold pyGet; rw [hx]
      rw [this]
      exact h2

/-- **C49** (part) An answer that is not -1 is right: the dictionary it names has this word with the given fields. -/
theorem C49_sound_partial (D : Darts) (s : LexSet) (depth : Nat) (surface : PStr) (posId : Int) (reading : PStr) (v : Int)
    (h : s.getWordId D depth surface posId reading = .ok v) (hv : v ≠ -1) :
    ∃ (d w : Nat) (x : DALex), s.lexicons[d]? = some x ∧ v = (d : Int) * 2 ^ 28 + (w : Nat) ∧ x.Has depth w surface posId reading := by
  rcases (C49_exact_partial ..).mp h with ⟨d, x, a1, _, ⟨_, a3⟩ | ⟨a2, a3⟩⟩ | ⟨_, x, a1, a2⟩
  · exact absurd a3 hv
  · rcases getWordId_spec a2 with ⟨w, hw, hh⟩ | ⟨hw, _⟩
    · have : w = 0 := by omega
      subst this
      exact ⟨d, 0, x, a1, by simp [a3], hh⟩
    · omega
  · rcases getWordId_spec a2 with ⟨w, hw, hh⟩ | ⟨hw, _⟩
    · exact ⟨0, w, x, a1, by simp [hw], hh⟩
    · exact absurd hw hv

/-- Such an answer: two dictionaries, the sample twice, in which both have `ab` with number 1. -/
example : ∃ x, ((LexSet.init x).add x 2).getWordId SimpleTrie.trie 9 [97, 98] 1 [114] = .ok 1 ∧ x.Has 9 1 [97, 98] 1 [114] := by
  obtain ⟨x, hx⟩ := Sample.compiled
  have h1 : x.lexicon.getWordId SimpleTrie.trie 9 [97, 98] 1 [114] = .ok 1 := by
    have : ((readDictionary (runOps Sample.built.1).data).bind fun d => d.lexicon.getWordId SimpleTrie.trie 9 [97, 98] 1 [114]) = .ok 1 := by
      decide +kernel
    rw [Sample.compiled_eq hx] at this
    exact this
  have h2 : ((LexSet.init x.lexicon).add x.lexicon 2).getWordId SimpleTrie.trie 9 [97, 98] 1 [114] = .ok 1 := by
    refine (C49_exact_partial ..).mpr (.inr ⟨?_, x.lexicon, rfl, h1⟩)
    intro d y hy
    have : y = x.lexicon := by
      match d, hy with
      | 0, hy => exact (Option.some.inj hy).symm
      | 1, hy => exact (Option.some.inj hy).symm
      | _ + 2, hy => cases hy
    subst this
    exact ⟨1, h1, by decide⟩
  refine ⟨_, h2, ?_⟩
  rcases getWordId_spec h1 with ⟨w, hw, hh⟩ | ⟨hw, _⟩
  · have : w = 1 := by omega
    subst this
    exact hh
  · cases hw

end Sudachi
