/-
Properties of the words of a compiled dictionary: C34, C39, C40, C41, C42.
-/
import Verif.Lemmas.Compiled
import Verif.Lemmas.Sample
namespace Sudachi
open DictBuilder

variable {D : Darts} {sys : Option SysDict} {header : Header} {rows : List (List PStr)} {matrix : Option (PStr × List PStr)} {d : BinDict}

/-- **C39** The loaded lexicon has one word per row, with the left id, right id and cost of that row; there are no others. -/
theorem C39_round_trip (hD : D.Ok) (hS : SourceOk header rows matrix) (hC : Compiled D sys header rows matrix d) :
    d.lexicon.size = rows.length ∧
    (∀ w c, RowIs rows w c →
      d.lexicon.leftId w = pyInt c.left ∧ d.lexicon.rightId w = pyInt c.right ∧ d.lexicon.cost w = pyInt c.cost) ∧
    (∀ w, w < rows.length → ∃ c, RowIs rows w c ∧ (∃ v, pyInt c.left = .ok v) ∧ (∃ v, pyInt c.right = .ok v) ∧
      ∃ v, pyInt c.cost = .ok v) ∧
    ∀ w, rows.length ≤ w →
      d.lexicon.leftId w = .error .index ∧ d.lexicon.rightId w = .error .index ∧ d.lexicon.cost w = .error .index := by
  obtain ⟨g, F⟩ := compiled_facts hD hS hC
  refine ⟨F.size, fun w c hc => ⟨F.left w c hc, F.right w c hc, F.cost w c hc⟩, fun w hw => ?_, fun w hw => ?_⟩
  · obtain ⟨c, hc⟩ := F.rowsRead w hw
    have := F.rowsOk w c hc
    exact ⟨c, hc, this.left, this.right, this.cost⟩
  · have h1 := F.layout.par
    have h2 := F.size
    unfold DALex.leftId DALex.rightId DALex.cost DALex.param
    rw [if_neg (by omega), if_neg (by omega), if_neg (by omega)]
    exact ⟨rfl, rfl, rfl⟩

/-- The sample: the parameters of the second row. -/
example : ∃ d, Compiled SimpleTrie.trie none Sample.header Sample.rows Sample.matrix d ∧
    d.lexicon.size = 2 ∧ d.lexicon.leftId 1 = .ok 0 ∧ d.lexicon.rightId 1 = .ok 1 ∧ d.lexicon.cost 1 = .ok (-3) := by
  obtain ⟨d, hd⟩ := Sample.compiled
  obtain ⟨h1, h2, _⟩ := C39_round_trip SimpleTrie.ok Sample.source_ok hd
  obtain ⟨a, b, c⟩ := h2 1 _ Sample.row1
  exact ⟨d, hd, h1, by rw [a]; decide +kernel, by rw [b]; decide +kernel, by rw [c]; decide +kernel⟩

/-- **C39** `set_cost`, on a loaded lexicon after any earlier changes: it is accepted exactly for existing words and 16-bit
costs, sets the cost of that word, and changes no other parameter and no result of a lookup. -/
theorem C39_set_cost (hD : D.Ok) (hS : SourceOk header rows matrix) (hC : Compiled D sys header rows matrix d)
    {y : DALex} (hy : CostHistory d.lexicon y) (w : Nat) (c : Int) :
    (rows.length ≤ w → y.setCost w c = .error .index) ∧
    (w < rows.length → ¬(-32768 ≤ c ∧ c ≤ 32767) → y.setCost w c = .error .value) ∧
    (w < rows.length → -32768 ≤ c ∧ c ≤ 32767 → ∃ z, y.setCost w c = .ok z ∧ z.cost w = .ok c ∧
      (∀ v, v ≠ w → z.cost v = y.cost v) ∧ (∀ v, z.leftId v = y.leftId v ∧ z.rightId v = y.rightId v) ∧
      z.size = y.size ∧ ∀ text offset, z.lookup D text offset = y.lookup D text offset) := by
  obtain ⟨g, F⟩ := compiled_facts hD hS hC
  obtain ⟨l1, l2⟩ := history_layout F.layout hy
  have hs := F.size
  obtain ⟨s1, s2, s3⟩ := setCost_size l1 (w := w) (c := c)
  refine ⟨fun h => s3 (by omega), fun h h' => s2 ⟨by omega, h'⟩, fun h h' => ?_⟩
  obtain ⟨z, hz⟩ := s1 ⟨by omega, h'.1, h'.2⟩
  refine ⟨z, hz, ?_, fun v hv => ?_, fun v => history_ids l1 (.step .refl hz) v, (history_layout l1 (.step .refl hz)).2,
    setCost_lookup l1 hz D⟩
  · unfold DALex.cost
    rw [setCost_param l1 hz, if_pos rfl]
  · unfold DALex.cost
    rw [setCost_param l1 hz, if_neg (by omega)]

/-- **C39** The word infos after any cost changes are those before, if the rows fit the file format and their dictionary-form
ids refer to rows. -/
theorem C39_set_cost_infos (hD : D.Ok) (hS : SourceOk header rows matrix) (hC : Compiled D sys header rows matrix d) (hf : AllFit rows)
    (hr : ∀ w v, DicFormOf rows w v → v < rows.length) {y : DALex} (hy : CostHistory d.lexicon y) (depth w : Nat)
    (hw : w < rows.length) : y.wordInfo depth w = d.lexicon.wordInfo depth w := by
  obtain ⟨g, F⟩ := compiled_facts hD hS hC
  have hs := F.size
  induction depth generalizing w with
  | zero => rfl
  | succ depth ih =>
    obtain ⟨c, hc⟩ := F.rowsRead w hw
    obtain ⟨wi, h1, h2, _⟩ := F.infos w c hc (hf w c hc)
    have h3 := history_stored F.layout hy w (by omega)
    rw [h1] at h3
    by_cases hd : wi.dictionaryFormWordId < 0 ∨ wi.dictionaryFormWordId = w
    · rw [wordInfo_own h1 hd, wordInfo_own h3 hd]
    · have hlt := hr w _ ⟨c, hc, h2.dicForm⟩
      obtain ⟨v, hv⟩ : ∃ v : Nat, wi.dictionaryFormWordId = v := ⟨wi.dictionaryFormWordId.toNat, by omega⟩
      rw [wordInfo_other h1 hv (by omega), wordInfo_other h3 hv (by omega), ih v (by omega)]

example : ∃ d z, Compiled SimpleTrie.trie none Sample.header Sample.rows Sample.matrix d ∧ d.lexicon.setCost 1 700 = .ok z ∧
    z.cost 1 = .ok 700 ∧ z.cost 0 = .ok 5 ∧ z.wordInfo 5 1 = d.lexicon.wordInfo 5 1 := by
  obtain ⟨d, hd⟩ := Sample.compiled
  obtain ⟨_, h2, _⟩ := C39_round_trip SimpleTrie.ok Sample.source_ok hd
  obtain ⟨_, _, h⟩ := C39_set_cost SimpleTrie.ok Sample.source_ok hd .refl 1 700
  obtain ⟨z, h3, h4, h5, _⟩ := h (by decide) (by decide)
  refine ⟨d, z, hd, h3, h4, ?_, ?_⟩
  · rw [h5 0 (by decide), (h2 0 _ Sample.row0).2.2]
    decide +kernel
  · refine C39_set_cost_infos SimpleTrie.ok Sample.source_ok hd Sample.all_fit ?_ (.step .refl h3) 5 1 (by decide)
    rintro w v ⟨c, ⟨row, hr1, hr2⟩, hv⟩
    rcases Sample.mem_rows (List.mem_of_getElem? hr1) hr2 with rfl | rfl
    · rcases hv with ⟨_, rfl⟩ | ⟨h, _⟩
      · decide
      · exact (h rfl).elim
    · rcases hv with ⟨h, _⟩ | ⟨_, h⟩
      · cases h
      · have : pyInt Sample.cols1.dicForm = .ok 0 := by decide +kernel
        rw [this] at h
        cases h
        decide

/-- **C40** The word info of a row whose strings have at most 32767 UTF-16 units: surface, head-word length, part of speech,
normalised form, reading, dictionary-form id, split lists and synonym ids are those of the row. -/
theorem C40_round_trip (hD : D.Ok) (hS : SourceOk header rows matrix) (hC : Compiled D sys header rows matrix d) {w : Nat} {c : Cols}
    (hc : RowIs rows w c) (hf : c.Fits) :
    ∃ g, d.grammar = some g ∧ ∀ depth info, d.lexicon.wordInfo depth w = .ok info → InfoOf sys rows (sysPos sys ++ g.posList) c info := by
  obtain ⟨g, F⟩ := compiled_facts hD hS hC
  refine ⟨g, F.grammar, fun depth info hi => ?_⟩
  obtain ⟨wi, h1, h2, _⟩ := F.infos w c hc hf
  rw [wordInfo_stored h1 hi]
  exact ⟨h2.surface, h2.headWordLength, h2.pos, h2.normalized, h2.dicForm, h2.reading, h2.aSplit, h2.bSplit, h2.structureSplit, h2.synonyms⟩

/-- **C40** violated: a surface of 32768 or more UTF-16 units (which the builder accepts if it has at most 32767 characters)
never comes back. -/
theorem C40_violated_long_surface (hD : D.Ok) (hS : SourceOk header rows matrix) (hC : Compiled D sys header rows matrix d) {w : Nat}
    {c : Cols} (hc : RowIs rows w c) (hl : 32768 ≤ units c.surface) :
    ∀ depth info, d.lexicon.wordInfo depth w = .ok info → info.surface ≠ c.surface := by
  intro depth info hi
  cases depth with
  | zero => cases hi
  | succ depth =>
    have hi' := hi
    unfold DALex.wordInfo at hi'
    obtain ⟨wi, h1, _⟩ := bind_ok hi'
    rw [wordInfo_stored h1 hi]
    exact compiled_long hD hS hC hc hl (wi := wi) h1

/-- A row with such a surface that every builder accepts: 20000 characters, 40000 units. -/
theorem C40_violated_accepted (db : DictBuilder) :
    ∃ row c, RowReads row c ∧ c.Ok ∧ c.surface.length = 20000 ∧ units c.surface = 40000 ∧ ∃ db' e, db.parseLine row = .ok (db', e) := by
  refine ⟨Sample.longCols.list, Sample.longCols, Sample.long_reads, ?_, List.length_replicate, ?_,
    parseLine_accepts db Sample.long_reads ?_⟩
  · exact Sample.long_ok
  · rw [Sample.long_units]
  · exact Sample.long_ok

example : ∃ d info g, Compiled SimpleTrie.trie none Sample.header Sample.rows Sample.matrix d ∧ d.lexicon.wordInfo 5 1 = .ok info ∧
    d.grammar = some g ∧ info.surface = [97, 98] ∧ info.headWordLength = 2 ∧
    g.posList[info.posId.toNat]? = some [[112], [112], [112], [112], [112], [113]] ∧ info.normalizedForm = [110] ∧
    info.dictionaryFormWordId = 0 ∧ info.readingForm = [114] ∧ info.aUnitSplit.length = 2 ∧ info.bUnitSplit = [] ∧
    info.synonymGroupIds = [7, 8] := by
  obtain ⟨d, hd⟩ := Sample.compiled
  obtain ⟨g, hg, h⟩ := C40_round_trip SimpleTrie.ok Sample.source_ok hd Sample.row1 (Sample.all_fit _ _ Sample.row1)
  obtain ⟨info, hi⟩ := Sample.info1 hd
  have := h 5 info hi
  have hsyn : pyInts (splitOn 47 [55, 47, 56]) = .ok [7, 8] := by decide +kernel
  have hdic : pyInt [48] = .ok 0 := by decide +kernel
  refine ⟨d, info, g, hd, hi, hg, this.surface, this.headWordLength, this.pos.2, this.normalized, ?_, this.reading, ?_, ?_, ?_⟩
  · rcases this.dicForm with ⟨h, _⟩ | ⟨_, h⟩
    · cases h
    · exact (Except.ok.inj (hdic.symm.trans h)).symm
  · have := this.aSplit
    unfold SplitMeans at this
    rw [if_neg (by decide)] at this
    exact this.1.trans (by decide)
  · have := this.bSplit
    unfold SplitMeans at this
    rwa [if_pos (by decide)] at this
  · rcases this.synonyms with ⟨h, _⟩ | ⟨_, h, _⟩
    · cases h
    · exact (Except.ok.inj (hsyn.symm.trans h)).symm

/-- **C41** The dictionary form is the word's own surface if the dictionary-form id is negative (`*`) or that of the word
itself, and otherwise the surface of the row it refers to. -/
theorem C41_form (hD : D.Ok) (hS : SourceOk header rows matrix) (hC : Compiled D sys header rows matrix d) (hf : AllFit rows)
    {depth w : Nat} {info : WordInfo} (hi : d.lexicon.wordInfo depth w = .ok info) {c : Cols} (hc : RowIs rows w c) {v : Int}
    (hv : c.DicForm v) :
    (v < 0 ∨ v = w → info.dictionaryForm = c.surface) ∧
    (∀ (v' : Nat) (c' : Cols), v = v' → v' ≠ w → RowIs rows v' c' → info.dictionaryForm = c'.surface) := by
  obtain ⟨g, F⟩ := compiled_facts hD hS hC
  obtain ⟨wi, h1, h2, h3⟩ := F.infos w c hc (hf w c hc)
  have hid : wi.dictionaryFormWordId = v := dicForm_unique h2.dicForm hv
  cases depth with
  | zero => cases hi
  | succ depth =>
    refine ⟨fun h => ?_, fun v' c' hv' hne hc' => ?_⟩
    · rw [wordInfo_own h1 (by rw [hid]; exact h)] at hi
      cases hi
      exact h3
    · rw [wordInfo_other h1 (by rw [hid]; exact hv') hne] at hi
      cases hi' : d.lexicon.wordInfo depth v' with
      | error e => rw [hi'] at hi; cases hi
      | ok info' =>
        rw [hi'] at hi
        cases hi
        obtain ⟨wi', h1', h2', _⟩ := F.infos v' c' hc' (hf v' c' hc')
        rw [wordInfo_stored h1' hi']
        exact h2'.surface

/-- **C41** Whether there is an answer: if following the dictionary-form ids ends after `n` steps, there is one exactly for a
recursion limit above `n`; otherwise a `RecursionError`. -/
theorem C41_answers (hD : D.Ok) (hS : SourceOk header rows matrix) (hC : Compiled D sys header rows matrix d) (hf : AllFit rows)
    {w n : Nat} (hn : ChainEnds rows w n) (depth : Nat) :
    (n < depth → ∃ info, d.lexicon.wordInfo depth w = .ok info) ∧ (depth ≤ n → d.lexicon.wordInfo depth w = .error .recursion) := by
  obtain ⟨g, F⟩ := compiled_facts hD hS hC
  induction hn generalizing depth with
  | @here w v hv hend =>
    obtain ⟨c, hc, hv⟩ := hv
    obtain ⟨wi, h1, h2, _⟩ := F.infos w c hc (hf w c hc)
    have hid : wi.dictionaryFormWordId = v := dicForm_unique h2.dicForm hv
    refine ⟨fun h => ?_, fun h => ?_⟩
    · obtain ⟨k, rfl⟩ : ∃ k, depth = k + 1 := ⟨depth - 1, by omega⟩
      exact ⟨wi, wordInfo_own h1 (by rw [hid]; exact hend) k⟩
    · obtain rfl : depth = 0 := by omega
      rfl
  | @next w v n hv hne _ ih =>
    obtain ⟨c, hc, hv⟩ := hv
    obtain ⟨wi, h1, h2, _⟩ := F.infos w c hc (hf w c hc)
    have hid : wi.dictionaryFormWordId = v := dicForm_unique h2.dicForm hv
    cases depth with
    | zero => exact ⟨fun h => by omega, fun _ => rfl⟩
    | succ depth =>
      rw [wordInfo_other h1 hid hne]
      obtain ⟨i1, i2⟩ := ih depth
      refine ⟨fun h => ?_, fun h => ?_⟩
      · obtain ⟨info, hi⟩ := i1 (by omega)
        rw [hi]
        exact ⟨_, rfl⟩
      · rw [i2 (by omega)]
        rfl

/-- **C41** A cyclic reference: in a set of words each of which refers to another one of the set, no word has an answer,
whatever the recursion limit. -/
theorem C41_cycle (hD : D.Ok) (hS : SourceOk header rows matrix) (hC : Compiled D sys header rows matrix d) (hf : AllFit rows)
    (S : Nat → Prop) (hcyc : ∀ w, S w → ∃ v : Nat, DicFormOf rows w v ∧ v ≠ w ∧ S v) {w : Nat} (hw : S w) (depth : Nat) :
    d.lexicon.wordInfo depth w = .error .recursion := by
  obtain ⟨g, F⟩ := compiled_facts hD hS hC
  induction depth generalizing w with
  | zero => rfl
  | succ depth ih =>
    obtain ⟨v, ⟨c, hc, hv⟩, hne, hSv⟩ := hcyc w hw
    obtain ⟨wi, h1, h2, _⟩ := F.infos w c hc (hf w c hc)
    rw [wordInfo_other h1 (dicForm_unique h2.dicForm hv) hne, ih hSv]
    rfl

/-- The sample: the dictionary form of `ab` is `a`, given a recursion limit of at least 2. -/
example : ∃ d info, Compiled SimpleTrie.trie none Sample.header Sample.rows Sample.matrix d ∧ d.lexicon.wordInfo 2 1 = .ok info ∧
    info.dictionaryForm = [97] ∧ d.lexicon.wordInfo 1 1 = .error .recursion := by
  obtain ⟨d, hd⟩ := Sample.compiled
  obtain ⟨h1, _⟩ := C41_answers SimpleTrie.ok Sample.source_ok hd Sample.all_fit Sample.chain1 2
  obtain ⟨_, h2⟩ := C41_answers SimpleTrie.ok Sample.source_ok hd Sample.all_fit Sample.chain1 1
  obtain ⟨info, hi⟩ := h1 (by decide)
  exact ⟨d, info, hd, hi, (C41_form SimpleTrie.ok Sample.source_ok hd Sample.all_fit hi Sample.row1 Sample.dic1).2 0 _ rfl (by decide)
    Sample.row0, h2 (by decide)⟩

/-- Two words that refer to each other. -/
example : ∃ d, Compiled SimpleTrie.trie none Sample.header Sample.cyclicRows none d ∧
    ∀ depth, d.lexicon.wordInfo depth 0 = .error .recursion := by
  obtain ⟨d, hd⟩ := Sample.cyclic_compiled
  refine ⟨d, hd, fun depth => C41_cycle SimpleTrie.ok Sample.cyclic_source_ok hd Sample.cyclic_fit (fun w => w < 2) ?_ (by decide) depth⟩
  intro w hw
  match w, hw with
  | 0, _ => exact ⟨1, ⟨_, Sample.cyclic0, .inr ⟨by decide, by decide +kernel⟩⟩, by decide, by decide⟩
  | 1, _ => exact ⟨0, ⟨_, Sample.cyclic1, .inr ⟨by decide, by decide +kernel⟩⟩, by decide, by decide⟩

/-- **C42** `lookup(text, offset)` succeeds and finds exactly the pairs `(w, e)` where the headword of row `w`, in UTF-8, is
`text[offset:e]`, except rows whose left-id column is `-1`; each pair once, in order of end and then of word id. -/
theorem C42_lookup (hD : D.Ok) (hS : SourceOk header rows matrix) (hC : Compiled D sys header rows matrix d) (text : Bytes) (offset : Nat) :
    ∃ found, d.lexicon.lookup D text offset = .ok found ∧
      (∀ w e, (w, e) ∈ found ↔ ∃ c, RowIs rows w c ∧ c.left ≠ [45, 49] ∧ e = offset + (c.headword.flatMap utf8Cp).length ∧
        pySlice text offset e = c.headword.flatMap utf8Cp) ∧
      found.Pairwise (fun a b => a.2 < b.2 ∨ (a.2 = b.2 ∧ a.1 < b.1)) := by
  obtain ⟨g, F⟩ := compiled_facts hD hS hC
  obtain ⟨keys, k1, k2, k3, k4⟩ := F.lookup
  refine ⟨_, k4 text offset, fun w e => ?_, matches_sorted k1 k2 text offset⟩
  rw [matches_iff]
  constructor
  · rintro ⟨k, hk, he, hs⟩
    obtain ⟨c, hc, hl, rfl⟩ := (k3 k w).1 hk
    exact ⟨c, hc, hl, he, hs⟩
  · rintro ⟨c, hc, hl, he, hs⟩
    exact ⟨_, (k3 _ w).2 ⟨c, hc, hl, rfl⟩, he, hs⟩

/-- The sample: both words are found in `xaby` after the `x`. -/
example : ∃ d, Compiled SimpleTrie.trie none Sample.header Sample.rows Sample.matrix d ∧
    ∃ found, d.lexicon.lookup SimpleTrie.trie [120, 97, 98, 121] 1 = .ok found ∧ (0, 2) ∈ found ∧ (1, 3) ∈ found ∧ (0, 3) ∉ found := by
  obtain ⟨d, hd⟩ := Sample.compiled
  obtain ⟨found, h1, h2, _⟩ := C42_lookup SimpleTrie.ok Sample.source_ok hd [120, 97, 98, 121] 1
  refine ⟨d, hd, found, h1, (h2 0 2).2 ⟨_, Sample.row0, by decide, by decide, by decide⟩,
    (h2 1 3).2 ⟨_, Sample.row1, by decide, by decide, by decide⟩, fun h => ?_⟩
  obtain ⟨c, hc, _, he, _⟩ := (h2 0 3).1 h
  have := rowIs_unique hc Sample.row0
  subst this
  revert he
  decide

/-- **C42** violated for other spellings of -1: a row with left id `-01` has left id -1, and is found nevertheless. -/
theorem C42_violated_spelling (hD : D.Ok) (hS : SourceOk header rows matrix) (hC : Compiled D sys header rows matrix d) {w : Nat}
    {c : Cols} (hc : RowIs rows w c) (hl : c.left = [45, 48, 49]) :
    d.lexicon.leftId w = .ok (-1) ∧ ∃ found, d.lexicon.lookup D (c.headword.flatMap utf8Cp) 0 = .ok found ∧
      (w, (c.headword.flatMap utf8Cp).length) ∈ found := by
  refine ⟨?_, ?_⟩
  · rw [((C39_round_trip hD hS hC).2.1 w c hc).1, hl]
    decide +kernel
  · obtain ⟨found, h1, h2, _⟩ := C42_lookup hD hS hC (c.headword.flatMap utf8Cp) 0
    refine ⟨found, h1, (h2 _ _).2 ⟨c, hc, by rw [hl]; decide, by omega, ?_⟩⟩
    unfold pySlice
    rw [List.drop_zero, List.take_length]

/-- There is such a dictionary: the second sample, whose second row has left id `-01`. -/
example : ∃ d c, Compiled SimpleTrie.trie none Sample.header Sample.cyclicRows none d ∧ RowIs Sample.cyclicRows 1 c ∧
    c.left = [45, 48, 49] := by
  obtain ⟨d, hd⟩ := Sample.cyclic_compiled
  exact ⟨d, _, hd, Sample.cyclic1, rfl⟩

/-- **C34** Every id in the split lists of a compiled dictionary refers to an existing word: of the dictionary itself, or, in a
user dictionary, of the system dictionary. -/
theorem C34_units_exist (hD : D.Ok) (hS : SourceOk header rows matrix) (hC : Compiled D sys header rows matrix d)
    (hs : ∀ s, sys = some s → s.Ok) {w : Nat} {c : Cols} (hc : RowIs rows w c) (hf : c.Fits) {depth : Nat} {info : WordInfo}
    (hi : d.lexicon.wordInfo depth w = .ok info) :
    ∀ u ∈ info.aUnitSplit ++ info.bUnitSplit ++ info.wordStructure, UnitExists sys d.lexicon.size u := by
  obtain ⟨g, _, h⟩ := C40_round_trip hD hS hC hc hf
  have hI := h depth info hi
  rw [(C39_round_trip hD hS hC).1]
  intro u hu
  simp only [List.mem_append] at hu
  rcases hu with (hu | hu) | hu
  · exact SplitMeans.exists hs hI.aSplit u hu
  · exact SplitMeans.exists hs hI.bSplit u hu
  · exact SplitMeans.exists hs hI.structureSplit u hu

/-- **C34** A reference by number to a word that does not exist is refused with a `ValueError`, and every other one is accepted. -/
theorem C34_number (db : DictBuilder) (text : PStr) (w : Int) (h : db.idNumber text = .ok w) :
    (UnitExists db.sys db.entries.length w → db.parseId text = .ok w) ∧
    (¬ UnitExists db.sys db.entries.length w → db.parseId text = .error .value) := by
  have key : (UnitExists db.sys db.entries.length w ∧ db.checkWordid w = .ok ()) ∨
      (¬ UnitExists db.sys db.entries.length w ∧ db.checkWordid w = .error .value) := by
    unfold UnitExists DictBuilder.checkWordid
    cases db.sys with
    | none =>
      dsimp only
      split
      · exact .inr ⟨by omega, rfl⟩
      · exact .inl ⟨by omega, rfl⟩
    | some s =>
      dsimp only
      split
      · split
        · exact .inr ⟨by omega, rfl⟩
        · exact .inl ⟨by omega, rfl⟩
      · split
        · exact .inr ⟨by omega, rfl⟩
        · exact .inl ⟨by omega, rfl⟩
  unfold DictBuilder.parseId
  rw [h]
  rcases key with ⟨hu, hk⟩ | ⟨hu, hk⟩
  · refine ⟨fun _ => ?_, fun hn => absurd hu hn⟩
    show (db.checkWordid w >>= _) = _
    rw [hk]; rfl
  · refine ⟨fun hy => absurd hy hu, fun _ => ?_⟩
    show (db.checkWordid w >>= _) = _
    rw [hk]; rfl

/-- For example `3` in a system dictionary of two words. -/
example (db : DictBuilder) (h : db.sys = none) (h2 : db.entries.length = 2) : db.parseId [51] = .error .value := by
  refine (C34_number db [51] 3 (by unfold DictBuilder.idNumber; rfl)).2 ?_
  rw [h, h2]
  unfold UnitExists
  omega

/-- **C34** What it needs to know about the system dictionary holds of every compiled one. -/
theorem C34_system (hD : D.Ok) (hS : SourceOk header rows matrix) (hC : Compiled D none header rows matrix d) (depth : Nat) :
    (d.toSysDict D depth).Ok := by
  obtain ⟨g, F⟩ := compiled_facts hD hS hC
  refine ⟨?_, ?_⟩
  · show d.lexicon.size ≤ _
    have := F.size
    have := F.small
    omega
  · intro h p r w hw
    show w < d.lexicon.size
    have hw : d.lexicon.getWordId D depth h p r = .ok w := hw
    have first : ∀ (l : List Nat), (∀ x ∈ l, x < d.lexicon.size) → ∀ v, d.lexicon.firstMatch depth h p r l = .ok (some v) →
        v < d.lexicon.size := by
      intro l
      induction l with
      | nil => intro _ v hv; cases hv
      | cons x l ih =>
        intro hl v hv
        unfold DALex.firstMatch at hv
        obtain ⟨b, _, hv⟩ := bind_ok hv
        split at hv
        · cases hv; exact hl x (by simp)
        · exact ih (fun y hy => hl y (by simp [hy])) v hv
    unfold DALex.getWordId at hw
    obtain ⟨key, _, hw⟩ := bind_ok hw
    obtain ⟨found, hfnd, hw⟩ := bind_ok hw
    obtain ⟨r1, hr1, hw⟩ := bind_ok hw
    cases r1 with
    | some v =>
      cases hw
      have := first _ (fun x hx => ?_) v hr1
      · omega
      · obtain ⟨⟨x', e⟩, hx', rfl⟩ := List.mem_map.1 hx
        obtain ⟨found', hf1, hf2, _⟩ := C42_lookup hD hS hC key 0
        rw [hfnd] at hf1
        cases hf1
        obtain ⟨c, ⟨row, hrow, _⟩, _⟩ := (hf2 x' e).1 hx'
        rw [F.size]
        exact (List.getElem?_eq_some_iff.1 hrow).1
    | none =>
      obtain ⟨r2, hr2, hw⟩ := bind_ok hw
      cases r2 with
      | some v =>
        cases hw
        have := first _ (fun x hx => List.mem_range.1 hx) v hr2
        omega
      | none => cases hw; omega

/-- The sample: the units of `ab`. -/
example : ∃ d info, Compiled SimpleTrie.trie none Sample.header Sample.rows Sample.matrix d ∧ d.lexicon.wordInfo 5 1 = .ok info ∧
    info.aUnitSplit ≠ [] ∧ ∀ u ∈ info.aUnitSplit, 0 ≤ u ∧ u < 2 := by
  obtain ⟨d, hd⟩ := Sample.compiled
  obtain ⟨info, hi⟩ := Sample.info1 hd
  have hs := (C39_round_trip SimpleTrie.ok Sample.source_ok hd).1
  have h := C34_units_exist SimpleTrie.ok Sample.source_ok hd (fun s h => by cases h) Sample.row1 (Sample.all_fit _ _ Sample.row1) hi
  rw [hs] at h
  obtain ⟨g, _, h'⟩ := C40_round_trip SimpleTrie.ok Sample.source_ok hd Sample.row1 (Sample.all_fit _ _ Sample.row1)
  refine ⟨d, info, hd, hi, fun he => ?_, fun u hu => h u (by simp [hu])⟩
  have := (h' 5 info hi).aSplit
  unfold SplitMeans at this
  rw [if_neg (by decide), he] at this
  exact absurd this.1 (by decide)

end Sudachi
