/-
C55: what a build that is broken off between two writes leaves behind.
-/
import Verif.Lemmas.Interrupted
import Verif.Lemmas.Truncated
import Verif.Spec.Interrupted
import Verif.Lemmas.Sample
namespace Sudachi
open DictBuilder

theorem wordInfo_same {x : DALex} {depth w : Nat} {info : WordInfo} (h : x.wordInfo depth w = .ok info) :
    ∃ wi, getStoredInfo x.bytes x.hasSyn (x.infoOffset w) = .ok wi ∧ info.surface = wi.surface ∧ info.posId = wi.posId ∧
      info.readingForm = wi.readingForm ∧ info.normalizedForm = wi.normalizedForm := by
  cases depth with
  | zero => cases h
  | succ depth =>
    obtain ⟨wi, h1, h2⟩ := bind_ok h
    refine ⟨wi, h1, ?_⟩
    split at h2
    · obtain ⟨wi', _, h3⟩ := bind_ok h2
      cases h3
      exact ⟨rfl, rfl, rfl, rfl⟩
    · cases h2
      exact ⟨rfl, rfl, rfl, rfl⟩

/-- **C55**, where it fails: for any successful build of at least one word, the file as it stands after any number of the
build's writes from the last word parameter on, but before the very last one (these are `rows.length + 3` points in the
build), loads without any error.  The dictionary has the same header, grammar, number of words, parameters and lookup
results as the complete one, but all its words have the same surface, part of speech, reading and normalised form: they
are read from the first byte of the file. -/
theorem C55_violated {D : Darts} {sys : Option SysDict} {header : Header} {rows : List (List PStr)} {matrix : Option (PStr × List PStr)}
    {ops : List OutOp} (hD : D.Ok) (hS : SourceOk header rows matrix) (hne : rows ≠ [])
    (h : (DictBuilder.init sys).build D header rows matrix = (ops, .ok ())) (k : Nat) (hk : k < ops.length)
    (hk2 : ops.length ≤ k + rows.length + 3) :
    ∃ d d', readDictionary (runOps ops).data = .ok d ∧ readDictionary (runOps (ops.take k)).data = .ok d' ∧
      d'.header = d.header ∧ d'.grammar = d.grammar ∧ d'.lexicon.size = d.lexicon.size ∧
      (∀ w, w < rows.length → d'.lexicon.leftId w = d.lexicon.leftId w ∧ d'.lexicon.rightId w = d.lexicon.rightId w ∧
        d'.lexicon.cost w = d.lexicon.cost w) ∧
      (∀ text offset, d'.lexicon.lookup D text offset = d.lexicon.lookup D text offset) ∧
      (∀ w, w < rows.length → HEADER_SIZE ≤ d.lexicon.infoOffset w ∧ d'.lexicon.infoOffset w = 0) ∧
      ∀ w w' depth info info', w < rows.length → w' < rows.length → d'.lexicon.wordInfo depth w = .ok info →
        d'.lexicon.wordInfo depth w' = .ok info' → info.surface = info'.surface ∧ info.posId = info'.posId ∧
          info.readingForm = info'.readingForm ∧ info.normalizedForm = info'.normalizedForm := by
  obtain ⟨d, d', h1, h2, h3, h4, h5, h6, h7, h8⟩ := interrupted hD hS hne h k hk hk2
  refine ⟨d, d', h1, h2, h3, h4, h5, h6, h7, h8, ?_⟩
  intro w w' depth info info' hw hw' hi hi'
  obtain ⟨wi, a1, a2, a3, a4, a5⟩ := wordInfo_same hi
  obtain ⟨wi', b1, b2, b3, b4, b5⟩ := wordInfo_same hi'
  rw [(h8 w hw).2] at a1
  rw [(h8 w' hw').2, a1] at b1
  cases b1
  exact ⟨a2.trans b2.symm, a3.trans b3.symm, a4.trans b4.symm, a5.trans b5.symm⟩

/-- The sample, a build of fifteen writes and seeks, meets the hypotheses at six points. -/
example : SimpleTrie.trie.Ok ∧ SourceOk Sample.header Sample.rows Sample.matrix ∧ Sample.rows ≠ [] ∧
    (DictBuilder.init none).build SimpleTrie.trie Sample.header Sample.rows Sample.matrix = (Sample.built.1, .ok ()) ∧
    Sample.built.1.length = 15 ∧ Sample.rows.length = 2 :=
  ⟨SimpleTrie.ok, Sample.source_ok, by decide, Prod.ext rfl Sample.built_ok, by decide +kernel, rfl⟩

/-- What a file left behind by the sample build says of one of its words. -/
def sampleCut (k w : Nat) : Res (Nat × Res WordInfo) :=
  (readDictionary (runOps (Sample.built.1.take k)).data).map fun d => (d.lexicon.size, d.lexicon.wordInfo 9 w)

def sampleGarbage : PStr := [14660, 6802, 40705, 25806, 0, 0, 0, 25600] ++ List.replicate 44 0

/-- **C55**, where it fails, on the sample: with the last write missing the words "a" and "ab" both come out as a string of
52 letters read from the version number, the time and the description of the header; no exception is raised. -/
theorem C55_violated_garbage :
    sampleCut 14 0 = .ok (2, .ok ⟨sampleGarbage, 0, 0, sampleGarbage, 0, sampleGarbage, sampleGarbage, [], [], [], []⟩) ∧
    sampleCut 14 1 = .ok (2, .ok ⟨sampleGarbage, 0, 0, sampleGarbage, 0, sampleGarbage, sampleGarbage, [], [], [], []⟩) ∧
    sampleCut 15 0 = .ok (2, .ok ⟨[97], 1, 0, [97], -1, [97], [97], [], [], [], []⟩) ∧
    sampleCut 15 1 = .ok (2, .ok ⟨[97, 98], 2, 1, [110], 0, [97], [114], [0, 0], [], [0], [7, 8]⟩) := by
  refine ⟨?_, ?_, ?_, ?_⟩ <;> decide +kernel

/-- On the sample, up to the word parameters the file does not load. -/
example : ∀ k, k < 8 → (sampleCut k 0).isOk = false := by decide +kernel

theorem slice_length (b : Bytes) (i j : Nat) : (pySlice b i j).length = min j b.length - i := by
  unfold pySlice
  rw [List.length_drop, List.length_take]

/-- **C55** Which cut files are noticed: a dictionary file of which only the first `n` bytes are there is refused exactly when it ends before
the number of words, or in the middle of a parameter; else it loads, with the same header, grammar and lookup results. -/
theorem C55_truncated (c : Bytes) (d : BinDict) (h : readDictionary c = .ok d) (n : Nat) (hn : n ≤ c.length) :
    ((∃ d', readDictionary (c.take n) = .ok d') ↔ d.wordCountAt ≤ n ∧ ¬ d.InParameter n) ∧
    ∀ d', readDictionary (c.take n) = .ok d' → d'.header = d.header ∧ d'.grammar = d.grammar ∧
      ∀ D text offset, d'.lexicon.lookup D text offset = d.lexicon.lookup D text offset := by
  have ha := AgreeTo.cut hn
  have hb : (c.take n).length = n := by rw [List.length_take]; omega
  have hin : ∀ {b : Bytes} {d : BinDict}, readDictionary b = .ok d → d.wordCountAt ≤ b.length ∧ d.lexicon.bytes = b := by
    intro b d h
    obtain ⟨_, _, _, _, _, h5⟩ := readDictionary_iff.mp h
    obtain ⟨size, widSize, h1, _, _, o2, _, _, hx⟩ := dalex_iff.mp h5
    unfold BinDict.wordCountAt
    rw [hx]
    exact ⟨h1, rfl⟩
  have hsize : d.lexicon.size = fromLe (mRead c d.wordCountAt 4).1 := by
    obtain ⟨_, _, _, _, _, h5⟩ := readDictionary_iff.mp h
    obtain ⟨size, widSize, _, _, _, o2, rfl, _, hx⟩ := dalex_iff.mp h5
    unfold BinDict.wordCountAt
    rw [hx]
    dsimp only
    rw [Nat.add_assoc (d.lexiconOffset + 4 + size * 4) 4 widSize]
  -- the parity of what is left of the parameters
  have hpar : d.wordCountAt ≤ n → ((pySlice (c.take n) (mRead (c.take n) d.wordCountAt 4).2 ((mRead (c.take n) d.wordCountAt 4).2 +
      fromLe (mRead (c.take n) d.wordCountAt 4).1 * 6)).length % 2 = 0 ↔ ¬ d.InParameter n) := by
    intro hle
    rw [slice_length, hb]
    unfold BinDict.InParameter
    by_cases h4 : d.wordCountAt + 4 ≤ n
    · rw [ha.read h4, ← hsize]
      have : (mRead c d.wordCountAt 4).2 = d.wordCountAt + 4 := by unfold mRead; dsimp only; omega
      rw [this]
      omega
    · have : (mRead (c.take n) d.wordCountAt 4).2 = n := by unfold mRead; dsimp only; rw [hb]; omega
      rw [this]
      omega
  have hsame : ∀ d', readDictionary (c.take n) = .ok d' → d'.header = d.header ∧ d'.grammar = d.grammar ∧ d'.lexicon.trie = d.lexicon.trie ∧
      d'.lexicon.widOff = d.lexicon.widOff ∧ d'.lexicon.widLen = d.lexicon.widLen := by
    intro d' hd'
    obtain ⟨a1, a2, a3, a4, a5⟩ := dictionary_same ha hd' h (by have := (hin hd').1; rw [hb] at this; exact this)
    exact ⟨a1.symm, a2.symm, a3.symm, a4.symm, a5.symm⟩
  refine ⟨⟨?_, ?_⟩, ?_⟩
  · rintro ⟨d', hd'⟩
    obtain ⟨_, _, _, a4, a5⟩ := hsame d' hd'
    have hw : d'.wordCountAt = d.wordCountAt := by unfold BinDict.wordCountAt; rw [a4, a5]
    have hle : d.wordCountAt ≤ n := by
      have := (hin hd').1
      rw [hw, hb] at this
      exact this
    refine ⟨hle, (hpar hle).mp ?_⟩
    obtain ⟨_, _, _, _, _, h5⟩ := readDictionary_iff.mp hd'
    obtain ⟨size, widSize, _, _, _, o2, rfl, hp, hx⟩ := dalex_iff.mp h5
    have : d.wordCountAt = d'.lexiconOffset + 4 + size * 4 + (4 + widSize) := by
      rw [← hw]
      unfold BinDict.wordCountAt
      rw [hx]
      dsimp only
      omega
    rw [this]
    exact hp
  · rintro ⟨hle, hnot⟩
    obtain ⟨y, hy, _⟩ := dictionary_agree ha.symm h hle (by
      intro p hp
      rw [show p = d.wordCountAt from hp]
      exact (hpar hle).mpr hnot)
    exact ⟨y, hy⟩
  · intro d' hd'
    obtain ⟨a1, a2, a3, a4, a5⟩ := hsame d' hd'
    refine ⟨a1, a2, fun D text offset => lookup_congr a3 ?_ text offset⟩
    unfold DALex.widView
    rw [(hin hd').2, (hin h).2, a4, a5]
    apply ha.slice
    have := (hin hd').1
    unfold BinDict.wordCountAt at this
    rw [hb, a4, a5] at this
    exact this

/-- **C55** At every point between two writes of a build of at least one word, the file left behind is refused exactly if the place of the
number of words has not been reached (or a parameter is incomplete). -/
theorem C55_points {D : Darts} {sys : Option SysDict} {header : Header} {rows : List (List PStr)} {matrix : Option (PStr × List PStr)}
    {ops : List OutOp} (hD : D.Ok) (hS : SourceOk header rows matrix) (hne : rows ≠ [])
    (h : (DictBuilder.init sys).build D header rows matrix = (ops, .ok ())) :
    ∃ d, readDictionary (runOps ops).data = .ok d ∧ ∀ k, k ≤ ops.length →
      ((∃ d', readDictionary (runOps (ops.take k)).data = .ok d') ↔
        d.wordCountAt ≤ (runOps (ops.take k)).data.length ∧ ¬ d.InParameter (runOps (ops.take k)).data.length) := by
  obtain ⟨P, hB, hf, bs, hbs, hops⟩ := DictBuilder.build_calls h
  obtain ⟨r1, r2, r3, r4⟩ := rows_entries hB.rows
  have hent : P.db.entries ≠ [] := by
    intro e
    rw [e] at r2
    exact hne (List.length_eq_zero_iff.1 r2.symm)
  have hil := hB.infosLength
  obtain ⟨g, g1, g2, g3⟩ := load_in hB hS hD
  have hload : readDictionary (runOps ops).data = .ok ⟨header, some g, P.lexicon true⟩ := by
    rw [hf]
    exact g1 P.file ⟨_, rfl⟩ (fun _ => rfl)
  have hlen : ops.length = bs.length + (P.infos.length + 3) := by
    rw [hops]
    simp only [List.length_append, List.length_map, List.length_cons, List.length_nil]
    omega
  refine ⟨_, hload, fun k hk => ?_⟩
  by_cases hkb : k < bs.length
  · -- a beginning of the file
    have hdata : (runOps (ops.take k)).data = (runOps ops).data.take (runOps (ops.take k)).data.length := by
      have h1 : ops.take k = (bs.take k).map OutOp.write := by
        rw [hops, List.take_append_of_le_length (by rw [List.length_map]; omega), List.map_take]
      have h2 : (runOps (ops.take k)).data = (bs.take k).flatten := by
        rw [h1]
        unfold runOps
        rw [run_writes _ _ rfl]
        rfl
      rw [h2, hf]
      have h3 : P.front = (bs.take k).flatten ++ (bs.drop k).flatten := by
        rw [← List.flatten_append, List.take_append_drop, hbs]
      unfold Parts.file
      rw [h3, List.append_assoc, List.take_left']
      rfl
    have hle : (runOps (ops.take k)).data.length ≤ (runOps ops).data.length := by
      have := congrArg List.length hdata
      rw [List.length_take] at this
      omega
    rw [hdata]
    have := (C55_truncated _ _ hload _ hle).1
    rw [List.length_take, Nat.min_eq_left hle]
    exact this
  · -- everything before the word infos is there
    have hF : ∃ tl, (runOps (ops.take k)).data = P.front ++ tl := by
      by_cases hk' : k < ops.length
      · exact cut_front hB hbs hops (by omega) hk'
      · rw [List.take_of_length_le (by omega), hf]
        exact ⟨_, rfl⟩
    have hfl : P.front.length = (P.lexicon true).widOff + (P.lexicon true).widLen + 4 + 6 * (P.lexicon true).size := by
      rw [P.front_length]
      unfold Parts.params
      rw [if_neg hent, List.length_append, leBytes_length, params_flat_length]
      show P.parStart + _ = P.lexOff + 4 + P.arr.length + 4 + P.table.length + 4 + 6 * P.db.entries.length
      unfold Parts.parStart
      omega
    have : P.front.length ≤ (runOps (ops.take k)).data.length := by
      obtain ⟨tl, e⟩ := hF
      rw [e, List.length_append]
      omega
    refine ⟨fun _ => ?_, fun _ => ⟨_, g1 _ hF (fun e => absurd e hent)⟩⟩
    unfold BinDict.InParameter BinDict.wordCountAt
    dsimp only
    omega

/-- The sample: a file of 1596 bytes with two words, whose number is at 368.  The first seven points are before it, and 373 is in the middle
of a parameter. -/
example : ((readDictionary (runOps Sample.built.1).data).map fun d => (d.wordCountAt, d.lexicon.size)) = .ok (368, 2) ∧
    (runOps Sample.built.1).data.length = 1596 ∧ (runOps (Sample.built.1.take 7)).data.length = 358 ∧
    (runOps (Sample.built.1.take 8)).data.length = 368 ∧
    ([100, 367, 368, 370, 373, 374, 400].map fun n => (readDictionary ((runOps Sample.built.1).data.take n)).isOk) =
      [false, false, true, true, false, true, true] := by
  refine ⟨?_, ?_, ?_, ?_, ?_⟩ <;> decide +kernel

end Sudachi
