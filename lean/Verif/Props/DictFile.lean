/-
Properties of building and loading dictionary files: C43, C44.
-/
import Verif.Props.Lexicon
namespace Sudachi
open DictBuilder

variable {D : Darts} {sys : Option SysDict} {header : Header} {rows : List (List PStr)} {matrix : Option (PStr × List PStr)}

/-- **C43** The file of a successful build loads, with the header, the rows' parts of speech in order of appearance (those of
the system dictionary left out), the connection costs and one word per row.  Its parameters, infos and lookup are those of
C39, C40 and C42. -/
theorem C43_loads (hD : D.Ok) (hS : SourceOk header rows matrix) {ops : List OutOp}
    (hb : (DictBuilder.init sys).build D header rows matrix = (ops, .ok ())) :
    ∃ d g, readDictionary (runOps ops).data = .ok d ∧ Compiled D sys header rows matrix d ∧ d.header = header ∧ d.grammar = some g ∧
      (∃ cs, RowsRead rows cs ∧ g.posList = ownPos (sysPos sys) [] (cs.map Cols.pos)) ∧
      MatrixSays g matrix ∧ d.lexicon.size = rows.length := by
  obtain ⟨P, hP, hf⟩ := build_ok hb
  obtain ⟨g0, h1, _⟩ := load_built hP hS hD
  rw [← hf] at h1
  have hC : Compiled D sys header rows matrix _ := ⟨ops, hb, h1⟩
  obtain ⟨g, F⟩ := compiled_facts hD hS hC
  refine ⟨_, g, h1, hC, F.header, F.grammar, ?_, F.matrix, F.size⟩
  have hcs : ∀ l : List (List PStr), (∀ w, w < l.length → ∃ c, RowIs l w c) → ∃ cs, RowsRead l cs := by
    intro l
    induction l with
    | nil => intro _; exact ⟨[], rfl, by simp⟩
    | cons r l ih =>
      intro h
      obtain ⟨cs, c1, c2⟩ := ih (fun w hw => by
        obtain ⟨c, row, h1, h2⟩ := h (w + 1) (by simp; omega)
        exact ⟨c, row, by simpa using h1, h2⟩)
      obtain ⟨c, hc⟩ := h 0 (by simp)
      refine ⟨c :: cs, by simp [c1], ?_⟩
      intro w c' hw
      cases w with
      | zero => simp only [List.getElem?_cons_zero, Option.some.injEq] at hw; rw [← hw]; exact hc
      | succ w =>
        obtain ⟨row, h1, h2⟩ := c2 w c' (by simpa using hw)
        exact ⟨row, by simpa using h1, h2⟩
  obtain ⟨cs, hcs⟩ := hcs rows F.rowsRead
  exact ⟨cs, hcs, compiled_pos hD hS hC F.grammar hcs⟩

/-- **C43** No part of the file is written twice. -/
theorem C43_no_overlap {ops : List OutOp} (hb : (DictBuilder.init sys).build D header rows matrix = (ops, .ok ())) : NoOverlap ops :=
  build_no_overlap hb

/-- The sample loads, with its two parts of speech and its connection costs. -/
example : ∃ d g, readDictionary (runOps Sample.built.1).data = .ok d ∧ d.header = Sample.header ∧ d.grammar = some g ∧
    g.posList = [[[112], [112], [112], [112], [112], [112]], [[112], [112], [112], [112], [112], [113]]] ∧
    g.getConnectCost 1 1 = .ok (-2) ∧ g.getConnectCost 0 1 = .ok 5 ∧ g.getConnectCost 0 0 = .ok 0 ∧ NoOverlap Sample.built.1 := by
  have hb : (DictBuilder.init none).build SimpleTrie.trie Sample.header Sample.rows Sample.matrix = (Sample.built.1, .ok ()) :=
    Prod.ext rfl Sample.built_ok
  obtain ⟨d, g, h1, h2, h3, h4, ⟨cs, h5, h6⟩, h7, h8⟩ := C43_loads SimpleTrie.ok Sample.source_ok hb
  obtain ⟨_, _, m⟩ := h7 2 (by decide +kernel)
  refine ⟨d, g, h1, h3, h4, ?_, ?_, ?_, ?_, C43_no_overlap hb⟩
  · rw [h6]
    obtain ⟨l1, l2⟩ := h5
    match cs, l1 with
    | [a, b], _ =>
      obtain rfl : a = Sample.cols0 := rowIs_unique (l2 0 a rfl) Sample.row0
      obtain rfl : b = Sample.cols1 := rowIs_unique (l2 1 b rfl) Sample.row1
      decide
  · exact (m 1 1 (by decide) (by decide)).trans (by decide +kernel)
  · exact (m 0 1 (by decide) (by decide)).trans (by decide +kernel)
  · exact (m 0 0 (by decide) (by decide)).trans (by decide +kernel)

/-- **C44** A row is accepted exactly if it has at least 18 columns whose unicode literals can be decoded, its headword is
not empty, can be encoded and has at most 32767 bytes, its other strings have at most 32767 characters, its parameters are
numbers, its splits and synonym groups have at most 127 parts, an A unit has no splits, and synonym groups and
dictionary-form id are numbers or `*`. -/
theorem C44_accepted (db : DictBuilder) (row : List PStr) :
    (∃ db' e, db.parseLine row = .ok (db', e)) ↔ ∃ c, RowReads row c ∧ c.Ok := by
  constructor
  · rintro ⟨db', e, h⟩
    obtain ⟨c, h1, h2, _⟩ := parseLine_ok h
    exact ⟨c, h1, h2⟩
  · rintro ⟨c, h1, h2⟩
    exact parseLine_accepts db h1 h2

/-- **C44** The entry of an accepted row has exactly its fields, with the number of its part of speech. -/
theorem C44_entry {db db' : DictBuilder} {row : List PStr} {e : Entry} (h : db.parseLine row = .ok (db', e)) :
    ∃ c, RowReads row c ∧ c.Ok ∧ c.EntryOf e.info.posId e ∧ PosIs db' c.pos e.info.posId ∧ db'.sys = db.sys ∧ db'.entries = db.entries ∧
      db'.trieKeys = db.trieKeys ∧ ∃ more, db'.posTable = db.posTable ++ more := by
  obtain ⟨c, h1, h2, h3, h4⟩ := parseLine_ok h
  have hs := getPosid_same db c.pos
  rw [← h4] at hs
  have hp := getPosid_is db c.pos
  rw [← h4] at hp
  have hid := h3.posId
  rw [← hid] at h3 hp
  exact ⟨c, h1, h2, h3, hp, hs.sys, hs.entries, hs.trieKeys, hs.posTable⟩

/-- **C44** The other rows are refused with a `ValueError`; those with text that cannot be decoded or a headword that cannot
be encoded with the codec's `UnicodeError`. -/
theorem C44_refused (db : DictBuilder) (row : List PStr) :
    (row.length < 18 → db.parseLine row = .error .value) ∧
    (∀ x, 18 ≤ row.length → decodeCols row = .error x → db.parseLine row = .error x) ∧
    ∀ c, RowReads row c →
      ((∃ y ∈ c.headword, encodable y = false) → db.parseLine row = .error .unicode) ∧
      ((∀ y ∈ c.headword, encodable y = true) → ¬ c.Ok → db.parseLine row = .error .value) := by
  refine ⟨parseLine_short, fun x h1 h2 => parseLine_undecodable h1 h2, fun c hc => ⟨?_, ?_⟩⟩
  · rintro ⟨y, hy, hn⟩
    rw [parseLine_cols hc]
    unfold lengthValid encodeUtf8
    rw [if_neg]
    · rfl
    · intro hall
      rw [List.all_eq_true.1 hall y hy] at hn
      cases hn
  · intro henc hno
    cases hp : db.parseLine row with
    | ok r =>
      obtain ⟨db', e⟩ := r
      obtain ⟨c', h1, h2, _⟩ := parseLine_ok hp
      have : c' = c := Sample.reads_unique h1 hc
      subst this
      exact (hno h2).elim
    | error x =>
      rw [parseLine_cols hc] at hp
      unfold lengthValid at hp
      rw [encodeUtf8_eq henc] at hp
      simp only [bind, Except.bind, pure, Except.pure] at hp
      split at hp
      · exact hp.symm ▸ rfl
      · rw [parseCols_error henc hp]

/-- Refused rows: too few columns; a cost that is not a number; an A unit with a split; an empty headword. -/
example (db : DictBuilder) : db.parseLine [[97], [49]] = .error .value ∧
    db.parseLine { Sample.cols0 with cost := [97] }.list = .error .value ∧
    db.parseLine { Sample.cols1 with mode := [65] }.list = .error .value ∧
    db.parseLine { Sample.cols0 with headword := [] }.list = .error .value := by
  refine ⟨(C44_refused db _).1 (by decide), ?_, ?_, ?_⟩
  · refine (((C44_refused db _).2.2 { Sample.cols0 with cost := [97] } ?_).2 (by decide) ?_)
    · exact (by decide +kernel : decodeCols { Sample.cols0 with cost := [97] }.list = .ok { Sample.cols0 with cost := [97] }.list)
    · intro h
      obtain ⟨v, hv⟩ := h.cost
      have : pyInt [97] = .error .value := by decide +kernel
      rw [show ({ Sample.cols0 with cost := [97] } : Cols).cost = [97] from rfl, this] at hv
      cases hv
  · refine (((C44_refused db _).2.2 { Sample.cols1 with mode := [65] } ?_).2 (by decide) ?_)
    · exact (by decide +kernel : decodeCols { Sample.cols1 with mode := [65] }.list = .ok { Sample.cols1 with mode := [65] }.list)
    · intro h
      have := (h.aUnit rfl).1
      cases this
  · refine (((C44_refused db _).2.2 { Sample.cols0 with headword := [] } ?_).2 (by decide) ?_)
    · exact (by decide +kernel : decodeCols { Sample.cols0 with headword := [] }.list = .ok { Sample.cols0 with headword := [] }.list)
    · intro h
      exact h.headword rfl

/-- An accepted row. -/
example (db : DictBuilder) : ∃ db' e, db.parseLine Sample.cols1.list = .ok (db', e) ∧ e.headword = some [97, 98] ∧
    e.params.2.2 = -3 ∧ PosIs db' Sample.cols1.pos e.info.posId := by
  obtain ⟨_, hrow, hr⟩ := Sample.row1
  cases hrow
  have hok : Sample.cols1.Ok :=
    ⟨by decide, by decide, by decide, by decide, by decide, by decide, ⟨0, by decide +kernel⟩, ⟨1, by decide +kernel⟩,
      ⟨-3, by decide +kernel⟩, by decide, by decide, by decide, by decide,
      ⟨[7, 8], .inr ⟨by decide, by decide +kernel, by decide⟩⟩, ⟨0, Sample.dic1⟩⟩
  obtain ⟨db', e, h⟩ := (C44_accepted db _).2 ⟨_, hr, hok⟩
  obtain ⟨c, h1, _, h3, h4, _⟩ := C44_entry h
  obtain rfl : c = Sample.cols1 := Sample.reads_unique h1 hr
  refine ⟨db', e, h, h3.headword, ?_, h4⟩
  have := h3.cost
  have e2 : pyInt Sample.cols1.cost = .ok (-3) := by decide +kernel
  rw [e2] at this
  exact (Except.ok.inj this).symm

end Sudachi
