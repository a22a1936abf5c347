/-
Lemmas on the parts of speech and splits of the rows of a builder.
-/
import Verif.Lemmas.Keys
import Verif.Spec.Source
import Verif.Props.Grammar
import Verif.Props.Header
namespace Sudachi
open DictBuilder

namespace DictBuilder

theorem baseGetPosid_is (db : DictBuilder) (pos : List PStr) :
    ∃ i : Nat, (db.baseGetPosid pos).1 = i ∧ (db.baseGetPosid pos).2.posTable[i]? = some (joinOn 44 pos) := by
  unfold baseGetPosid
  split
  · rename_i i hi
    obtain ⟨h1, h2, _⟩ := List.idxOf?_eq_some_iff.1 hi
    exact ⟨i, rfl, by rw [List.getElem?_eq_getElem h1, h2]⟩
  · exact ⟨db.posTable.length, rfl, by simp⟩

theorem getPosid_is (db : DictBuilder) (pos : List PStr) : PosIs (db.getPosid pos).2 pos (db.getPosid pos).1 := by
  have hs := (getPosid_same db pos).sys
  unfold PosIs
  rw [hs]
  unfold getPosid
  split
  · rename_i hsys
    rw [hsys]
    obtain ⟨i, h1, h2⟩ := baseGetPosid_is db pos
    exact ⟨i, h1, .inr ⟨Nat.zero_le _, h2⟩⟩
  · rename_i s hsys
    rw [hsys]
    split
    · rename_i i hi
      obtain ⟨h1, h2, _⟩ := List.idxOf?_eq_some_iff.1 hi
      exact ⟨i, rfl, .inl (by show s.posList[i]? = _; rw [List.getElem?_eq_getElem h1, h2])⟩
    · obtain ⟨i, h1, h2⟩ := baseGetPosid_is db pos
      refine ⟨i + s.posList.length, by rw [h1]; rfl, .inr ⟨Nat.le_add_left _ _, ?_⟩⟩
      show _ = _
      rw [show i + s.posList.length - (sysPos (some s)).length = i from Nat.add_sub_cancel _ _]
      exact h2

theorem idxOf?_append {t : PStr} {l m : List PStr} {i : Nat} (h : l.idxOf? t = some i) : (l ++ m).idxOf? t = some i := by
  obtain ⟨h1, h2, h3⟩ := List.idxOf?_eq_some_iff.1 h
  refine List.idxOf?_eq_some_iff.2 ⟨by rw [List.length_append]; omega, by rw [List.getElem_append_left h1]; exact h2, ?_⟩
  intro j hj
  rw [List.getElem_append_left (by omega)]
  exact h3 j hj

/-- A part of speech keeps its number. -/
theorem baseGetPosid_stable {db db' : DictBuilder} {pos : List PStr}
    (h : ∃ more, db'.posTable = (db.baseGetPosid pos).2.posTable ++ more) : (db'.baseGetPosid pos).1 = (db.baseGetPosid pos).1 := by
  obtain ⟨more, h⟩ := h
  have key : ∃ i : Nat, (db.baseGetPosid pos).1 = i ∧ (db.baseGetPosid pos).2.posTable.idxOf? (joinOn 44 pos) = some i := by
    unfold baseGetPosid
    split
    · rename_i i hi
      exact ⟨i, rfl, hi⟩
    · rename_i hn
      refine ⟨db.posTable.length, rfl, ?_⟩
      have hn := List.idxOf?_eq_none_iff.1 hn
      refine List.idxOf?_eq_some_iff.2 ⟨by simp, by simp, ?_⟩
      intro j hj he
      rw [List.getElem_append_left hj] at he
      exact hn (he ▸ List.getElem_mem hj)
  obtain ⟨i, h1, h2⟩ := key
  rw [h1]
  unfold baseGetPosid
  rw [h, idxOf?_append h2]

theorem getPosid_stable {db db' : DictBuilder} {pos : List PStr} (hs : db'.sys = db.sys)
    (h : ∃ more, db'.posTable = (db.getPosid pos).2.posTable ++ more) : (db'.getPosid pos).1 = (db.getPosid pos).1 := by
  unfold getPosid at h ⊢
  rw [hs]
  cases hsys : db.sys with
  | none =>
    rw [hsys] at h
    exact baseGetPosid_stable h
  | some s =>
    rw [hsys] at h
    simp only at h ⊢
    split
    · rfl
    · rename_i hn
      rw [hn] at h
      simp only at h ⊢
      rw [baseGetPosid_stable h]

theorem PosIs.mono {db db' : DictBuilder} {pos : List PStr} {p : Int} (h : PosIs db pos p) (hs : db'.sys = db.sys)
    (ht : ∃ more, db'.posTable = db.posTable ++ more) : PosIs db' pos p := by
  obtain ⟨i, rfl, h⟩ := h
  obtain ⟨more, hm⟩ := ht
  refine ⟨i, rfl, ?_⟩
  rw [hs]
  rcases h with h | ⟨h1, h2⟩
  · exact .inl h
  · refine .inr ⟨h1, ?_⟩
    rw [hm, List.getElem?_append_left (List.getElem?_eq_some_iff.1 h2).1]
    exact h2

/-- Two parts of speech with the same number are the same, as texts. -/
theorem PosIs.unique {db : DictBuilder} {p q : List PStr} {i : Int} (h : PosIs db p i) (h' : PosIs db q i) :
    p = q ∨ joinOn 44 p = joinOn 44 q := by
  obtain ⟨a, ha, h⟩ := h
  obtain ⟨b, hb, h'⟩ := h'
  have : a = b := by omega
  subst this
  rcases h with h | ⟨h1, h2⟩ <;> rcases h' with h' | ⟨h1', h2'⟩
  · rw [h] at h'; injection h' with h'; exact .inl h'
  · have := (List.getElem?_eq_some_iff.1 h).1; omega
  · have := (List.getElem?_eq_some_iff.1 h').1; omega
  · rw [h2] at h2'; injection h2' with h'; exact .inr h'

theorem baseGetPosid_mem {db : DictBuilder} {pos : List PStr} {t : PStr} (h : t ∈ (db.baseGetPosid pos).2.posTable) :
    t ∈ db.posTable ∨ t = joinOn 44 pos := by
  unfold baseGetPosid at h
  split at h
  · exact .inl h
  · simp only [List.mem_append, List.mem_singleton] at h
    exact h

theorem getPosid_mem {db : DictBuilder} {pos : List PStr} {t : PStr} (h : t ∈ (db.getPosid pos).2.posTable) :
    t ∈ db.posTable ∨ t = joinOn 44 pos := by
  unfold getPosid at h
  split at h
  · exact baseGetPosid_mem h
  · split at h
    · exact .inl h
    · exact baseGetPosid_mem h

/-- Every part of speech in the table comes from a row. -/
theorem addRows_pos {rows : List (List PStr)} {db db' : DictBuilder} (h : db.addRows rows = .ok db') {t : PStr}
    (ht : t ∈ db'.posTable) : t ∈ db.posTable ∨ ∃ row ∈ rows, ∃ c, RowReads row c ∧ t = joinOn 44 c.pos := by
  induction rows generalizing db with
  | nil => cases h; exact .inl ht
  | cons row rows ih =>
    unfold addRows at h
    obtain ⟨db1, h1, h⟩ := bind_ok h
    rcases ih h with h2 | ⟨row', hr, c, hc, he⟩
    · obtain ⟨dbp, e, hp, _, hpos, _, _, _⟩ := addRow_ok h1
      obtain ⟨c, hr, _, _, hdb⟩ := parseLine_ok hp
      rw [hpos, hdb] at h2
      rcases getPosid_mem h2 with h2 | h2
      · exact .inl h2
      · exact .inr ⟨row, List.mem_cons_self, c, hr, h2⟩
    · exact .inr ⟨row', List.mem_cons_of_mem _ hr, c, hc, he⟩

/-- What a builder knows after all rows. -/
theorem rows_entries {sys : Option SysDict} {rows : List (List PStr)} {db : DictBuilder} (h : (init sys).addRows rows = .ok db) :
    db.sys = sys ∧ db.entries.length = rows.length ∧ KeysInv db.entries db.trieKeys ∧
    ∀ (w : Nat) (c : Cols), RowIs rows w c → c.Ok ∧ ∃ e p, db.entries[w]? = some e ∧ c.EntryOf p e ∧ PosIs db c.pos p ∧
      ∀ db' : DictBuilder, db'.sys = db.sys → (∃ more, db'.posTable = db.posTable ++ more) → (db'.getPosid c.pos).1 = p := by
  obtain ⟨h1, _, es, h3, h4, h5⟩ := addRows_entries h
  have h3 : db.entries = es := by rw [h3]; rfl
  refine ⟨h1, by rw [h3, h4], addRows_keys h KeysInv.nil, ?_⟩
  rintro w c ⟨row, hr, hc⟩
  have hw : w < es.length := by rw [h4]; exact (List.getElem?_eq_some_iff.1 hr).1
  obtain ⟨d1, d2, i1, i2, i3⟩ := h5 w row es[w] hr (List.getElem?_eq_getElem hw)
  obtain ⟨c', j1, j2, j3, j4⟩ := parseLine_ok i2
  have hcc : c' = c := by
    unfold RowReads at j1 hc
    rw [j1] at hc
    injection hc with hc
    cases c; cases c'
    simp only [Cols.list, List.cons.injEq] at hc
    obtain ⟨a0, a1, a2, a3, a4, a5, a6, a7, a8, a9, a10, a11, a12, a13, a14, a15, a16, a17, a18⟩ := hc
    subst a0 a1 a2 a3 a4 a5 a6 a7 a8 a9 a10 a11 a12 a13 a14 a15 a16 a17 a18
    rfl
  subst hcc
  refine ⟨j2, es[w], _, ?_, j3, ?_, ?_⟩
  · rw [h3]; exact List.getElem?_eq_getElem hw
  · have hp := getPosid_is d1 c'.pos
    rw [← j4] at hp
    refine PosIs.mono hp ?_ i3
    rw [h1, j4, (getPosid_same d1 c'.pos).sys, i1]
  · rintro db' k1 ⟨more, k2⟩
    obtain ⟨more', k3⟩ := i3
    refine getPosid_stable (by rw [k1, h1, i1]) ⟨more' ++ more, ?_⟩
    rw [k2, k3, j4, List.append_assoc]

theorem posOk_iff {p : List PStr} (h6 : p.length = 6)
    (h : ∀ s ∈ p, units s < 128 ∧ 44 ∉ s ∧ s.head? ≠ some 0xFEFF ∧ s.head? ≠ some 0xFFFE) : PosOk p :=
  ⟨h6, fun s hs => Nat.le_of_lt_succ (h s hs).1, fun s hs => (h s hs).2.1, fun s hs => (h s hs).2.2⟩

theorem cols_pos_length (c : Cols) : c.pos.length = 6 := rfl

/-- The parts of speech of the builder's own table. -/
theorem table_ok {sys : Option SysDict} {rows : List (List PStr)} {db : DictBuilder} (h : (init sys).addRows rows = .ok db)
    (hp : PosColumnsOk rows) : (∀ t ∈ db.posTable, PosOk (splitOn 44 t)) ∧
      (db.posTable.map (splitOn 44)).map (joinOn 44) = db.posTable := by
  constructor
  · intro t ht
    rcases addRows_pos h ht with h1 | ⟨row, hr, c, hc, rfl⟩
    · cases h1
    · have hq := hp row hr c hc
      rw [splitOn_joinOn (by simp [Cols.pos]) (fun s hs => (hq s hs).2.1)]
      exact posOk_iff (cols_pos_length c) hq
  · rw [List.map_map]
    conv => rhs; rw [← List.map_id db.posTable]
    exact List.map_congr_left (fun t _ => joinOn_splitOn 44 t)

/-- The number of a part of speech in the combined table. -/
theorem PosIs.get {db : DictBuilder} {pos : List PStr} {p : Int} (h : PosIs db pos p) (hc : pos ≠ []) (hn : ∀ s ∈ pos, 44 ∉ s) :
    0 ≤ p ∧ (sysPos db.sys ++ db.posTable.map (splitOn 44))[p.toNat]? = some pos := by
  obtain ⟨i, rfl, h⟩ := h
  refine ⟨Int.natCast_nonneg _, ?_⟩
  rw [Int.toNat_natCast]
  rcases h with h | ⟨h1, h2⟩
  · rw [List.getElem?_append_left (List.getElem?_eq_some_iff.1 h).1]; exact h
  · rw [List.getElem?_append_right h1, List.getElem?_map, h2]
    simp only [Option.map_some]
    rw [splitOn_joinOn hc hn]

end DictBuilder

/-- The grammar part of a built file. -/
theorem grammar_read_parts {sys : Option SysDict} {header : Header} {rows : List (List PStr)} {matrix : Option (PStr × List PStr)}
    {db : DictBuilder} {hb posb sizes cells : Bytes} (hrows : (init sys).addRows rows = .ok db) (hheader : header.toBytes = .ok hb)
    (hpos : convertPosTable db.posTable = .ok posb) (hm : MatrixParts sizes cells matrix) (hS : SourceOk header rows matrix) :
    ∃ g, (∀ F, (∃ rest, F = hb ++ (posb ++ sizes ++ cells) ++ rest) → Grammar.read F HEADER_SIZE = .ok g) ∧
      g.posList = db.posTable.map (splitOn 44) ∧ HEADER_SIZE + g.storageSize = (hb ++ posb ++ sizes ++ cells).length ∧ MatrixSays g matrix := by
  obtain ⟨t1, t2⟩ := table_ok hrows hS.pos
  have t1' : ∀ p ∈ db.posTable.map (splitOn 44), PosOk p := by
    intro p hp
    obtain ⟨t, ht, rfl⟩ := List.mem_map.1 hp
    exact t1 t ht
  rw [← t2] at hpos
  have hhb : hb.length = HEADER_SIZE := header_length hheader
  have hoff : (hb ++ posb ++ sizes ++ cells).length = HEADER_SIZE + (posb ++ sizes ++ cells).length := by
    simp only [List.length_append, hhb]
    omega
  have hmo := hS.matrix
  cases matrix with
  | none =>
    obtain ⟨m1, m2⟩ := hm
    have hz : writeInt ((0 : Nat) : Int) .short = .ok [0, 0] := by decide
    have hA : ∀ F, (∃ rest, F = hb ++ (posb ++ sizes ++ cells) ++ rest) → At F HEADER_SIZE (posb ++ ([0, 0] ++ [0, 0]) ++ []) := by
      rintro F ⟨rest, hfile⟩
      rw [hfile, m1, m2, ← hhb]; exact At.mid _ _ _
    refine ⟨_, fun F hF => grammar_rt hpos t1' hz hz (hA F hF) rfl, rfl, ?_, rfl, rfl⟩
    rw [hoff, m1, m2]
    simp
  | some m =>
    obtain ⟨h, ls⟩ := m
    obtain ⟨n, m1, m2, m3⟩ := hmo
    obtain ⟨a, ha, hsz, hl, hc⟩ := convertMatrix_square m1 hm m2 m3
    have hA : ∀ F, (∃ rest, F = hb ++ (posb ++ sizes ++ cells) ++ rest) → At F HEADER_SIZE (posb ++ (a ++ a) ++ cells) := by
      rintro F ⟨rest, hfile⟩
      rw [hfile, hsz, ← hhb]; exact At.mid _ _ _
    have g0 := fun F hF => grammar_rt hpos t1' ha ha (b := F) (i := HEADER_SIZE) (hA F hF) hl
    obtain ⟨g, g1, g2, g3, g4⟩ := C38_round_trip n h ls sizes cells posb _ m1 hm m2 m3 hpos t1' hb []
    rw [hhb, g0 _ ⟨[], rfl⟩] at g1
    injection g1 with g1
    refine ⟨g, fun F hF => by rw [g0 F hF, g1], g2, by rw [hoff, g3], ?_⟩
    intro n' hn'
    rw [m1] at hn'
    simp only [Except.ok.injEq, List.cons.injEq, and_true, and_self] at hn'
    have : n' = n := by omega
    subst this
    rw [← g1]
    refine ⟨rfl, rfl, ?_⟩
    rw [g1]
    exact g4

theorem grammar_read_front {P : Parts} {D : Darts} {sys : Option SysDict} {header : Header} {rows : List (List PStr)}
    {matrix : Option (PStr × List PStr)} (hB : P.Front D (init sys) header rows matrix) (hS : SourceOk header rows matrix) :
    ∃ g, (∀ F, (∃ tl, F = P.front ++ tl) → Grammar.read F HEADER_SIZE = .ok g) ∧ g.posList = P.db.posTable.map (splitOn 44) ∧ HEADER_SIZE + g.storageSize = P.lexOff ∧
      MatrixSays g matrix := by
  obtain ⟨g, g1, g2⟩ := grammar_read_parts hB.rows hB.header hB.pos hB.matrix hS
  refine ⟨g, ?_, g2⟩
  rintro F ⟨tl, rfl⟩
  refine g1 _ ⟨leBytes 4 (P.arr.length / 4) ++ P.arr ++ leBytes 4 P.table.length ++ P.table ++ P.params ++ tl, ?_⟩
  unfold Parts.front
  simp only [List.append_assoc]

theorem grammar_read {P : Parts} {D : Darts} {sys : Option SysDict} {header : Header} {rows : List (List PStr)}
    {matrix : Option (PStr × List PStr)} (hB : P.Built D (init sys) header rows matrix) (hS : SourceOk header rows matrix) :
    ∃ g, (∀ F, (∃ tl, F = P.front ++ tl) → Grammar.read F HEADER_SIZE = .ok g) ∧ g.posList = P.db.posTable.map (splitOn 44) ∧ HEADER_SIZE + g.storageSize = P.lexOff ∧
      MatrixSays g matrix :=
  grammar_read_front hB.toFront hS

/-- The whole file. -/
theorem load_front {P : Parts} {D : Darts} {sys : Option SysDict} {header : Header} {rows : List (List PStr)}
    {matrix : Option (PStr × List PStr)} (hB : P.Front D (init sys) header rows matrix) (hS : SourceOk header rows matrix) (hD : D.Ok) :
    ∃ g, (∀ F, (∃ tl, F = P.front ++ tl) → (P.db.entries = [] → F = P.file) →
      readDictionary F = .ok ⟨header, some g, P.lexiconIn F true⟩) ∧ g.posList = P.db.posTable.map (splitOn 44) ∧
      MatrixSays g matrix := by
  obtain ⟨g, g1, g2, g3, g4⟩ := grammar_read_front hB hS
  refine ⟨g, ?_, g2, g4⟩
  intro F hF hE
  have g1 := g1 F hF
  have hfile : ∃ rest, F = [] ++ (P.hb ++ rest) := by
    obtain ⟨tl, htl⟩ : ∃ tl, F = P.front ++ tl := hF
    refine ⟨P.posb ++ P.sizes ++ P.cells ++ leBytes 4 (P.arr.length / 4) ++ P.arr ++ leBytes 4 P.table.length ++ P.table ++ P.params ++ tl, ?_⟩
    rw [htl]
    unfold Parts.front
    simp only [List.append_assoc, List.nil_append]
  obtain ⟨rest, hfile⟩ := hfile
  have hh := C35_round_trip header P.hb hB.header hS.header.time hS.header.description [] rest
  rw [← hfile] at hh
  have hne : F.isEmpty = false := by
    have hl := header_length hB.header
    rw [hfile]
    cases hx : P.hb with
    | nil => rw [hx] at hl; simp at hl
    | cons _ _ => rfl
  have hA : At F 0 P.front := by
    obtain ⟨tl, htl⟩ := hF
    rw [htl]
    exact (At.whole _).extend _
  unfold readDictionary
  rw [hne]
  have hh' : Header.fromBytes F 0 = .ok header := hh
  rw [hh']
  simp only [Bool.false_eq_true, if_false, bind, Except.bind]
  have hv : isDictionary header.version.toNat = true ∧ hasGrammar header.version.toNat = true ∧
      hasSynonymGroupIds header.version.toNat = true := by
    rcases hS.header.version with h | h <;> rw [h] <;> decide
  rw [hv.1, hv.2.1, hv.2.2]
  simp only [Bool.not_true, Bool.false_eq_true, if_false, if_true, g1, g3, lex_read_front hB hD true hA hE]
  rfl

theorem load_in {P : Parts} {D : Darts} {sys : Option SysDict} {header : Header} {rows : List (List PStr)}
    {matrix : Option (PStr × List PStr)} (hB : P.Built D (init sys) header rows matrix) (hS : SourceOk header rows matrix) (hD : D.Ok) :
    ∃ g, (∀ F, (∃ tl, F = P.front ++ tl) → (P.db.entries = [] → F = P.file) →
      readDictionary F = .ok ⟨header, some g, P.lexiconIn F true⟩) ∧ g.posList = P.db.posTable.map (splitOn 44) ∧
      MatrixSays g matrix :=
  load_front hB.toFront hS hD

theorem load_built {P : Parts} {D : Darts} {sys : Option SysDict} {header : Header} {rows : List (List PStr)}
    {matrix : Option (PStr × List PStr)} (hB : P.Built D (init sys) header rows matrix) (hS : SourceOk header rows matrix) (hD : D.Ok) :
    ∃ g, readDictionary P.file = .ok ⟨header, some g, P.lexicon true⟩ ∧ g.posList = P.db.posTable.map (splitOn 44) ∧
      MatrixSays g matrix := by
  obtain ⟨g, g1, g2, g3⟩ := load_in hB hS hD
  exact ⟨g, g1 P.file ⟨_, rfl⟩ (fun _ => rfl), g2, g3⟩

/-- The dictionary loaded from a built file. -/
theorem Compiled.parts {D : Darts} {sys : Option SysDict} {header : Header} {rows : List (List PStr)}
    {matrix : Option (PStr × List PStr)} {d : BinDict} (h : Compiled D sys header rows matrix d) (hS : SourceOk header rows matrix)
    (hD : D.Ok) : ∃ (P : Parts) (g : Grammar), P.Built D (init sys) header rows matrix ∧ d = ⟨header, some g, P.lexicon true⟩ ∧
      g.posList = P.db.posTable.map (splitOn 44) ∧ MatrixSays g matrix := by
  obtain ⟨ops, h1, h2⟩ := h
  obtain ⟨P, hP, hf⟩ := build_ok h1
  obtain ⟨g, g1, g2, g3⟩ := load_built hP hS hD
  rw [hf, g1] at h2
  cases h2
  exact ⟨P, g, hP, rfl, g2, g3⟩

end Sudachi
