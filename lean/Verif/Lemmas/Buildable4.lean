/-
The pieces of a source that can be built: parts of speech, headwords, word infos, connection costs.
-/
import Verif.Lemmas.Buildable3
import Verif.Lemmas.Installed2
import Verif.Props.Grammar
namespace Sudachi

theorem idxOf_unique {α : Type} [BEq α] [LawfulBEq α] {l : List α} {a : α} : ∀ {i : Nat} (h : i < l.length), l[i] = a →
    (∀ j (hj : j < i), l[j]'(by omega) ≠ a) → l.idxOf a = i := by
  induction l with
  | nil => intro i h; simp at h
  | cons x xs ih =>
    intro i h h1 h2
    rw [List.idxOf_cons]
    cases i with
    | zero =>
      simp only [List.getElem_cons_zero] at h1
      subst h1
      simp
    | succ i =>
      have hx := h2 0 (by omega)
      simp only [List.getElem_cons_zero] at hx
      simp only [List.getElem_cons_succ] at h1
      have := ih (i := i) (by simpa using h) h1 (by
        intro j hj
        have := h2 (j + 1) (by omega)
        simpa using this)
      rw [this, beq_false_of_ne hx]
      rfl

theorem idxOf_of_idxOf? {α : Type} [BEq α] [LawfulBEq α] {l : List α} {a : α} {i : Nat} (h : l.idxOf? a = some i) : l.idxOf a = i := by
  obtain ⟨h1, h2, h3⟩ := List.idxOf?_eq_some_iff.1 h
  exact idxOf_unique h1 h2 h3

namespace DictBuilder

/-- The rows as columns, and the entries. -/
theorem rows_list {sys : Option SysDict} {rows : List (List PStr)} {db : DictBuilder} (hr : (init sys).addRows rows = .ok db)
    {cs : List Cols} (hc : RowsRead rows cs) : db.entries.length = cs.length ∧ ∀ (w : Nat) (c : Cols), cs[w]? = some c → c.Ok ∧ ∃ e p,
      db.entries[w]? = some e ∧ c.EntryOf p e ∧ (db.getPosid c.pos).1 = p ∧ PosIs db c.pos p := by
  obtain ⟨_, h2, _, h4⟩ := rows_entries hr
  refine ⟨by rw [h2, hc.1], ?_⟩
  intro w c hw
  obtain ⟨h5, e, p, h6, h7, h8, h9⟩ := h4 w c (hc.2 w c hw)
  exact ⟨h5, e, p, h6, h7, h9 db rfl ⟨[], by simp⟩, h8⟩

theorem posTable_own {sys : Option SysDict} {rows : List (List PStr)} {db : DictBuilder} (hr : (init sys).addRows rows = .ok db)
    (hp : PosColumnsOk rows) {cs : List Cols} (hc : RowsRead rows cs) :
    db.posTable = (ownPos (sysPos sys) [] (cs.map Cols.pos)).map (joinOn 44) :=
  addRows_ownPos hr rfl hc hp rfl (fun p hp => (by cases hp))

theorem own_no_commas {sys : Option SysDict} {rows : List (List PStr)} (hp : PosColumnsOk rows) {cs : List Cols} (hc : RowsRead rows cs)
    {p : List PStr} (h : p ∈ ownPos (sysPos sys) [] (cs.map Cols.pos)) :
    p.length = 6 ∧ ∀ s ∈ p, units s < 128 ∧ 44 ∉ s ∧ s.head? ≠ some 0xFEFF ∧ s.head? ≠ some 0xFFFE := by
  rcases ownPos_ok p h with h | h
  · cases h
  · obtain ⟨c, h1, rfl⟩ := List.mem_map.1 h
    obtain ⟨w, hw⟩ := List.mem_iff_getElem?.1 h1
    obtain ⟨row, h2, h3⟩ := RowIs.mem (hc.2 w c hw)
    exact ⟨rfl, hp row h2 c h3⟩

/-- The number of the part of speech of an entry. -/
theorem posid_idxOf {sys : Option SysDict} {rows : List (List PStr)} {db : DictBuilder} (hr : (init sys).addRows rows = .ok db)
    (hp : PosColumnsOk rows) {cs : List Cols} (hc : RowsRead rows cs) {w : Nat} {c : Cols} (hw : cs[w]? = some c) :
    (db.getPosid c.pos).1 = ((allPos sys cs).idxOf c.pos : Nat) := by
  obtain ⟨r1, _⟩ := rows_entries hr
  obtain ⟨_, hl⟩ := rows_list hr hc
  obtain ⟨_, e, p, _, _, hpid, hpis⟩ := hl w c hw
  have htab := posTable_own hr hp hc
  have hown : c.pos ∉ sysPos sys → (db.baseGetPosid c.pos).1 = ((ownPos (sysPos sys) [] (cs.map Cols.pos)).idxOf c.pos : Nat) := by
    intro hn
    have hmem : joinOn 44 c.pos ∈ db.posTable := by
      obtain ⟨i, _, h | ⟨_, h⟩⟩ := hpis
      · rw [r1] at h; exact (hn (List.mem_of_getElem? h)).elim
      · exact List.mem_of_getElem? h
    obtain ⟨i, hi⟩ := idxOf?_isSome'.2 hmem
    unfold baseGetPosid
    rw [hi]
    simp only
    obtain ⟨h1, h2, h3⟩ := List.idxOf?_eq_some_iff.1 hi
    have hlen : i < (ownPos (sysPos sys) [] (cs.map Cols.pos)).length := by
      rw [htab, List.length_map] at h1; exact h1
    have hget : ∀ j (hj : j < (ownPos (sysPos sys) [] (cs.map Cols.pos)).length), db.posTable[j]? =
        some (joinOn 44 (ownPos (sysPos sys) [] (cs.map Cols.pos))[j]) := by
      intro j hj
      rw [htab, List.getElem?_map, List.getElem?_eq_getElem hj]
      rfl
    have hcp : splitOn 44 (joinOn 44 c.pos) = c.pos := by
      obtain ⟨row, h4, h5⟩ := RowIs.mem (hc.2 w c hw)
      exact splitOn_joinOn (by simp [Cols.pos]) (fun s hs => (hp row h4 c h5 s hs).2.1)
    have hinj : ∀ j (hj : j < (ownPos (sysPos sys) [] (cs.map Cols.pos)).length),
        joinOn 44 (ownPos (sysPos sys) [] (cs.map Cols.pos))[j] = joinOn 44 c.pos ↔ (ownPos (sysPos sys) [] (cs.map Cols.pos))[j] = c.pos := by
      intro j hj
      constructor
      · intro h
        obtain ⟨h6, h7⟩ := own_no_commas (sys := sys) hp hc (List.getElem_mem hj)
        rw [← hcp, ← h, splitOn_joinOn (by intro h0; rw [h0] at h6; simp at h6) (fun s hs => (h7 s hs).2.1)]
      · intro h; rw [h]
    have := idxOf_unique hlen ((hinj i hlen).1 (by
        have := hget i hlen
        rw [List.getElem?_eq_getElem h1, h2] at this
        exact (Option.some.inj this).symm)) (by
        intro j hj he
        have hj' : j < (ownPos (sysPos sys) [] (cs.map Cols.pos)).length := by omega
        refine h3 j hj ?_
        have h8 := hget j hj'
        rw [List.getElem?_eq_getElem (by omega)] at h8
        rw [Option.some.inj h8]
        exact (hinj j hj').2 he)
    rw [this]
  unfold getPosid allPos
  rw [r1, List.idxOf_append]
  cases sys with
  | none =>
    simp only [sysPos, List.not_mem_nil, if_false, List.length_nil, Nat.add_zero]
    exact hown (by simp [sysPos])
  | some s =>
    simp only
    cases hi : s.posList.idxOf? c.pos with
    | some i =>
      have hm : c.pos ∈ s.posList := by
        obtain ⟨h1, h2, _⟩ := List.idxOf?_eq_some_iff.1 hi
        rw [← h2]; exact List.getElem_mem h1
      rw [if_pos (show c.pos ∈ sysPos (some s) from hm)]
      simp only [sysPos]
      rw [idxOf_of_idxOf? hi]
    | none =>
      have hm := List.idxOf?_eq_none_iff.1 hi
      have := hown hm
      rw [if_neg (show c.pos ∉ sysPos (some s) from hm)]
      simp only [sysPos] at this ⊢
      rw [this]
      omega

/-- The keys of the entries. -/
theorem entries_keys {sys : Option SysDict} {rows : List (List PStr)} {db : DictBuilder} (hr : (init sys).addRows rows = .ok db)
    {cs : List Cols} (hc : RowsRead rows cs) :
    db.entries.map headKey = cs.map fun c => if c.left = [45, 49] then none else some (Sources.headBytes c) := by
  obtain ⟨hl, he⟩ := rows_list hr hc
  apply List.ext_getElem?
  intro i
  rw [List.getElem?_map, List.getElem?_map]
  by_cases hi : i < cs.length
  · obtain ⟨_, e, p, h1, h2, _⟩ := he i cs[i] (List.getElem?_eq_getElem hi)
    rw [h1, List.getElem?_eq_getElem hi]
    simp only [Option.map_some, Option.some.injEq]
    unfold headKey
    rw [h2.headword]
    split <;> rfl
  · rw [List.getElem?_eq_none (by omega), List.getElem?_eq_none (by omega)]
    rfl

theorem headKey_count {sys : Option SysDict} {rows : List (List PStr)} {db : DictBuilder} (hr : (init sys).addRows rows = .ok db)
    {cs : List Cols} (hc : RowsRead rows cs) (h : PStr) :
    db.entries.countP (fun e => decide (headKey e = some (h.flatMap utf8Cp))) = (cs.filter (Cols.Listed h)).length := by
  have h1 : db.entries.countP (fun e => decide (headKey e = some (h.flatMap utf8Cp))) =
      (db.entries.map headKey).countP (fun k => decide (k = some (h.flatMap utf8Cp))) := by
    rw [List.countP_map]; rfl
  rw [h1, entries_keys hr hc, List.countP_map, ← List.countP_eq_length_filter]
  apply List.countP_congr
  intro c _
  simp only [Function.comp, Cols.Listed, Bool.and_eq_true, decide_eq_true_eq]
  by_cases hl : c.left = [45, 49]
  · simp [hl]
  · simp only [if_neg hl, Option.some.injEq]
    constructor
    · intro he; exact ⟨hl, utf8_injective he⟩
    · rintro ⟨_, he⟩; rw [← he]; rfl

theorem heads_iff {sys : Option SysDict} {rows : List (List PStr)} {db : DictBuilder} (hr : (init sys).addRows rows = .ok db)
    {cs : List Cols} (hc : RowsRead rows cs) :
    (∀ kw ∈ db.trieKeys, kw.2.length ≤ 255) ↔ ∀ h, (cs.filter (Cols.Listed h)).length ≤ 255 := by
  obtain ⟨_, _, hi, _⟩ := rows_entries hr
  have hcnt := rows_count hr
  constructor
  · intro h hw
    cases hf : cs.filter (Cols.Listed hw) with
    | nil => simp
    | cons c rest =>
      have hpos : 0 < db.entries.countP (fun e => decide (headKey e = some (hw.flatMap utf8Cp))) := by
        rw [headKey_count hr hc hw, hf]; simp
      obtain ⟨e, he, hk⟩ := List.countP_pos_iff.1 hpos
      simp only [decide_eq_true_eq] at hk
      unfold headKey at hk
      cases hh : e.headword with
      | none => rw [hh] at hk; cases hk
      | some x =>
        rw [hh] at hk
        simp only [Option.map_some, Option.some.injEq] at hk
        obtain ⟨v, hv⟩ := List.mem_iff_getElem?.1 he
        obtain ⟨ws, g1, _⟩ := (hi.listed (hw.flatMap utf8Cp) v).2 ⟨e, x, hv, hh, by rw [encodeUtf8_eq (hcnt.clean e he x hh), hk]⟩
        rw [← hf, ← headKey_count hr hc hw, ← hcnt.count _ g1]
        exact h _ g1
  · intro h kw hkw
    cases hw : kw.2 with
    | nil => simp
    | cons v rest =>
      obtain ⟨e, x, h1, h2, h3⟩ := (hi.listed kw.1 v).1 ⟨kw.2, hkw, by rw [hw]; simp⟩
      have hx : kw.1 = x.flatMap utf8Cp := by
        rw [encodeUtf8_eq (hcnt.clean e (List.mem_of_getElem? h1) x h2)] at h3
        exact (Except.ok.inj h3).symm
      rw [← hw, hcnt.count kw hkw, hx, headKey_count hr hc x]
      exact h x

/-- The keys given to the trie library. -/
theorem kvs_facts {sys : Option SysDict} {rows : List (List PStr)} {db : DictBuilder} (hr : (init sys).addRows rows = .ok db)
    {cs : List Cols} (hc : RowsRead rows cs) {tell : Nat} {t : Bytes} {kvs : List (Bytes × Nat)} (h : wordIdTable tell db.trieKeys = .ok (t, kvs)) :
    SortedKeys kvs ∧ ∀ kv ∈ kvs, ∃ c ∈ cs, c.left ≠ [45, 49] ∧ kv.1 = Sources.headBytes c := by
  obtain ⟨_, _, hi, _⟩ := rows_entries hr
  have hcnt := rows_count hr
  have hkeys := wordIdTable_keys h
  constructor
  · unfold SortedKeys
    have h1 : (kvs.map (·.1)).Pairwise (fun a b => bytesLt a b = true) := by
      rw [hkeys]
      exact List.pairwise_map.2 hi.sorted.1
    exact List.pairwise_map.1 h1
  · intro kv hkv
    have : kv.1 ∈ db.trieKeys.map (·.1) := by rw [← hkeys]; exact List.mem_map_of_mem hkv
    obtain ⟨kw, hkw, he⟩ := List.mem_map.1 this
    cases hw : kw.2 with
    | nil => exact (hcnt.ne kw hkw hw).elim
    | cons v rest =>
      obtain ⟨e, x, h1, h2, h3⟩ := (hi.listed kw.1 v).1 ⟨kw.2, hkw, by rw [hw]; simp⟩
      have hx : kw.1 = x.flatMap utf8Cp := by
        rw [encodeUtf8_eq (hcnt.clean e (List.mem_of_getElem? h1) x h2)] at h3
        exact (Except.ok.inj h3).symm
      have hm : some kw.1 ∈ db.entries.map headKey := by
        refine List.mem_map.2 ⟨e, List.mem_of_getElem? h1, ?_⟩
        unfold headKey
        rw [h2, hx]
        rfl
      rw [entries_keys hr hc] at hm
      obtain ⟨c, hcm, hce⟩ := List.mem_map.1 hm
      split at hce
      · cases hce
      · rename_i hl
        exact ⟨c, hcm, hl, by rw [← he]; exact (Option.some.inj hce).symm⟩

/-! ### Word infos -/

theorem synonyms_unique {c : Cols} {v v' : List Int} (h : c.Synonyms v) (h' : c.Synonyms v') : v = v' := by
  unfold Cols.Synonyms at h h'
  split at h
  · rename_i hm
    simp only [hm] at h'
    rw [h, h']
  · rename_i s t hm
    simp only [hm] at h'
    rcases h with ⟨h1, h2⟩ | ⟨h1, h2, _⟩ <;> rcases h' with ⟨h3, h4⟩ | ⟨h3, h4, _⟩
    · rw [h2, h4]
    · exact (h3 h1).elim
    · exact (h1 h3).elim
    · rw [h2] at h4; exact Except.ok.inj h4

theorem synonyms_len {c : Cols} {ids : List Int} (h : c.Synonyms ids) : ids.length ≤ 127 ∧
    ids.length = c.synonymCount := by
  unfold Cols.Synonyms at h
  unfold Cols.synonymCount
  split at h
  · rename_i hm; rw [hm]; subst h; exact ⟨by simp, rfl⟩
  · rename_i hm
    rw [hm]
    unfold parts
    rcases h with ⟨rfl, rfl⟩ | ⟨h1, h2, h3⟩
    · exact ⟨by simp, rfl⟩
    · exact ⟨h3, by simp only; rw [if_neg h1, pyInts_length h2]⟩

/-- A word info that can be written. -/
theorem wordInfoBytes_total {sys : Option SysDict} {rows : List (List PStr)} {db db1 : DictBuilder} (hr : (init sys).addRows rows = .ok db)
    (hp : PosColumnsOk rows) {cs : List Cols} (hc : RowsRead rows cs) (hS : Same db db1) (hn : rows.length < 2 ^ 28) {w : Nat} {c : Cols}
    (hw : cs[w]? = some c) (h : c.Writable sys rows cs) :
    ∃ e b db2, db.entries[w]? = some e ∧ db1.wordInfoBytes e = .ok (b, db2) ∧ b.length ≤ c.infoSize := by
  obtain ⟨_, hl⟩ := rows_list hr hc
  obtain ⟨hok, e, p, he, hE, hpid, hpis⟩ := hl w c hw
  have hpos := posid_idxOf hr hp hc hw
  obtain ⟨a1, h1⟩ := writeString_iff.2 h.surface
  obtain ⟨a2, h2⟩ := (writeStringLength_iff (n := (c.headword.flatMap utf8Cp).length)).2 (by have := hok.headwordBytes; omega)
  obtain ⟨a3, h3⟩ := (writeInt_short_iff (v := p)).2 (by
    rw [← hpid, hpos]
    have := h.posNumber
    unfold FitsShort
    omega)
  obtain ⟨a4, h4⟩ := (writeString_iff (s := if c.normalized = c.surface then [] else c.normalized)).2 (by
    split
    · exact ⟨fun _ hx => (by cases hx), by decide⟩
    · exact h.normalized)
  obtain ⟨a5, h5⟩ := writeInt_int_iff.2 (h.dicForm _ hE.dicForm)
  obtain ⟨a6, h6⟩ := (writeString_iff (s := if c.reading = c.surface then [] else c.reading)).2 (by
    split
    · exact ⟨fun _ hx => (by cases hx), by decide⟩
    · exact h.reading)
  obtain ⟨x7, d7, a7, h7, h8, l7⟩ := parseSplitinfo_total hr hp hS hn hok.aSplit h.aSplit
  obtain ⟨x9, d9, a9, h9, h10, l9⟩ := parseSplitinfo_total hr hp (hS.trans (parseSplitinfo_same h7)) hn hok.bSplit h.bSplit
  obtain ⟨x11, d11, a11, h11, h12, l11⟩ := parseSplitinfo_total hr hp ((hS.trans (parseSplitinfo_same h7)).trans (parseSplitinfo_same h9)) hn
    hok.structureSplit h.structureSplit
  obtain ⟨s1, s2⟩ := synonyms_len hE.synonyms
  obtain ⟨a13, h13⟩ := (writeIntArray_iff (l := e.info.synonymGroupIds)).2 ⟨by omega, h.synonyms _ hE.synonyms⟩
  refine ⟨e, a1 ++ a2 ++ a3 ++ a4 ++ a5 ++ a6 ++ a7 ++ a9 ++ a11 ++ a13, d11, he, ?_, ?_⟩
  · unfold wordInfoBytes
    rw [hE.surface, hE.headWordLength, hE.posId, hE.normalized, hE.reading, hE.aSplit, hE.bSplit, hE.structureSplit]
    simp only [h1, h2, h3, h4, h5, h6, h7, h8, h9, h10, h11, h12, h13, bind, Except.bind, pure, Except.pure]
  · have i1 := writeString_len h1
    have i2 := writeStringLength_len h2
    have i3 := (writeInt_short h3).1
    have i4 := writeString_len h4
    have i5 := (writeInt_int h5).1
    have i6 := writeString_len h6
    have i13 := writeIntArray_len h13
    have j4 : units (if c.normalized = c.surface then [] else c.normalized) ≤ units c.normalized := by
      split
      · exact Nat.zero_le _
      · exact Nat.le_refl _
    have j6 : units (if c.reading = c.surface then [] else c.reading) ≤ units c.reading := by
      split
      · exact Nat.zero_le _
      · exact Nat.le_refl _
    simp only [List.length_append]
    unfold Cols.infoSize
    rw [← s2]
    omega

/-- A word info that was written. -/
theorem wordInfoBytes_writable {sys : Option SysDict} {rows : List (List PStr)} {db db1 db2 : DictBuilder} (hr : (init sys).addRows rows = .ok db)
    (hp : PosColumnsOk rows) {cs : List Cols} (hc : RowsRead rows cs) (hS : Same db db1) (hk : ∀ s, sys = some s → s.KnowsPos) {w : Nat} {c : Cols}
    (hw : cs[w]? = some c) {e : Entry} {b : Bytes} (he : db.entries[w]? = some e) (h : db1.wordInfoBytes e = .ok (b, db2))
    (hpar : ShortParams e.params) (hpos : c.pos ∈ sysPos sys ∨ ∀ s ∈ c.pos, Clean s) : c.Writable sys rows cs := by
  obtain ⟨_, hl⟩ := rows_list hr hc
  obtain ⟨hok, e', p, he', hE, hpid, hpis⟩ := hl w c hw
  rw [he] at he'
  cases he'
  have hpos' := posid_idxOf hr hp hc hw
  obtain ⟨s, hd, p', n, d, r, a', b', c', y, a, b, cc, db1, db2, h1, h2, h3, h4, h5, h6, h7, h8, h9, h10, h11, h12, h13, rfl⟩ := wordInfoBytes_ok h
  rw [hE.surface] at h1
  have hsurf := writeString_iff.1 ⟨s, h1⟩
  refine ⟨hok, ?_, ?_, ?_, hsurf, ?_, ?_, hpos, ?_, ?_, ?_, ?_, ?_, ?_⟩
  · intro v hv; rw [hE.left] at hv; cases hv; exact hpar.1
  · intro v hv; rw [hE.right] at hv; cases hv; exact hpar.2.1
  · intro v hv; rw [hE.cost] at hv; cases hv; exact hpar.2.2
  · rw [hE.surface, hE.normalized] at h4
    split at h4
    · rename_i hh; rw [hh]; exact hsurf
    · exact writeString_iff.1 ⟨n, h4⟩
  · rw [hE.surface, hE.reading] at h6
    split at h6
    · rename_i hh; rw [hh]; exact hsurf
    · exact writeString_iff.1 ⟨r, h6⟩
  · rw [hE.posId] at h3
    have := writeInt_short_iff.1 ⟨p', h3⟩
    rw [← hpid, hpos'] at this
    unfold FitsShort at this
    omega
  · intro v hv
    have : v = e.info.dictionaryFormWordId := dicForm_unique hv hE.dicForm
    rw [this]
    exact writeInt_int_iff.1 ⟨d, h5⟩
  · intro ids hids v hv
    have : ids = e.info.synonymGroupIds := synonyms_unique hids hE.synonyms
    rw [this] at hv
    exact (writeIntArray_iff.1 ⟨y, h13⟩).2 v hv
  · rw [hE.aSplit] at h7
    exact parseSplitinfo_resolves hr hp hS hk h7 h8
  · rw [hE.bSplit] at h9
    exact parseSplitinfo_resolves hr hp (hS.trans (parseSplitinfo_same h7)) hk h9 h10
  · rw [hE.structureSplit] at h11
    exact parseSplitinfo_resolves hr hp ((hS.trans (parseSplitinfo_same h7)).trans (parseSplitinfo_same h9)) hk h11 h12

/-! ### Connection costs -/

theorem ok_bind {α β : Type} (a : α) (f : α → Res β) : ((Except.ok a : Res α) >>= f) = f a := rfl

theorem convertMatrix_total {header : PStr} {lines : List PStr} (h : MatrixOk (some (header, lines))) (hw : MatrixWritable (some (header, lines))) :
    ∃ sizes cells, convertMatrix header lines = .ok (sizes, cells) ∧ sizes.length + cells.length = matrixSize (some (header, lines)) := by
  obtain ⟨n, h1, h2, h3⟩ := h
  obtain ⟨w1, w2⟩ := hw
  obtain ⟨a, ha⟩ := (writeInt_short_iff (v := (n : Int))).2 ⟨by omega, by have := w1 n h1; omega⟩
  obtain ⟨m, hm⟩ := matrixLines_total (m := .empty) h2 w2
  have hc : convertMatrix header lines = .ok (a ++ a, m.read) := by
    unfold convertMatrix
    rw [if_neg (by
      intro he
      rw [List.isEmpty_iff] at he
      rw [he] at h1
      have : pyInts (splitWs []) = .ok [] := by decide
      rw [this] at h1
      exact List.cons_ne_nil _ _ (Except.ok.inj h1).symm), h1]
    rw [ok_bind]
    dsimp only
    rw [ha, ok_bind, ok_bind, hm, ok_bind]
    rfl
  obtain ⟨a', ha', hs, hl, _⟩ := convertMatrix_square h1 hc h2 h3
  refine ⟨_, _, hc, ?_⟩
  have h4 := (writeInt_short ha).1
  have h5 : matrixSize (some (header, lines)) = 4 + 2 * (n * n) := by
    unfold matrixSize
    simp only [h1, Int.toNat_natCast]
  rw [h5, hl, List.length_append, Nat.mul_assoc, h4]

theorem convertMatrix_writable {header : PStr} {lines : List PStr} {sizes cells : Bytes} (hm : MatrixOk (some (header, lines)))
    (h : convertMatrix header lines = .ok (sizes, cells)) : MatrixWritable (some (header, lines)) := by
  obtain ⟨l, r, a, b, m, h1, h2, h3, h4, _, _⟩ := convertMatrix_ok h
  obtain ⟨k, hk, _⟩ := hm
  rw [hk] at h1
  cases h1
  refine ⟨?_, matrixLines_lines h4⟩
  intro n hn
  rw [hk] at hn
  have hn : (k : Int) = n := (List.cons.inj (Except.ok.inj hn)).1
  have := writeInt_short_iff.1 ⟨a, h2⟩
  unfold FitsShort at this
  omega

end DictBuilder
end Sudachi
