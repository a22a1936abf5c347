/-
Lemmas on resolving the units of splits.
-/
import Verif.Lemmas.Source
namespace Sudachi
open DictBuilder

namespace DictBuilder

theorem setUserBit_ge (w : Nat) : 2 ^ 28 ≤ setUserBit w := by
  unfold setUserBit
  split
  · rename_i h
    by_cases hw : w < 2 ^ 28
    · rw [Nat.div_eq_of_lt hw] at h; simp at h
    · omega
  · omega

theorem setUserBit_mod (w : Nat) : setUserBit w % 2 ^ 28 = w % 2 ^ 28 := by
  unfold setUserBit
  split
  · rfl
  · omega

theorem checkWordid_ok {db : DictBuilder} {w : Int} (h : db.checkWordid w = .ok ()) : UnitExists db.sys db.entries.length w := by
  unfold checkWordid at h
  unfold UnitExists
  split at h
  · rename_i hs
    split at h
    · cases h
    · simp only [hs]; omega
  · rename_i s hs
    simp only [hs]
    split at h
    · split at h
      · cases h
      · right; omega
    · split at h
      · cases h
      · left; omega

theorem digits_plain : digitZeros.all (fun z => (List.range 10).all (fun k => !isSpace (z + k) && z + k != 45 && z + k != 85)) = true := by
  decide +kernel

theorem digitVal_plain {c d : Nat} (h : digitVal c = some d) : isSpace c = false ∧ c ≠ 45 ∧ c ≠ 85 := by
  unfold digitVal at h
  split at h
  · rename_i z hz
    have h1 := List.mem_of_find?_eq_some hz
    have h2 := List.find?_some hz
    simp only [Bool.and_eq_true, decide_eq_true_eq] at h2
    have h3 := List.all_eq_true.1 digits_plain z h1
    have h4 := List.all_eq_true.1 h3 (c - z) (List.mem_range.2 (by omega))
    rw [show z + (c - z) = c by omega] at h4
    simp only [Bool.and_eq_true, Bool.not_eq_true', bne_iff_ne, ne_eq] at h4
    exact ⟨h4.1.1, h4.1.2, h4.2⟩
  · cases h

theorem stripInt_cons {c : Nat} {cs : PStr} (hs : isSpace c = false) : ∃ r, stripInt (c :: cs) = c :: r := by
  have h : isIntSpace c = false := by unfold isIntSpace; rw [hs]; rfl
  unfold stripInt
  rw [List.dropWhile_cons, if_neg (by simp [h]), List.reverse_cons, List.dropWhile_append]
  split
  · rw [List.dropWhile_cons, if_neg (by simp [h])]
    exact ⟨[], rfl⟩
  · rw [List.reverse_append]
    exact ⟨_, rfl⟩

/-- The number of an id is not negative. -/
theorem pyInt_digits {t : PStr} {v : Int} (h : (t.takeWhile (fun c => (digitVal c).isSome)).isEmpty = false) (hv : pyInt t = .ok v) :
    0 ≤ v := by
  cases t with
  | nil => simp at h
  | cons c cs =>
    cases hd : digitVal c with
    | none => simp [hd] at h
    | some d =>
      obtain ⟨h1, h2, _⟩ := digitVal_plain hd
      obtain ⟨r, hr⟩ := stripInt_cons (cs := cs) h1
      unfold pyInt at hv
      rw [hr] at hv
      have key : ∀ (o : Option Int), (∀ x, o = some x → 0 ≤ x) →
          (match o with | some v => Except.ok v | none => (Except.error Err.value : Res Int)) = .ok v → 0 ≤ v := by
        intro o ho hx
        cases o with
        | none => cases hx
        | some x => cases hx; exact ho _ rfl
      refine key _ ?_ hv
      intro x hx
      split at hx
      · rename_i heq; injection heq with heq _; exact (h2 heq).elim
      · obtain ⟨n, h', hn⟩ := Option.map_eq_some_iff.1 hx
        obtain ⟨m, _, hm⟩ := Option.bind_eq_some_iff.1 h'
        injection hm with hm
        subst hn
        exact hm ▸ Int.natCast_nonneg _
      · obtain ⟨n, h', hn⟩ := Option.map_eq_some_iff.1 hx
        obtain ⟨m, _, hm⟩ := Option.bind_eq_some_iff.1 h'
        injection hm with hm
        subst hn
        exact hm ▸ Int.natCast_nonneg _

theorem isId_tail {r : PStr} (h : isId (85 :: r) = true) : (r.takeWhile (fun c => (digitVal c).isSome)).isEmpty = false := by
  unfold isId at h
  simp only [Bool.and_eq_true, Bool.not_eq_true'] at h
  exact h.1

theorem parseId_ok {db : DictBuilder} {u : PStr} {w : Int} (h : db.parseId u = .ok w) (hid : isId u = true) :
    NumberMeans db.sys db.entries.length u w := by
  unfold parseId at h
  obtain ⟨w', hw', h⟩ := bind_ok h
  obtain ⟨_, hc, h⟩ := bind_ok h
  cases h
  unfold idNumber at hw'
  by_cases hu : ∃ r, u = 85 :: r
  · obtain ⟨r, rfl⟩ := hu
    obtain ⟨v, hv, hw'⟩ := bind_ok hw'
    cases hw'
    have hex := checkWordid_ok hc
    unfold UnitExists at hex
    unfold NumberMeans
    cases hsys : db.sys with
    | none =>
      simp only [hsys, Option.isSome_none, Bool.false_eq_true, if_false] at hex
      simp only [List.head?_cons, List.tail_cons, if_true, Option.isSome_none, Bool.false_eq_true, if_false]
      exact ⟨hv, hex.1, hex.2⟩
    | some s =>
      simp only [hsys, Option.isSome_some, if_true] at hex
      simp only [List.head?_cons, List.tail_cons, if_true, Option.isSome_some]
      have hv0 : 0 ≤ v := pyInt_digits (isId_tail hid) hv
      have h1 := setUserBit_ge v.toNat
      have h2 := setUserBit_mod v.toNat
      refine ⟨v.toNat, by rw [Int.toNat_of_nonneg hv0]; exact hv, by omega, by omega, by omega⟩
  · have hh : u.head? ≠ some 85 := by
      intro he
      cases u with
      | nil => cases he
      | cons c cs => injection he with he; exact hu ⟨cs, by rw [he]⟩
    have hv : pyInt u = .ok w := by
      split at hw'
      · rename_i r; exact (hu ⟨r, rfl⟩).elim
      · exact hw'
    have hex := checkWordid_ok hc
    unfold UnitExists at hex
    unfold NumberMeans
    cases hsys : db.sys with
    | none =>
      simp only [hsys] at hex
      simp only [hh, if_false]
      exact ⟨hv, hex.1, hex.2⟩
    | some s =>
      simp only [hsys] at hex
      simp only [hh, if_false]
      refine ⟨hv, ?_⟩
      rcases hex with hex | hex
      · exact .inl ⟨hex.1, hex.2.2, hex.2.1⟩
      · exact .inr hex

/-- Every accepted row can be read. -/
theorem rows_read {sys : Option SysDict} {rows : List (List PStr)} {db : DictBuilder} (h : (init sys).addRows rows = .ok db)
    {w : Nat} (hw : w < rows.length) : ∃ c, RowIs rows w c := by
  obtain ⟨_, _, es, _, h4, h5⟩ := addRows_entries h
  obtain ⟨d1, d2, _, hp, _⟩ := h5 w rows[w] (es[w]'(by omega)) (List.getElem?_eq_getElem hw) (List.getElem?_eq_getElem (by omega))
  obtain ⟨c, hc, _⟩ := parseLine_ok hp
  exact ⟨c, rows[w], List.getElem?_eq_getElem hw, hc⟩

theorem RowIs.mem {rows : List (List PStr)} {w : Nat} {c : Cols} (h : RowIs rows w c) : ∃ row ∈ rows, RowReads row c := by
  obtain ⟨row, h1, h2⟩ := h
  exact ⟨row, List.mem_of_getElem? h1, h2⟩

theorem splitOn_no_sep {sep : Nat} : ∀ {s p : PStr}, p ∈ splitOn sep s → sep ∉ p
  | [], p, h => by
    simp only [splitOn, List.mem_singleton] at h
    subst h; simp
  | c :: cs, p, h => by
    unfold splitOn at h
    split at h
    · rcases List.mem_cons.1 h with rfl | h
      · simp
      · exact splitOn_no_sep h
    · rename_i hc
      split at h
      · simp only [List.mem_singleton] at h
        subst h
        simp only [List.mem_singleton]
        exact fun h => hc h.symm
      · rename_i hd tl heq
        rcases List.mem_cons.1 h with rfl | h
        · intro hm
          rcases List.mem_cons.1 hm with hm | hm
          · exact hc hm.symm
          · exact splitOn_no_sep (s := cs) (heq ▸ List.mem_cons_self) hm
        · exact splitOn_no_sep (s := cs) (heq ▸ List.mem_cons_of_mem _ h)

theorem Same.ext {db db' : DictBuilder} (h : Same db db') : db'.sys = db.sys ∧ ∃ more, db'.posTable = db.posTable ++ more :=
  ⟨h.sys, h.posTable⟩

/-- Comparing surface, number of the part of speech and reading is comparing the columns. -/
theorem entry_matches {sys : Option SysDict} {rows : List (List PStr)} {db db1 : DictBuilder} (hr : (init sys).addRows rows = .ok db)
    (hp : PosColumnsOk rows) (hS : Same db db1) {pos : List PStr} (hne : pos ≠ []) (hpos : ∀ s ∈ pos, 44 ∉ s) {surface reading : PStr} {j : Nat} {c : Cols}
    (hc : RowIs rows j c) : ∃ e, db.entries[j]? = some e ∧
      ((e.info.surface = surface ∧ e.info.posId = (db1.getPosid pos).1 ∧ e.info.readingForm = reading) ↔ c.Matches surface pos reading) := by
  obtain ⟨_, _, _, h4⟩ := rows_entries hr
  obtain ⟨_, e, p, he, hE, hPos, hst⟩ := h4 j c hc
  refine ⟨e, he, ?_⟩
  unfold Cols.Matches
  rw [hE.surface, hE.posId, hE.reading]
  have key : p = (db1.getPosid pos).1 ↔ c.pos = pos := by
    constructor
    · intro h
      have h1 : PosIs (db1.getPosid pos).2 pos (db1.getPosid pos).1 := getPosid_is db1 pos
      have h2 : PosIs (db1.getPosid pos).2 c.pos p := by
        have := hS.trans (getPosid_same db1 pos)
        exact PosIs.mono hPos this.sys this.posTable
      rw [← h] at h1
      rcases PosIs.unique h2 h1 with h3 | h3
      · exact h3
      · obtain ⟨row, hm, hrr⟩ := RowIs.mem hc
        have h5 : splitOn 44 (joinOn 44 c.pos) = c.pos := splitOn_joinOn (by simp [Cols.pos]) (fun s hs => (hp row hm c hrr s hs).2.1)
        rw [← h5, h3, splitOn_joinOn hne hpos]
    · intro h
      rw [← h]
      exact (hst db1 hS.sys hS.posTable).symm
  rw [key]

theorem getPosid_sys {db : DictBuilder} {s : SysDict} (hs : db.sys = some s) (pos : List PStr) :
    SysPosNumber s pos (db.getPosid pos).1 := by
  unfold getPosid SysPosNumber
  rw [hs]
  simp only
  split
  · rename_i i hi
    exact .inl ⟨i, hi, rfl⟩
  · rename_i hn
    right
    refine ⟨List.idxOf?_eq_none_iff.1 hn, ?_⟩
    have := baseGetPosid_nonneg db pos
    dsimp only
    omega

theorem wordToId_ok {sys : Option SysDict} {rows : List (List PStr)} {db db1 db2 : DictBuilder} (hr : (init sys).addRows rows = .ok db)
    (hp : PosColumnsOk rows) (hS : Same db db1) {u : PStr} {w : Int} (h : db1.wordToId u = .ok (w, db2)) (hw : 0 ≤ w) :
    FieldsMean sys rows u w := by
  unfold wordToId at h
  split at h
  · rename_i c0 c1 c2 c3 c4 c5 c6 c7 more heq
    obtain ⟨surface, hsf, h⟩ := bind_ok h
    dsimp only at h
    rw [if_neg (by have := getPosid_nonneg db1 [c1, c2, c3, c4, c5, c6]; omega)] at h
    obtain ⟨reading, hrd, h⟩ := bind_ok h
    obtain ⟨w', hw', h⟩ := bind_ok h
    cases h
    refine ⟨c0, c1, c2, c3, c4, c5, c6, c7, more, surface, reading, heq, hsf, hrd, ?_⟩
    have hsame := hS.trans (getPosid_same db1 [c1, c2, c3, c4, c5, c6])
    have hsep : ∀ s ∈ [c1, c2, c3, c4, c5, c6], 44 ∉ s := by
      intro s hs
      apply splitOn_no_sep (s := u)
      rw [heq]
      simp only [List.mem_cons, List.not_mem_nil, or_false] at hs ⊢
      rcases hs with h | h | h | h | h | h <;> simp [h]
    obtain ⟨r1, r2, _, _⟩ := rows_entries hr
    have hsys : (db1.getPosid [c1, c2, c3, c4, c5, c6]).2.sys = sys := by rw [hsame.sys, r1]
    have hent : (db1.getPosid [c1, c2, c3, c4, c5, c6]).2.entries = db.entries := hsame.entries
    -- the first entry
    have hbase : (∃ i : Nat, (db1.getPosid [c1, c2, c3, c4, c5, c6]).2.baseGetWordid surface (db1.getPosid [c1, c2, c3, c4, c5, c6]).1 reading = i ∧
          FirstRow rows surface [c1, c2, c3, c4, c5, c6] reading i) ∨
        ((db1.getPosid [c1, c2, c3, c4, c5, c6]).2.baseGetWordid surface (db1.getPosid [c1, c2, c3, c4, c5, c6]).1 reading = -1 ∧
          ∀ j c, RowIs rows j c → ¬ c.Matches surface [c1, c2, c3, c4, c5, c6] reading) := by
      unfold baseGetWordid
      rw [hent]
      split
      · rename_i i hi
        left
        obtain ⟨hlt, hm, hmin⟩ := List.findIdx?_eq_some_iff_getElem.1 hi
        refine ⟨i, rfl, ?_, ?_⟩
        · obtain ⟨c, hc⟩ := rows_read hr (w := i) (by omega)
          obtain ⟨e, he, hiff⟩ := entry_matches hr hp hS (by simp) hsep (surface := surface) (reading := reading) hc
          have : db.entries[i] = e := by rw [List.getElem?_eq_getElem hlt] at he; exact Option.some.inj he
          rw [this] at hm
          simp only [Bool.and_eq_true, decide_eq_true_eq] at hm
          exact ⟨c, hc, hiff.1 ⟨hm.1.1, hm.1.2, hm.2⟩⟩
        · intro j c hj hc hmat
          obtain ⟨e, he, hiff⟩ := entry_matches hr hp hS (by simp) hsep (surface := surface) (reading := reading) hc
          have hjlt : j < db.entries.length := by omega
          have : db.entries[j] = e := by rw [List.getElem?_eq_getElem hjlt] at he; exact Option.some.inj he
          have hn := hmin j hj
          rw [this] at hn
          simp only [Bool.and_eq_true, decide_eq_true_eq] at hn
          obtain ⟨a, b, d⟩ := hiff.2 hmat
          exact hn ⟨⟨a, b⟩, d⟩
      · rename_i hn
        right
        refine ⟨rfl, ?_⟩
        intro j c hc hmat
        obtain ⟨e, he, hiff⟩ := entry_matches hr hp hS (by simp) hsep (surface := surface) (reading := reading) hc
        have := List.findIdx?_eq_none_iff.1 hn e (List.mem_of_getElem? he)
        obtain ⟨a, b, d⟩ := hiff.2 hmat
        rw [a, b, d] at this
        simp at this
    unfold getWordid at hw'
    rw [hsys] at hw'
    cases sys with
    | none =>
      simp only at hw'
      injection hw' with hw'
      rcases hbase with ⟨i, h1, h2⟩ | ⟨h1, _⟩
      · exact .inl ⟨i, h2, by simp only; omega⟩
      · omega
    | some s =>
      simp only at hw'
      rcases hbase with ⟨i, h1, h2⟩ | ⟨h1, h2⟩
      · rw [h1, if_pos (by omega)] at hw'
        injection hw' with hw'
        have e1 := setUserBit_ge i
        have e2 := setUserBit_mod i
        simp only [Int.toNat_natCast] at hw'
        exact .inl ⟨i, h2, by simp only; omega⟩
      · rw [h1, if_neg (by omega)] at hw'
        have hs1 : db1.sys = some s := by rw [hS.sys, r1]
        exact .inr ⟨h2, s, _, rfl, getPosid_sys hs1 _, hw', hw⟩
  · cases h

theorem parseUnit_ok {sys : Option SysDict} {rows : List (List PStr)} {db db1 db2 : DictBuilder} (hr : (init sys).addRows rows = .ok db)
    (hp : PosColumnsOk rows) (hS : Same db db1) {u : PStr} {w : Int} (h : db1.parseUnit u = .ok (w, db2)) :
    UnitMeans sys rows u w := by
  obtain ⟨r1, r2, _, _⟩ := rows_entries hr
  unfold parseUnit at h
  unfold UnitMeans
  split at h
  · rename_i hid
    rw [if_pos hid]
    obtain ⟨v, hv, h⟩ := bind_ok h
    cases h
    have := parseId_ok hv hid
    rw [hS.sys, r1, hS.entries, r2] at this
    exact this
  · rename_i hid
    rw [if_neg hid]
    obtain ⟨⟨v, dbx⟩, hv, h⟩ := bind_ok h
    dsimp only at h
    split at h
    · cases h
    · cases h
      exact wordToId_ok hr hp hS hv (by omega)

theorem parseUnits_ok {sys : Option SysDict} {rows : List (List PStr)} {db : DictBuilder} (hr : (init sys).addRows rows = .ok db)
    (hp : PosColumnsOk rows) {us : List PStr} : ∀ {db1 db2 : DictBuilder} {ws : List Int}, Same db db1 → db1.parseUnits us = .ok (ws, db2) →
    ws.length = us.length ∧ ∀ (k : Nat) (u : PStr) (w : Int), us[k]? = some u → ws[k]? = some w → UnitMeans sys rows u w := by
  induction us with
  | nil =>
    intro db1 db2 ws _ h
    cases h
    exact ⟨rfl, by intro k u w h; simp at h⟩
  | cons u us ih =>
    intro db1 db2 ws hS h
    unfold parseUnits at h
    obtain ⟨⟨w, d1⟩, hw, h⟩ := bind_ok h
    obtain ⟨⟨ws', d2⟩, hws, h⟩ := bind_ok h
    cases h
    obtain ⟨i1, i2⟩ := ih (hS.trans (parseUnit_same hw)) hws
    refine ⟨by simp [i1], ?_⟩
    intro k u' w' hu hw'
    cases k with
    | zero =>
      simp only [List.getElem?_cons_zero, Option.some.injEq] at hu hw'
      subst hu hw'
      exact parseUnit_ok hr hp hS hw
    | succ k =>
      simp only [List.getElem?_cons_succ] at hu hw'
      exact i2 k u' w' hu hw'

theorem parseSplitinfo_ok {sys : Option SysDict} {rows : List (List PStr)} {db db1 db2 : DictBuilder}
    (hr : (init sys).addRows rows = .ok db) (hp : PosColumnsOk rows) (hS : Same db db1) {col : PStr} {ws : List Int}
    (h : db1.parseSplitinfo col = .ok (ws, db2)) : SplitMeans sys rows col ws := by
  unfold parseSplitinfo at h
  unfold SplitMeans
  split at h
  · rename_i hc
    rw [if_pos hc]
    cases h; rfl
  · rename_i hc
    rw [if_neg hc]
    split at h
    · cases h
    · exact parseUnits_ok hr hp hS h

/-- What a unit stands for exists. -/
theorem UnitMeans.exists {sys : Option SysDict} {rows : List (List PStr)} (hs : ∀ s, sys = some s → s.Ok) {u : PStr} {w : Int}
    (h : UnitMeans sys rows u w) : UnitExists sys rows.length w := by
  unfold UnitMeans at h
  unfold UnitExists
  split at h
  · unfold NumberMeans at h
    cases sys with
    | none => exact h.2
    | some s =>
      simp only at h ⊢
      split at h
      · obtain ⟨v, _, h1, h2, h3⟩ := h
        right; omega
      · rcases h.2 with h | h
        · exact .inl ⟨h.1, h.2.2, h.2.1⟩
        · exact .inr h
  · obtain ⟨c0, c1, c2, c3, c4, c5, c6, c7, more, surface, reading, _, _, _, h⟩ := h
    rcases h with ⟨i, ⟨⟨c, ⟨row, hi, _⟩, _⟩, _⟩, h⟩ | ⟨_, s, p, rfl, _, h1, h2⟩
    · have := (List.getElem?_eq_some_iff.1 hi).1
      cases sys with
      | none => simp only at h ⊢; omega
      | some s => simp only at h ⊢; right; omega
    · have hok := hs s rfl
      have := hok.getWordId _ _ _ _ h1
      have := hok.size
      simp only
      left
      exact ⟨h2, by omega, by omega⟩

theorem SplitMeans.exists {sys : Option SysDict} {rows : List (List PStr)} (hs : ∀ s, sys = some s → s.Ok) {col : PStr} {ws : List Int}
    (h : SplitMeans sys rows col ws) : ∀ w ∈ ws, UnitExists sys rows.length w := by
  unfold SplitMeans at h
  intro w hw
  split at h
  · subst h; cases hw
  · obtain ⟨k, hk⟩ := List.getElem?_of_mem hw
    have hlt := (List.getElem?_eq_some_iff.1 hk).1
    exact UnitMeans.exists hs (h.2 k ((splitOn 47 col)[k]'(by omega)) w (List.getElem?_eq_getElem (by omega)) hk)

end DictBuilder

/-- The stored word info of a row. -/
theorem info_built {P : Parts} {D : Darts} {sys : Option SysDict} {header : Header} {rows : List (List PStr)}
    {matrix : Option (PStr × List PStr)} (hB : P.Built D (init sys) header rows matrix) (hp : PosColumnsOk rows) (w : Nat) (c : Cols)
    (hc : RowIs rows w c) (hf : c.Fits) :
    ∃ e p x y z, P.db.entries[w]? = some e ∧ c.EntryOf p e ∧ PosIs P.db c.pos p ∧
      getStoredInfo P.file true ((P.lexicon true).infoOffset w) = .ok (e.stored x y z) ∧
      SplitMeans sys rows c.aSplit x ∧ SplitMeans sys rows c.bSplit y ∧ SplitMeans sys rows c.structureSplit z := by
  obtain ⟨r1, r2, _, r4⟩ := rows_entries hB.rows
  obtain ⟨hok, e, p, he, hE, hP, _⟩ := r4 w c hc
  obtain ⟨b, hb, hA, _⟩ := lex_info hB true w e he
  obtain ⟨db1, db2, hS, hw⟩ := hB.infos w e b he hb
  have hfit : e.Fits := by
    refine ⟨?_, ?_, ?_, ?_, ?_⟩
    · rw [hE.surface]; exact hf.surface
    · rw [hE.normalized]; exact hf.normalized
    · rw [hE.reading]; exact hf.reading
    · rw [hE.headWordLength]; exact hok.headwordBytes
    · rw [hE.posId]
      obtain ⟨i, hi, _⟩ := hP
      omega
  obtain ⟨x, y, z, d1, d2, h1, h2, h3, h4⟩ := stored_rt hw hfit hA
  rw [hE.aSplit] at h1
  rw [hE.bSplit] at h2
  rw [hE.structureSplit] at h3
  have s1 := hS.trans (parseSplitinfo_same h1)
  have s2 := s1.trans (parseSplitinfo_same h2)
  exact ⟨e, p, x, y, z, he, hE, hP, h4, parseSplitinfo_ok hB.rows hp hS h1, parseSplitinfo_ok hB.rows hp s1 h2,
    parseSplitinfo_ok hB.rows hp s2 h3⟩

end Sudachi
