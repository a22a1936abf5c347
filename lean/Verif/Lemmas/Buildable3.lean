/-
Which references resolve, and which word infos can be written.
-/
import Verif.Lemmas.Buildable2
import Verif.Lemmas.Splits
import Verif.Lemmas.Compiled
namespace Sudachi
namespace DictBuilder

/-- Looking for a row by its fields finds a row if there is one. -/
theorem baseGetWordid_rows {sys : Option SysDict} {rows : List (List PStr)} {db db1 : DictBuilder} (hr : (init sys).addRows rows = .ok db)
    (hp : PosColumnsOk rows) (hS : Same db db1) {pos : List PStr} (hne : pos ≠ []) (hsep : ∀ s ∈ pos, 44 ∉ s) {surface reading : PStr} :
    (∃ i : Nat, (db1.getPosid pos).2.baseGetWordid surface (db1.getPosid pos).1 reading = i ∧ i < rows.length) ∨
    ((db1.getPosid pos).2.baseGetWordid surface (db1.getPosid pos).1 reading = -1 ∧
      ∀ j c, RowIs rows j c → ¬ c.Matches surface pos reading) := by
  have hsame := hS.trans (getPosid_same db1 pos)
  obtain ⟨r1, r2, _, _⟩ := rows_entries hr
  have hent : (db1.getPosid pos).2.entries = db.entries := hsame.entries
  unfold baseGetWordid
  rw [hent]
  split
  · rename_i i hi
    left
    obtain ⟨hlt, hm, hmin⟩ := List.findIdx?_eq_some_iff_getElem.1 hi
    exact ⟨i, rfl, by omega⟩
  · rename_i hn
    right
    refine ⟨rfl, ?_⟩
    intro j c hc hmat
    obtain ⟨e, he, hiff⟩ := entry_matches hr hp hS hne hsep (surface := surface) (reading := reading) hc
    have := List.findIdx?_eq_none_iff.1 hn e (List.mem_of_getElem? he)
    obtain ⟨a, b, d⟩ := hiff.2 hmat
    rw [a, b, d] at this
    simp at this

/-- A reference that resolves is found, as a number that can be written. -/
theorem wordToId_total {sys : Option SysDict} {rows : List (List PStr)} {db db1 : DictBuilder} (hr : (init sys).addRows rows = .ok db)
    (hp : PosColumnsOk rows) (hS : Same db db1) (hn : rows.length < 2 ^ 28) {u : PStr} (h : FieldsResolve sys rows u) :
    ∃ w db2, db1.wordToId u = .ok (w, db2) ∧ 0 ≤ w ∧ FitsInt w := by
  obtain ⟨c0, c1, c2, c3, c4, c5, c6, c7, more, surface, reading, heq, hsf, hrd, h⟩ := h
  obtain ⟨r1, r2, _, _⟩ := rows_entries hr
  have hsame := hS.trans (getPosid_same db1 [c1, c2, c3, c4, c5, c6])
  have hsep : ∀ s ∈ [c1, c2, c3, c4, c5, c6], 44 ∉ s := by
    intro s hs
    apply splitOn_no_sep (s := u)
    rw [heq]
    simp only [List.mem_cons, List.not_mem_nil, or_false] at hs ⊢
    rcases hs with h | h | h | h | h | h <;> simp [h]
  have hsys : (db1.getPosid [c1, c2, c3, c4, c5, c6]).2.sys = sys := by rw [hsame.sys, r1]
  have hbase := baseGetWordid_rows hr hp hS (pos := [c1, c2, c3, c4, c5, c6]) (by simp) hsep (surface := surface) (reading := reading)
  have key : ∃ w, (db1.getPosid [c1, c2, c3, c4, c5, c6]).2.getWordid surface (db1.getPosid [c1, c2, c3, c4, c5, c6]).1 reading = .ok w ∧
      0 ≤ w ∧ FitsInt w := by
    unfold getWordid FitsInt
    rw [hsys]
    rcases hbase with ⟨i, h1, h2⟩ | ⟨h1, h2⟩
    · cases sys with
      | none => exact ⟨i, by simp only [h1], by omega, by omega⟩
      | some s =>
        simp only [h1]
        rw [if_pos (by omega)]
        have := setUserBit_lt (v := i) (by omega)
        refine ⟨_, rfl, ?_⟩
        simp only [Int.toNat_natCast]
        omega
    · rcases h with ⟨j, c, h3, h4⟩ | ⟨s, i, w, rfl, h4, h5, h6, h7⟩
      · exact (h2 j c h3 h4).elim
      · simp only [h1]
        rw [if_neg (by omega)]
        have : (db1.getPosid [c1, c2, c3, c4, c5, c6]).1 = i := by
          unfold getPosid
          rw [hS.sys, r1]
          simp only [h4]
        rw [this, h5]
        exact ⟨w, rfl, h6, by omega, by omega⟩
  obtain ⟨w, h1, h2, h3⟩ := key
  refine ⟨w, (db1.getPosid [c1, c2, c3, c4, c5, c6]).2, ?_, h2, h3⟩
  unfold wordToId
  rw [heq]
  simp only [hsf, bind, Except.bind]
  rw [if_neg (by have := getPosid_nonneg db1 [c1, c2, c3, c4, c5, c6]; omega)]
  simp only [hrd, h1]
  rfl

theorem parseUnit_total {sys : Option SysDict} {rows : List (List PStr)} {db db1 : DictBuilder} (hr : (init sys).addRows rows = .ok db)
    (hp : PosColumnsOk rows) (hS : Same db db1) (hn : rows.length < 2 ^ 28) {u : PStr}
    (h : if isId u = true then NumberResolves sys rows.length u else FieldsResolve sys rows u) :
    ∃ w db2, db1.parseUnit u = .ok (w, db2) ∧ FitsInt w := by
  obtain ⟨r1, r2, _, _⟩ := rows_entries hr
  unfold parseUnit
  by_cases hid : isId u = true
  · rw [if_pos hid] at h ⊢
    obtain ⟨w, h1, h2⟩ := (parseId_iff (db := db1) hid).2 (by rw [hS.sys, hS.entries, r1, r2]; exact h)
    rw [h1]
    exact ⟨w, db1, rfl, h2⟩
  · rw [if_neg hid] at h ⊢
    obtain ⟨w, db2, h1, h2, h3⟩ := wordToId_total hr hp hS hn h
    rw [h1]
    simp only [bind, Except.bind]
    rw [if_neg (by omega)]
    exact ⟨w, db2, rfl, h3⟩

theorem parseUnits_total {sys : Option SysDict} {rows : List (List PStr)} {db : DictBuilder} (hr : (init sys).addRows rows = .ok db)
    (hp : PosColumnsOk rows) (hn : rows.length < 2 ^ 28) {us : List PStr} : ∀ {db1 : DictBuilder}, Same db db1 →
    (∀ u ∈ us, if isId u = true then NumberResolves sys rows.length u else FieldsResolve sys rows u) →
    ∃ ws db2, db1.parseUnits us = .ok (ws, db2) ∧ ws.length = us.length ∧ ∀ w ∈ ws, FitsInt w := by
  induction us with
  | nil => intro db1 _ _; exact ⟨[], db1, rfl, rfl, fun _ h => (by cases h)⟩
  | cons u us ih =>
    intro db1 hS h
    obtain ⟨w, d1, h1, h2⟩ := parseUnit_total hr hp hS hn (h u (by simp))
    obtain ⟨ws, d2, h3, h4, h5⟩ := ih (hS.trans (parseUnit_same h1)) (fun u hu => h u (by simp [hu]))
    unfold parseUnits
    rw [h1]
    simp only [bind, Except.bind]
    rw [h3]
    refine ⟨w :: ws, d2, rfl, by simp [h4], ?_⟩
    intro v hv
    rcases List.mem_cons.1 hv with rfl | hv
    · exact h2
    · exact h5 v hv

theorem splitOn_count {sep : Nat} : ∀ {s : PStr}, (splitOn sep s).length = s.count sep + 1
  | [] => rfl
  | c :: cs => by
    have ih := splitOn_count (sep := sep) (s := cs)
    unfold splitOn
    by_cases hc : c = sep
    · subst hc
      rw [if_pos rfl, List.length_cons, List.count_cons_self, ih]
    · rw [if_neg hc, List.count_cons_of_ne hc]
      split
      · rename_i h; rw [h] at ih; simp at ih
      · rename_i h; rw [h] at ih; simpa using ih

theorem parseSplitinfo_total {sys : Option SysDict} {rows : List (List PStr)} {db db1 : DictBuilder} (hr : (init sys).addRows rows = .ok db)
    (hp : PosColumnsOk rows) (hS : Same db db1) (hn : rows.length < 2 ^ 28) {col : PStr} (hc : col.count 47 + 1 ≤ 127)
    (h : SplitResolves sys rows col) :
    ∃ ws db2 b, db1.parseSplitinfo col = .ok (ws, db2) ∧ writeIntArray ws = .ok b ∧ b.length = 1 + 4 * parts col := by
  unfold parseSplitinfo parts
  by_cases h42 : col = [42]
  · rw [if_pos h42, if_pos h42]
    obtain ⟨b, hb⟩ := (writeIntArray_iff (l := [])).2 ⟨by simp, fun _ h => (by cases h)⟩
    exact ⟨[], db1, b, rfl, hb, writeIntArray_len hb⟩
  · rw [if_neg h42, if_neg h42, if_neg (by rw [splitOn_count]; omega)]
    obtain ⟨ws, d2, h3, h4, h5⟩ := parseUnits_total hr hp hn hS (us := splitOn 47 col) (h.resolve_left h42)
    obtain ⟨b, hb⟩ := (writeIntArray_iff (l := ws)).2 ⟨by rw [h4, splitOn_count]; omega, h5⟩
    exact ⟨ws, d2, b, h3, hb, by rw [writeIntArray_len hb, h4]⟩

/-! ### The other direction -/

theorem parseUnit_resolves {sys : Option SysDict} {rows : List (List PStr)} {db db1 db2 : DictBuilder} (hr : (init sys).addRows rows = .ok db)
    (hp : PosColumnsOk rows) (hS : Same db db1) (hk : ∀ s, sys = some s → s.KnowsPos) {u : PStr} {w : Int}
    (h : db1.parseUnit u = .ok (w, db2)) (hw : FitsInt w) :
    if isId u = true then NumberResolves sys rows.length u else FieldsResolve sys rows u := by
  obtain ⟨r1, r2, _, _⟩ := rows_entries hr
  unfold parseUnit at h
  by_cases hid : isId u = true
  · rw [if_pos hid] at h ⊢
    obtain ⟨v, hv, h⟩ := bind_ok h
    cases h
    have := (parseId_iff (db := db1) hid).1 ⟨w, hv, hw⟩
    rw [hS.sys, hS.entries, r1, r2] at this
    exact this
  · rw [if_neg hid] at h ⊢
    obtain ⟨⟨v, dbx⟩, hv, h⟩ := bind_ok h
    dsimp only at h
    split at h
    · cases h
    · cases h
      obtain ⟨c0, c1, c2, c3, c4, c5, c6, c7, more, surface, reading, h1, h2, h3, h4⟩ := wordToId_ok hr hp hS hv (by omega)
      refine ⟨c0, c1, c2, c3, c4, c5, c6, c7, more, surface, reading, h1, h2, h3, ?_⟩
      rcases h4 with ⟨i, ⟨⟨c, h5, h6⟩, _⟩, _⟩ | ⟨_, s, p, h5, h6, h7, h8⟩
      · exact .inl ⟨i, c, h5, h6⟩
      · rcases h6 with ⟨i, h9, rfl⟩ | ⟨_, h9⟩
        · exact .inr ⟨s, i, w, h5, h9, h7, h8, hw.2⟩
        · have := hk s h5 _ _ _ _ h9 h7
          omega

theorem parseUnits_resolves {sys : Option SysDict} {rows : List (List PStr)} {db : DictBuilder} (hr : (init sys).addRows rows = .ok db)
    (hp : PosColumnsOk rows) (hk : ∀ s, sys = some s → s.KnowsPos) {us : List PStr} : ∀ {db1 db2 : DictBuilder} {ws : List Int}, Same db db1 →
    db1.parseUnits us = .ok (ws, db2) → (∀ w ∈ ws, FitsInt w) →
    ∀ u ∈ us, if isId u = true then NumberResolves sys rows.length u else FieldsResolve sys rows u := by
  induction us with
  | nil => intro _ _ _ _ _ _ u hu; cases hu
  | cons v us ih =>
    intro db1 db2 ws hS h hw u hu
    unfold parseUnits at h
    obtain ⟨⟨w, d1⟩, h1, h⟩ := bind_ok h
    obtain ⟨⟨ws', d2⟩, h2, h⟩ := bind_ok h
    cases h
    rcases List.mem_cons.1 hu with rfl | hu
    · exact parseUnit_resolves hr hp hS hk h1 (hw w (by simp))
    · exact ih (hS.trans (parseUnit_same h1)) h2 (fun w hx => hw w (by simp [hx])) u hu

theorem parseSplitinfo_resolves {sys : Option SysDict} {rows : List (List PStr)} {db db1 db2 : DictBuilder} (hr : (init sys).addRows rows = .ok db)
    (hp : PosColumnsOk rows) (hS : Same db db1) (hk : ∀ s, sys = some s → s.KnowsPos) {col : PStr} {ws : List Int} {b : Bytes}
    (h : db1.parseSplitinfo col = .ok (ws, db2)) (hb : writeIntArray ws = .ok b) : SplitResolves sys rows col := by
  unfold parseSplitinfo at h
  split at h
  · rename_i hc; exact .inl hc
  · split at h
    · cases h
    · exact .inr (parseUnits_resolves hr hp hk hS h (writeIntArray_iff.1 ⟨b, hb⟩).2)

end DictBuilder
end Sudachi
