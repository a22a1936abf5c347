/-
Lemmas on parsing rows and on the keys of the trie.
-/
import Verif.Lemmas.Load2
import Verif.Spec.Builder
namespace Sudachi
open DictBuilder

theorem decodeCols_length {row cols : List PStr} (h : decodeCols row = .ok cols) : cols.length = row.length := by
  induction row generalizing cols with
  | nil => cases h; rfl
  | cons s ss ih =>
    unfold decodeCols at h
    obtain ⟨a, _, h⟩ := bind_ok h
    obtain ⟨b, hb, h⟩ := bind_ok h
    cases h
    simp [ih hb]

/-- At least eighteen columns can be named. -/
theorem cols_of_length {l : List PStr} (h : 18 ≤ l.length) : ∃ c : Cols, l = c.list := by
  rcases l with _ | ⟨c0, _ | ⟨c1, _ | ⟨c2, _ | ⟨c3, _ | ⟨c4, _ | ⟨c5, _ | ⟨c6, _ | ⟨c7, _ | ⟨c8, l⟩⟩⟩⟩⟩⟩⟩⟩⟩
  all_goals try (simp at h; done)
  rcases l with _ | ⟨c9, _ | ⟨c10, _ | ⟨c11, _ | ⟨c12, _ | ⟨c13, _ | ⟨c14, _ | ⟨c15, _ | ⟨c16, _ | ⟨c17, more⟩⟩⟩⟩⟩⟩⟩⟩⟩
  all_goals try (simp at h; done)
  exact ⟨⟨c0, c1, c2, c3, c4, c5, c6, c7, c8, c9, c10, c11, c12, c13, c14, c15, c16, c17, more⟩, rfl⟩

/-- A text without backslash has no literals. -/
theorem decodeAux_plain : ∀ (n : Nat) {s : PStr}, 92 ∉ s → decodeAux n s = .ok s
  | 0, _, _ => rfl
  | _ + 1, [], _ => rfl
  | n + 1, c :: cs, h => by
    have hm : matchLiteral (c :: cs) = none := by
      unfold matchLiteral
      split
      · rename_i heq
        injection heq with h1 _
        exact (h (by simp [h1])).elim
      · rfl
    unfold decodeAux
    rw [hm]
    simp only
    rw [decodeAux_plain n (fun hc => h (by simp [hc]))]
    rfl

theorem decodeText_plain {s : PStr} (h : 92 ∉ s) : decodeText s = .ok s := decodeAux_plain _ h

theorem decodeCols_plain {row : List PStr} (h : ∀ s ∈ row, 92 ∉ s) : decodeCols row = .ok row := by
  induction row with
  | nil => rfl
  | cons s ss ih =>
    unfold decodeCols
    rw [decodeText_plain (h s (by simp)), ih (fun x hx => h x (by simp [hx]))]
    rfl

theorem cols_length (c : Cols) : 18 ≤ c.list.length := by simp [Cols.list]

theorem parseLine_short {db : DictBuilder} {row : List PStr} (h : row.length < 18) : db.parseLine row = .error .value := by
  unfold parseLine; rw [if_pos h]

theorem parseLine_undecodable {db : DictBuilder} {row : List PStr} (h : 18 ≤ row.length) {x : Err} (hd : decodeCols row = .error x) :
    db.parseLine row = .error x := by
  unfold parseLine
  rw [if_neg (by omega), hd]
  rfl

theorem parseLine_cols {db : DictBuilder} {row : List PStr} {c : Cols} (h : RowReads row c) :
    db.parseLine row = ((lengthValid c.headword c.surface c.reading c.normalized).bind fun ok =>
      if !ok then .error .value
      else db.parseCols c.headword c.left c.right c.cost c.surface c.pos c.reading c.normalized c.dicForm c.mode c.aSplit c.bSplit
        c.structureSplit c.more) := by
  have hl := decodeCols_length h
  have := cols_length c
  unfold parseLine
  rw [if_neg (by omega), h]
  rfl

theorem lengthValid_ok {c0 c4 c11 c12 : PStr} (he : ∀ x ∈ c0, encodable x = true) :
    lengthValid c0 c4 c11 c12 = .ok (decide ((c0.flatMap utf8Cp).length ≤ 32767) && decide (c4.length ≤ 32767) &&
      decide (c11.length ≤ 32767) && decide (c12.length ≤ 32767)) := by
  unfold lengthValid encodeUtf8
  rw [if_pos (List.all_eq_true.2 he)]
  rfl

theorem lengthValid_error {c0 c4 c11 c12 : PStr} (he : ¬ ∀ x ∈ c0, encodable x = true) :
    lengthValid c0 c4 c11 c12 = .error .unicode := by
  unfold lengthValid encodeUtf8
  rw [if_neg (fun h => he (List.all_eq_true.1 h))]
  rfl

theorem baseGetPosid_nonneg (db : DictBuilder) (strs : List PStr) : 0 ≤ (db.baseGetPosid strs).1 := by
  unfold baseGetPosid
  split <;> dsimp only <;> omega

theorem getPosid_nonneg (db : DictBuilder) (strs : List PStr) : 0 ≤ (db.getPosid strs).1 := by
  unfold getPosid
  split
  · exact baseGetPosid_nonneg db strs
  · split
    · dsimp only; omega
    · have := baseGetPosid_nonneg db strs
      dsimp only; omega

theorem checkSplitinfo_ok {s : PStr} : checkSplitinfo s = if s.count 47 + 1 ≤ 127 then .ok () else .error .value := by
  unfold checkSplitinfo
  by_cases h : s.count 47 + 1 ≤ 127
  · rw [if_neg (by omega), if_pos h]
  · rw [if_pos (by omega), if_neg h]

theorem pyInts_length {l : List PStr} {vs : List Int} (h : pyInts l = .ok vs) : vs.length = l.length := by
  induction l generalizing vs with
  | nil => cases h; rfl
  | cons s ss ih =>
    unfold pyInts at h
    obtain ⟨a, _, h⟩ := bind_ok h
    obtain ⟨b, hb, h⟩ := bind_ok h
    cases h
    simp [ih hb]

theorem synOf_iff (c : Cols) (ids : List Int) : synOf c.more = .ok ids ↔ c.Synonyms ids := by
  unfold synOf Cols.Synonyms
  cases c.more with
  | nil =>
    simp only [Except.ok.injEq]
    exact ⟨fun h => h.symm, fun h => h.symm⟩
  | cons s ss =>
    simp only
    unfold parseSynonyms
    by_cases h1 : s = [42]
    · rw [if_pos h1]
      simp only [Except.ok.injEq, h1, true_and, not_true_eq_false, false_and, or_false, ne_eq]
      exact ⟨fun h => h.symm, fun h => h.symm⟩
    · rw [if_neg h1]
      by_cases h2 : (splitOn 47 s).length > 127
      · rw [if_pos h2]
        constructor
        · intro h; cases h
        · rintro (⟨h, _⟩ | ⟨_, h, h'⟩)
          · exact (h1 h).elim
          · have := pyInts_length h; omega
      · rw [if_neg h2]
        constructor
        · intro h
          have := pyInts_length h
          exact Or.inr ⟨h1, h, by omega⟩
        · rintro (⟨h, _⟩ | ⟨_, h, _⟩)
          · exact (h1 h).elim
          · exact h

theorem dfwOf_iff (c : Cols) (w : Int) : dfwOf c.dicForm = .ok w ↔ c.DicForm w := by
  unfold dfwOf Cols.DicForm
  by_cases h : c.dicForm = [42]
  · rw [if_pos h]
    simp only [Except.ok.injEq, h, true_and, ne_eq, not_true_eq_false, false_and, or_false]
    exact ⟨fun h => h.symm, fun h => h.symm⟩
  · rw [if_neg h]
    simp [h]

/-- A successful parse. -/
theorem parseCols_iff {db db' : DictBuilder} {c : Cols} {e : Entry} (hen : ∀ x ∈ c.headword, encodable x = true) :
    db.parseCols c.headword c.left c.right c.cost c.surface c.pos c.reading c.normalized c.dicForm c.mode c.aSplit c.bSplit
        c.structureSplit c.more = .ok (db', e) ↔
    c.headword ≠ [] ∧ db' = (db.getPosid c.pos).2 ∧ c.EntryOf (db.getPosid c.pos).1 e ∧ e.info.dictionaryForm = [] ∧
      e.info.aUnitSplit = [] ∧ e.info.bUnitSplit = [] ∧ e.info.wordStructure = [] ∧
      c.aSplit.count 47 + 1 ≤ 127 ∧ c.bSplit.count 47 + 1 ≤ 127 ∧ c.structureSplit.count 47 + 1 ≤ 127 ∧
      (c.mode = [65] → c.aSplit = [42] ∧ c.bSplit = [42]) := by
  have hpos := getPosid_nonneg db c.pos
  have henc : encodeUtf8 c.headword = .ok (c.headword.flatMap utf8Cp) := by
    unfold encodeUtf8; rw [if_pos (List.all_eq_true.2 hen)]
  constructor
  · intro h
    unfold parseCols at h
    split at h
    · cases h
    · rename_i h0
      obtain ⟨l, hl, h⟩ := bind_ok h
      obtain ⟨r, hr, h⟩ := bind_ok h
      obtain ⟨co, hc, h⟩ := bind_ok h
      dsimp only at h
      rw [if_neg (by omega)] at h
      obtain ⟨_, ha, h⟩ := bind_ok h
      obtain ⟨_, hb, h⟩ := bind_ok h
      obtain ⟨_, hs, h⟩ := bind_ok h
      rw [checkSplitinfo_ok] at ha hb hs
      have ha : c.aSplit.count 47 + 1 ≤ 127 := by
        by_cases hx : c.aSplit.count 47 + 1 ≤ 127
        · exact hx
        · rw [if_neg hx] at ha; cases ha
      have hb : c.bSplit.count 47 + 1 ≤ 127 := by
        by_cases hx : c.bSplit.count 47 + 1 ≤ 127
        · exact hx
        · rw [if_neg hx] at hb; cases hb
      have hs : c.structureSplit.count 47 + 1 ≤ 127 := by
        by_cases hx : c.structureSplit.count 47 + 1 ≤ 127
        · exact hx
        · rw [if_neg hx] at hs; cases hs
      split at h
      · cases h
      · rename_i hm
        obtain ⟨syn, hsyn, h⟩ := bind_ok h
        obtain ⟨head, hh, h⟩ := bind_ok h
        obtain ⟨dfw, hd, h⟩ := bind_ok h
        rw [henc] at hh
        cases hh
        cases h
        refine ⟨by simpa using h0, rfl, ⟨rfl, hl, hr, hc, rfl, rfl, rfl, rfl, ?_, rfl, ?_, rfl, rfl, rfl⟩, rfl, rfl, rfl, rfl, ha, hb, hs, ?_⟩
        · exact (dfwOf_iff c _).1 hd
        · exact (synOf_iff c _).1 hsyn
        · intro hmode
          have := fun hx => hm ⟨hmode, hx⟩
          exact Classical.byContradiction this
  · rintro ⟨h0, rfl, hE, d1, d2, d3, d4, ha, hb, hs, hm⟩
    unfold parseCols
    rw [if_neg (by simpa using h0)]
    have h1 := (synOf_iff c _).2 hE.synonyms
    have h2 := (dfwOf_iff c _).2 hE.dicForm
    simp only [hE.left, hE.right, hE.cost, bind, Except.bind]
    rw [if_neg (by omega)]
    simp only [checkSplitinfo_ok, if_pos ha, if_pos hb, if_pos hs]
    rw [if_neg (by rintro ⟨hx, hy⟩; exact hy (hm hx))]
    simp only [h1, henc, h2]
    show Except.ok _ = _
    obtain ⟨hw, pa, ⟨q1, q2, q3, q4, q5, q6, q7, q8, q9, q10, q11⟩, s1, s2, s3⟩ := e
    simp only at hE d1 d2 d3 d4
    obtain ⟨e1, e2, e3, e4, e5, e6, e7, e8, e9, e10, e11, e12, e13, e14⟩ := hE
    simp only at e1 e2 e3 e4 e5 e6 e7 e8 e9 e10 e11 e12 e13 e14
    subst e1 e5 e6 e7 e8 e10 e12 e13 e14 d1 d2 d3 d4
    rfl

theorem parseLine_ok {db db' : DictBuilder} {row : List PStr} {e : Entry} (h : db.parseLine row = .ok (db', e)) :
    ∃ c : Cols, RowReads row c ∧ c.Ok ∧ c.EntryOf (db.getPosid c.pos).1 e ∧ db' = (db.getPosid c.pos).2 := by
  by_cases hl : row.length < 18
  · rw [parseLine_short hl] at h; cases h
  · cases hd : decodeCols row with
    | error x => rw [parseLine_undecodable (by omega) hd] at h; cases h
    | ok cols =>
      have := decodeCols_length hd
      obtain ⟨c, rfl⟩ := cols_of_length (l := cols) (by omega)
      rw [parseLine_cols hd] at h
      by_cases hen : ∀ x ∈ c.headword, encodable x = true
      · rw [lengthValid_ok hen] at h
        simp only [Except.bind] at h
        split at h
        · cases h
        · rename_i hv
          have hv : (decide ((c.headword.flatMap utf8Cp).length ≤ 32767) && decide (c.surface.length ≤ 32767) &&
            decide (c.reading.length ≤ 32767) && decide (c.normalized.length ≤ 32767)) = true := by simpa using hv
          simp only [Bool.and_eq_true, decide_eq_true_eq] at hv
          obtain ⟨⟨⟨v1, v2⟩, v3⟩, v4⟩ := hv
          obtain ⟨h0, h1, hE, _, _, _, _, ha, hb, hs, hm⟩ := (parseCols_iff hen).1 h
          exact ⟨c, hd, ⟨h0, hen, v1, v2, v3, v4, ⟨_, hE.left⟩, ⟨_, hE.right⟩, ⟨_, hE.cost⟩, ha, hb, hs, hm, ⟨_, hE.synonyms⟩, ⟨_, hE.dicForm⟩⟩, hE, h1⟩
      · rw [lengthValid_error hen] at h
        cases h

/-- An acceptable row is accepted. -/
theorem parseLine_accepts (db : DictBuilder) {row : List PStr} {c : Cols} (hr : RowReads row c) (hc : c.Ok) :
    ∃ db' e, db.parseLine row = .ok (db', e) := by
  obtain ⟨l, hl⟩ := hc.left
  obtain ⟨r, hr'⟩ := hc.right
  obtain ⟨co, hco⟩ := hc.cost
  obtain ⟨syn, hsyn⟩ := hc.synonyms
  obtain ⟨w, hw⟩ := hc.dicForm
  let e : Entry := ⟨if c.left = [45, 49] then none else some c.headword, (l, r, co),
    ⟨c.surface, (c.headword.flatMap utf8Cp).length, (db.getPosid c.pos).1, c.normalized, w, [], c.reading, [], [], [], syn⟩,
    c.aSplit, c.bSplit, c.structureSplit⟩
  refine ⟨(db.getPosid c.pos).2, e, ?_⟩
  rw [parseLine_cols hr, lengthValid_ok hc.encodable]
  have hv : (decide ((c.headword.flatMap utf8Cp).length ≤ 32767) && decide (c.surface.length ≤ 32767) &&
      decide (c.reading.length ≤ 32767) && decide (c.normalized.length ≤ 32767)) = true := by
    simp only [Bool.and_eq_true, decide_eq_true_eq]
    exact ⟨⟨⟨hc.headwordBytes, hc.surface⟩, hc.reading⟩, hc.normalized⟩
  rw [hv]
  simp only [Except.bind, Bool.not_true, Bool.false_eq_true, if_false]
  exact (parseCols_iff hc.encodable).2 ⟨hc.headword, rfl, ⟨rfl, hl, hr', hco, rfl, rfl, rfl, rfl, hw, rfl, hsyn, rfl, rfl, rfl⟩,
    rfl, rfl, rfl, rfl, hc.aSplit, hc.bSplit, hc.structureSplit, hc.aUnit⟩

end Sudachi
