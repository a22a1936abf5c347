/-
C98: the word-id table of any lexicon, and lookups in it.
-/
import Verif.Model.DictFile
import Verif.Spec.WordIds
namespace Sudachi

private theorem slice4 {view : Bytes} {i : Nat} (h : i + 4 ≤ view.length) :
    ∃ a b c d, view[i]? = some a ∧ view[i + 1]? = some b ∧ view[i + 2]? = some c ∧ view[i + 3]? = some d ∧
      pySlice view i (i + 4) = [a, b, c, d] := by
  refine ⟨view[i], view[i + 1], view[i + 2], view[i + 3], List.getElem?_eq_getElem _, List.getElem?_eq_getElem _,
    List.getElem?_eq_getElem _, List.getElem?_eq_getElem _, ?_⟩
  unfold pySlice
  rw [List.drop_take, show i + 4 - i = 4 by omega]
  rw [List.drop_eq_getElem_cons (by omega : i < view.length), List.drop_eq_getElem_cons (by omega : i + 1 < view.length),
    List.drop_eq_getElem_cons (by omega : i + 1 + 1 < view.length), List.drop_eq_getElem_cons (by omega : i + 1 + 1 + 1 < view.length)]
  rfl

private theorem unpack_fits (view : Bytes) : ∀ (n i : Nat), i + 4 * n ≤ view.length →
    ∃ ids, unpackU32 view n i = .ok ids ∧ ids.length = n ∧ ∀ k w, ids[k]? = some w → ∃ a b c d,
      view[i + 4 * k]? = some a ∧ view[i + 4 * k + 1]? = some b ∧ view[i + 4 * k + 2]? = some c ∧ view[i + 4 * k + 3]? = some d ∧
      w = a + 256 * b + 65536 * c + 16777216 * d
  | 0, i, h => ⟨[], by rw [unpackU32, if_pos (by omega)], rfl, fun k w hk => by simp at hk⟩
  | n + 1, i, h => by
    obtain ⟨ids, h1, h2, h3⟩ := unpack_fits view n (i + 4) (by omega)
    obtain ⟨a, b, c, d, ha, hb, hc, hd, hs⟩ := slice4 (view := view) (i := i) (by omega)
    refine ⟨fromLe [a, b, c, d] :: ids, by rw [unpackU32, if_pos (by omega), h1, hs]; rfl, by simp [h2], fun k w hk => ?_⟩
    cases k with
    | zero =>
      have hk : fromLe [a, b, c, d] = w := Option.some.inj hk
      exact ⟨a, b, c, d, ha, hb, hc, hd, by rw [← hk]; simp only [fromLe]; omega⟩
    | succ k =>
      obtain ⟨a, b, c, d, ha, hb, hc, hd, hw⟩ := h3 k w hk
      rw [show i + 4 * (k + 1) = i + 4 + 4 * k by omega]
      exact ⟨a, b, c, d, ha, hb, hc, hd, hw⟩

private theorem unpack_short (view : Bytes) : ∀ (n i : Nat), i ≤ view.length → view.length < i + 4 * n →
    unpackU32 view n i = .error .struct
  | 0, i, h, h' => by omega
  | n + 1, i, h, h' => by
    rw [unpackU32]
    split
    · rw [unpack_short view n (i + 4) (by omega) (by omega)]; rfl
    · rfl

private theorem pyGet_of {α : Type} {l : List α} {i : Nat} {x : α} (h : l[i]? = some x) : pyGet l i = .ok x := by
  unfold pyGet; rw [h]

private theorem get_cases (x : DALex) (i : Nat) :
    (∃ ids, x.widGet i = .ok ids ∧ TableSays x.widView i ids) ∨ ∃ e, x.widGet i = .error e ∧ TableFault x.widView i e := by
  unfold DALex.widGet
  cases hv : x.widView[i]? with
  | none =>
    refine Or.inr ⟨.index, ?_, .outside (List.getElem?_eq_none_iff.mp hv)⟩
    unfold pyGet; rw [hv]; rfl
  | some n =>
    rw [pyGet_of hv]
    have hi : i < x.widView.length := (List.getElem?_eq_some_iff.mp hv).1
    by_cases hf : i + 1 + 4 * n ≤ x.widView.length
    · obtain ⟨ids, h1, h2, h3⟩ := unpack_fits x.widView n (i + 1) hf
      refine Or.inl ⟨ids, h1, by rw [h2]; exact hv, fun k w hk => ?_⟩
      obtain ⟨a, b, c, d, ha, hb, hc, hd, hw⟩ := h3 k w hk
      refine ⟨a, b, c, d, ha, ?_, ?_, ?_, hw⟩
      · rw [show i + 2 + 4 * k = i + 1 + 4 * k + 1 by omega]; exact hb
      · rw [show i + 3 + 4 * k = i + 1 + 4 * k + 2 by omega]; exact hc
      · rw [show i + 4 + 4 * k = i + 1 + 4 * k + 3 by omega]; exact hd
    · exact Or.inr ⟨.struct, unpack_short x.widView n (i + 1) hi (by omega), .short n hv (by omega)⟩

private theorem TableSays.fits {view : Bytes} {i : Nat} {ids : List Nat} (h : TableSays view i ids) :
    i + 1 + 4 * ids.length ≤ view.length := by
  have h0 := (List.getElem?_eq_some_iff.mp h.1).1
  cases hn : ids.length with
  | zero => omega
  | succ n =>
    obtain ⟨_, _, _, _, _, _, _, hd, _⟩ := h.2 n ids[n] (List.getElem?_eq_getElem _)
    have := (List.getElem?_eq_some_iff.mp hd).1
    omega

private theorem TableSays.unique {view : Bytes} {i : Nat} {ids ids' : List Nat} (h : TableSays view i ids) (h' : TableSays view i ids') :
    ids = ids' := by
  have hl : ids.length = ids'.length := by have := h.1; rw [h'.1] at this; exact (Option.some.inj this).symm
  refine List.ext_getElem hl fun k h1 h2 => ?_
  obtain ⟨a, b, c, d, ha, hb, hc, hd, hw⟩ := h.2 k _ (List.getElem?_eq_getElem h1)
  obtain ⟨a', b', c', d', ha', hb', hc', hd', hw'⟩ := h'.2 k _ (List.getElem?_eq_getElem h2)
  rw [ha] at ha'; rw [hb] at hb'; rw [hc] at hc'; rw [hd] at hd'
  cases ha'; cases hb'; cases hc'; cases hd'
  rw [hw, hw']

private theorem TableSays.no_fault {view : Bytes} {i : Nat} {ids : List Nat} (h : TableSays view i ids) {e : Err} : ¬ TableFault view i e := by
  intro hf
  have h1 := h.fits
  cases hf with
  | outside h2 => omega
  | short n h2 h3 => rw [h.1] at h2; cases h2; omega

private theorem TableFault.unique {view : Bytes} {i : Nat} {e e' : Err} (h : TableFault view i e) (h' : TableFault view i e') : e = e' := by
  cases h with
  | outside h1 =>
    cases h' with
    | outside _ => rfl
    | short n h2 _ => have := (List.getElem?_eq_some_iff.mp h2).1; omega
  | short n h2 h3 =>
    cases h' with
    | outside h1 => have := (List.getElem?_eq_some_iff.mp h2).1; omega
    | short _ _ _ => rfl

/-- **C98** What `WordIdTable.get` gives for any bytes: the ids of the entry at the index, if there is one. -/
theorem C98_get (x : DALex) (i : Nat) (ids : List Nat) : x.widGet i = .ok ids ↔ TableSays x.widView i ids := by
  rcases get_cases x i with ⟨ids', h1, h2⟩ | ⟨e, h1, h2⟩
  · rw [h1]
    exact ⟨fun h => by cases h; exact h2, fun h => by rw [h2.unique h]⟩
  · rw [h1]
    exact ⟨fun h => (by cases h), fun h => absurd h2 h.no_fault⟩

/-- **C98** And what it raises: `IndexError` behind the table, `struct.error` if the ids do not fit in it. -/
theorem C98_get_raises (x : DALex) (i : Nat) (e : Err) : x.widGet i = .error e ↔ TableFault x.widView i e := by
  rcases get_cases x i with ⟨ids', h1, h2⟩ | ⟨e', h1, h2⟩
  · rw [h1]
    exact ⟨fun h => (by cases h), fun h => absurd h h2.no_fault⟩
  · rw [h1]
    exact ⟨fun h => by cases h; exact h2, fun h => by rw [h2.unique h]⟩

private theorem loop_ok (x : DALex) (offset : Nat) : ∀ (ms : List (Nat × Nat)) (r : List (Nat × Nat)), x.lookupLoop offset ms = .ok r ↔
    ∃ idss : List (List Nat), idss.length = ms.length ∧
      (∀ (k index length : Nat) (ids : List Nat), ms[k]? = some (index, length) → idss[k]? = some ids → TableSays x.widView index ids) ∧
      r = (List.zipWith (fun m ids => ids.map (fun w => (w, m.2 + offset))) ms idss).flatten
  | [], r => by
    rw [DALex.lookupLoop]
    constructor
    · intro h; cases h; exact ⟨[], rfl, fun k a b c h => by simp at h, rfl⟩
    · rintro ⟨idss, -, -, rfl⟩; rfl
  | (index, length) :: rest, r => by
    rw [DALex.lookupLoop]
    constructor
    · intro h
      cases h1 : x.widGet index with
      | error e => rw [h1] at h; cases h
      | ok ids =>
        rw [h1] at h
        cases h2 : x.lookupLoop offset rest with
        | error e => rw [h2] at h; cases h
        | ok r' =>
          rw [h2] at h
          have h : ids.map (fun w => (w, length + offset)) ++ r' = r := Except.ok.inj h
          obtain ⟨idss, k1, k2, k3⟩ := (loop_ok x offset rest r').mp h2
          refine ⟨ids :: idss, by simp [k1], fun k a b c hm hi => ?_, ?_⟩
          · cases k with
            | zero => cases hm; cases hi; exact (C98_get x _ _).mp h1
            | succ k => exact k2 k a b c hm hi
          · rw [← h, k3]; rfl
    · rintro ⟨idss, k1, k2, k3⟩
      cases idss with
      | nil => simp at k1
      | cons ids idss =>
        have h1 := (C98_get x index ids).mpr (k2 0 index length ids rfl rfl)
        have h2 := (loop_ok x offset rest _).mpr ⟨idss, by simpa using k1, fun k a b c hm hi => k2 (k + 1) a b c hm hi, rfl⟩
        rw [h1, h2, k3]
        rfl

private theorem loop_error (x : DALex) (offset : Nat) (e : Err) : ∀ ms : List (Nat × Nat), x.lookupLoop offset ms = .error e ↔
    ∃ pre m post, ms = pre ++ m :: post ∧ (∀ q ∈ pre, ∃ ids, TableSays x.widView q.1 ids) ∧ TableFault x.widView m.1 e
  | [] => by
    rw [DALex.lookupLoop]
    exact ⟨fun h => (by cases h), fun ⟨pre, m, post, h, _⟩ => by simp at h⟩
  | (index, length) :: rest => by
    rw [DALex.lookupLoop]
    cases h1 : x.widGet index with
    | error e' =>
      have hf := (C98_get_raises x index e').mp h1
      constructor
      · intro h; cases h; exact ⟨[], _, rest, rfl, fun _ h => (by cases h), hf⟩
      · rintro ⟨pre, m, post, h, h2, h3⟩
        cases pre with
        | nil => cases h; rw [hf.unique h3]; rfl
        | cons p ps =>
          cases h
          obtain ⟨ids, h4⟩ := h2 (index, length) (by simp)
          exact absurd hf h4.no_fault
    | ok ids =>
      have hs := (C98_get x index ids).mp h1
      have ih := loop_error x offset e rest
      constructor
      · intro h
        cases h2 : x.lookupLoop offset rest with
        | ok r' => rw [h2] at h; cases h
        | error e' =>
          rw [h2] at h; cases h
          obtain ⟨pre, m, post, k1, k2, k3⟩ := ih.mp h2
          refine ⟨(index, length) :: pre, m, post, by rw [k1]; rfl, fun q hq => ?_, k3⟩
          rcases List.mem_cons.mp hq with rfl | hq
          · exact ⟨ids, hs⟩
          · exact k2 q hq
      · rintro ⟨pre, m, post, h, h2, h3⟩
        cases pre with
        | nil => cases h; exact absurd h3 hs.no_fault
        | cons p ps =>
          cases h
          rw [ih.mpr ⟨ps, m, post, rfl, fun q hq => h2 q (by simp [hq]), h3⟩]
          rfl

/-- **C98** What a lookup gives in any lexicon, whatever trie and table hold: for each match of the trie in its order the ids of
its entry, each with the end of the match. -/
theorem C98_lookup (D : Darts) (x : DALex) (text : Bytes) (offset : Nat) (r : List (Nat × Nat)) :
    x.lookup D text offset = .ok r ↔ ∃ idss : List (List Nat), idss.length = (D.search x.trie (text.drop offset)).length ∧
      (∀ (k index length : Nat) (ids : List Nat), (D.search x.trie (text.drop offset))[k]? = some (index, length) → idss[k]? = some ids →
        TableSays x.widView index ids) ∧
      r = (List.zipWith (fun m ids => ids.map (fun w => (w, m.2 + offset))) (D.search x.trie (text.drop offset)) idss).flatten :=
  loop_ok x offset _ r

/-- **C98** And what it raises: the exception of the first match whose entry is at fault. -/
theorem C98_lookup_raises (D : Darts) (x : DALex) (text : Bytes) (offset : Nat) (e : Err) :
    x.lookup D text offset = .error e ↔ ∃ pre m post, D.search x.trie (text.drop offset) = pre ++ m :: post ∧
      (∀ q ∈ pre, ∃ ids, TableSays x.widView q.1 ids) ∧ TableFault x.widView m.1 e :=
  loop_error x offset e _

/-! A table of eleven bytes: at 0 the ids 7 and 258, at 9 a count of 1 with one byte left. -/
private def sampleTable : DALex := ⟨[2, 7, 0, 0, 0, 2, 1, 0, 0, 1, 9], [], 0, 11, 0, 11, 0, 11, false⟩
private def sampleDarts (ms : List (Nat × Nat)) : Darts := ⟨fun _ => .ok [], fun _ _ => ms⟩

example : TableSays sampleTable.widView 0 [7, 258] := (C98_get _ _ _).mp (by decide)
example : TableFault sampleTable.widView 9 .struct := (C98_get_raises _ _ _).mp (by decide)
example : TableFault sampleTable.widView 11 .index := (C98_get_raises _ _ _).mp (by decide)
example : sampleTable.lookup (sampleDarts [(0, 3), (2, 6)]) [] 4 = .ok [(7, 7), (258, 7)] := by decide
example : sampleTable.lookup (sampleDarts [(0, 3), (9, 6), (11, 7)]) [] 4 = .error .struct :=
  (C98_lookup_raises _ _ _ _ _).mpr ⟨[(0, 3)], (9, 6), [(11, 7)], rfl, fun q hq => by
    rw [List.mem_singleton.mp hq]; exact ⟨[7, 258], (C98_get _ _ _).mp (by decide)⟩, (C98_get_raises _ _ _).mp (by decide)⟩
example : sampleTable.lookup (sampleDarts [(0, 3)]) [] 4 = .ok [(7, 7), (258, 7)] := by
  refine (C98_lookup (sampleDarts [(0, 3)]) sampleTable [] 4 _).mpr ⟨[[7, 258]], rfl, fun k index length ids hm hi => ?_, rfl⟩
  cases k with
  | zero => cases hm; cases hi; exact (C98_get _ _ _).mp (by decide)
  | succ k => cases hi

end Sudachi
