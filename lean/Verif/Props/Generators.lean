/-
C98: `lookup` item by item and run to its end.
-/
import Verif.Model.Generators
namespace Sudachi

private theorem dal_loop (x : DALex) (offset : Nat) : ∀ ms : List (Nat × Nat),
    (∃ r, x.lookupLoop offset ms = .ok r ∧ x.genLoop offset ms = (r, none)) ∨
      ∃ e pre, x.lookupLoop offset ms = .error e ∧ x.genLoop offset ms = (pre, some e)
  | [] => Or.inl ⟨[], rfl, rfl⟩
  | (index, length) :: rest => by
    rw [DALex.lookupLoop, DALex.genLoop]
    cases x.widGet index with
    | error e => exact Or.inr ⟨e, [], rfl, rfl⟩
    | ok ids =>
      rcases dal_loop x offset rest with ⟨r, h1, h2⟩ | ⟨e, pre, h1, h2⟩
      · rw [h1, h2]; exact Or.inl ⟨_, rfl, rfl⟩
      · rw [h1, h2]; exact Or.inr ⟨e, _, rfl, rfl⟩

private theorem tag_loop (s : LexSet) (d : Nat) (stop : Option Err) : ∀ ps : List (Nat × Nat),
    (∃ r, s.tag d ps = .ok r ∧ s.genTag d stop ps = (r, stop)) ∨
      ∃ pre, s.tag d ps = .error .attribute ∧ s.genTag d stop ps = (pre, some .attribute)
  | [] => Or.inl ⟨[], rfl, rfl⟩
  | (w, e) :: rest => by
    rw [LexSet.tag, LexSet.genTag]
    cases h : s.buildWordId d w with
    | error err =>
      have he : err = .attribute := by
        unfold LexSet.buildWordId at h
        split at h
        · cases h; rfl
        · split at h
          · cases h; rfl
          · split at h <;> cases h
      subst he
      exact Or.inr ⟨[], rfl, rfl⟩
    | ok v =>
      rcases tag_loop s d stop rest with ⟨r, h1, h2⟩ | ⟨pre, h1, h2⟩
      · rw [h1, h2]; exact Or.inl ⟨_, rfl, rfl⟩
      · rw [h1, h2]; exact Or.inr ⟨_, rfl, rfl⟩

private theorem set_loop (D : Darts) (s : LexSet) (text : Bytes) (offset : Nat) : ∀ ds : List Nat,
    (∃ r, LexSet.lookupLoop D s text offset ds = .ok r ∧ LexSet.genLoop D s text offset ds = (r, none)) ∨
      ∃ e e' pre, LexSet.lookupLoop D s text offset ds = .error e ∧ LexSet.genLoop D s text offset ds = (pre, some e') ∧
        (e' = e ∨ e' = .attribute)
  | [] => Or.inl ⟨[], rfl, rfl⟩
  | d :: ds => by
    rw [LexSet.lookupLoop, LexSet.genLoop]
    cases pyGet s.lexicons d with
    | error e => exact Or.inr ⟨e, e, [], rfl, rfl, Or.inl rfl⟩
    | ok x =>
      simp only [DALex.lookup, DALex.gen, bind, Except.bind]
      rcases dal_loop x offset (D.search x.trie (text.drop offset)) with ⟨r, h1, h2⟩ | ⟨e, pre, h1, h2⟩
      · rw [h1, h2]
        rcases tag_loop s d none r with ⟨a, k1, k2⟩ | ⟨a, k1, k2⟩
        · simp only [k1, k2]
          rcases set_loop D s text offset ds with ⟨b, j1, j2⟩ | ⟨e, e', b, j1, j2, j3⟩
          · rw [j1, j2]; exact Or.inl ⟨_, rfl, rfl⟩
          · rw [j1, j2]; exact Or.inr ⟨e, e', _, rfl, rfl, j3⟩
        · simp only [k1, k2]; exact Or.inr ⟨_, _, _, rfl, rfl, Or.inl rfl⟩
      · rw [h1, h2]
        rcases tag_loop s d (some e) pre with ⟨a, k1, k2⟩ | ⟨a, k1, k2⟩
        · simp only [k2]; exact Or.inr ⟨_, _, _, rfl, rfl, Or.inl rfl⟩
        · simp only [k2]; exact Or.inr ⟨_, _, _, rfl, rfl, Or.inr rfl⟩

private theorem set_gen (D : Darts) (s : LexSet) (text : Bytes) (offset : Nat) :
    (∃ r, s.lookup D text offset = .ok r ∧ s.gen D text offset = (r, none)) ∨
      ∃ e e' pre, s.lookup D text offset = .error e ∧ s.gen D text offset = (pre, some e') ∧ (e' = e ∨ e' = .attribute) := by
  unfold LexSet.lookup LexSet.gen
  split
  · cases pyGet s.lexicons 0 with
    | error e => exact Or.inr ⟨e, e, [], rfl, rfl, Or.inl rfl⟩
    | ok x =>
      rcases dal_loop x offset (D.search x.trie (text.drop offset)) with ⟨r, h1, h2⟩ | ⟨e, pre, h1, h2⟩
      · exact Or.inl ⟨r, h1, h2⟩
      · exact Or.inr ⟨e, e, pre, h1, h2, Or.inl rfl⟩
  · exact set_loop D s text offset _

/-- **C98** The generator of one lexicon ends without an exception after the items `r` exactly if running it to its end gives
`r`; else it ends with the same exception. -/
theorem C98_items (D : Darts) (x : DALex) (text : Bytes) (offset : Nat) :
    (∀ r, x.lookup D text offset = .ok r ↔ x.gen D text offset = (r, none)) ∧
      ∀ e, x.lookup D text offset = .error e ↔ (x.gen D text offset).2 = some e := by
  unfold DALex.lookup DALex.gen
  rcases dal_loop x offset (D.search x.trie (text.drop offset)) with ⟨r, h1, h2⟩ | ⟨e, pre, h1, h2⟩
  · rw [h1, h2]; simp
  · rw [h1, h2]; simp

/-- **C98** The same for a set of dictionaries, except that the exception of the generator can be the `AttributeError` for an id
too large when running it to its end meets another one first. -/
theorem C98_items_set (D : Darts) (s : LexSet) (text : Bytes) (offset : Nat) :
    (∀ r, s.lookup D text offset = .ok r ↔ s.gen D text offset = (r, none)) ∧
      ∀ e, (s.gen D text offset).2 = some e → e ≠ .attribute → s.lookup D text offset = .error e := by
  rcases set_gen D s text offset with ⟨r, h1, h2⟩ | ⟨e, e', pre, h1, h2, h3⟩
  · rw [h1, h2]; simp
  · rw [h1, h2]
    refine ⟨fun r => by simp, fun e2 h hne => ?_⟩
    cases h
    rcases h3 with rfl | rfl
    · rfl
    · exact absurd rfl hne

/-! A user dictionary whose table has at 0 the id 2 ^ 28 and ends there; the system dictionary has no matches. -/
private def largeTable : DALex := ⟨[1, 0, 0, 0, 16], [1], 0, 5, 0, 5, 0, 5, false⟩
private def largeSet : LexSet := (LexSet.init ⟨[], [], 0, 0, 0, 0, 0, 0, false⟩).add largeTable 0
private def largeDarts (ms : List (Nat × Nat)) : Darts := ⟨fun _ => .ok [], fun t _ => if t = [] then [] else ms⟩

example : largeTable.gen (largeDarts [(0, 3), (5, 6)]) [] 4 = ([(268435456, 7)], some .index) := by decide
example : largeTable.lookup (largeDarts [(0, 3), (5, 6)]) [] 4 = .error .index :=
  ((C98_items _ _ _ _).2 _).mpr (by decide)
example : largeTable.lookup (largeDarts [(0, 3)]) [] 4 = .ok [(268435456, 7)] := ((C98_items _ _ _ _).1 _).mpr (by decide)
example : largeSet.lookup (largeDarts [(5, 6)]) [] 4 = .error .index := (C98_items_set _ _ _ _).2 _ (by decide) (by decide)
example : largeSet.lookup (largeDarts []) [] 4 = .ok [] := ((C98_items_set _ _ _ _).1 _).mpr (by decide)

/-- **C98** The exception that the two differ in. -/
theorem C98_items_differ : ∃ (D : Darts) (s : LexSet), s.gen D [] 4 = ([], some .attribute) ∧ s.lookup D [] 4 = .error .index :=
  ⟨largeDarts [(0, 3), (5, 6)], largeSet, by decide, by decide⟩

end Sudachi
