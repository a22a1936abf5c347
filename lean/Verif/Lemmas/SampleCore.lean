/-
A small core dictionary for the package as it ships: one word, 東京, and a matrix of 5969 × 5969 connection costs.
-/
import Verif.Spec.ShippedMachine
import Verif.Spec.Loads
import Verif.Props.Buildable
namespace Sudachi.Sample
open Sources

/-- `東京,10,20,3000,東京,名詞,普通名詞,一般,*,*,*,トウキョウ,東京,*,A,*,*,*` -/
def coreCols : Cols := ⟨pstr! "東京", [49, 48], [50, 48], [51, 48, 48, 48], pstr! "東京", pstr! "名詞", pstr! "普通名詞", pstr! "一般",
  [42], [42], [42], pstr! "トウキョウ", pstr! "東京", [42], [65], [42], [42], [42], []⟩

/-- `5969 5969`, `10 20 -100`, `5968 5968 0`, each with its newline -/
def coreMatrix : PStr × List PStr := (pstr! "5969 5969\n", [pstr! "10 20 -100\n", pstr! "5968 5968 0\n"])

def coreEntries : List (Int × Int × Int) := [(10, 20, -100), (5968, 5968, 0)]

def coreSource : DictSource := ⟨header, [coreCols.list], some coreMatrix⟩

theorem core_row : RowIs coreSource.rows 0 coreCols := ⟨_, rfl, (by decide +kernel : decodeCols coreCols.list = .ok coreCols.list)⟩

theorem core_rows {w : Nat} {c : Cols} (h : RowIs coreSource.rows w c) : w = 0 ∧ c = coreCols := by
  obtain ⟨row, h1, h2⟩ := h
  match w, h1 with
  | 0, h1 =>
    obtain ⟨row', h3, h4⟩ := core_row
    rw [h1] at h3
    cases h3
    exact ⟨rfl, reads_unique h2 h4⟩

theorem core_size : pyInts (splitWs (strip (pstr! "5969 5969\n"))) = .ok [5969, 5969] := by decide +kernel

theorem core_entries : coreMatrix.2.filterMap matrixEntry = coreEntries := by decide +kernel

theorem core_source : SourceOk coreSource.header coreSource.rows coreSource.matrix where
  header := source_ok.header
  pos row hm c hr s hs := by
    obtain ⟨_, h0⟩ : _ ∧ c = coreCols := core_rows (w := 0) ⟨row, by rw [List.mem_singleton.1 hm]; rfl, hr⟩
    subst h0
    simp only [Cols.pos, coreCols, List.mem_cons, List.not_mem_nil, or_false] at hs
    rcases hs with rfl | rfl | rfl | rfl | rfl | rfl <;> decide
  matrix := by
    refine ⟨5969, core_size, ?_, ?_⟩
    · show ∀ e ∈ coreMatrix.2.filterMap matrixEntry, _
      rw [core_entries]; decide
    · show ∃ e ∈ coreMatrix.2.filterMap matrixEntry, _
      rw [core_entries]; exact ⟨_, List.mem_cons_of_mem _ (List.mem_singleton.2 rfl), by decide, by decide⟩

theorem core_read : RowsRead coreSource.rows [coreCols] := by
  refine ⟨rfl, ?_⟩
  intro w c h
  match w, h with
  | 0, h => cases h; exact core_row

theorem core_ok : coreCols.Ok where
  headword := by decide
  encodable := by decide
  headwordBytes := by decide
  surface := by decide
  reading := by decide
  normalized := by decide
  left := ⟨10, by decide +kernel⟩
  right := ⟨20, by decide +kernel⟩
  cost := ⟨3000, by decide +kernel⟩
  aSplit := by decide
  bSplit := by decide
  structureSplit := by decide
  aUnit := fun _ => ⟨rfl, rfl⟩
  synonyms := ⟨[], rfl⟩
  dicForm := ⟨-1, .inl ⟨rfl, rfl⟩⟩

theorem core_writable : coreSource.Writable none [coreCols] where
  header := ⟨by decide, by decide, by unfold Clean; decide, by decide⟩
  rows c hc := by
    rw [List.mem_singleton.1 hc]
    have num : ∀ {s : PStr} {a v : Int}, pyInt s = .ok a → FitsShort a → pyInt s = .ok v → FitsShort v := by
      intro s a v h1 h2 h3
      rw [h1] at h3
      cases h3
      exact h2
    have dic : ∀ v, coreCols.DicForm v → FitsInt v := by
      intro v hv
      rcases hv with ⟨_, rfl⟩ | ⟨h, _⟩
      · unfold FitsInt; decide
      · exact absurd rfl h
    have syn : ∀ ids, coreCols.Synonyms ids → ∀ v ∈ ids, FitsInt v := by
      intro ids h v hv
      have h : ids = [] := h
      rw [h] at hv
      cases hv
    exact ⟨core_ok, fun v => num (a := 10) (by decide +kernel) (by unfold FitsShort; decide),
      fun v => num (a := 20) (by decide +kernel) (by unfold FitsShort; decide),
      fun v => num (a := 3000) (by decide +kernel) (by unfold FitsShort; decide),
      ⟨by unfold Clean; decide, by decide⟩, ⟨by unfold Clean; decide, by decide⟩, ⟨by unfold Clean; decide, by decide⟩,
      .inr (by unfold Clean; decide), by decide,
      dic, syn,
      .inl rfl, .inl rfl, .inl rfl⟩
  pos := by decide
  heads h := Nat.le_trans (List.length_filter_le _ _) (by decide)
  matrix := by
    refine ⟨?_, ?_⟩
    · intro n hn
      have : (5969 : Int) = n := by
        rw [core_size] at hn
        have := Except.ok.inj hn
        exact (List.cons.inj this).1
      omega
    · intro line hl
      rcases List.mem_cons.1 hl with rfl | hl
      · exact .inr (.inr (.inr ⟨(10, 20, -100), by decide +kernel, by unfold FitsShort; decide⟩))
      · rw [List.mem_singleton.1 hl]
        exact .inr (.inr (.inr ⟨(5968, 5968, 0), by decide +kernel, by unfold FitsShort; decide⟩))

theorem core_room : coreSource.HasRoom SimpleTrie.trie none [coreCols] (SimpleTrie.bound [coreCols]) := C71_room (by decide +kernel)

theorem core_buildable : coreSource.Buildable SimpleTrie.trie none := ⟨core_source, _, _, core_read, core_room, core_writable⟩

theorem core_for_shipped : coreSource.ForShipped := ⟨rfl, 0, coreCols, core_row, ⟨by decide, by decide, by decide⟩, by decide⟩

theorem core_complete {S : Sources} (hs : S.system = coreSource) (hu : S.users = []) {depth : Nat} (hd : 0 < depth) : S.Complete 5969 coreEntries depth := by
  have hrow : ∀ {d src}, S.at? d = some src → src = coreSource := by
    intro d src h
    unfold at? at h
    rw [hs, hu] at h
    match d, h with
    | 0, h => cases h; rfl
  have hall : ∀ {d w c}, S.Row d w c → c = coreCols := by
    rintro d w c ⟨src, h1, h2⟩
    rw [hrow h1] at h2
    exact (core_rows h2).2
  refine ⟨⟨coreMatrix.1, coreMatrix.2, by rw [hs]; rfl, core_size, core_entries.symm⟩, ?_, ?_, by rw [hu]; decide, ?_, ?_⟩
  · intro l r _ _
    have key : ∀ e ∈ coreEntries, e.2.2 ≠ 0x7fff := by decide
    unfold lastCost
    split
    · rename_i e he
      exact key e (List.mem_filter.1 (List.mem_of_getLast? he)).1
    · decide
  · intro d w c hc _ l r hl hr
    rw [hall hc] at hl hr
    have e1 : pyInt coreCols.left = .ok 10 := by decide +kernel
    have e2 : pyInt coreCols.right = .ok 20 := by decide +kernel
    rw [e1] at hl
    rw [e2] at hr
    cases hl
    cases hr
    unfold InRange
    decide
  · intro d w c hc
    rw [hall hc]
    exact ⟨by decide, by decide, by decide⟩
  · intro d src w c h1 h2
    rw [hrow h1] at h2 ⊢
    obtain ⟨rfl, rfl⟩ := core_rows h2
    exact ⟨0, .here ⟨_, h2, .inl ⟨rfl, rfl⟩⟩ (.inl (by decide)), hd⟩

theorem core_separators {S : Sources} (hs : S.system = coreSource) (hu : S.users = []) (catOf : Nat → CatSet) : S.NoSeparators catOf := by
  rintro d w c ty ⟨src, h1, h2⟩ _ _ _
  unfold at? at h1
  rw [hs, hu] at h1
  match d, h1 with
  | 0, h1 =>
    cases h1
    rw [(core_rows h2).2]
    decide

end Sudachi.Sample
