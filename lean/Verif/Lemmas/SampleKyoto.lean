/-
A small user dictionary for the package as it ships: one word, 京都, with a part of speech that the core dictionary does not have.
-/
import Verif.Lemmas.SampleCore
import Verif.Lemmas.SampleInstall
namespace Sudachi.Sample
open Sources

/-- `京都,20,10,2000,京都,名詞,固有名詞,地名,*,*,*,キョウト,京都,*,A,*,*,*` -/
def kyotoCols : Cols := ⟨pstr! "京都", [50, 48], [49, 48], [50, 48, 48, 48], pstr! "京都", pstr! "名詞", pstr! "固有名詞", pstr! "地名",
  [42], [42], [42], pstr! "キョウト", pstr! "京都", [42], [65], [42], [42], [42], []⟩

def kyotoSource : DictSource := ⟨userHeader, [kyotoCols.list], none⟩

theorem kyoto_row : RowIs kyotoSource.rows 0 kyotoCols := ⟨_, rfl, (by decide +kernel : decodeCols kyotoCols.list = .ok kyotoCols.list)⟩

theorem kyoto_rows {w : Nat} {c : Cols} (h : RowIs kyotoSource.rows w c) : w = 0 ∧ c = kyotoCols := by
  obtain ⟨row, h1, h2⟩ := h
  match w, h1 with
  | 0, h1 =>
    obtain ⟨row', h3, h4⟩ := kyoto_row
    rw [h1] at h3
    cases h3
    exact ⟨rfl, reads_unique h2 h4⟩

theorem kyoto_source : SourceOk kyotoSource.header kyotoSource.rows kyotoSource.matrix where
  header := user_header_ok
  pos row hm c hr s hs := by
    obtain ⟨_, h0⟩ : _ ∧ c = kyotoCols := kyoto_rows (w := 0) ⟨row, by rw [List.mem_singleton.1 hm]; rfl, hr⟩
    subst h0
    simp only [Cols.pos, kyotoCols, List.mem_cons, List.not_mem_nil, or_false] at hs
    rcases hs with rfl | rfl | rfl | rfl | rfl | rfl <;> decide
  matrix := trivial

theorem kyoto_read : RowsRead kyotoSource.rows [kyotoCols] := by
  refine ⟨rfl, ?_⟩
  intro w c h
  match w, h with
  | 0, h => cases h; exact kyoto_row

theorem kyoto_ok : kyotoCols.Ok where
  headword := by decide
  encodable := by decide
  headwordBytes := by decide
  surface := by decide
  reading := by decide
  normalized := by decide
  left := ⟨20, by decide +kernel⟩
  right := ⟨10, by decide +kernel⟩
  cost := ⟨2000, by decide +kernel⟩
  aSplit := by decide
  bSplit := by decide
  structureSplit := by decide
  aUnit := fun _ => ⟨rfl, rfl⟩
  synonyms := ⟨[], rfl⟩
  dicForm := ⟨-1, .inl ⟨rfl, rfl⟩⟩

theorem kyoto_own {sys : SysDict} (h : sys.posList = [coreCols.pos]) : ownPos (sysPos (some sys)) [] [kyotoCols.pos] = [kyotoCols.pos] := by
  show ownPos sys.posList [] [kyotoCols.pos] = _
  rw [h]
  decide

theorem kyoto_writable {sys : SysDict} (h : sys.posList = [coreCols.pos]) : kyotoSource.Writable (some sys) [kyotoCols] where
  header := ⟨by decide, by decide, by unfold Clean; decide, by decide⟩
  rows c hc := by
    rw [List.mem_singleton.1 hc]
    have num : ∀ {s : PStr} {a v : Int}, pyInt s = .ok a → FitsShort a → pyInt s = .ok v → FitsShort v := by
      intro s a v h1 h2 h3
      rw [h1] at h3
      cases h3
      exact h2
    have dic : ∀ v, kyotoCols.DicForm v → FitsInt v := by
      intro v hv
      rcases hv with ⟨_, rfl⟩ | ⟨h, _⟩
      · unfold FitsInt; decide
      · exact absurd rfl h
    have syn : ∀ ids, kyotoCols.Synonyms ids → ∀ v ∈ ids, FitsInt v := by
      intro ids h v hv
      have h : ids = [] := h
      rw [h] at hv
      cases hv
    have hall : allPos (some sys) [kyotoCols] = [coreCols.pos, kyotoCols.pos] := by
      unfold allPos
      rw [List.map_singleton, kyoto_own h]
      show sys.posList ++ _ = _
      rw [h]
      rfl
    exact ⟨kyoto_ok, fun v => num (a := 20) (by decide +kernel) (by unfold FitsShort; decide),
      fun v => num (a := 10) (by decide +kernel) (by unfold FitsShort; decide),
      fun v => num (a := 2000) (by decide +kernel) (by unfold FitsShort; decide),
      ⟨by unfold Clean; decide, by decide⟩, ⟨by unfold Clean; decide, by decide⟩, ⟨by unfold Clean; decide, by decide⟩,
      .inr (by unfold Clean; decide), by rw [hall]; decide,
      dic, syn,
      .inl rfl, .inl rfl, .inl rfl⟩
  pos := by
    rw [List.map_singleton, kyoto_own h]
    decide
  heads h := Nat.le_trans (List.length_filter_le _ _) (by decide)
  matrix := trivial

theorem kyoto_buildable {sys : SysDict} (h : sys.posList = [coreCols.pos]) : kyotoSource.Buildable SimpleTrie.trie (some sys) := by
  refine ⟨kyoto_source, _, _, kyoto_read, C71_room ?_, kyoto_writable h⟩
  unfold frontSize
  rw [List.map_singleton, kyoto_own h]
  decide +kernel

/-- What the builder of user dictionaries knows of the core dictionary. -/
theorem core_pos {b : Bytes} {d : BinDict} (hb : coreSource.Builds SimpleTrie.trie none b) (hd : readDictionary b = .ok d) (depth : Nat) :
    (d.toSysDict SimpleTrie.trie depth).posList = [coreCols.pos] := by
  obtain ⟨hS, ops, h, rfl⟩ := hb
  have hC : Compiled SimpleTrie.trie none coreSource.header coreSource.rows coreSource.matrix d := ⟨ops, h, hd⟩
  obtain ⟨g, F⟩ := compiled_facts SimpleTrie.ok hS hC
  unfold BinDict.toSysDict
  rw [F.grammar]
  exact (compiled_pos SimpleTrie.ok hS hC F.grammar core_read).trans (by decide)

theorem kyoto_at {sys : SysDict} {d : Nat} {src : DictSource} (h : Sources.at? ⟨coreSource, [kyotoSource], sys⟩ d = some src) :
    d = 0 ∧ src = coreSource ∨ d = 1 ∧ src = kyotoSource := by
  unfold at? at h
  match d, h with
  | 0, h => cases h; exact .inl ⟨rfl, rfl⟩
  | 1, h => cases h; exact .inr ⟨rfl, rfl⟩

theorem kyoto_all {sys : SysDict} {d w : Nat} {c : Cols} (h : Sources.Row ⟨coreSource, [kyotoSource], sys⟩ d w c) :
    c = coreCols ∨ c = kyotoCols := by
  obtain ⟨src, h1, h2⟩ := h
  rcases kyoto_at h1 with ⟨_, rfl⟩ | ⟨_, rfl⟩
  · exact .inl (core_rows h2).2
  · exact .inr (kyoto_rows h2).2

theorem kyoto_complete {sys : SysDict} {depth : Nat} (hd : 0 < depth) :
    Sources.Complete ⟨coreSource, [kyotoSource], sys⟩ 5969 coreEntries depth := by
  have hc := core_complete (S := ⟨coreSource, [], sys⟩) rfl rfl hd
  refine ⟨hc.matrix, hc.allowed, ?_, by show 1 ≤ 7; decide, ?_, ?_⟩
  · intro d w c hc _ l r hl hr
    have num : ∀ {s : PStr} {a v : Int}, pyInt s = .ok a → pyInt s = .ok v → v = a := by
      intro s a v h1 h2
      rw [h1] at h2
      cases h2
      rfl
    rcases kyoto_all hc with rfl | rfl
    · rw [num (a := 10) (by decide +kernel) hl, num (a := 20) (by decide +kernel) hr]
      unfold InRange
      decide
    · rw [num (a := 20) (by decide +kernel) hl, num (a := 10) (by decide +kernel) hr]
      unfold InRange
      decide
  · intro d w c hc
    rcases kyoto_all hc with rfl | rfl <;> exact ⟨by decide, by decide, by decide⟩
  · intro d src w c h1 h2
    rcases kyoto_at h1 with ⟨_, rfl⟩ | ⟨_, rfl⟩
    · obtain ⟨rfl, rfl⟩ := core_rows h2
      exact ⟨0, .here ⟨_, h2, .inl ⟨rfl, rfl⟩⟩ (.inl (by decide)), hd⟩
    · obtain ⟨rfl, rfl⟩ := kyoto_rows h2
      exact ⟨0, .here ⟨_, h2, .inl ⟨rfl, rfl⟩⟩ (.inl (by decide)), hd⟩

theorem kyoto_separators {sys : SysDict} (catOf : Nat → CatSet) : Sources.NoSeparators ⟨coreSource, [kyotoSource], sys⟩ catOf := by
  intro d w c ty h _ _ _
  rcases kyoto_all h with rfl | rfl <;> decide

theorem kyoto_auto {sys : SysDict} (cfg : DictConfig) : Sources.AutoTexts ⟨coreSource, [kyotoSource], sys⟩ cfg := by
  intro d w c h hc
  exfalso
  rcases kyoto_all h with rfl | rfl
  · have : pyInt coreCols.cost = .ok 3000 := by decide +kernel
    rw [this] at hc
    cases hc
  · have : pyInt kyotoCols.cost = .ok 2000 := by decide +kernel
    rw [this] at hc
    cases hc

theorem kyoto_add {sys : SysDict} : Sources.SplitsAddUp ⟨coreSource, [kyotoSource], sys⟩ := by
  intro d w c cs' h _ hsp hlen
  exfalso
  rcases kyoto_all h with rfl | rfl
  · rcases hsp with hsp | hsp <;> (have := star_rows hsp; omega)
  · rcases hsp with hsp | hsp <;> (have := star_rows hsp; omega)

end Sudachi.Sample
