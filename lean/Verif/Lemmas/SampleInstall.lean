/-
The sample dictionaries, installed together: the facts that the properties of installations ask for.
-/
import Verif.Lemmas.Installed3
import Verif.Lemmas.SampleUser
import Verif.Spec.EndToEnd
namespace Sudachi.Sample
open Sources

def sources : Sources := ⟨⟨header, rows, matrix⟩, [⟨userHeader, userRows2, none⟩, ⟨userHeader, userRows1, none⟩], sysDict⟩

theorem system_builds : DictSource.Builds SimpleTrie.trie none ⟨header, rows, matrix⟩ systemFile :=
  ⟨source_ok, built.1, Prod.ext rfl built_ok, rfl⟩

theorem user1_builds : DictSource.Builds SimpleTrie.trie (some sysDict) ⟨userHeader, userRows1, none⟩ userFile1 :=
  ⟨user1_source, userBuilt1.1, Prod.ext rfl user1_ok, rfl⟩

theorem user2_builds : DictSource.Builds SimpleTrie.trie (some sysDict) ⟨userHeader, userRows2, none⟩ userFile2 :=
  ⟨user2_source, userBuilt2.1, Prod.ext rfl user2_ok, rfl⟩

theorem system_reads : ∃ ds, readDictionary systemFile = .ok ds ∧ sysDict = ds.toSysDict SimpleTrie.trie 9 := by
  obtain ⟨ds, hc⟩ := compiled
  exact ⟨ds, compiled_eq hc, sysDict_eq (compiled_eq hc)⟩

section
attribute [local irreducible] sysDict userFile1 userFile2 systemFile

theorem installed : ∃ dict, sources.Installed config dict := by
  have h := load_ok
  cases hl : Dict.load config systemFile [userFile2, userFile1] with
  | error e => rw [hl] at h; cases h
  | ok dict =>
    obtain ⟨ds, hd, hs⟩ := system_reads
    refine ⟨dict, systemFile, [userFile2, userFile1], ds, 9, system_builds, hd, hs, rfl, ?_, hl⟩
    intro k src b h1 h2
    match k with
    | 0 => cases h1; cases h2; exact user2_builds
    | 1 => cases h1; cases h2; exact user1_builds
    | k + 2 => cases h1

end

/-- The rows of the installation. -/
theorem rows_are {d w : Nat} {c : Cols} (h : sources.Row d w c) :
    (d = 0 ∧ w = 0 ∧ c = cols0) ∨ (d = 0 ∧ w = 1 ∧ c = cols1) ∨ (d = 1 ∧ w = 0 ∧ c = userCols2) ∨ (d = 2 ∧ w = 0 ∧ c = userCols0) ∨
      (d = 2 ∧ w = 1 ∧ c = userCols1) := by
  have key : ∀ {rs : List (List PStr)} {w : Nat} {c c' : Cols}, RowIs rs w c → RowIs rs w c' → c = c' := by
    rintro rs w c c' ⟨r, h1, h2⟩ ⟨r', h3, h4⟩
    rw [h1] at h3
    cases h3
    exact reads_unique h2 h4
  obtain ⟨src, h1, h2⟩ := h
  match d with
  | 0 =>
    cases h1
    match w with
    | 0 => exact .inl ⟨rfl, rfl, key h2 row0⟩
    | 1 => exact .inr (.inl ⟨rfl, rfl, key h2 row1⟩)
    | w + 2 => obtain ⟨_, h3, _⟩ := h2; cases h3
  | 1 =>
    cases h1
    match w with
    | 0 => exact .inr (.inr (.inl ⟨rfl, rfl, key h2 urow2⟩))
    | w + 1 => obtain ⟨_, h3, _⟩ := h2; cases h3
  | 2 =>
    cases h1
    match w with
    | 0 => exact .inr (.inr (.inr (.inl ⟨rfl, rfl, key h2 urow0⟩)))
    | 1 => exact .inr (.inr (.inr (.inr ⟨rfl, rfl, key h2 urow1⟩)))
    | w + 2 => obtain ⟨_, h3, _⟩ := h2; cases h3
  | d + 3 => cases h1

theorem sources_fit : sources.Fit := by
  intro d w c h
  rcases rows_are h with ⟨_, _, rfl⟩ | ⟨_, _, rfl⟩ | ⟨_, _, rfl⟩ | ⟨_, _, rfl⟩ | ⟨_, _, rfl⟩ <;> constructor <;> decide

/-- A split of two numbers. -/
theorem split_two {sys : Option SysDict} {rs : List (List PStr)} {col : PStr} {ids : List Int} (h : SplitMeans sys rs col ids)
    {u v : PStr} {a b : Int} (hne : col ≠ [42]) (hs : splitOn 47 col = [u, v]) (hu : isId u = true ∧ u.head? ≠ some 85 ∧ pyInt u = .ok a)
    (hv : isId v = true ∧ v.head? ≠ some 85 ∧ pyInt v = .ok b) : ids = [a, b] := by
  have key : ∀ {u : PStr} {a w : Int}, UnitMeans sys rs u w → isId u = true ∧ u.head? ≠ some 85 ∧ pyInt u = .ok a → w = a := by
    rintro u a w h ⟨h1, h2, h3⟩
    unfold UnitMeans NumberMeans at h
    rw [if_pos h1] at h
    cases sys with
    | none =>
      simp only [if_neg h2, h3] at h
      exact (Except.ok.inj h.1).symm
    | some s =>
      simp only [if_neg h2, h3] at h
      exact (Except.ok.inj h.1).symm
  unfold SplitMeans at h
  rw [if_neg hne, hs] at h
  obtain ⟨h1, h2⟩ := h
  match ids, h1 with
  | [x, y], _ => rw [key (h2 0 u x rfl rfl) hu, key (h2 1 v y rfl rfl) hv]

theorem star_rows {S : Sources} {d : Nat} {cs : List Cols} (h : S.SplitRows d [42] cs) : cs.length = 0 := by
  obtain ⟨src, ids, _, h1, h2, _⟩ := h
  unfold SplitMeans at h1
  rw [if_pos rfl] at h1
  rw [h2, h1]
  rfl

theorem two_rows {d : Nat} {cs : List Cols} {col u v : PStr} {a b : Int} (h : sources.SplitRows d col cs)
    (hne : col ≠ [42]) (hs : splitOn 47 col = [u, v]) (hu : isId u = true ∧ u.head? ≠ some 85 ∧ pyInt u = .ok a)
    (hv : isId v = true ∧ v.head? ≠ some 85 ∧ pyInt v = .ok b) : ∃ c c', cs = [c, c'] ∧ sources.Row (unitWord d a).1 (unitWord d a).2 c ∧
      sources.Row (unitWord d b).1 (unitWord d b).2 c' := by
  obtain ⟨src, ids, _, h1, h2, h3⟩ := h
  rw [split_two h1 hne hs hu hv] at h2 h3
  match cs, h2 with
  | [c, c'], _ => exact ⟨c, c', rfl, h3 0 a c rfl rfl, h3 1 b c' rfl rfl⟩

theorem row_zero {c : Cols} (h : sources.Row 0 0 c) : c = cols0 := by
  rcases rows_are h with ⟨_, _, rfl⟩ | ⟨_, h, _⟩ | ⟨h, _⟩ | ⟨h, _⟩ | ⟨h, _⟩
  · rfl
  all_goals omega

theorem row_one {c : Cols} (h : sources.Row 0 1 c) : c = cols1 := by
  rcases rows_are h with ⟨_, h, rfl⟩ | ⟨_, h, rfl⟩ | ⟨h, _⟩ | ⟨h, _⟩ | ⟨h, _⟩
  · omega
  · rfl
  all_goals omega

/-- `ab` is split into `a` and `a` (as long as `ab`), `aab` into `a` and `ab`. -/
theorem splits_add_up : sources.SplitsAddUp := by
  intro d w c cs hc _ hs hlen
  have hstar : ∀ {d : Nat} {cs : List Cols}, 2 ≤ cs.length → sources.SplitRows d [42] cs → False := fun h1 h2 => by
    have := star_rows h2; omega
  rcases rows_are hc with ⟨rfl, _, rfl⟩ | ⟨rfl, _, rfl⟩ | ⟨rfl, _, rfl⟩ | ⟨rfl, _, rfl⟩ | ⟨rfl, _, rfl⟩
  · exact (hs.elim (hstar hlen) (hstar hlen)).elim
  · rcases hs with hs | hs
    · obtain ⟨c, c', rfl, h1, h2⟩ := two_rows (u := [48]) (v := [48]) (a := 0) (b := 0) hs (by decide) (by decide) (by decide +kernel)
        (by decide +kernel)
      rw [row_zero h1, row_zero h2]
      decide
    · exact (hstar hlen hs).elim
  · exact (hs.elim (hstar hlen) (hstar hlen)).elim
  · rcases hs with hs | hs
    · obtain ⟨c, c', rfl, h1, h2⟩ := two_rows (u := [48]) (v := [49]) (a := 0) (b := 1) hs (by decide) (by decide) (by decide +kernel)
        (by decide +kernel)
      rw [row_zero h1, row_one h2]
      decide
    · exact (hstar hlen hs).elim
  · exact (hs.elim (hstar hlen) (hstar hlen)).elim

def entries : List (Int × Int × Int) := [(0, 1, 5), (1, 1, -2)]

theorem matrix_two : sources.Matrix 2 entries := ⟨_, _, rfl, by decide +kernel, by decide +kernel⟩

theorem ids_in_range : sources.IdsInRange 2 := by
  have key : ∀ {l r : PStr} {l' r' a b : Int}, pyInt l = .ok a → pyInt r = .ok b → (0 ≤ a ∧ a < 2) ∧ 0 ≤ b ∧ b < 2 →
      pyInt l = .ok l' → pyInt r = .ok r' → InRange 2 l' ∧ InRange 2 r' := by
    intro l r l' r' a b h1 h2 h3 h4 h5
    rw [h1] at h4
    rw [h2] at h5
    cases h4
    cases h5
    exact h3
  intro d w c h _ l r hl hr
  rcases rows_are h with ⟨_, _, rfl⟩ | ⟨_, _, rfl⟩ | ⟨_, _, rfl⟩ | ⟨_, _, rfl⟩ | ⟨_, _, rfl⟩
  · exact key (a := 1) (b := 1) (by decide +kernel) (by decide +kernel) (by decide) hl hr
  · exact key (a := 0) (b := 1) (by decide +kernel) (by decide +kernel) (by decide) hl hr
  · exact key (a := 0) (b := 1) (by decide +kernel) (by decide +kernel) (by decide) hl hr
  · exact key (a := 0) (b := 1) (by decide +kernel) (by decide +kernel) (by decide) hl hr
  · exact key (a := 1) (b := 1) (by decide +kernel) (by decide +kernel) (by decide) hl hr

theorem chains_end : sources.ChainsEnd 9 := by
  intro d src w c h1 h2
  have hr : sources.Row d w c := ⟨src, h1, h2⟩
  rcases rows_are hr with ⟨rfl, rfl, rfl⟩ | ⟨rfl, rfl, rfl⟩ | ⟨rfl, rfl, rfl⟩ | ⟨rfl, rfl, rfl⟩ | ⟨rfl, rfl, rfl⟩ <;> cases h1
  · exact ⟨0, .here ⟨_, h2, .inl ⟨rfl, rfl⟩⟩ (.inl (by decide)), by decide⟩
  · exact ⟨1, chain1, by decide⟩
  · exact ⟨0, .here ⟨_, h2, .inl ⟨rfl, rfl⟩⟩ (.inl (by decide)), by decide⟩
  · exact ⟨0, .here ⟨_, h2, .inl ⟨rfl, rfl⟩⟩ (.inl (by decide)), by decide⟩
  · exact ⟨0, .here ⟨_, h2, .inl ⟨rfl, rfl⟩⟩ (.inl (by decide)), by decide⟩

theorem sources_complete : sources.Complete 2 entries config.depth where
  matrix := matrix_two
  allowed l r hl hr := by
    have h1 : l = 0 ∨ l = 1 := by have := hl.1; have := hl.2; omega
    have h2 : r = 0 ∨ r = 1 := by have := hr.1; have := hr.2; omega
    rcases h1 with rfl | rfl <;> rcases h2 with rfl | rfl <;> decide
  ids := ids_in_range
  few := by decide
  fit := sources_fit
  chains := chains_end

theorem plugins_ok : config.PluginsOk := ⟨fun _ h => (by cases h), fun _ h => h, fun _ _ h => (by cases h)⟩

theorem config_complete : config.Complete 2 where
  plugins := plugins_ok
  lowerEnc c hc x hx := by
    rw [List.mem_singleton.1 hx]; exact hc
  nfkcEnc s hs x hx := hs x hx
  pluginEnc p hp := by cases hp
  categorised c h := by cases h
  single c _ x y hx hy := by
    rw [List.mem_singleton.1 hx, List.mem_singleton.1 hy]
  prefixes c o h := by
    have := List.mem_singleton.1 h
    cases this
  simpleLast := ⟨_, rfl⟩
  oovShort p hp := by
    rw [List.mem_singleton.1 hp]
    exact (⟨by decide, by decide⟩ : Short 30000)
  oovIds p hp o ho := by
    rw [List.mem_singleton.1 hp] at ho
    cases ho
    exact ⟨⟨by decide, by decide⟩, by decide, by decide⟩

theorem no_separators : sources.NoSeparators config.catOf := by
  intro d w c ty hc _ hty hall
  exfalso
  have hne : c.headword ≠ [] := by
    rcases rows_are hc with ⟨_, _, rfl⟩ | ⟨_, _, rfl⟩ | ⟨_, _, rfl⟩ | ⟨_, _, rfl⟩ | ⟨_, _, rfl⟩ <;> decide
  cases hh : c.headword with
  | nil => exact hne hh
  | cons x xs =>
    have := hall x (by rw [hh]; simp)
    rw [List.mem_singleton.1 this] at hty
    rcases hty with h | h <;> cases h

theorem short_text {dict : Dict} {ps : List PathPlugin} {mode : Mode} {t : InputText}
    (h : (dict.tokenizer config ps mode).buildInput [97, 97, 98, 120] = .ok t) : t.bytes.length = 4 := by
  have e : ((dict.tokenizer config ps mode).buildInput [97, 97, 98, 120]).map (fun t => t.bytes.length) = .ok 4 := rfl
  rw [h] at e
  exact Except.ok.inj e

end Sudachi.Sample
