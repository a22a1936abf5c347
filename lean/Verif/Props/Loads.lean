/-
C72: a complete installation is made and works.
-/
import Verif.Lemmas.Loads
import Verif.Props.EndToEnd
namespace Sudachi
open DictBuilder Sources

variable {S : Sources} {cfg : DictConfig}

/-- **C72** The files built from complete sources load, with complete settings. -/
theorem C72_loads (hD : cfg.D.Ok) {n : Nat} {entries : List (Int × Int × Int)} (hS : S.Complete n entries cfg.depth) (hcfg : cfg.Complete n)
    (hauto : S.AutoTexts cfg) (hsk : S.system.header.version = SYSTEM_DICT_VERSION_2)
    (huk : ∀ src ∈ S.users, src.header.version = USER_DICT_VERSION_3) {file : Bytes} {files : List Bytes} {ds : BinDict} {depth : Nat}
    (hb : S.system.Builds cfg.D none file) (hr : readDictionary file = .ok ds) (hs : S.sys = ds.toSysDict cfg.D depth)
    (hlen : files.length = S.users.length)
    (husers : ∀ (k : Nat) (src : DictSource) (b : Bytes), S.users[k]? = some src → files[k]? = some b → src.Builds cfg.D (some S.sys) b) :
    ∃ dict, Dict.load cfg file files = .ok dict := by
  have := loads hD hS hcfg hauto hsk huk hb hr hs hlen husers files.length (Nat.le_refl _)
  rwa [List.take_length] at this

/-- **C72** From complete sources that can be built, with complete settings, an installation can be made. -/
theorem C72_installs (hD : cfg.D.Ok) (hB : S.Buildable cfg.D) {n : Nat} {entries : List (Int × Int × Int)}
    (hS : S.Complete n entries cfg.depth) (hcfg : cfg.Complete n) (hauto : S.AutoTexts cfg) : ∃ dict, S.Installed cfg dict := by
  obtain ⟨hSO, cs, T, hcs, hroom, hw⟩ := hB.system
  obtain ⟨file, ds, hb, hr, _⟩ := C71_usable hD hSO hcs hroom hw
  obtain ⟨depth, hsys⟩ := hB.sys
  have hs := hsys file ds hb hr
  have hfiles : ∀ us : List DictSource, (∀ src ∈ us, src ∈ S.users) → ∃ files : List Bytes, files.length = us.length ∧
      ∀ (k : Nat) (src : DictSource) (b : Bytes), us[k]? = some src → files[k]? = some b → src.Builds cfg.D (some S.sys) b := by
    intro us
    induction us with
    | nil => intro _; exact ⟨[], rfl, fun k src b h => by cases h⟩
    | cons u us ih =>
      intro hm
      obtain ⟨files, h1, h2⟩ := ih (fun s hs => hm s (by simp [hs]))
      obtain ⟨hSO, cs, T, hcs, hroom, hw⟩ := hB.users u (hm u (by simp))
      obtain ⟨f, _, hf, _⟩ := C71_usable hD hSO hcs hroom hw
      refine ⟨f :: files, by simp [h1], ?_⟩
      intro k src b h3 h4
      cases k with
      | zero => cases h3; cases h4; exact hf
      | succ k => exact h2 k src b h3 h4
  obtain ⟨files, hlen, husers⟩ := hfiles S.users (fun _ h => h)
  obtain ⟨dict, hd⟩ := C72_loads hD hS hcfg hauto hB.systemKind hB.userKind hb hr hs hlen husers
  exact ⟨dict, file, files, ds, depth, hb, hr, hs, hlen, husers, hd⟩

/-- **C72** It tokenizes every encodable text that is not too long, in every mode; if the splits add up, the morphemes are a
partition of the text. -/
theorem C72_works (hD : cfg.D.Ok) (hB : S.Buildable cfg.D) {n : Nat} {entries : List (Int × Int × Int)}
    (hS : S.Complete n entries cfg.depth) (hcfg : cfg.Complete n) (hauto : S.AutoTexts cfg) (hsep : S.NoSeparators cfg.catOf)
    (hchars : ∀ c, c = 44 ∨ c = 46 → Cat.NUMERIC ∉ cfg.catOf c ∧ Cat.KANJINUMERIC ∉ cfg.catOf c) (hnf : NumericFirst cfg.pathPlugins) :
    ∃ dict, S.Installed cfg dict ∧ ∀ (mode0 : Mode) (L : Lattice), (dict.tokenizer cfg cfg.pathPlugins mode0).CleanHistory L → ∀ text : PStr,
      text ≠ [] → (∀ c ∈ text, encodable c = true) →
      (∀ t, (dict.tokenizer cfg cfg.pathPlugins mode0).buildInput text = .ok t →
        SafeLength t.bytes.length ∧ 3 * (t.bytes.length + 1) * (t.bytes.length + 1) ≤ cfg.fuel) → ∀ mode : Option Mode,
      ∃ L' ml, (dict.tokenizer cfg cfg.pathPlugins mode0).tokenize L text mode = (L', .ok ml) ∧
        (S.SplitsAddUp ∨ mode.getD mode0 = .C → ∃ spans, ml.Shows spans ∧ Partition text 0 spans ∧ (spans.map (·.2.2)).flatten = text) := by
  obtain ⟨dict, hI⟩ := C72_installs hD hB hS hcfg hauto
  refine ⟨dict, hI, ?_⟩
  intro mode0 L hL text hne henc hlen mode
  obtain ⟨ml, hml⟩ := C62_succeeds hD hI hS hcfg hsep hchars cfg.pathPlugins hnf mode0 hL hne henc hlen mode
  have ht : (dict.tokenizer cfg cfg.pathPlugins mode0).tokenize L text mode = (_, .ok ml) := Prod.ext rfl hml
  refine ⟨_, ml, ht, ?_⟩
  rintro (hadd | hm)
  · exact C61_all_modes hD hI hcfg.plugins hS.fit hadd _ mode0 hL.history ht
  · exact C61_mode_c hD hI hcfg.plugins _ mode0 hL.history hm ht

/-- **C72** The words with automatic costs of an installation have a surface: with an empty one, loading fails. -/
theorem C72_surface_needed (hD : cfg.D.Ok) {dict : Dict} (h : S.Installed cfg dict) (hp : cfg.PluginsOk) {d w : Nat} {c : Cols}
    (hc : S.Row (d + 1) w c) (hf : c.Fits) (hcost : pyInt c.cost = .ok (-32768)) : c.surface ≠ [] := by
  intro he
  have h0 := h
  obtain ⟨file, files, ds, depth, hb, hr, hs, hlen, husers, hload⟩ := h
  obtain ⟨src, hsrc, hrow⟩ := hc
  have hsrc : S.users[d]? = some src := hsrc
  have hk : d < files.length := by rw [hlen]; exact (List.getElem?_eq_some_iff.1 hsrc).1
  have hbk := List.getElem?_eq_getElem hk
  have hB := husers d src _ hsrc hbk
  obtain ⟨_, _, _, _, _, _, _, _, _, huser⟩ := load_user hload
  obtain ⟨_, du, _, _, _, e3, _⟩ := huser d _ hbk
  have hC := hB.compiled (user_read e3)
  obtain ⟨mid, y, h1, h2, h3⟩ := C50_automatic hD hload hbk e3 hB.1 hC hrow hf hcost
  have hI : (S.upTo d).Installed cfg mid := by
    refine ⟨file, files.take d, ds, depth, hb, hr, hs, ?_, ?_, h1⟩
    · show (files.take d).length = (S.users.take d).length
      rw [List.length_take, List.length_take, hlen]
    · intro j src b h1 h2
      have h1 : (S.users.take d)[j]? = some src := h1
      rw [List.getElem?_take] at h1 h2
      split at h1
      · rename_i hj
        rw [if_pos hj] at h2
        exact husers j src b h1 h2
      · cases h1
  obtain ⟨ms, v, t1, ⟨f, l, t2, _⟩, _⟩ := h3 ⟨hp.lower, hp.nfkc, hp.psm⟩ (hI.lexOk hD)
  rw [he] at t1
  cases t1
  cases t2

namespace Sample

theorem system_buildable : DictSource.Buildable SimpleTrie.trie none ⟨header, rows, matrix⟩ :=
  ⟨source_ok, _, _, rows_read_cols, sample_room,
    (C71_builds_iff source_ok rows_read_cols sample_room (fun _ h => (by cases h))).1 ⟨_, system_builds⟩⟩

theorem knows_pos : sysDict.KnowsPos := by
  obtain ⟨d, hd, hC⟩ := system_compiled
  rw [sysDict_eq (compiled_eq hC)]
  exact C71_system SimpleTrie.ok source_ok hC all_fit 9

section
attribute [local irreducible] sysDict systemFile userFile1 userFile2

theorem user_buildable {src : DictSource} {b : Bytes} {cs : List Cols} (hb : src.Builds SimpleTrie.trie (some sysDict) b)
    (hcs : RowsRead src.rows cs)
    (hroom : 4 * frontSize (some sysDict) src cs (SimpleTrie.bound cs) + cs.length + (cs.map Cols.infoSize).sum < 2 ^ 31) :
    src.Buildable SimpleTrie.trie (some sysDict) :=
  ⟨hb.1, cs, _, hcs, C71_room hroom, (C71_builds_iff hb.1 hcs (C71_room hroom) (fun s hs => by rw [← Option.some.inj hs]; exact knows_pos)).1 ⟨b, hb⟩⟩

theorem sources_buildable : sources.Buildable SimpleTrie.trie where
  system := system_buildable
  users src hs := by
    rcases List.mem_cons.1 hs with rfl | hs
    · refine user_buildable (cs := [userCols2]) user2_builds ⟨rfl, fun w c h => ?_⟩ (by decide +kernel)
      match w, h with
      | 0, h => cases h; exact urow2
    · rw [List.mem_singleton.1 hs]
      refine user_buildable (cs := [userCols0, userCols1]) user1_builds ⟨rfl, fun w c h => ?_⟩ (by decide +kernel)
      match w, h with
      | 0, h => cases h; exact urow0
      | 1, h => cases h; exact urow1
  systemKind := rfl
  userKind src hs := by
    rcases List.mem_cons.1 hs with rfl | hs
    · rfl
    · rw [List.mem_singleton.1 hs]; rfl
  sys := by
    refine ⟨9, fun file ds h1 h2 => ?_⟩
    obtain ⟨ds', h3, h4⟩ := system_reads
    have : file = systemFile := by
      obtain ⟨_, ops, h5, h6⟩ := h1
      have : built = (ops, .ok ()) := h5
      rw [h6]
      unfold systemFile
      rw [this]
    rw [this, h3] at h2
    cases h2
    exact h4

end

theorem auto_texts : sources.AutoTexts config := by
  intro d w c hc _
  have key : ∀ (dict : Dict) (t : InputText), (dict.tokenizer config [] .C).buildInput [97, 97, 98] = .ok t → SafeLength t.bytes.length := by
    intro dict t ht
    have e : ((dict.tokenizer config [] .C).buildInput [97, 97, 98]).map (fun t => t.bytes.length) = .ok 3 := rfl
    rw [ht] at e
    have e : t.bytes.length = _ := Except.ok.inj e
    rw [e]
    unfold SafeLength
    decide
  have key2 : ∀ (dict : Dict) (t : InputText), (dict.tokenizer config [] .C).buildInput [98] = .ok t → SafeLength t.bytes.length := by
    intro dict t ht
    have e : ((dict.tokenizer config [] .C).buildInput [98]).map (fun t => t.bytes.length) = .ok 1 := rfl
    rw [ht] at e
    have e : t.bytes.length = _ := Except.ok.inj e
    rw [e]
    unfold SafeLength
    decide
  rcases rows_are hc with ⟨h, _, rfl⟩ | ⟨h, _, rfl⟩ | ⟨_, _, rfl⟩ | ⟨_, _, rfl⟩ | ⟨_, _, rfl⟩
  · omega
  · omega
  · exact ⟨by decide, key⟩
  · exact ⟨by decide, key⟩
  · exact ⟨by decide, key2⟩

end Sample

/-- The sample, from its sources: it is installed and partitions a text, in every mode. -/
example (mode : Mode) : ∃ (dict : Dict) (L' : Lattice) (ml : MorphemeList) (spans : List (Nat × Nat × PStr)),
    Sample.sources.Installed Sample.config dict ∧
    (dict.tokenizer Sample.config Sample.config.pathPlugins .C).tokenize Lattice.init [97, 97, 98, 120] (some mode) = (L', .ok ml) ∧
    ml.Shows spans ∧ (spans.map (·.2.2)).flatten = [97, 97, 98, 120] := by
  obtain ⟨dict, h1, h2⟩ := C72_works (cfg := Sample.config) SimpleTrie.ok Sample.sources_buildable Sample.sources_complete Sample.config_complete
    Sample.auto_texts Sample.no_separators
    (fun c _ => ⟨fun h => (by cases List.mem_singleton.1 h), fun h => (by cases List.mem_singleton.1 h)⟩) (by trivial)
  obtain ⟨L', ml, h3, h4⟩ := h2 .C Lattice.init .fresh [97, 97, 98, 120] (by decide) (by decide)
    (fun t ht => by rw [Sample.short_text ht]; exact ⟨by unfold SafeLength; decide, by decide⟩) (some mode)
  obtain ⟨spans, h5, _, h6⟩ := h4 (.inl Sample.splits_add_up)
  exact ⟨dict, L', ml, spans, h1, h3, h5, h6⟩

end Sudachi
