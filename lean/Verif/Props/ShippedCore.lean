/-
C69: the package as it ships, from the source of its dictionary.
-/
import Verif.Props.Shipped
import Verif.Props.Loads
import Verif.Lemmas.SampleCore
namespace Sudachi
open DictBuilder

/-- **C69** The core dictionary is built from any complete source that can be written, and on every machine with the shipped files
and that dictionary `Dictionary()` opens; its tokenizers answer for every encodable text whose length cannot overflow costs, in every
mode, with a partition of the text in mode C, and in all modes if the splits of the source add up. -/
theorem C69_from_source {R : Runtime} {src : DictSource} {n : Nat} {entries : List (Int × Int × Int)} (hD : R.D.Ok) (hU : R.UnicodeOk)
    (hB : src.Buildable R.D none) (hs : src.ForShipped) (hS : ∀ sys, Sources.Complete ⟨src, [], sys⟩ n entries R.depth) (hn : 5968 < n)
    (hsep : ∀ sys rs, compile R.pick shippedRanges = .ok rs → Sources.NoSeparators ⟨src, [], sys⟩ (getCategoryTypes rs)) :
    ∃ file, src.Builds R.D none file ∧ ∀ (M : Disk) (core : PStr), M.Shipped core → M.file core = .ok file → ∀ s : Settings,
      ∃ cfg dict, openDictionary R M s none none none = (shippedSet M core, .ok (cfg, dict)) ∧
        ∀ (mode0 : Option Mode) (L : Lattice), (create cfg dict mode0).CleanHistory L → ∀ text : PStr, text ≠ [] →
          (∀ c ∈ text, encodable c = true) →
          (∀ t, (create cfg dict mode0).buildInput text = .ok t →
            SafeLength t.bytes.length ∧ 3 * (t.bytes.length + 1) * (t.bytes.length + 1) ≤ R.fuel) →
          ∀ mode : Option Mode, ∃ L' ml, (create cfg dict mode0).tokenize L text mode = (L', .ok ml) ∧
            ((∀ sys, Sources.SplitsAddUp ⟨src, [], sys⟩) ∨ mode.getD (mode0.getD .C) = .C →
              ∃ spans, ml.Shows spans ∧ Partition text 0 spans ∧ (spans.map (·.2.2)).flatten = text) := by
  obtain ⟨hSO, cs, T, hcs, hroom, hw⟩ := hB
  obtain ⟨file, ds, hb, hr, _⟩ := C71_usable hD hSO hcs hroom hw
  refine ⟨file, hb, ?_⟩
  intro M core hM hf s
  let S : Sources := ⟨src, [], ds.toSysDict R.D R.depth⟩
  obtain ⟨cfg, dict, h1, h2, h3, h4, h5, h6, h7, rs, h8, h9⟩ := C69_opens (S := S) hM hD hU hf hb hs rfl
    (fun ds' h => ⟨R.depth, by rw [hr] at h; cases h; rfl⟩) s
  refine ⟨cfg, dict, h1, ?_⟩
  intro mode0 L hL text hne henc hlen mode
  obtain ⟨rs', k1, _, _, _, k5⟩ := C21_shipped_char_def R.pick
  rw [h8] at k1
  cases k1
  obtain ⟨ml, hml⟩ := C62_succeeds (h3 ▸ hD) h2 (h4 ▸ hS _) (h6 n hn) (h9 ▸ hsep _ rs h8) (h9 ▸ k5) cfg.pathPlugins h7 (mode0.getD .C) hL hne henc
    (h5 ▸ hlen) mode
  have ht : (create cfg dict mode0).tokenize L text mode = (_, .ok ml) := Prod.ext rfl hml
  refine ⟨_, ml, ht, ?_⟩
  rintro (hadd | hm)
  · exact C61_all_modes (h3 ▸ hD) h2 (h6 n hn).plugins (hS _).fit (hadd _) _ (mode0.getD .C) hL.history ht
  · exact C61_mode_c (h3 ▸ hD) h2 (h6 n hn).plugins _ (mode0.getD .C) hL.history hm ht

namespace Sample

/-- A runtime with the simple trie library; `str.lower` and NFKC change nothing. -/
def coreRuntime : Runtime := ⟨SimpleTrie.trie, 100, 100000, id, id, fun _ => 0, fun _ => none⟩

theorem core_unicode : coreRuntime.UnicodeOk where
  lower c h := by cases h
  nfkc s h := h
  lowerEnc c h x hx := by rw [List.mem_singleton.1 hx]; exact h
  nfkcEnc s h x hx := h x hx

def coreDir : PStr := pstr! "/sudachipy/resources"
def corePath : PStr := pstr! "/sudachidict_core/resources/system.dic"

/-- A machine with the package and the given core dictionary. -/
def coreDisk (file : Bytes) : Disk where
  defaultSetting := coreDir ++ codes "/sudachi.json"
  settings path := if path = coreDir ++ codes "/sudachi.json" then .ok shippedSettings else .error .io
  package name := if name = codes "sudachidict_core" then some corePath else none
  file path :=
    if path = corePath then .ok file
    else if path = coreDir ++ codes "/char.def" then .ok (textFile shippedCharDef)
    else if path = coreDir ++ codes "/unk.def" then .ok (textFile shippedUnkDef)
    else if path = coreDir ++ codes "/rewrite.def" then .ok (textFile shippedRewriteDef)
    else .error .io
  resources := coreDir

theorem core_shipped (file : Bytes) : (coreDisk file).Shipped corePath where
  directory := ⟨pstr! "/sudachipy/resource", 115, (by decide : coreDir = _), by decide⟩
  setting := rfl
  settings := by simp only [coreDisk, if_true]
  charDef := by
    unfold coreDisk
    dsimp only
    rw [if_neg (by decide), if_pos rfl]
  unkDef := by
    unfold coreDisk
    dsimp only
    rw [if_neg (by decide), if_neg (by decide), if_pos rfl]
  rewriteDef := by
    unfold coreDisk
    dsimp only
    rw [if_neg (by decide), if_neg (by decide), if_neg (by decide), if_pos rfl]
  package := by simp only [coreDisk, if_true]
  absolute := ⟨_, rfl⟩

end Sample

/-- A core dictionary with the word 東京: the package opens with it, and every text of at most 20 bytes after normalisation is
tokenized. -/
example : ∃ file, Sample.coreSource.Builds SimpleTrie.trie none file ∧ ∃ cfg dict,
    (openDictionary Sample.coreRuntime (Sample.coreDisk file) Settings.init none none none).2 = .ok (cfg, dict) ∧
    ∀ text : PStr, text ≠ [] → (∀ c ∈ text, encodable c = true) →
      (∀ t, (create cfg dict none).buildInput text = .ok t → t.bytes.length ≤ 20) → ∀ mode : Option Mode,
      ∃ ml, ((create cfg dict none).tokenize Lattice.init text mode).2 = .ok ml := by
  obtain ⟨file, h1, h2⟩ := C69_from_source (R := Sample.coreRuntime) (src := Sample.coreSource) SimpleTrie.ok Sample.core_unicode
    Sample.core_buildable Sample.core_for_shipped (fun _ => Sample.core_complete rfl rfl (by decide)) (by decide)
    (fun _ _ _ => Sample.core_separators rfl rfl _)
  obtain ⟨cfg, dict, h3, h4⟩ := h2 (Sample.coreDisk file) Sample.corePath (Sample.core_shipped file) (by simp only [Sample.coreDisk, if_true]) Settings.init
  refine ⟨file, h1, cfg, dict, by rw [h3], ?_⟩
  intro text hne henc hlen mode
  obtain ⟨L', ml, h5, _⟩ := h4 none Lattice.init .fresh text hne henc (fun t ht => by
    have := hlen t ht
    refine ⟨by unfold SafeLength; omega, ?_⟩
    have : 3 * (t.bytes.length + 1) * (t.bytes.length + 1) ≤ 3 * 21 * 21 := Nat.mul_le_mul (Nat.mul_le_mul_left 3 (by omega)) (by omega)
    exact Nat.le_trans this (by decide)) mode
  exact ⟨ml, by rw [h5]⟩

end Sudachi
