import Verif.Props.Config

/-!
# C52: the keys of the settings, and settings that were never read
-/

namespace Sudachi
open Settings

theorem mem_keys_iff {d : JDict} {key : PStr} : key ∈ d.map (·.1) ↔ d.find key ≠ none := by
  induction d with
  | nil => simp [JDict.find]
  | cons kv d ih =>
    obtain ⟨k, v⟩ := kv
    unfold JDict.find
    by_cases h : k = key
    · rw [if_pos h]; simp [h]
    · rw [if_neg h, ← ih, List.map_cons, List.mem_cons]
      exact ⟨fun hm => hm.resolve_left fun e => h e.symm, .inr⟩

theorem chooseDict_system {M : Machine} {d d' : JDict} {t : Option PStr} (h : chooseDict M d t = .ok d') :
    ∃ v, d'.find keySystemDict = some v := by
  unfold chooseDict at h
  cases t with
  | some t =>
    dsimp only at h
    split at h
    · obtain ⟨u, _, h⟩ := bind_ok h
      obtain ⟨p, _, h⟩ := bind_ok h
      injection h with h
      exact ⟨_, h ▸ JDict.find_set_same _ _ _⟩
    · cases h
  | none =>
    dsimp only at h
    cases hf : d.find keySystemDict with
    | some v =>
      rw [hf] at h
      dsimp only at h
      split at h
      · injection h with h
        exact ⟨v, h ▸ hf⟩
      · obtain ⟨p, _, h⟩ := bind_ok h
        injection h with h
        exact ⟨_, h ▸ JDict.find_set_same _ _ _⟩
    | none =>
      rw [hf] at h
      obtain ⟨p, _, h⟩ := bind_ok h
      injection h with h
      exact ⟨_, h ▸ JDict.find_set_same _ _ _⟩

/-- **C52**: `key in settings`, after a set-up: the keys of the setting file, and that of the system dictionary in any case. -/
theorem C52_contains (M : Machine) (s : Settings) (c r t : Option PStr) (d : JDict)
    (hd : M.settings (settingFile M c) = .ok d) (hok : (setUp M s c r t).2 = .ok ()) (key : PStr) :
    ∃ b, (setUp M s c r t).1.contains key = .ok b ∧ (b = true ↔ (key = systemKey ∨ ∃ v, Says d key v)) := by
  rw [← settingFile_eq] at hd
  rw [setUp_ok M s c r t d hd] at hok ⊢
  cases hch : chooseDict M d t with
  | error e =>
    rw [hch] at hok
    cases hok
  | ok d' =>
    refine ⟨decide (key ∈ d'.map (·.1)), rfl, ?_⟩
    rw [decide_eq_true_iff, mem_keys_iff]
    by_cases hk : key = systemKey
    · refine ⟨fun _ => .inl hk, fun _ => ?_⟩
      rw [hk, systemKey_eq]
      obtain ⟨v, hv⟩ := chooseDict_system hch
      rw [hv]
      simp
    · rw [chooseDict_other hch (by rwa [systemKey_eq] at hk)]
      constructor
      · intro h
        cases hf : d.find key with
        | none => exact absurd hf h
        | some v => exact .inr ⟨v, JDict.find_says.mp hf⟩
      · rintro (h | ⟨v, h⟩)
        · exact absurd h hk
        · rw [JDict.find_says.mpr h]; simp

/-- **C52**: settings that were never read have no paths and no keys: `TypeError` and `AttributeError`.  So it is after a first set-up
that could not read its file, while an item that is asked for is looked up in the settings of the package. -/
theorem C52_unread (M : Machine) (c r t : Option PStr) (e : Err) (hd : M.settings (settingFile M c) = .error e) (key : PStr) :
    ∃ s', setUp M Settings.init c r t = (s', .error e) ∧ s'.systemDictPath = .error .type ∧ s'.charDefPath = .error .type ∧
      s'.userDictPaths = .error .type ∧ s'.keys = .error .attribute ∧ s'.contains key = .error .attribute ∧
      (getItem M s' key).2 = (getItem M Settings.init key).2 := by
  rw [← settingFile_eq] at hd
  have h : setUp M Settings.init c r t = ({ Settings.init with configPath := some (strOr c M.defaultSetting) }, .error e) := by
    unfold setUp
    dsimp only
    rw [hd]
  refine ⟨_, h, rfl, rfl, rfl, rfl, rfl, ?_⟩
  unfold getItem setUp
  dsimp only [Settings.init]
  cases M.settings (strOr none M.defaultSetting) with
  | error e => rfl
  | ok d =>
    cases hc : chooseDict M d none with
    | error e => simp [hc]
    | ok d' => simp [hc]



/-- The sample settings name a system dictionary and no character definition; a file that is missing leaves nothing. -/
example : (Settings.setUp sampleMachine Settings.init none none none).1.contains systemKey = .ok true ∧
    (Settings.setUp sampleMachine Settings.init none none none).1.contains keyCharDef = .ok false ∧
    (Settings.setUp sampleMachine Settings.init (some [97]) none none).1.keys = .error .attribute := by
  refine ⟨?_, rfl, rfl⟩
  rw [systemKey_eq]
  rfl

end Sudachi
