import Verif.Spec.ShippedUsers
import Verif.Props.UsersAdded
import Verif.Props.Shipped
import Verif.Props.Loads
import Verif.Lemmas.Output

/-!
# C69: the package as it ships, with user dictionaries
-/

namespace Sudachi

theorem Disk.ShippedUsers.shipped {M : Disk} {core : PStr} {paths : List PStr} (h : M.ShippedUsers core paths) :
    M.withoutUsers.Shipped core :=
  ⟨h.directory, h.setting, rfl, h.charDef, h.unkDef, h.rewriteDef, h.package, h.absolute⟩

theorem sameButUsers_append {d : JDict} {v : Json} : SameButUsers d (d ++ [(userKey, v)]) := by
  intro key hk w
  rw [← JDict.find_says, ← JDict.find_says]
  induction d with
  | nil => simp [JDict.find, Ne.symm hk]
  | cons kv d ih =>
    obtain ⟨k, x⟩ := kv
    rw [List.cons_append]
    unfold JDict.find
    split
    · exact Iff.rfl
    · exact ih

/-- **C69** The package as it ships, with user dictionaries in its settings: if the core dictionary and the user dictionaries are built
from sources that are together complete, a dictionary opens, and it is the installation of these sources. -/
theorem C69_opens_users {R : Runtime} {M : Disk} {core : PStr} {paths qs : List PStr} {file : Bytes} {files : List Bytes} {S : Sources}
    {n : Nat} {entries : List (Int × Int × Int)} (hM : M.ShippedUsers core paths) (hD : R.D.Ok) (hU : R.UnicodeOk)
    (hf : M.file core = .ok file) (hb : S.system.Builds R.D none file) (hs : S.system.ForShipped)
    (hsys : ∀ ds, readDictionary file = .ok ds → ∃ depth, S.sys = ds.toSysDict R.D depth)
    (hq : Each (Resolves M.resources) paths qs) (hfiles : Each (fun q b => M.file q = .ok b) qs files)
    (husers : Each (fun src b => src.Builds R.D (some S.sys) b) S.users files)
    (huk : ∀ src ∈ S.users, src.header.version = USER_DICT_VERSION_3) (hC : S.Complete n entries R.depth) (hn : 5968 < n) (s : Settings)
    (hauto : ∀ cfg dict, (openDictionary R M.withoutUsers s none none none).2 = .ok (cfg, dict) → S.AutoTexts cfg) :
    ∃ s' cfg dict, openDictionary R M s none none none = (s', .ok (cfg, dict)) ∧ S.Installed cfg dict ∧
      cfg.D = R.D ∧ cfg.depth = R.depth ∧ cfg.fuel = R.fuel ∧ (∀ n, 5968 < n → cfg.Complete n) ∧ NumericFirst cfg.pathPlugins ∧
      ∃ rs, compile R.pick shippedRanges = .ok rs ∧ cfg.catOf = getCategoryTypes rs := by
  obtain ⟨cfg, dict0, h1, _, h3, h4, h5, h6, h7, h8⟩ := C69_opens (S := ⟨S.system, [], S.sys⟩) hM.shipped hD hU hf hb hs rfl hsys s
  have ha := hauto cfg dict0 (by rw [h1])
  obtain ⟨ds, g, r1, r2, _⟩ := system_loads hD hb hs.system
  obtain ⟨depth, hsd⟩ := hsys ds r1
  have hub : ∀ (k : Nat) (src : DictSource) (b : Bytes), S.users[k]? = some src → files[k]? = some b → src.Builds cfg.D (some S.sys) b := by
    intro k src b hk hk'
    rw [h3]
    obtain ⟨b', e1, e2⟩ := husers.get hk
    rw [hk'] at e1
    cases e1
    exact e2
  obtain ⟨dict, hl⟩ := C72_loads (h3 ▸ hD) (h4 ▸ hC) (h6 n hn) ha hs.system huk (h3 ▸ hb) r1 (h3 ▸ hsd) husers.length.symm hub
  have hpath : (shippedSet M.withoutUsers core).systemDictPath = .ok core := by
    rw [Settings.systemDictPath_of (d := shippedSettings.set keySystemDict (.str core)) (dir := M.resources) (v := .str core) rfl rfl rfl]
    unfold toAbsolute toAbsoluteResourcePath
    dsimp only
    rw [if_pos ((absolute_iff core).mp hM.absolute)]
  have hdir : ResourceDirIs (settingFile M.withoutUsers.toMachine none) none M.resources := by
    refine .inr ⟨.inl rfl, ?_⟩
    obtain ⟨d, c, hd, hc⟩ := hM.directory
    show DirOf M.defaultSetting M.resources
    rw [hM.setting, hd]
    have hk : codes "/sudachi.json" = List.replicate (0 + 1) 47 ++ codes "sudachi.json" := by decide
    rw [hk, ← List.append_assoc]
    exact .under d c 0 _ hc (by decide)
  obtain ⟨s', ho⟩ := (C68_users_added (f := M.settings) h1 rfl hM.settings sameButUsers_append
    (JDict.find_says.mp (by rw [userKey_eq]; rfl)) hdir hpath hf hq hfiles dict).mpr hl
  have ho : openDictionary R M s none none none = (s', .ok (cfg, dict)) := ho
  exact ⟨s', cfg, dict, ho, ⟨file, files, ds, depth, h3 ▸ hb, r1, h3 ▸ hsd, husers.length.symm, hub, hl⟩, h3, h4, h5, h6, h7, h8⟩

end Sudachi
