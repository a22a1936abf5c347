/-
A machine with the sample dictionaries, a text, and settings that use them.
-/
import Verif.Model.TokenizeCommand
import Verif.Lemmas.SampleInstall
import Verif.Lemmas.Encodable
import Verif.Props.Commands
import Verif.Props.Open
import Verif.Props.Printing
namespace Sudachi.Sample

def settingFile : PStr := pstr! "s.json"
def charFile : PStr := pstr! "char.def"
def textInput : PStr := pstr! "in.txt"
def textOutput : PStr := pstr! "out.txt"
def userDic1 : PStr := pstr! "user1.dic"
def userDic2 : PStr := pstr! "user2.dic"

def settings : JDict :=
  [(pstr! "systemDict", .str systemDic), (pstr! "userDict", .list [.str userDic2, .str userDic1]),
   (pstr! "characterDefinitionFile", .str charFile),
   (pstr! "oovProviderPlugin", .list [.obj [(pstr! "class", .str (pstr! "sudachipy.plugin.oov.SimpleOovProviderPlugin")),
     (pstr! "oovPOS", .list [.str [112], .str [112], .str [112], .str [112], .str [112], .str [112]]),
     (pstr! "leftId", .num 0), (pstr! "rightId", .num 0), (pstr! "cost", .num 30000)]])]

/-- The file system of the machine. -/
def disk : Disk where
  defaultSetting := []
  settings p := if p = settingFile then .ok settings else .error .io
  package _ := none
  file p :=
    if p = systemDic then .ok systemFile else if p = userDic1 then .ok userFile1 else if p = userDic2 then .ok userFile2
    else if p = charFile then .ok (pstr! "0x30..0x39 NUMERIC\n") else if p = textInput then .ok (pstr! "abx\n\naa")
    else .error .io
  resources := []

def terminal : Terminal where
  toDisk := disk
  present p := p = textInput
  opens _ := .ok ()
  decode b := .ok b
  headLine _ := none
  time := 100
  stdin := ([pstr! "a\n"], .ok ())
  encode := encodeUtf8

def runtime : Runtime := ⟨SimpleTrie.trie, 9, 1000, id, id, fun _ => 0, fun _ => none⟩

/-- `tokenize -r s.json -m A -a -o out.txt in.txt` -/
def args : TokenizeArgs := ⟨false, [textInput], [65], some textOutput, some settingFile, none, true, false⟩

/-- A disk with the files of the sample. -/
structure HasSample (M : Disk) : Prop where
  machine : M.toMachine = disk.toMachine
  system : M.file systemDic = .ok systemFile
  user1 : M.file userDic1 = .ok userFile1
  user2 : M.file userDic2 = .ok userFile2
  chars : M.file charFile = .ok (pstr! "0x30..0x39 NUMERIC\n")

theorem disk_sample : HasSample disk := ⟨rfl, rfl, rfl, rfl, rfl⟩

theorem disk_put {p : PStr} (h1 : p ≠ systemDic) (h2 : p ≠ userDic1) (h3 : p ≠ userDic2) (h4 : p ≠ charFile) :
    HasSample (terminal.put p []).toDisk where
  machine := rfl
  system := (if_neg (Ne.symm h1)).trans rfl
  user1 := (if_neg (Ne.symm h2)).trans rfl
  user2 := (if_neg (Ne.symm h3)).trans rfl
  chars := (if_neg (Ne.symm h4)).trans rfl

def setSettings : Settings := (Settings.init.setUp disk.toMachine (some settingFile) none none).1

theorem each_nil {α β : Type} {R : α → β → Prop} {m : List β} (h : Each R [] m) : m = [] := by cases h; rfl

theorem sample_categories (c : Nat) : getCategoryTypes [⟨48, 58, [Cat.NUMERIC]⟩] c = (if 48 ≤ c ∧ c < 58 then [Cat.NUMERIC] else [Cat.DEFAULT]) := by
  unfold getCategoryTypes searchLoop
  have e : ([⟨48, 58, [Cat.NUMERIC]⟩] : List CRange)[(0 + List.length [(⟨48, 58, [Cat.NUMERIC]⟩ : CRange)]) / 2]? = some ⟨48, 58, [Cat.NUMERIC]⟩ := rfl
  rw [e]
  dsimp only
  by_cases h : 48 ≤ c ∧ c < 58
  · have : CRange.contains ⟨48, 58, [Cat.NUMERIC]⟩ c = true := by simp [CRange.contains, h]
    rw [this, if_pos rfl, if_pos h]
  · have : CRange.contains ⟨48, 58, [Cat.NUMERIC]⟩ c = false := by
      simp only [CRange.contains, Bool.and_eq_false_iff, decide_eq_false_iff_not]; omega
    rw [this, if_neg (by simp), if_neg h]
    cases CRange.lower ⟨48, 58, [Cat.NUMERIC]⟩ c <;> rfl

section
attribute [local irreducible] sysDict userFile1 userFile2 systemFile

theorem opened {M : Disk} (hM : HasSample M) {s : Settings} {cfg : DictConfig} {dict : Dict}
    (h : openDictionary runtime M Settings.init (some settingFile) none none = (s, .ok (cfg, dict))) :
    sources.Installed cfg dict ∧ cfg.D = SimpleTrie.trie ∧ cfg.depth = 9 ∧ cfg.fuel = 1000 ∧ cfg.inputPlugins = [] ∧
      cfg.lower = id ∧ cfg.nfkc = id ∧ cfg.catOf = getCategoryTypes [⟨48, 58, [Cat.NUMERIC]⟩] ∧ cfg.pathPlugins = [] ∧
      ∃ o : OovEntry, cfg.oov = [.simple o] ∧ o.leftId = 0 ∧ o.rightId = 0 ∧ o.cost = 30000 := by
  obtain ⟨h1, d, dir, file, files, hO⟩ := (C68_opens _ _ _ _ _ _ _ _ _).mp h
  rw [hM.machine] at h1
  have hs : s = setSettings := (congrArg Prod.fst h1).symm
  subst hs
  have hd : d = settings := by have := hO.content; exact (Option.some.inj (this.symm.trans rfl))
  subst hd
  obtain ⟨e1, e2, e3, e4, e5⟩ := hO.runtime
  obtain ⟨p, hp, hfile⟩ := hO.system
  have : p = systemDic := Except.ok.inj (hp.symm.trans (by decide))
  subst this
  have : file = systemFile := Except.ok.inj (hfile.symm.trans hM.system)
  subst this
  obtain ⟨ps, hps, hus⟩ := hO.users
  have : ps = [userDic2, userDic1] := Except.ok.inj (hps.symm.trans (by decide))
  subst this
  have hfiles : files = [userFile2, userFile1] := by
    cases hus with
    | cons a1 r =>
      cases r with
      | cons a2 r =>
        cases r
        rw [hM.user2] at a1
        rw [hM.user1] at a2
        cases a1; cases a2; rfl
  subst hfiles
  refine ⟨?_, e1, e2, e3, ?_, e4, e5, ?_, ?_, ?_⟩
  · obtain ⟨ds, hd, hs⟩ := system_reads
    have hl := hO.loaded
    have e1 : cfg.D = SimpleTrie.trie := e1
    refine ⟨systemFile, [userFile2, userFile1], ds, 9, e1 ▸ system_builds, hd, e1 ▸ hs, rfl, ?_, hl⟩
    intro k src b h1 h2
    match k with
    | 0 => cases h1; cases h2; exact e1 ▸ user2_builds
    | 1 => cases h1; cases h2; exact e1 ▸ user1_builds
    | k + 2 => cases h1
  · obtain ⟨objs, k1, k2⟩ := hO.inputs
    have : objs = [] := Except.ok.inj ((inputPlugins_iff.mpr k1).symm.trans (by rfl))
    subst this
    exact each_nil k2
  · obtain ⟨p, lines, ranges, k1, ⟨b, k2, k3⟩, k4, k5⟩ := hO.categories
    have : p = charFile := Except.ok.inj (k1.symm.trans (by decide))
    subst this
    have : b = pstr! "0x30..0x39 NUMERIC\n" := Except.ok.inj (k2.symm.trans hM.chars)
    subst this
    have : lines = [pstr! "0x30..0x39 NUMERIC\n"] := Except.ok.inj (k3.symm.trans (by decide +kernel))
    subst this
    have : ranges = [⟨48, 58, [Cat.NUMERIC]⟩] := Except.ok.inj (k4.symm.trans (by decide +kernel))
    subst this
    exact k5
  · obtain ⟨sys, objs, _, k1, k2⟩ := hO.rewriters
    have : objs = [] := Except.ok.inj ((pathPlugins_iff.mpr k1).symm.trans (by rfl))
    subst this
    exact each_nil k2
  · obtain ⟨sys, objs, _, k1, k2⟩ := hO.providers
    have : objs = [.simple 0 0 30000 (.list [.str [112], .str [112], .str [112], .str [112], .str [112], .str [112]])] :=
      Except.ok.inj ((oovPlugins_iff.mpr k1).symm.trans (by rfl))
    subst this
    cases hq : cfg.oov with
    | nil => rw [hq] at k2; cases k2
    | cons q qs =>
      rw [hq] at k2
      cases k2 with
      | cons a r =>
        cases r
        cases q with
        | mecab c o => exact a.elim
        | simple e => exact ⟨e, rfl, a.1, a.2.1, a.2.2.1⟩

end

theorem opened_complete {M : Disk} (hM : HasSample M) {s : Settings} {cfg : DictConfig} {dict : Dict}
    (h : openDictionary runtime M Settings.init (some settingFile) none none = (s, .ok (cfg, dict))) : cfg.Complete 2 := by
  obtain ⟨_, _, _, _, h1, h2, h3, h4, h5, o, h6, h7, h8, h9⟩ := opened hM h
  constructor
  · refine ⟨fun c h => ?_, fun s h => ?_, fun m s h => ?_⟩
    · rw [h2] at h; cases h
    · rw [h3]; exact h
    · rw [h1] at h; cases h
  · intro c hc x hx
    rw [h2] at hx
    rw [List.mem_singleton.1 hx]; exact hc
  · intro s hs x hx
    rw [h3] at hx
    exact hs x hx
  · intro p hp; rw [h1] at hp; cases hp
  · intro c; rw [h4, sample_categories]; split <;> exact List.cons_ne_nil _ _
  · intro c _ x y hx hy
    rw [h4, sample_categories] at hx hy
    split at hx
    · rename_i hc
      rw [if_pos hc] at hy
      rw [List.mem_singleton.1 hx, List.mem_singleton.1 hy]
    · rename_i hc
      rw [if_neg hc] at hy
      rw [List.mem_singleton.1 hx, List.mem_singleton.1 hy]
  · intro c o h
    rw [h6] at h
    have := List.mem_singleton.1 h
    cases this
  · exact ⟨o, by rw [h6]; rfl⟩
  · intro p hp
    rw [h6] at hp
    rw [List.mem_singleton.1 hp]
    show Short o.cost
    rw [h9]
    exact ⟨by decide, by decide⟩
  · intro p hp o' ho'
    rw [h6] at hp
    rw [List.mem_singleton.1 hp] at ho'
    have : o' = o := ho'
    rw [this, h7, h8]
    exact ⟨⟨by decide, by decide⟩, by decide, by decide⟩

theorem opened_separators {M : Disk} (hM : HasSample M) {s : Settings} {cfg : DictConfig} {dict : Dict}
    (h : openDictionary runtime M Settings.init (some settingFile) none none = (s, .ok (cfg, dict))) :
    sources.NoSeparators cfg.catOf ∧ ∀ c, c = 44 ∨ c = 46 → Cat.NUMERIC ∉ cfg.catOf c ∧ Cat.KANJINUMERIC ∉ cfg.catOf c := by
  obtain ⟨_, _, _, _, _, _, _, h4, _⟩ := opened hM h
  rw [h4]
  constructor
  · intro d w c ty hc hw hty hall
    exfalso
    have : ∃ x ∈ c.headword, ¬ (48 ≤ x ∧ x < 58) := by
      rcases rows_are hc with ⟨_, _, rfl⟩ | ⟨_, _, rfl⟩ | ⟨_, _, rfl⟩ | ⟨_, _, rfl⟩ | ⟨_, _, rfl⟩
      all_goals first | exact ⟨97, by decide, by decide⟩ | exact ⟨98, by decide, by decide⟩
    obtain ⟨x, hx, hn⟩ := this
    have := hall x hx
    rw [sample_categories, if_neg hn] at this
    rw [List.mem_singleton.1 this] at hty
    rcases hty with h | h <;> cases h
  · rintro c (rfl | rfl) <;> rw [sample_categories] <;> decide

theorem flatMap_length {body : PStr} (he : ∀ c ∈ body, encodable c = true) : (body.flatMap utf8Cp).length ≤ 4 * body.length := by
  induction body with
  | nil => exact Nat.le_refl _
  | cons c cs ih =>
    have h1 := ih (fun x hx => he x (by simp [hx]))
    have h2 : (utf8Cp c).length ≤ 4 := by
      rw [utf8Cp_length (he c (by simp))]
      unfold utf8ByteLength
      repeat' split
      all_goals omega
    rw [List.flatMap_cons, List.length_append, List.length_cons]
    omega

theorem opened_can_read {M : Disk} (hM : HasSample M) {s : Settings} {cfg : DictConfig} {dict : Dict}
    (h : openDictionary runtime M Settings.init (some settingFile) none none = (s, .ok (cfg, dict))) {line body : PStr}
    (hc : Chomped line body) (he : ∀ c ∈ body, encodable c = true) (hlen : body.length ≤ 4) : (create cfg dict none).CanRead line := by
  obtain ⟨_, _, _, h3, h4, _⟩ := opened hM h
  refine ⟨body, hc, he, ?_⟩
  intro t ht
  unfold Tokenizer.buildInput at ht
  have hp : (create cfg dict none).inputPlugins = [] := h4
  rw [hp] at ht
  have ht : (Builder.init body).build _ = .ok t := ht
  unfold Builder.build at ht
  obtain ⟨bytes, k1, ht⟩ := bind_ok ht
  have hb : t.bytes = bytes := by
    obtain ⟨_, _, ht⟩ := bind_ok ht
    dsimp only at ht
    split at ht
    · obtain ⟨_, _, ht⟩ := bind_ok ht
      split at ht <;> cases ht
      rfl
    · cases ht
  obtain ⟨_, k2⟩ := encodeUtf8_ok k1
  have hlt : t.bytes.length ≤ 16 := by
    rw [hb, k2]
    have := flatMap_length he
    exact Nat.le_trans this (by omega)
  refine ⟨by unfold SafeLength; omega, ?_⟩
  show _ ≤ cfg.fuel
  rw [h3]
  exact Nat.le_trans (Nat.mul_le_mul (Nat.mul_le_mul_left 3 (Nat.succ_le_succ hlt)) (Nat.succ_le_succ hlt)) (by decide)

theorem system_octets : Octets systemFile := by unfold Octets; decide +kernel
theorem user1_octets : Octets userFile1 := by unfold Octets; decide +kernel
theorem user2_octets : Octets userFile2 := by unfold Octets; decide +kernel

section
attribute [local irreducible] sysDict userFile1 userFile2 systemFile

theorem disk_octets : ∀ p b, disk.file p = .ok b → Octets b := by
  intro p b h
  unfold disk at h
  dsimp only at h
  split at h
  · cases h; exact system_octets
  split at h
  · cases h; exact user1_octets
  split at h
  · cases h; exact user2_octets
  split at h
  · cases h; unfold Octets; decide
  split at h
  · cases h; unfold Octets; decide
  · cases h

end

theorem of_isOk {α : Type} {s : Settings} {p : Settings × Res α} (h1 : p.1 = s) (h2 : p.2.isOk = true) : ∃ x, p = (s, .ok x) := by
  obtain ⟨s', r⟩ := p
  cases r with
  | error e => cases h2
  | ok x => exact ⟨x, by rw [← h1]⟩

theorem file_opens : ∃ cfg dict, openDictionary runtime (terminal.put textOutput []).toDisk Settings.init (some settingFile) none none =
    (setSettings, .ok (cfg, dict)) := by
  obtain ⟨⟨cfg, dict⟩, h⟩ := of_isOk (p := openDictionary runtime (terminal.put textOutput []).toDisk Settings.init (some settingFile) none none)
    (s := setSettings)
    (by unfold openDictionary setSettings; split <;> rename_i h <;> exact congrArg Prod.fst h.symm) (by decide +kernel)
  exact ⟨cfg, dict, h⟩

end Sudachi.Sample
