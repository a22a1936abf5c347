/-
C94: setting files whose value is no object.
-/
import Verif.Spec.SettingsValue
import Verif.Spec.SettingFile
import Verif.Props.Config
import Verif.Props.JsonText
namespace Sudachi
open JsonText Settings

theorem contains_obj (d : JDict) (k : PStr) : (Json.obj d).contains k = .ok (d.find k).isSome := by
  unfold Json.contains
  dsimp only
  congr 1
  induction d with
  | nil => rfl
  | cons kv d ih =>
    obtain ⟨k', v⟩ := kv
    rw [List.any_cons, ih]
    show (k' == k || (JDict.find d k).isSome) = (if k' = k then some v else JDict.find d k).isSome
    by_cases h : k' = k <;> simp [h]

theorem contains_sequence {v : Json} (hv : v.NoObject) (k : PStr) :
    (v.Sequence ∧ v.Names k ∧ v.contains k = .ok true) ∨ (v.Sequence ∧ ¬ v.Names k ∧ v.contains k = .ok false) ∨
    (¬ v.Sequence ∧ v.contains k = .error .type) := by
  cases v with
  | obj d => exact absurd rfl (hv d)
  | str s =>
    have hx : (Json.str s).contains k = .ok (isInfix k s) := rfl
    rw [hx]
    by_cases h : isInfix k s = true
    · exact .inl ⟨.inl ⟨s, rfl⟩, isInfix_iff.mp h, by rw [h]⟩
    · refine .inr (.inl ⟨.inl ⟨s, rfl⟩, fun hn => h (isInfix_iff.mpr hn), ?_⟩)
      rw [Bool.eq_false_iff.mpr h]
  | list l =>
    have hx : (Json.list l).contains k = .ok (l.any (fun x => match x with | .str s => s == k | _ => false)) := rfl
    have hi : l.any (fun x => match x with | .str s => s == k | _ => false) = true ↔ Json.str k ∈ l := by
      rw [List.any_eq_true]
      constructor
      · rintro ⟨x, hm, h⟩
        cases x <;> simp at h
        subst h
        exact hm
      · intro h; exact ⟨_, h, by simp⟩
    rw [hx]
    by_cases h : Json.str k ∈ l
    · exact .inl ⟨.inr ⟨l, rfl⟩, h, by rw [hi.mpr h]⟩
    · refine .inr (.inl ⟨.inr ⟨l, rfl⟩, h, ?_⟩)
      rw [Bool.eq_false_iff.mpr (fun hh => h (hi.mp hh))]
  | _ =>
    refine .inr (.inr ⟨?_, rfl⟩)
    rintro (⟨_, h⟩ | ⟨_, h⟩) <;> cases h

theorem subscript_type {v : Json} (hv : v.NoObject) (k : PStr) : v.subscript k = .error .type := by
  cases v with
  | obj d => exact absurd rfl (hv d)
  | _ => rfl

theorem assign_type {v : Json} (hv : v.NoObject) (k : PStr) (x : Json) : v.assign k x = .error .type := by
  cases v with
  | obj d => exact absurd rfl (hv d)
  | _ => rfl

theorem core_eq : "core".toList.map Char.toNat = core := by decide

theorem known_core : KnownType ("core".toList.map Char.toNat) := .inr (.inl rfl)

theorem findDictPath_cases (M : Machine) (t : PStr) :
    (M.package (packageOf t) = none ∧ findDictPath M t = .error .moduleNotFound) ∨
    (M.package (packageOf t) ≠ none ∧ ∃ p, findDictPath M t = .ok p) := by
  cases h : M.package (packageOf t) with
  | none => exact .inl ⟨rfl, findDictPath_error M t h⟩
  | some p => exact .inr ⟨by simp, p, (findDictPath_ok M t p).mpr h⟩

/-- With a value that is no object, choosing the dictionary always raises. -/
theorem chooseDict_raises (M : Machine) {v : Json} (hv : v.NoObject) (t : Option PStr) :
    ∃ e, AnySettings.chooseDict M v t = .error e ∧ ∀ e', NoObjectRaises M.package v t e' ↔ e' = e := by
  cases t with
  | some u =>
    by_cases hu : KnownType u
    · have hch : AnySettings.chooseDict M v (some u) = AnySettings.warningTest v u >>= fun _ => findDictPath M u >>= fun p =>
          v.assign keySystemDict (.str p) := by
        show (if _ then _ else _) = _
        rw [if_pos ((known_iff u).mpr hu)]
      rw [hch]
      have hno : ¬ ∃ u', some u = some u' ∧ ¬ KnownType u' := by rintro ⟨_, h, h'⟩; cases h; exact h' hu
      unfold AnySettings.warningTest NoObjectRaises
      simp only [hno, hu, and_false, false_or, true_and, systemKey_eq, show wantedType (some u) = u from rfl]
      rcases contains_sequence hv keySystemDict with ⟨h1, h2, h3⟩ | ⟨h1, h2, h3⟩ | ⟨h1, h3⟩
      · rw [h3]
        refine ⟨.type, ?_, by simp [h2]⟩
        simp only [bind, Except.bind, if_true, subscript_type hv]
      · rw [h3]
        rcases findDictPath_cases M u with ⟨hp, hf⟩ | ⟨hp, p, hf⟩
        · refine ⟨.moduleNotFound, ?_, by simp [h1, h2, hp]⟩
          simp [bind, Except.bind, hf, pure, Except.pure]
        · refine ⟨.type, ?_, by simp [hp]⟩
          simp [bind, Except.bind, hf, pure, Except.pure, assign_type hv]
      · rw [h3]
        exact ⟨.type, rfl, by simp [h1]⟩
    · refine ⟨.value, ?_, fun e' => ?_⟩
      · show (if _ then _ else _) = _
        rw [if_neg (fun h => hu ((known_iff u).mp h))]
      · unfold NoObjectRaises
        have hk : ¬ KnownType (wantedType (some u)) := hu
        simp only [hk, false_and, or_false]
        exact ⟨fun h => h.1, fun h => ⟨h, u, rfl, hu⟩⟩
  | none =>
    have hk : KnownType (wantedType none) := known_core
    have hno : ¬ ∃ u', (none : Option PStr) = some u' ∧ ¬ KnownType u' := by rintro ⟨_, h, _⟩; cases h
    have hw : wantedType none = core := core_eq
    unfold AnySettings.chooseDict AnySettings.unnamed NoObjectRaises
    simp only [hno, hk, and_false, false_or, true_and, systemKey_eq]
    rw [hw]
    rcases contains_sequence hv keySystemDict with ⟨h1, h2, h3⟩ | ⟨h1, h2, h3⟩ | ⟨h1, h3⟩
    · rw [h3]
      refine ⟨.type, ?_, by simp [h2]⟩
      simp only [bind, Except.bind, if_true, subscript_type hv]
    · rw [h3]
      rcases findDictPath_cases M core with ⟨hp, hf⟩ | ⟨hp, p, hf⟩
      · refine ⟨.moduleNotFound, ?_, by simp [h1, h2, hp]⟩
        simp [bind, Except.bind, hf, pure, Except.pure]
      · refine ⟨.type, ?_, by simp [hp]⟩
        simp [bind, Except.bind, hf, pure, Except.pure, assign_type hv]
    · rw [h3]
      exact ⟨.type, rfl, by simp [h1]⟩

/-- **C94** With a setting file that stands for a value that is no object, `set_up` never succeeds; what it raises is decided by the
`dict_type`, the value and the packages; and the value, the path and the directory are stored all the same. -/
theorem C94_set_up (M : Disk) (n : Nat) (s : AnySettings) (c r t : Option PStr) (b : Bytes) (text : PStr) (ls : List PStr) (v : Json) (dir : PStr)
    (hb : M.file (settingFile M.toMachine c) = .ok b) (ht : encodeUtf8 text = .ok b) (hl : Lines text ls) (hd : Document n ls.flatten v)
    (hv : v.NoObject) (hr : ResourceDirIs (settingFile M.toMachine c) r dir) :
    ∃ e, s.setUp M n c r t = (⟨true, v, some (settingFile M.toMachine c), some dir⟩, .error e) ∧
      ∀ e', NoObjectRaises M.package v t e' ↔ e' = e := by
  obtain ⟨e, he, hu⟩ := chooseDict_raises M.toMachine hv t
  refine ⟨e, ?_, hu⟩
  have hread : AnySettings.read M n (settingFile M.toMachine c) = .ok v := by
    unfold AnySettings.read
    rw [hb]
    show loadFile n b = _
    rw [(C93_file n b).2 text ls ht hl, C93_reads]
    exact hd
  unfold AnySettings.setUp
  rw [settingFile_eq]
  dsimp only
  rw [hread, resourceDir_eq hr]
  dsimp only
  rw [he]

/-- **C94** Settings with such a value are taken for set up: the default setting file is not read at the next use, every item raises
`TypeError`, `keys` and `in` raise `AttributeError`.  There is no system dictionary; but the character definition is only said to be missing
(`KeyError`), and the list of user dictionaries is empty without an exception, if the value is a text or a list that does not have the name
of the key. -/
theorem C94_after (M : Disk) (n : Nat) (s : AnySettings) (ha : s.active = true) (hv : s.value.NoObject) (key : PStr) (x : Json) :
    s.getItem M n key = (s, .error .type) ∧ s.setItem M n key x = (s, .error .type) ∧
    s.keys = .error .attribute ∧ s.contains key = .error .attribute ∧ s.systemDictPath = .error .type ∧
    (s.value.Sequence ∧ ¬ s.value.Names charKey → s.charDefPath = .error .key) ∧
    (¬ (s.value.Sequence ∧ ¬ s.value.Names charKey) → s.charDefPath = .error .type) ∧
    (s.value.Sequence ∧ ¬ s.value.Names userKey → s.userDictPaths = .ok []) ∧
    (¬ (s.value.Sequence ∧ ¬ s.value.Names userKey) → s.userDictPaths = .error .type) := by
  have hact : s.activate M n = (s, .ok ()) := by
    unfold AnySettings.activate
    rw [if_pos ha]
  have hkeys : s.keys = .error .attribute := by
    unfold AnySettings.keys
    split
    · rename_i d h; exact absurd h (hv d)
    · rfl
  refine ⟨?_, ?_, hkeys, ?_, ?_, ?_⟩
  · unfold AnySettings.getItem
    rw [hact]
    dsimp only
    rw [subscript_type hv]
  · unfold AnySettings.setItem
    rw [hact]
    dsimp only
    rw [assign_type hv]
  · unfold AnySettings.contains
    rw [hkeys]
    rfl
  · unfold AnySettings.systemDictPath
    rw [subscript_type hv]
    rfl
  · rw [charKey_eq, userKey_eq]
    unfold AnySettings.charDefPath AnySettings.userDictPaths
    refine ⟨?_, ?_, ?_, ?_⟩
    · rintro ⟨h, h'⟩
      rcases contains_sequence hv keyCharDef with ⟨_, h2, _⟩ | ⟨_, _, h3⟩ | ⟨h1, _⟩
      · exact absurd h2 h'
      · rw [h3]; rfl
      · exact absurd h h1
    · intro h
      rcases contains_sequence hv keyCharDef with ⟨_, h2, h3⟩ | ⟨h1, h2, _⟩ | ⟨_, h3⟩
      · rw [h3]; simp only [bind, Except.bind, if_true, subscript_type hv]
      · exact absurd ⟨h1, h2⟩ h
      · rw [h3]; rfl
    · rintro ⟨h, h'⟩
      rcases contains_sequence hv keyUserDict with ⟨_, h2, _⟩ | ⟨_, _, h3⟩ | ⟨h1, _⟩
      · exact absurd h2 h'
      · rw [h3]; rfl
      · exact absurd h h1
    · intro h
      rcases contains_sequence hv keyUserDict with ⟨_, h2, h3⟩ | ⟨h1, h2, _⟩ | ⟨_, h3⟩
      · rw [h3]; simp only [bind, Except.bind, if_true, subscript_type hv]
      · exact absurd ⟨h1, h2⟩ h
      · rw [h3]; rfl

theorem warningTest_obj (d : JDict) (t : PStr) : AnySettings.warningTest (.obj d) t = Settings.warningTest d t := by
  unfold AnySettings.warningTest Settings.warningTest Settings.warning
  rw [contains_obj]
  cases h : d.find keySystemDict with
  | none => rfl
  | some v =>
    have hs : (Json.obj d).subscript keySystemDict = .ok v := by
      show JDict.get d keySystemDict = _
      unfold JDict.get
      rw [h]
    simp only [bind, Except.bind, Option.isSome_some, if_true, hs]
    by_cases hv : v.truthy = true
    · simp only [hv, if_true]
      cases v.contains (packagePrefix ++ t) <;> rfl
    · simp only [hv]; rfl

theorem chooseDict_obj (M : Machine) (d : JDict) (t : Option PStr) :
    AnySettings.chooseDict M (.obj d) t = (Settings.chooseDict M d t).map Json.obj := by
  cases t with
  | some u =>
    unfold AnySettings.chooseDict Settings.chooseDict
    dsimp only
    rw [warningTest_obj]
    split
    · cases Settings.warningTest d u with
      | error e => rfl
      | ok _ => simp only [bind, Except.bind]; cases findDictPath M u <;> rfl
    · rfl
  | none =>
    unfold AnySettings.chooseDict Settings.chooseDict AnySettings.unnamed
    rw [contains_obj]
    cases h : d.find keySystemDict with
    | none => simp only [bind, Except.bind, Option.isSome_none]; cases findDictPath M core <;> rfl
    | some v =>
      have hs : (Json.obj d).subscript keySystemDict = .ok v := by
        show JDict.get d keySystemDict = _
        unfold JDict.get
        rw [h]
      simp only [bind, Except.bind, Option.isSome_some, if_true, hs, pure, Except.pure]
      by_cases hv : v.truthy = true
      · simp only [hv]; rfl
      · simp only [hv]; cases findDictPath M core <;> rfl

/-- **C94** As long as the setting files are objects (or cannot be read), setting up is what Model/Config says: C52 and what follows from it
hold. -/
theorem C94_object {M : Disk} {n : Nat} (h : M.ReadsSettings n) (s : Settings) (c r t : Option PStr)
    (ho : M.NoOther n (settingFile M.toMachine c)) :
    s.any.setUp M n c r t = ((s.setUp M.toMachine c r t).1.any, (s.setUp M.toMachine c r t).2) := by
  rw [← settingFile_eq] at ho
  unfold AnySettings.setUp Settings.setUp AnySettings.read
  dsimp only
  cases hf : M.file (strOr c M.defaultSetting) with
  | error e =>
    rw [h.missing _ e hf]
    rfl
  | ok b =>
    simp only [bind, Except.bind]
    cases hl : loadFile n b with
    | error e =>
      rw [h.refused _ b e hf hl]
      rfl
    | ok v =>
      obtain ⟨d, rfl⟩ := ho b v hf hl
      rw [h.read _ b d hf hl]
      dsimp only
      rw [chooseDict_obj]
      cases Settings.chooseDict M.toMachine d t <;> rfl

/-- **C94** The same for everything else that is asked of the settings. -/
theorem C94_uses {M : Disk} {n : Nat} (h : M.ReadsSettings n) (s : Settings) (ho : M.NoOther n M.defaultSetting) (key : PStr) (x : Json) :
    s.any.getItem M n key = ((s.getItem M.toMachine key).1.any, (s.getItem M.toMachine key).2) ∧
    s.any.setItem M n key x = ((s.setItem M.toMachine key x).1.any, (s.setItem M.toMachine key x).2) ∧
    s.any.keys = s.keys ∧ s.any.contains key = s.contains key ∧ s.any.systemDictPath = s.systemDictPath ∧
    s.any.charDefPath = s.charDefPath ∧ s.any.userDictPaths = s.userDictPaths := by
  have hact : s.any.activate M n = ((if s.active then (s, .ok ()) else s.setUp M.toMachine none none none).1.any,
      (if s.active then (s, .ok ()) else s.setUp M.toMachine none none none).2) := by
    unfold AnySettings.activate
    show (if s.active = true then _ else _) = _
    by_cases ha : s.active = true
    · rw [if_pos ha, if_pos ha]
    · rw [if_neg ha, if_neg ha]
      exact C94_object h s none none none ho
  have hget : ∀ (s : Settings) k, s.any.value.subscript k = s.theDict.bind (fun d => d.get k) := by
    intro s k
    unfold Settings.any Settings.theDict
    cases s.dict <;> rfl
  have hdir : s.any.theDir = s.theDir := rfl
  have hkeys : s.any.keys = s.keys := by
    unfold AnySettings.keys Settings.keys Settings.any
    cases s.dict <;> rfl
  refine ⟨?_, ?_, hkeys, ?_, ?_, ?_, ?_⟩
  · unfold AnySettings.getItem Settings.getItem
    rw [hact]
    generalize (if s.active then (s, .ok ()) else s.setUp M.toMachine none none none) = p
    obtain ⟨s', _ | _⟩ := p
    · rfl
    · dsimp only
      rw [hget]
  · unfold AnySettings.setItem Settings.setItem
    rw [hact]
    generalize (if s.active then (s, .ok ()) else s.setUp M.toMachine none none none) = p
    obtain ⟨s', _ | _⟩ := p
    · rfl
    · dsimp only
      unfold Settings.theDict
      obtain ⟨a, d, cp, rd⟩ := s'
      cases d <;> rfl
  · unfold AnySettings.contains Settings.contains
    rw [hkeys]
  · unfold AnySettings.systemDictPath Settings.systemDictPath
    rw [hget, hdir]
    cases s.theDict <;> rfl
  · unfold AnySettings.charDefPath Settings.charDefPath
    rw [hget, hdir]
    unfold Settings.any Settings.theDict
    cases s.dict with
    | none => rfl
    | some d =>
      dsimp only
      rw [contains_obj]
      simp only [bind, Except.bind]
      unfold JDict.get
      cases d.find keyCharDef <;> rfl
  · unfold AnySettings.userDictPaths Settings.userDictPaths
    rw [hget, hdir]
    unfold Settings.any Settings.theDict
    cases s.dict with
    | none => rfl
    | some d =>
      dsimp only
      rw [contains_obj]
      simp only [bind, Except.bind]
      unfold JDict.get
      cases d.find keyUserDict <;> rfl

/-- **C94** A later `set_up` with a file that is read does not depend on what was there before; so after one that failed the next can succeed. -/
theorem C94_again (M : Disk) (n : Nat) (s s' : AnySettings) (c r t : Option PStr) (b : Bytes) (text : PStr) (ls : List PStr) (v : Json)
    (hb : M.file (settingFile M.toMachine c) = .ok b) (ht : encodeUtf8 text = .ok b) (hl : Lines text ls) (hd : Document n ls.flatten v) :
    s.setUp M n c r t = s'.setUp M n c r t := by
  have hread : AnySettings.read M n (settingFile M.toMachine c) = .ok v := by
    unfold AnySettings.read
    rw [hb]
    show loadFile n b = _
    rw [(C93_file n b).2 text ls ht hl, C93_reads]
    exact hd
  unfold AnySettings.setUp
  rw [settingFile_eq]
  dsimp only
  rw [hread]

namespace Sample

/-- A machine with one file at every path, and no package. -/
def oneFile (file : Bytes) : Disk where
  defaultSetting := pstr! "/etc/sudachi.json"
  settings := fun _ => .error .io
  package := fun _ => none
  file := fun _ => .ok file
  resources := pstr! "/etc"

/-- The list `["a", 1]`. -/
def listFile : Bytes := pstr! "[\"a\", 1]\r\n"

theorem list_document : Document 1 (pstr! "[\"a\", 1]\n") (.list [.str [97], .num 1]) := (C93_reads _ _ _).mp (by rfl)

end Sample

open Sample in
/-- A list: without the package a `ModuleNotFoundError`; the settings then have no user dictionaries, and do not look for the default file. -/
example : ∃ s, AnySettings.init.setUp (oneFile listFile) 1 none none none = (s, .error .moduleNotFound) ∧ s.userDictPaths = .ok [] ∧
    s.charDefPath = .error .key ∧ s.getItem (oneFile listFile) 1 (pstr! "oovProviderPlugin") = (s, .error .type) := by
  have hv : (Json.list [.str [97], .num 1]).NoObject := fun _ h => by cases h
  obtain ⟨e, h, hu⟩ := C94_set_up (oneFile listFile) 1 .init none none none listFile listFile [pstr! "[\"a\", 1]\n"] _ (pstr! "/etc") rfl rfl
    (lines_iff.mp (by rfl)) list_document hv
    (.inr ⟨.inl rfl, .under (pstr! "/et") 99 0 (pstr! "sudachi.json") (by decide) (by decide)⟩)
  have hn : ∀ k : PStr, k ≠ [97] → ¬ (Json.list [.str [97], .num 1]).Names k := by
    intro k hk hm
    rcases List.mem_cons.mp hm with h | h
    · cases h; exact hk rfl
    · rcases List.mem_cons.mp h with h | h
      · cases h
      · cases h
  have hs : (Json.list [.str [97], .num 1]).Sequence := .inr ⟨_, rfl⟩
  have he := (hu .moduleNotFound).mp (.inr ⟨known_core, .inl ⟨rfl, hs, hn _ (by decide), rfl⟩⟩)
  subst he
  obtain ⟨h1, _, _, _, _, h2, _, h3, _⟩ := C94_after (oneFile listFile) 1 ⟨true, .list [.str [97], .num 1], some (pstr! "/etc/sudachi.json"), some (pstr! "/etc")⟩
    rfl hv (pstr! "oovProviderPlugin") .null
  exact ⟨_, h, h3 ⟨hs, hn _ (by decide)⟩, h2 ⟨hs, hn _ (by decide)⟩, h1⟩

/-- A number: `TypeError`, whatever is installed. -/
example (package : PStr → Option PStr) (n : Int) : NoObjectRaises package (.num n) (some (codes "full")) .type :=
  .inr ⟨.inr (.inr rfl), .inr ⟨rfl, fun h => by rcases h.1 with ⟨_, h⟩ | ⟨_, h⟩ <;> cases h⟩⟩

/-- The shipped machine has no other setting file there. -/
example (file : Bytes) (s : Settings) (t : Option PStr) : s.any.setUp (Sample.fileDisk file) 4 none none t =
    ((s.setUp (Sample.fileDisk file).toMachine none none t).1.any, (s.setUp (Sample.fileDisk file).toMachine none none t).2) := by
  refine C94_object (Sample.file_reads file) s none none t fun b v hb hl => ?_
  have h := Sample.file_shipped file
  rw [show settingFile (Sample.fileDisk file).toMachine none = (Sample.fileDisk file).defaultSetting from rfl, h.setting, h.settingFile] at hb
  cases hb
  rw [C93_shipped_file 4 (Nat.le_refl 4)] at hl
  cases hl
  exact ⟨_, rfl⟩

end Sudachi
