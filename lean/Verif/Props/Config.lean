/-
C52: which dictionary the settings name.
-/
import Verif.Lemmas.Config
namespace Sudachi

/-- The setting file that is read: the one given, or the one of the package if none (or an empty name) is given. -/
def settingFile (M : Machine) (c : Option PStr) : PStr := if c = none ∨ c = some [] then M.defaultSetting else c.getD []

/-- The directory of the resources: the one given, or the one of the setting file. -/
def ResourceDirIs (file : PStr) (r : Option PStr) (dir : PStr) : Prop :=
  (∃ x, r = some x ∧ x ≠ [] ∧ dir = x) ∨ ((r = none ∨ r = some []) ∧ DirOf file dir)

theorem settingFile_eq (M : Machine) (c : Option PStr) : strOr c M.defaultSetting = settingFile M c := by
  unfold settingFile strOr
  cases c with
  | none => rfl
  | some s => cases s <;> simp

theorem resourceDir_eq {file dir : PStr} {r : Option PStr} (h : ResourceDirIs file r dir) : strOr r (dirname file) = dir := by
  unfold strOr
  rcases h with ⟨x, rfl, hx, rfl⟩ | ⟨rfl | rfl, hd⟩
  · simp [hx]
  · exact dirname_ok hd
  · exact dirname_ok hd

open Settings

/-- **C52**: with a known `dict_type`, `set_up` succeeds exactly if its package is installed and the file does not have a
number in place of the dictionary; the system dictionary is then the one of the package, whatever the file says. -/
theorem C52_type (M : Machine) (s : Settings) (c r : Option PStr) (d : JDict) (dir t : PStr)
    (hd : M.settings (settingFile M c) = .ok d) (hr : ResourceDirIs (settingFile M c) r dir) (ht : KnownType t) :
    ((setUp M s c r (some t)).2 = .ok () ↔
      (∃ p, M.package (packageOf t) = some p) ∧ ∀ v, Says d systemKey v → ¬ v.Number) ∧
    ((setUp M s c r (some t)).2 = .ok () → ∃ p q, M.package (packageOf t) = some p ∧ Resolves dir p q ∧
      (setUp M s c r (some t)).1.systemDictPath = .ok q) := by
  rw [← settingFile_eq] at hd hr
  rw [setUp_ok M s c r (some t) d hd, resourceDir_eq hr]
  have hch : chooseDict M d (some t) = warningTest d t >>= fun _ =>
      findDictPath M t >>= fun p => pure (d.set keySystemDict (.str p)) := by
    show (if _ then _ else _) = _
    rw [if_pos ((known_iff t).mpr ht)]
  rcases warningTest_cases d t with ⟨⟨v, hv, hn⟩, hw⟩ | ⟨hn, hw⟩
  · have : chooseDict M d (some t) = .error .type := by rw [hch, hw]; rfl
    rw [this]
    exact ⟨⟨fun h => (by cases h), fun h => absurd hn (h.2 v hv)⟩, fun h => (by cases h)⟩
  · cases hp : M.package (packageOf t) with
    | none =>
      have : chooseDict M d (some t) = .error .moduleNotFound := by
        rw [hch, hw, findDictPath_error M t hp]; rfl
      rw [this]
      exact ⟨⟨fun h => (by cases h), fun ⟨⟨p, h⟩, _⟩ => (by cases h)⟩, fun h => (by cases h)⟩
    | some p =>
      have : chooseDict M d (some t) = .ok (d.set keySystemDict (.str p)) := by
        rw [hch, hw, (findDictPath_ok M t p).mpr hp]; rfl
      rw [this]
      refine ⟨⟨fun _ => ⟨⟨p, rfl⟩, hn⟩, fun _ => rfl⟩, fun _ => ⟨p, _, rfl, resolve_ok dir p, ?_⟩⟩
      exact systemDictPath_of (s := ⟨true, some (d.set keySystemDict (.str p)), some (strOr c M.defaultSetting), some dir⟩)
        (dir := dir) (v := .str p) rfl rfl (JDict.find_set_same _ _ _)

/-- **C52**: the failures of a known `dict_type`: a number in place of the dictionary is a `TypeError`, a package that is
not installed a `ModuleNotFoundError`. -/
theorem C52_type_errors (M : Machine) (s : Settings) (c r : Option PStr) (d : JDict) (t : PStr)
    (hd : M.settings (settingFile M c) = .ok d) (ht : KnownType t) :
    ((∃ v, Says d systemKey v ∧ v.Number) → (setUp M s c r (some t)).2 = .error .type) ∧
    ((∀ v, Says d systemKey v → ¬ v.Number) → M.package (packageOf t) = none →
      (setUp M s c r (some t)).2 = .error .moduleNotFound) := by
  rw [← settingFile_eq] at hd
  rw [setUp_ok M s c r (some t) d hd]
  have hch : chooseDict M d (some t) = warningTest d t >>= fun _ =>
      findDictPath M t >>= fun p => pure (d.set keySystemDict (.str p)) := by
    show (if _ then _ else _) = _
    rw [if_pos ((known_iff t).mpr ht)]
  rw [hch]
  rcases warningTest_cases d t with ⟨⟨v, hv, hn⟩, hw⟩ | ⟨hn, hw⟩
  · rw [hw]
    exact ⟨fun _ => rfl, fun h => absurd hn (h v hv)⟩
  · rw [hw]
    refine ⟨fun ⟨v, hv, h⟩ => absurd h (hn v hv), fun _ hp => ?_⟩
    rw [findDictPath_error M t hp]
    rfl

/-- **C52**: the warning about two dictionaries comes exactly for a known `dict_type` and a setting file with a dictionary that does not have
the name of the package in it. -/
theorem C52_warns (M : Machine) (c : Option PStr) (d : JDict) (t : PStr) (hd : M.settings (settingFile M c) = .ok d) :
    warns M c none = false ∧ (warns M c (some t) = true ↔
      KnownType t ∧ ∃ v, Says d systemKey v ∧ ¬ v.Empty ∧ ¬ v.Number ∧ ¬ v.Names (packageOf t)) := by
  rw [← settingFile_eq] at hd
  unfold warns
  rw [hd]
  refine ⟨rfl, ?_⟩
  dsimp only
  rw [Bool.and_eq_true, decide_eq_true_eq, decide_eq_true_eq, known_iff, systemKey_eq]
  refine and_congr_right fun _ => ?_
  unfold warning
  rw [package_eq]
  cases h : d.find keySystemDict with
  | none =>
    refine ⟨fun k => (by cases k), fun ⟨v, hv, _⟩ => ?_⟩
    rw [← JDict.find_says, h] at hv
    cases hv
  | some v =>
    have hv := JDict.find_says.mp h
    have huniq : ∀ w, Says d keySystemDict w → w = v := by
      intro w hw
      rw [← JDict.find_says, h] at hw
      injection hw with hw
      exact hw.symm
    dsimp only
    by_cases he : v.Empty
    · rw [(truthy_empty v).mpr he]
      refine ⟨fun k => (by cases k), fun ⟨w, hw, hn, _⟩ => ?_⟩
      rw [huniq w hw] at hn
      exact absurd he hn
    · have ht : v.truthy = true := by
        cases hb : v.truthy with
        | true => rfl
        | false => exact absurd ((truthy_empty v).mp hb) he
      rw [if_pos ht]
      by_cases hn : v.Number
      · have hx : v.contains (packageOf t) = .error .type := by
          rcases contains_type (packageOf t) v ht with ⟨_, e⟩ | ⟨k, _⟩
          · exact e
          · exact absurd hn k
        rw [hx]
        refine ⟨fun k => (by cases k), fun ⟨w, hw, _, k, _⟩ => ?_⟩
        rw [huniq w hw] at k
        exact absurd hn k
      · obtain ⟨b, hb, hbn⟩ := contains_names (packageOf t) v hn he
        rw [hb]
        constructor
        · intro k
          refine ⟨v, hv, he, hn, fun hN => ?_⟩
          rw [hbn.mpr hN] at k
          cases k
        · rintro ⟨w, hw, _, _, k⟩
          rw [huniq w hw] at k
          cases b with
          | false => rfl
          | true => exact absurd (hbn.mp rfl) k

/-- **C52**: another `dict_type` is refused with a `ValueError`.  The settings have by then been replaced by those of the
file. -/
theorem C52_refused (M : Machine) (s : Settings) (c r : Option PStr) (d : JDict) (dir t : PStr)
    (hd : M.settings (settingFile M c) = .ok d) (hr : ResourceDirIs (settingFile M c) r dir) (ht : ¬ KnownType t) :
    setUp M s c r (some t) = (⟨true, some d, some (settingFile M c), some dir⟩, .error .value) := by
  rw [← settingFile_eq] at hd hr
  rw [setUp_ok M s c r (some t) d hd, resourceDir_eq hr, settingFile_eq]
  have : chooseDict M d (some t) = .error .value := by
    show (if _ then _ else _) = _
    rw [if_neg (fun h => ht ((known_iff t).mp h))]
  rw [this]

/-- **C52**: without a `dict_type` a path in the file is used. -/
theorem C52_configured (M : Machine) (s : Settings) (c r : Option PStr) (d : JDict) (dir p : PStr)
    (hd : M.settings (settingFile M c) = .ok d) (hr : ResourceDirIs (settingFile M c) r dir)
    (hp : Says d systemKey (.str p)) (hne : p ≠ []) :
    ∃ q, Resolves dir p q ∧ (setUp M s c r none).2 = .ok () ∧ (setUp M s c r none).1.systemDictPath = .ok q := by
  rw [← settingFile_eq] at hd hr
  rw [setUp_ok M s c r none d hd, resourceDir_eq hr]
  rw [systemKey_eq, ← JDict.find_says] at hp
  have : chooseDict M d none = .ok d := by
    unfold chooseDict
    rw [hp]
    dsimp only
    rw [if_pos (by simp [Json.truthy, hne])]
    rfl
  rw [this]
  exact ⟨_, resolve_ok dir p, rfl, systemDictPath_of rfl rfl hp⟩

/-- **C52**: without a `dict_type` and with nothing, or nothing that names anything, in the file the core package is used;
if it is not installed that is a `ModuleNotFoundError`. -/
theorem C52_core (M : Machine) (s : Settings) (c r : Option PStr) (d : JDict) (dir : PStr)
    (hd : M.settings (settingFile M c) = .ok d) (hr : ResourceDirIs (settingFile M c) r dir)
    (hp : Silent d systemKey ∨ ∃ v, Says d systemKey v ∧ v.Empty) :
    (∀ p, M.package (packageOf ("core".toList.map Char.toNat)) = some p → ∃ q, Resolves dir p q ∧
      (setUp M s c r none).2 = .ok () ∧ (setUp M s c r none).1.systemDictPath = .ok q) ∧
    (M.package (packageOf ("core".toList.map Char.toNat)) = none → (setUp M s c r none).2 = .error .moduleNotFound) := by
  have hcore : "core".toList.map Char.toNat = core := by decide
  rw [hcore]
  rw [← settingFile_eq] at hd hr
  rw [setUp_ok M s c r none d hd, resourceDir_eq hr]
  have hch : chooseDict M d none = findDictPath M core >>= fun p => pure (d.set keySystemDict (.str p)) := by
    unfold chooseDict
    rcases hp with hp | ⟨v, hp, he⟩
    · rw [systemKey_eq, ← JDict.find_silent] at hp
      rw [hp]
    · rw [systemKey_eq, ← JDict.find_says] at hp
      rw [hp]
      dsimp only
      rw [if_neg (by rw [(truthy_empty v).mpr he]; decide)]
  constructor
  · intro p h
    rw [hch, (findDictPath_ok M core p).mpr h]
    exact ⟨_, resolve_ok dir p, rfl, systemDictPath_of (s := ⟨true, some (d.set keySystemDict (.str p)), some (strOr c M.defaultSetting), some dir⟩)
        (dir := dir) (v := .str p) rfl rfl (JDict.find_set_same _ _ _)⟩
  · intro h
    rw [hch, findDictPath_error M core h]
    rfl

theorem chooseDict_other {M : Machine} {d d' : JDict} {t : Option PStr} (h : chooseDict M d t = .ok d') {key : PStr}
    (hk : key ≠ keySystemDict) : d'.find key = d.find key := by
  have hset : ∀ p, (d.set keySystemDict (.str p)).find key = d.find key := fun p => JDict.find_set_other _ _ hk
  unfold chooseDict at h
  cases t with
  | some t =>
    dsimp only at h
    split at h
    · obtain ⟨u, _, h⟩ := bind_ok h
      obtain ⟨p, _, h⟩ := bind_ok h
      injection h with h
      rw [← h]
      exact hset p
    · cases h
  | none =>
    dsimp only at h
    split at h
    · split at h
      · injection h with h
        rw [h]
      · obtain ⟨p, _, h⟩ := bind_ok h
        injection h with h
        rw [← h]
        exact hset p
    · obtain ⟨p, _, h⟩ := bind_ok h
      injection h with h
      rw [← h]
      exact hset p

/-- **C52**: the user dictionaries of the file, a list of paths, are found in its order; without the key there are none. -/
theorem C52_users (M : Machine) (s : Settings) (c r t : Option PStr) (d : JDict) (dir : PStr)
    (hd : M.settings (settingFile M c) = .ok d) (hr : ResourceDirIs (settingFile M c) r dir)
    (hok : (setUp M s c r t).2 = .ok ()) :
    (Silent d userKey → (setUp M s c r t).1.userDictPaths = .ok []) ∧
    (∀ paths : List PStr, Says d userKey (.list (paths.map Json.str)) →
      ∃ qs : List PStr, (setUp M s c r t).1.userDictPaths = .ok qs ∧ qs.length = paths.length ∧
        ∀ (i : Nat) p q, paths[i]? = some p → qs[i]? = some q → Resolves dir p q) := by
  rw [← settingFile_eq] at hd hr
  rw [setUp_ok M s c r t d hd, resourceDir_eq hr] at hok ⊢
  cases hch : chooseDict M d t with
  | error e =>
    rw [hch] at hok
    cases hok
  | ok d' =>
    have hf : d'.find keyUserDict = d.find keyUserDict := chooseDict_other hch (by decide)
    dsimp only
    constructor
    · intro h
      rw [userKey_eq, ← JDict.find_silent] at h
      unfold userDictPaths theDict
      show (match d'.find keyUserDict with | none => pure [] | some v => _) = _
      rw [hf, h]
      rfl
    · intro paths h
      rw [userKey_eq, ← JDict.find_says] at h
      refine ⟨paths.map (toAbsoluteResourcePath dir), ?_, by simp, ?_⟩
      · unfold userDictPaths theDict theDir
        show (match d'.find keyUserDict with
          | none => pure []
          | some v => iterate v >>= fun l => pure dir >>= fun dir => l.mapM (toAbsolute dir)) = _
        rw [hf, h]
        exact mapM_resolve dir paths
      · intro i p q hp hq
        rw [List.getElem?_map, hp] at hq
        injection hq with hq
        rw [← hq]
        exact resolve_ok dir p

/-- **C52**: the character definition file is the one of the file, found like the dictionaries; without it there is a
`KeyError`, whatever dictionary was chosen, and a `TypeError` if it is no string. -/
theorem C52_char_def (M : Machine) (s : Settings) (c r t : Option PStr) (d : JDict) (dir : PStr)
    (hd : M.settings (settingFile M c) = .ok d) (hr : ResourceDirIs (settingFile M c) r dir)
    (hok : (setUp M s c r t).2 = .ok ()) :
    (Silent d charKey → (setUp M s c r t).1.charDefPath = .error .key) ∧
    (∀ p, Says d charKey (.str p) → ∃ q, (setUp M s c r t).1.charDefPath = .ok q ∧ Resolves dir p q) ∧
    (∀ v, Says d charKey v → (∀ p, v ≠ .str p) → (setUp M s c r t).1.charDefPath = .error .type) := by
  rw [← settingFile_eq] at hd hr
  rw [setUp_ok M s c r t d hd, resourceDir_eq hr] at hok ⊢
  cases hch : chooseDict M d t with
  | error e =>
    rw [hch] at hok
    cases hok
  | ok d' =>
    have hf : d'.find keyCharDef = d.find keyCharDef := chooseDict_other hch (by decide)
    dsimp only
    refine ⟨?_, ?_, ?_⟩
    · intro h
      rw [charKey_eq, ← JDict.find_silent, ← hf] at h
      unfold charDefPath theDict
      show (d'.get keyCharDef >>= _) = _
      unfold JDict.get
      rw [h]
      rfl
    · intro p h
      rw [charKey_eq, ← JDict.find_says, ← hf] at h
      refine ⟨toAbsoluteResourcePath dir p, ?_, resolve_ok dir p⟩
      unfold charDefPath theDict theDir
      show (d'.get keyCharDef >>= _) = _
      unfold JDict.get
      rw [h]
      rfl
    · intro v h hv
      rw [charKey_eq, ← JDict.find_says, ← hf] at h
      unfold charDefPath theDict theDir
      show (d'.get keyCharDef >>= _) = _
      unfold JDict.get
      rw [h]
      show toAbsolute dir v = _
      unfold toAbsolute
      split
      · exact absurd rfl (hv _)
      · rfl

/-- **C52**: any other setting is what the file says. -/
theorem C52_items (M : Machine) (s : Settings) (c r t : Option PStr) (d : JDict)
    (hd : M.settings (settingFile M c) = .ok d) (hok : (setUp M s c r t).2 = .ok ()) {key : PStr} (hk : key ≠ systemKey) :
    (∀ v, Says d key v → getItem M (setUp M s c r t).1 key = ((setUp M s c r t).1, .ok v)) ∧
    (Silent d key → getItem M (setUp M s c r t).1 key = ((setUp M s c r t).1, .error .key)) := by
  rw [← settingFile_eq] at hd
  rw [setUp_ok M s c r t d hd] at hok ⊢
  rw [systemKey_eq] at hk
  cases hch : chooseDict M d t with
  | error e =>
    rw [hch] at hok
    cases hok
  | ok d' =>
    have hf := chooseDict_other hch hk
    dsimp only
    refine ⟨fun v h => ?_, fun h => ?_⟩
    · rw [← JDict.find_says, ← hf] at h
      refine Prod.ext rfl ?_
      show d'.get key = _
      unfold JDict.get
      rw [h]
    · rw [← JDict.find_silent, ← hf] at h
      refine Prod.ext rfl ?_
      show d'.get key = _
      unfold JDict.get
      rw [h]

/-- **C52**: a setting asked for before any set-up is looked up in the settings of the package; afterwards no file is read
any more (the machine does not matter). -/
theorem C52_lazy (M : Machine) (s : Settings) (ha : s.active = false) (key : PStr) (d : JDict)
    (hd : M.settings M.defaultSetting = .ok d) (hok : (setUp M s none none none).2 = .ok ()) :
    getItem M s key = getItem M (setUp M s none none none).1 key ∧
    ∀ M' key', getItem M' (getItem M s key).1 key' = getItem M (setUp M s none none none).1 key' := by
  have hd' : M.settings (strOr none M.defaultSetting) = .ok d := hd
  have hact : (setUp M s none none none).1.active = true := by
    rw [setUp_ok M s none none none d hd']
    cases chooseDict M d none <;> rfl
  have h1 : getItem M s key = ((setUp M s none none none).1, (setUp M s none none none).1.theDict.bind (fun d => d.get key)) := by
    unfold getItem
    rw [ha]
    cases hs : setUp M s none none none with
    | mk s' r =>
      rw [hs] at hok
      subst hok
      rfl
  have h2 : ∀ M' key, getItem M' (setUp M s none none none).1 key =
      ((setUp M s none none none).1, (setUp M s none none none).1.theDict.bind (fun d => d.get key)) := by
    intro M' key
    unfold getItem
    rw [hact]
    rfl
  refine ⟨by rw [h1, h2], fun M' key' => ?_⟩
  rw [h1]
  show getItem M' (setUp M s none none none).1 key' = _
  rw [h2, h2]

/-- **C52**: a setting that was assigned is found again, and the others stay. -/
theorem C52_assigned (M : Machine) (s : Settings) (key : PStr) (v : Json) (hok : (setItem M s key v).2 = .ok ()) :
    (getItem M (setItem M s key v).1 key).2 = .ok v ∧
    ∀ key', key' ≠ key → (getItem M (setItem M s key v).1 key').2 = (getItem M s key').2 := by
  have main : ∀ s' : Settings, ∀ r : Res Unit, (r = .ok () → s'.active = true) →
      (match r with
        | .error e => ((s', .error e) : Settings × Res Unit)
        | .ok () =>
          match s'.theDict with
          | .error e => (s', .error e)
          | .ok d => ({ s' with dict := some (d.set key v) }, .ok ())).2 = .ok () →
      r = .ok () ∧ s'.active = true ∧ ∃ d, s'.theDict = .ok d := by
    intro s' r hr h
    cases r with
    | error e => cases h
    | ok u =>
      cases u
      refine ⟨rfl, hr rfl, ?_⟩
      cases hd : s'.theDict with
      | error e => simp only [hd] at h; cases h
      | ok d => exact ⟨d, rfl⟩
  have hsu : (setUp M s none none none).2 = .ok () → (setUp M s none none none).1.active = true := by
    intro h
    cases hd : M.settings (strOr none M.defaultSetting) with
    | error e =>
      unfold setUp at h
      dsimp only at h
      rw [hd] at h
      cases h
    | ok d =>
      rw [setUp_ok M s none none none d hd]
      cases chooseDict M d none <;> rfl
  have key1 : ∃ s' d, s'.active = true ∧ s'.theDict = .ok d ∧ setItem M s key v = ({ s' with dict := some (d.set key v) }, .ok ()) ∧
      ∀ k, getItem M s k = (s', d.get k) := by
    unfold setItem at hok ⊢
    unfold getItem
    by_cases ha : s.active = true
    · rw [if_pos ha] at hok ⊢
      obtain ⟨_, h2, d, hd⟩ := main s (.ok ()) (fun _ => ha) hok
      refine ⟨s, d, ha, hd, ?_, ?_⟩
      · dsimp only
        rw [hd]
      · intro k
        dsimp only
        rw [hd]
        rfl
    · rw [if_neg ha] at hok ⊢
      cases hs : setUp M s none none none with
      | mk s' r =>
        rw [hs] at hok hsu
        obtain ⟨h1, h2, d, hd⟩ := main s' r hsu hok
        subst h1
        refine ⟨s', d, h2, hd, ?_, ?_⟩
        · dsimp only
          rw [hd]
        · intro k
          dsimp only
          rw [hd]
          rfl
  obtain ⟨s', d, ha, hd, h1, h2⟩ := key1
  have h3 : ∀ k, (getItem M { s' with dict := some (d.set key v) } k).2 = (d.set key v).get k := by
    intro k
    unfold getItem
    rw [if_pos (show ({ s' with dict := some (d.set key v) } : Settings).active = true from ha)]
    rfl
  rw [h1]
  refine ⟨?_, fun key' hk => ?_⟩
  · rw [h3]
    unfold JDict.get
    rw [JDict.find_set_same]
  · rw [h3, h2]
    show _ = d.get key'
    unfold JDict.get
    rw [JDict.find_set_other _ _ hk]

/-- **C52**: a path read from the settings is absolute if it is so in the file or the resource directory is absolute. -/
theorem C52_absolute {dir p q : PStr} (h : Resolves dir p q) : Absolute q ↔ Absolute p ∨ Absolute dir := by
  cases h with
  | absolute _ _ ha => exact ⟨.inl, fun _ => ha⟩
  | here _ hn =>
    refine ⟨fun h => absurd h hn, ?_⟩
    rintro (h | ⟨q, h⟩)
    · exact absurd h hn
    · cases h
  | slash d _ hn =>
    constructor
    · rintro ⟨q, h⟩
      right
      cases d with
      | nil => exact ⟨[], rfl⟩
      | cons c d =>
        injection h with h _
        exact ⟨d ++ [47], by rw [h]; rfl⟩
    · rintro (h | ⟨q, h⟩)
      · exact absurd h hn
      · cases d with
        | nil => exact ⟨p, rfl⟩
        | cons c d =>
          injection h with h _
          exact ⟨d ++ 47 :: p, by rw [h]; rfl⟩
  | below _ _ hn he _ =>
    constructor
    · rintro ⟨q, h⟩
      right
      cases dir with
      | nil => exact absurd rfl he
      | cons c d =>
        injection h with h _
        exact ⟨d, by rw [h]⟩
    · rintro (h | ⟨q, h⟩)
      · exact absurd h hn
      · exact ⟨q ++ 47 :: p, by rw [h]; rfl⟩

/-- **C52**: the settings after a file was read do not depend on what they were before; if the file cannot be read, the
earlier settings stay in force. -/
theorem C52_fresh (M : Machine) (s s' : Settings) (c r t : Option PStr) :
    (∀ d, M.settings (settingFile M c) = .ok d → setUp M s c r t = setUp M s' c r t) ∧
    (∀ e, M.settings (settingFile M c) = .error e → (setUp M s c r t).2 = .error e ∧
      (setUp M s c r t).1.dict = s.dict ∧ (setUp M s c r t).1.resourceDir = s.resourceDir ∧
      (setUp M s c r t).1.active = s.active) := by
  rw [← settingFile_eq]
  constructor
  · intro d hd
    rw [setUp_ok M s c r t d hd, setUp_ok M s' c r t d hd]
  · intro e he
    unfold setUp
    dsimp only
    rw [he]
    exact ⟨rfl, rfl, rfl, rfl⟩

/-- **C52**, not as one may expect: a single path in place of the list of user dictionaries is taken letter by letter. -/
theorem C52_violated_user_text : ∃ (M : Machine) (d : JDict), M.settings (settingFile M none) = .ok d ∧
    Says d userKey (.str [97, 46, 100]) ∧ (setUp M Settings.init none none none).2 = .ok () ∧
    (setUp M Settings.init none none none).1.userDictPaths = .ok [[47, 114, 47, 97], [47, 114, 47, 46], [47, 114, 47, 100]] := by
  refine ⟨⟨[47, 114, 47, 115], fun _ => .ok [(keyUserDict, .str [97, 46, 100])], fun _ => some [47, 115]⟩,
    [(keyUserDict, .str [97, 46, 100])], rfl, ⟨[], [], by rw [userKey_eq]; rfl, ?_⟩, ?_, ?_⟩
  · intro kv h
    exact absurd h List.not_mem_nil
  · rfl
  · rfl

/-- A machine with the setting file `/r/s` that names the dictionaries `x/y` and `u`, `/v`, and the packages core and
full. -/
def sampleMachine : Machine where
  defaultSetting := [47, 114, 47, 115]
  settings := fun p => if p = [47, 114, 47, 115] then
    .ok [(keySystemDict, .str [120, 47, 121]), (keyUserDict, .list [.str [117], .str [47, 118]])] else .error .io
  package := fun p => if p = packagePrefix ++ core then some [47, 99] else if p = packagePrefix ++ full then some [47, 102] else none

/-- The hypotheses hold for this machine: the file is `/r/s`, its directory `/r`. -/
example : settingFile sampleMachine none = [47, 114, 47, 115] ∧
    ResourceDirIs (settingFile sampleMachine none) none [47, 114] ∧
    (∃ d, sampleMachine.settings (settingFile sampleMachine none) = .ok d ∧ Says d systemKey (.str [120, 47, 121]) ∧
      Says d userKey (.list (List.map Json.str [[117], [47, 118]]))) := by
  refine ⟨rfl, .inr ⟨.inl rfl, ?_⟩, _, rfl, ⟨[], _, by rw [systemKey_eq]; rfl, ?_⟩, ⟨[_], [], by rw [userKey_eq]; rfl, ?_⟩⟩
  · exact DirOf.under [47] 114 0 [115] (by decide) (by decide)
  · intro kv h
    exact absurd h List.not_mem_nil
  · intro kv h
    rw [List.mem_singleton.mp h]
    decide

/-- Type full: `/f`; type small is not installed; type `x` is refused; no type: `/r/x/y`. -/
example : (setUp sampleMachine Settings.init none none (some full)).1.systemDictPath = .ok [47, 102] ∧
    (setUp sampleMachine Settings.init none none (some small)).2 = .error .moduleNotFound ∧
    (setUp sampleMachine Settings.init none none (some [120])).2 = .error .value ∧
    (setUp sampleMachine Settings.init none none none).1.systemDictPath = .ok [47, 114, 47, 120, 47, 121] ∧
    (setUp sampleMachine Settings.init none none none).1.userDictPaths = .ok [[47, 114, 47, 117], [47, 118]] ∧
    (setUp sampleMachine Settings.init (some [97]) none none).2 = .error .io := by
  refine ⟨rfl, rfl, rfl, rfl, rfl, rfl⟩

/-- The file's `x/y` is not of the package: `full` warns. -/
example : warns sampleMachine none (some full) = true ∧ warns sampleMachine none none = false := by
  have h := C52_warns sampleMachine none _ full rfl
  refine ⟨h.2.mpr ⟨(known_iff full).mp (by decide), .str [120, 47, 121], ⟨[], _, by rw [systemKey_eq]; rfl, by simp⟩, ?_, ?_, ?_⟩, h.1⟩
  · rintro (h | h | h | ⟨_, h, _⟩ | h | h | h) <;> cases h
  · rintro (h | ⟨_, h, _⟩ | ⟨_, h, _⟩) <;> cases h
  · rintro ⟨a, b, h⟩
    have := congrArg List.length h
    simp [← package_eq] at this
    have : (packagePrefix ++ full).length = 16 := by decide
    simp at this
    omega

/-- Asking for a setting first, assigning one, asking for the character definition, which the file does not name. -/
example : (getItem sampleMachine Settings.init keySystemDict).2 = .ok (.str [120, 47, 121]) ∧
    (setItem sampleMachine Settings.init keyCharDef (.str [99])).2 = .ok () ∧
    (setItem sampleMachine Settings.init keyCharDef (.str [99])).1.charDefPath = .ok [47, 114, 47, 99] ∧
    (setUp sampleMachine Settings.init none none none).2 = .ok () ∧
    (setUp sampleMachine Settings.init none none none).1.charDefPath = .error .key := by
  refine ⟨rfl, rfl, rfl, rfl, rfl⟩

end Sudachi
