import Verif.Spec.UsersAdded
import Verif.Props.Open
import Verif.Props.Config

/-!
# C68: user dictionaries added to settings
-/

namespace Sudachi
open Settings

theorem SameButUsers.find {d d' : JDict} (h : SameButUsers d d') {key : PStr} (hk : key ≠ userKey) : d'.find key = d.find key := by
  cases hf : d.find key with
  | some v => exact JDict.find_says.mpr ((h key hk v).mp (JDict.find_says.mp hf))
  | none =>
    cases hf' : d'.find key with
    | none => rfl
    | some v => rw [JDict.find_says.mpr ((h key hk v).mpr (JDict.find_says.mp hf'))] at hf; cases hf

theorem chooseDict_same {M M' : Machine} (hM : M'.package = M.package) {d d' e : JDict} {t : Option PStr} (h : SameButUsers d d')
    (hc : chooseDict M d t = .ok e) :
    ∃ e', chooseDict M' d' t = .ok e' ∧ (∀ key, key ≠ userKey → e'.find key = e.find key) ∧ e'.find userKey = d'.find userKey := by
  have hs : keySystemDict ≠ userKey := by rw [userKey_eq]; decide
  have hfd : ∀ t, findDictPath M' t = findDictPath M t := fun t => by unfold findDictPath; rw [hM]
  have hset : ∀ p, (∀ key, key ≠ userKey → (d'.set keySystemDict (.str p)).find key = (d.set keySystemDict (.str p)).find key) ∧
      (d'.set keySystemDict (.str p)).find userKey = d'.find userKey := by
    intro p
    refine ⟨fun key hk => ?_, JDict.find_set_other _ _ hs.symm⟩
    by_cases hks : key = keySystemDict
    · rw [hks, JDict.find_set_same, JDict.find_set_same]
    · rw [JDict.find_set_other _ _ hks, JDict.find_set_other _ _ hks, h.find hk]
  unfold chooseDict at hc ⊢
  cases t with
  | some t =>
    dsimp only at hc ⊢
    split at hc
    · rename_i ht
      rw [if_pos ht]
      have hw : warningTest d' t = warningTest d t := by unfold warningTest warning; rw [h.find hs]
      rw [hw, hfd]
      obtain ⟨u, h1, hc⟩ := bind_ok hc
      obtain ⟨p, h2, hc⟩ := bind_ok hc
      injection hc with hc
      rw [h1, h2]
      exact ⟨_, rfl, hc ▸ (hset p).1, (hset p).2⟩
    · cases hc
  | none =>
    dsimp only at hc ⊢
    rw [h.find hs, hfd]
    cases hf : d.find keySystemDict with
    | some v =>
      rw [hf] at hc
      dsimp only at hc ⊢
      split at hc
      · rename_i hv
        rw [if_pos hv]
        injection hc with hc
        exact ⟨_, rfl, fun key hk => hc ▸ h.find hk, rfl⟩
      · rename_i hv
        rw [if_neg hv]
        obtain ⟨p, h2, hc⟩ := bind_ok hc
        injection hc with hc
        rw [h2]
        exact ⟨_, rfl, hc ▸ (hset p).1, (hset p).2⟩
    | none =>
      rw [hf] at hc
      dsimp only at hc ⊢
      obtain ⟨p, h2, hc⟩ := bind_ok hc
      injection hc with hc
      rw [h2]
      exact ⟨_, rfl, hc ▸ (hset p).1, (hset p).2⟩

theorem Plugins.same {α : Type} {d d' : JDict} {key : String} {W : Json → α → Prop} {objs : List α}
    (hf : d'.find (codes key) = d.find (codes key)) (h : Plugins d key W objs) : Plugins d' key W objs := by
  unfold Plugins at h ⊢
  simp only [← JDict.find_says, ← JDict.find_silent] at h ⊢
  rw [hf]
  exact h

theorem Each.functional {α β : Type} {R : α → β → Prop} (hR : ∀ a b b', R a b → R a b' → b = b') {l : List α} {m m' : List β}
    (h : Each R l m) : Each R l m' → m = m' := by
  intro h'
  induction h generalizing m' with
  | nil => cases h'; rfl
  | cons h1 _ ih => cases h' with
    | cons h1' h2' => rw [hR _ _ _ h1 h1', ih h2']

theorem each_resolve {dir : PStr} {paths qs : List PStr} (h : Each (Resolves dir) paths qs) :
    paths.map (toAbsoluteResourcePath dir) = qs := by
  induction h with
  | nil => rfl
  | cons h1 _ ih => rw [List.map_cons, ih, resolve_only h1]

/-- **C68** User dictionaries added to (or taken from) the settings of a dictionary that opens change nothing but the user dictionaries:
the dictionary with them opens exactly when they can be loaded with the same configuration, and then it consists of that configuration
and what is loaded. -/
theorem C68_users_added {R : Runtime} {M : Disk} {s s1 : Settings} {c r t : Option PStr} {cfg : DictConfig} {dict0 : Dict} {d d' : JDict}
    {dir p : PStr} {file : Bytes} {paths qs : List PStr} {files : List Bytes} {f : PStr → Res JDict}
    (ho : openDictionary R M s c r t = (s1, .ok (cfg, dict0))) (hd : M.settings (settingFile M.toMachine c) = .ok d)
    (hd' : f (settingFile M.toMachine c) = .ok d') (hsame : SameButUsers d d') (hsays : Says d' userKey (.list (paths.map .str)))
    (hr : ResourceDirIs (settingFile M.toMachine c) r dir) (hp : s1.systemDictPath = .ok p) (hf : M.file p = .ok file)
    (hq : Each (Resolves dir) paths qs) (hfiles : Each (fun q b => M.file q = .ok b) qs files) (dict : Dict) :
    (∃ s', openDictionary R (M.withSettings f) s c r t = (s', .ok (cfg, dict))) ↔ Dict.load cfg file files = .ok dict := by
  obtain ⟨hs, e, dir', file', files', hO⟩ := (C68_opens ..).mp ho
  rw [← settingFile_eq] at hd hd' hr
  have hs0 := hs
  rw [setUp_ok M.toMachine s c r t d hd, resourceDir_eq hr] at hs
  cases hch : chooseDict M.toMachine d t with
  | error x => rw [hch] at hs; cases hs
  | ok e1 =>
  rw [hch] at hs
  obtain ⟨hs, _⟩ := Prod.mk.inj hs
  subst hs
  have he : e1 = e := Option.some.inj hO.content
  subst he
  have hdir : dir = dir' := Option.some.inj hO.directory
  subst hdir
  obtain ⟨e', c1, c2, c3⟩ := chooseDict_same (M' := (M.withSettings f).toMachine) rfl hsame hch
  have hset : setUp (M.withSettings f).toMachine s c r t =
      (⟨true, some e', some (strOr c M.defaultSetting), some dir⟩, .ok ()) := by
    rw [setUp_ok (M.withSettings f).toMachine s c r t d' hd', c1]
    show (_, _) = _
    rw [show strOr r (dirname (strOr c (M.withSettings f).toMachine.defaultSetting)) = dir from resourceDir_eq hr]
    rfl
  have hsys : (⟨true, some e', some (strOr c M.defaultSetting), some dir⟩ : Settings).systemDictPath =
      (⟨true, some e1, some (strOr c M.defaultSetting), some dir⟩ : Settings).systemDictPath := by
    unfold systemDictPath theDict theDir JDict.get
    dsimp only [bind, Except.bind]
    rw [c2 keySystemDict (by rw [userKey_eq]; decide)]
  have hchar : (⟨true, some e', some (strOr c M.defaultSetting), some dir⟩ : Settings).charDefPath =
      (⟨true, some e1, some (strOr c M.defaultSetting), some dir⟩ : Settings).charDefPath := by
    unfold charDefPath theDict theDir JDict.get
    dsimp only [bind, Except.bind]
    rw [c2 keyCharDef (by rw [userKey_eq]; decide)]
  have huser : (⟨true, some e', some (strOr c M.defaultSetting), some dir⟩ : Settings).userDictPaths = .ok qs := by
    have : e'.find keyUserDict = some (.list (paths.map .str)) := by
      rw [← userKey_eq, c3, JDict.find_says]; exact hsays
    unfold userDictPaths theDict theDir
    show (match e'.find keyUserDict with
          | none => pure []
          | some v => iterate v >>= fun l => pure dir >>= fun dir => l.mapM (toAbsolute dir)) = _
    rw [this]
    exact (mapM_resolve dir paths).trans (congrArg _ (each_resolve hq))
  obtain ⟨p', h1, h2⟩ := hO.system
  rw [hp] at h1
  cases h1
  rw [hf] at h2
  cases h2
  constructor
  · rintro ⟨s', h⟩
    obtain ⟨k1, d2, dir2, file2, files2, hO2⟩ := (C68_opens ..).mp h
    rw [hset] at k1
    obtain ⟨k1, _⟩ := Prod.mk.inj k1
    subst k1
    obtain ⟨p2, k2, k3⟩ := hO2.system
    rw [hsys, hp] at k2
    cases k2
    have k3 : M.file p = .ok file2 := k3
    rw [hf] at k3
    cases k3
    obtain ⟨ps2, k4, k5⟩ := hO2.users
    rw [huser] at k4
    cases k4
    have : files = files2 := hfiles.functional (fun a b b' h h' => by rw [h] at h'; exact Except.ok.inj h') k5
    subst this
    exact hO2.loaded
  · intro hl
    refine ⟨_, (C68_opens ..).mpr ⟨hset, e', dir, file, files, ?_⟩⟩
    refine ⟨rfl, rfl, ⟨p, hsys.trans hp, hf⟩, ⟨qs, huser, hfiles⟩, ?_, ?_, ?_, ?_, hO.runtime, hl⟩
    · rw [hchar]; exact hO.categories
    · obtain ⟨objs, h1, h2⟩ := hO.inputs
      exact ⟨objs, h1.same (c2 _ (by decide)), h2⟩
    · obtain ⟨sys, objs, h0, h1, h2⟩ := hO.providers
      exact ⟨sys, objs, h0, h1.same (c2 _ (by decide)), h2⟩
    · obtain ⟨sys, objs, h0, h1, h2⟩ := hO.rewriters
      exact ⟨sys, objs, h0, h1.same (c2 _ (by decide)), h2⟩

end Sudachi
