/-
C68: opening a dictionary.
-/
import Verif.Lemmas.Open
import Verif.Spec.Shipped
namespace Sudachi

theorem each_mapM {α β : Type} {f : α → Res β} {P : α → β → Prop} (h : ∀ a b, f a = .ok b ↔ P a b) {l : List α} {m : List β} :
    l.mapM f = .ok m ↔ Each P l m := by rw [mapM_iff]; exact Each.congr h

/-- **C68** An object of the settings gives an input text plugin exactly when it asks for one. -/
theorem C68_input (j : Json) (o : InputPluginObj) : getInputPlugin j = .ok o ↔ InputWanted j o := getInputPlugin_iff

/-- **C68** The same for OOV providers. -/
theorem C68_oov (j : Json) (o : OovPluginObj) : getOovPlugin j = .ok o ↔ OovWanted j o := getOovPlugin_iff

/-- **C68** The same for path rewriting plugins. -/
theorem C68_path (j : Json) (o : PathPluginObj) : getPathPlugin j = .ok o ↔ PathWanted j o := getPathPlugin_iff

theorem openWith_iff {R : Runtime} {M : Disk} {s : Settings} {cfg : DictConfig} {dict : Dict} :
    openWith R M s = .ok (cfg, dict) ↔ ∃ d dir file files, Opens R M s d dir file files cfg dict := by
  constructor
  · intro h
    unfold openWith at h
    obtain ⟨p, h1, h⟩ := bind_ok h
    obtain ⟨file, h2, h⟩ := bind_ok h
    obtain ⟨sys, h3, h⟩ := bind_ok h
    obtain ⟨cp, h4, h⟩ := bind_ok h
    obtain ⟨lines, h5, h⟩ := bind_ok h
    obtain ⟨ranges, h6, h⟩ := bind_ok h
    obtain ⟨ls, h5, h5'⟩ := read_ok.mp h5
    have h6 : readCharDef R.pick ls = .ok ranges := by unfold readCharDef; rw [h5']; exact h6
    obtain ⟨d, h7, h⟩ := bind_ok h
    obtain ⟨dir, h8, h⟩ := bind_ok h
    obtain ⟨iobjs, h9, h⟩ := bind_ok h
    obtain ⟨inputs, h10, h⟩ := bind_ok h
    obtain ⟨oobjs, h11, h⟩ := bind_ok h
    split at h
    · cases h
    · rename_i hne
      obtain ⟨oovs, h12, h⟩ := bind_ok h
      obtain ⟨pobjs, h13, h⟩ := bind_ok h
      obtain ⟨paths, h14, h⟩ := bind_ok h
      obtain ⟨ups, h15, h⟩ := bind_ok h
      obtain ⟨dict', h16, h⟩ := bind_ok h
      cases h
      obtain ⟨files, h17, h18⟩ := openUsers_iff.mp h16
      have hd : s.dict = some d := by
        unfold Settings.theDict at h7
        split at h7
        · rename_i h'; rw [h']; cases h7; rfl
        · cases h7
      have hdir : s.resourceDir = some dir := by
        unfold Settings.theDir at h8
        split at h8
        · rename_i h'; rw [h']; cases h8; rfl
        · cases h8
      have ho := (each_mapM (fun a b => oovReady_iff)).mp h12
      refine ⟨d, dir, file, files, hd, hdir, ⟨p, h1, h2⟩, ⟨ups, h15, h17⟩, ⟨cp, ls, ranges, h4, h5, h6, rfl⟩,
        ⟨iobjs, inputPlugins_iff.mp h9, (each_mapM (fun a b => inputReady_iff)).mp h10⟩,
        ⟨sys, oobjs, h3, oovPlugins_iff.mp h11, ho⟩,
        ⟨sys, pobjs, h3, pathPlugins_iff.mp h13, (each_mapM (fun a b => pathReady_iff)).mp h14⟩, ⟨rfl, rfl, rfl, rfl, rfl⟩, ?_⟩
      unfold Dict.load
      rw [h3]
      dsimp only [bind, Except.bind]
      rw [if_neg, h18]
      have := ho.length
      intro he
      rw [List.isEmpty_iff.mp he] at this
      exact hne (List.isEmpty_iff.mpr (List.length_eq_zero_iff.mp this))
  · rintro ⟨d, dir, file, files, h⟩
    obtain ⟨hd, hdir, ⟨p, h1, h2⟩, ⟨ups, h15, h17⟩, ⟨cp, ls, ranges, h4, h5, h6, hcat⟩, ⟨iobjs, h9, h10⟩, ⟨sys, oobjs, h3, h11, h12⟩,
      ⟨sys', pobjs, h3', h13, h14⟩, ⟨r1, r2, r3, r4, r5⟩, hl⟩ := h
    rw [h3] at h3'
    cases h3'
    unfold Dict.load at hl
    rw [h3] at hl
    dsimp only [bind, Except.bind] at hl
    split at hl
    · cases hl
    · rename_i hne
      have hne' : ¬ oobjs.isEmpty = true := by
        intro he
        rw [List.isEmpty_iff] at he
        subst he
        exact hne (List.isEmpty_iff.mpr (List.length_eq_zero_iff.mp h12.length.symm))
      obtain ⟨D, depth, fuel, catOf, lower, nfkc, ips, oovs, pps⟩ := cfg
      dsimp only at *
      subst r1 r2 r3 r4 r5 hcat
      unfold openWith
      have h7 : s.theDict = .ok d := by unfold Settings.theDict; rw [hd]
      have h8 : s.theDir = .ok dir := by unfold Settings.theDir; rw [hdir]
      rw [h1]; dsimp only [bind, Except.bind]
      rw [h2]; dsimp only
      rw [h3]; dsimp only
      rw [h4]; dsimp only
      obtain ⟨rs, h6a, h6⟩ := bind_ok h6
      rw [read_ok.mpr ⟨ls, h5, h6a⟩]; dsimp only
      rw [h6]; dsimp only
      rw [h7]; dsimp only
      rw [h8]; dsimp only
      rw [inputPlugins_iff.mpr h9]; dsimp only
      rw [(each_mapM (fun a b => inputReady_iff)).mpr h10]; dsimp only
      rw [oovPlugins_iff.mpr h11]; dsimp only
      rw [if_neg hne']
      rw [(each_mapM (fun a b => oovReady_iff)).mpr h12]; dsimp only
      rw [pathPlugins_iff.mpr h13]; dsimp only
      rw [(each_mapM (fun a b => pathReady_iff)).mpr h14]; dsimp only
      rw [h15]; dsimp only
      rw [openUsers_iff.mpr ⟨files, h17, hl⟩]
      rfl

/-- **C68** Opening a dictionary succeeds exactly when the settings could be set up and all the files, definitions, plugins and
dictionaries they ask for are there and can be read; and the dictionary is then made of these. -/
theorem C68_opens (R : Runtime) (M : Disk) (s s' : Settings) (c r t : Option PStr) (cfg : DictConfig) (dict : Dict) :
    openDictionary R M s c r t = (s', .ok (cfg, dict)) ↔
      s.setUp M.toMachine c r t = (s', .ok ()) ∧ ∃ d dir file files, Opens R M s' d dir file files cfg dict := by
  unfold openDictionary
  rcases hs : s.setUp M.toMachine c r t with ⟨s1, r1⟩
  cases r1 with
  | error e =>
    dsimp only
    constructor
    · intro h; cases h
    · rintro ⟨h, _⟩; cases h
  | ok u =>
    dsimp only
    rw [Prod.mk.injEq, openWith_iff]
    constructor
    · rintro ⟨rfl, h⟩; exact ⟨rfl, h⟩
    · rintro ⟨h, h'⟩; cases h; exact ⟨rfl, h'⟩

/-- **C68** Without an OOV provider no dictionary opens. -/
theorem C68_needs_provider (R : Runtime) (M : Disk) (s : Settings) (d : JDict) (hd : s.dict = some d)
    (hno : Plugins d "oovProviderPlugin" OovWanted []) : ∃ e, openWith R M s = .error e := by
  cases h : openWith R M s with
  | error e => exact ⟨e, rfl⟩
  | ok x =>
    obtain ⟨cfg, dict⟩ := x
    obtain ⟨d', dir, file, files, hO⟩ := openWith_iff.mp h
    obtain ⟨sys, objs, h1, h2, h3⟩ := hO.providers
    have : d' = d := by rw [hO.content] at hd; cases hd; rfl
    subst this
    have e := oovPlugins_iff.mpr h2
    rw [oovPlugins_iff.mpr hno] at e
    cases e
    have hoov := List.length_eq_zero_iff.mp h3.length.symm
    have hl := hO.loaded
    unfold Dict.load at hl
    obtain ⟨sys', _, hl⟩ := bind_ok hl
    rw [hoov] at hl
    cases hl

/-- **C68** A MeCab provider whose `charDef` path comes out empty is refused with an `AttributeError`, before anything is read. -/
theorem C68_empty_path_refused (M : Disk) (others : PStr → Option Attr) (dir : PStr) (g : Grammar) (c u : Json)
    (h : joinJson dir c = .ok []) : (OovPluginObj.mecab c u).setUp M others dir g = .error .attribute := by
  show (joinJson dir c >>= fun charDef => _) = _
  rw [h]
  rfl

example : joinJson [] (.str []) = .ok [] := by decide

theorem keyToValue_at {α : Type} {j : Json} {key : PStr} {f : Json → Res α} :
    ((∀ d, j ≠ .obj d) → keyToValue (j.at key >>= f) = .error .type) ∧
    (∀ d, j = .obj d → Silent d key → keyToValue (j.at key >>= f) = .error .value) := by
  constructor
  · intro h
    have : j.at key = .error .type := by
      unfold Json.at
      split
      · exact absurd rfl (h _)
      · rfl
    rw [this]; rfl
  · rintro d rfl h
    have : (Json.obj d).at key = .error .key := by
      show JDict.get d key = _
      unfold JDict.get
      rw [JDict.find_silent.mpr h]
    rw [this]; rfl

/-- **C68** What is no object is refused with a `TypeError`; an object without a class, or with a class that is none of the known ones,
with a `ValueError`. -/
theorem C68_class_refused (j : Json) :
    ((∀ d, j ≠ .obj d) → getInputPlugin j = .error .type ∧ getOovPlugin j = .error .type ∧ getPathPlugin j = .error .type) ∧
    (j.Lacks "class" → getInputPlugin j = .error .value ∧ getOovPlugin j = .error .value ∧ getPathPlugin j = .error .value) ∧
    (∀ v, j.Has "class" v →
      (v ≠ .str (codes "sudachipy.plugin.input_text.DefaultInputTextPlugin") →
        v ≠ .str (codes "sudachipy.plugin.input_text.ProlongedSoundMarkInputTextPlugin") → getInputPlugin j = .error .value) ∧
      (v ≠ .str (codes "sudachipy.plugin.oov.MeCabOovProviderPlugin") →
        v ≠ .str (codes "sudachipy.plugin.oov.SimpleOovProviderPlugin") → getOovPlugin j = .error .value) ∧
      (v ≠ .str (codes "sudachipy.plugin.path_rewrite.JoinNumericPlugin") →
        v ≠ .str (codes "sudachipy.plugin.path_rewrite.JoinKatakanaOovPlugin") → getPathPlugin j = .error .value)) := by
  refine ⟨fun h => ⟨keyToValue_at.1 h, keyToValue_at.1 h, keyToValue_at.1 h⟩, ?_, ?_⟩
  · rintro ⟨d, rfl, h⟩
    rw [← keyClass_eq] at h
    exact ⟨keyToValue_at.2 d rfl h, keyToValue_at.2 d rfl h, keyToValue_at.2 d rfl h⟩
  · intro v h
    have h := at_iff.mpr h
    rw [← keyClass_eq] at h
    rw [← classDefault_eq, ← classProlonged_eq, ← classMeCab_eq, ← classSimple_eq, ← classNumeric_eq, ← classKatakana_eq]
    unfold getInputPlugin getOovPlugin getPathPlugin
    rw [h]
    dsimp only [bind, Except.bind]
    refine ⟨fun h1 h2 => ?_, fun h1 h2 => ?_, fun h1 h2 => ?_⟩ <;>
    · cases v with
      | str s =>
        dsimp only
        rw [if_neg (fun e => h1 (by rw [e])), if_neg (fun e => h2 (by rw [e]))]
        rfl
      | _ => rfl

/-- **C68** A key that the class needs and the object does not have is a `ValueError`. -/
theorem C68_key_refused (j : Json) :
    (j.Has "class" (.str (codes "sudachipy.plugin.oov.MeCabOovProviderPlugin")) → (j.Lacks "charDef" ∨ j.Lacks "unkDef") →
      getOovPlugin j = .error .value) ∧
    (j.Has "class" (.str (codes "sudachipy.plugin.oov.SimpleOovProviderPlugin")) →
      (j.Lacks "leftId" ∨ j.Lacks "rightId" ∨ j.Lacks "cost" ∨ j.Lacks "oovPOS") → getOovPlugin j = .error .value) ∧
    (j.Has "class" (.str (codes "sudachipy.plugin.path_rewrite.JoinKatakanaOovPlugin")) → j.Lacks "oovPOS" →
      getPathPlugin j = .error .value) := by
  have hl : ∀ {k : String}, j.Lacks k → j.at (codes k) = .error .key := by
    rintro k ⟨d, rfl, h⟩
    show JDict.get d _ = _
    unfold JDict.get
    rw [JDict.find_silent.mpr h]
  have he : ∀ {v : Json} (_ : j.Has "class" v) (k : PStr), (∃ w, j.at k = .ok w) ∨ j.at k = .error .key := by
    rintro v ⟨d, rfl, _⟩ k
    show (∃ w, JDict.get d k = _) ∨ JDict.get d k = _
    unfold JDict.get
    cases JDict.find d k with
    | none => exact .inr rfl
    | some w => exact .inl ⟨w, rfl⟩
  refine ⟨fun hc h => ?_, fun hc h => ?_, fun hc h => ?_⟩
  · unfold getOovPlugin
    have e := at_iff.mpr hc
    rw [← keyClass_eq, ← classMeCab_eq] at e
    rw [e]
    dsimp only [bind, Except.bind]
    rw [if_pos rfl]
    rcases h with h | h
    · have h := hl h
      rw [← keyCharDefName_eq] at h
      rw [h]; rfl
    · have h := hl h
      rw [← keyUnkDef_eq] at h
      rcases he hc keyCharDefName with ⟨w, k⟩ | k <;> rw [k]
      · dsimp only; rw [h]; rfl
      · rfl
  · unfold getOovPlugin
    have e := at_iff.mpr hc
    rw [← keyClass_eq, ← classSimple_eq] at e
    rw [e]
    dsimp only [bind, Except.bind]
    rw [if_neg (by decide +kernel), if_pos rfl]
    have h : j.at keyLeftId = .error .key ∨ j.at keyRightId = .error .key ∨ j.at keyCost = .error .key ∨ j.at keyOovPOS = .error .key := by
      rw [keyLeftId_eq, keyRightId_eq, keyCost_eq, keyOovPOS_eq]
      rcases h with h | h | h | h
      · exact .inl (hl h)
      · exact .inr (.inl (hl h))
      · exact .inr (.inr (.inl (hl h)))
      · exact .inr (.inr (.inr (hl h)))
    rcases he hc keyLeftId with ⟨w1, k1⟩ | k1 <;> rw [k1] at h ⊢
    · dsimp only
      rcases he hc keyRightId with ⟨w2, k2⟩ | k2 <;> rw [k2] at h ⊢
      · dsimp only
        rcases he hc keyCost with ⟨w3, k3⟩ | k3 <;> rw [k3] at h ⊢
        · dsimp only
          rcases he hc keyOovPOS with ⟨w4, k4⟩ | k4 <;> rw [k4] at h ⊢
          · rcases h with h | h | h | h <;> cases h
          · rfl
        · rfl
      · rfl
    · rfl
  · unfold getPathPlugin
    have e := at_iff.mpr hc
    rw [← keyClass_eq, ← classKatakana_eq] at e
    rw [e]
    dsimp only [bind, Except.bind]
    rw [if_neg (by decide +kernel), if_pos rfl]
    have h := hl h
    rw [← keyOovPOS_eq] at h
    rw [h]
    rfl

/-- **C68** `JoinKatakanaOovPlugin` without a part of speech of the dictionary is refused with a `ValueError`; nothing else goes wrong when a
path rewriting plugin is set up. -/
theorem C68_path_refused (g : Grammar) (o : PathPluginObj) (e : Err) :
    o.setUp g = .error e ↔ e = .value ∧ ∃ p m, o = .katakana p m ∧ ¬ ∃ c, PathReady g o c := by
  have key : (∃ c, o.setUp g = .ok c) ∨ (o.setUp g = .error .value ∧ ∃ p m, o = .katakana p m) := by
    cases o with
    | numeric b => exact .inl ⟨_, rfl⟩
    | katakana p m =>
      unfold PathPluginObj.setUp
      dsimp only
      split
      · exact .inr ⟨rfl, p, m, rfl⟩
      · split
        · exact .inr ⟨rfl, p, m, rfl⟩
        · exact .inl ⟨_, rfl⟩
  rcases key with ⟨c, h⟩ | ⟨h, hk⟩
  · rw [h]
    exact ⟨fun k => (by cases k), fun ⟨_, _, _, _, k⟩ => absurd ⟨c, pathReady_iff.mp h⟩ k⟩
  · rw [h]
    constructor
    · intro k
      cases k
      obtain ⟨p, m, ho⟩ := hk
      refine ⟨rfl, p, m, ho, ?_⟩
      rintro ⟨c, hc⟩
      rw [pathReady_iff.mpr hc] at h
      cases h
    · rintro ⟨rfl, _⟩; rfl

/-- A part of speech that the dictionary does not have. -/
example : (PathPluginObj.katakana (.list [.str [97]]) 1).setUp ⟨[[[98]]], 0, 0, [], 0⟩ = .error .value :=
  (C68_path_refused _ _ _).mpr ⟨rfl, _, _, rfl, fun ⟨c, hc⟩ => by have := pathReady_iff.mpr hc; cases this⟩

/-- A class of the user's, and a MeCab provider without unk.def. -/
example : getOovPlugin (.obj [(codes "class", .str (codes "mine"))]) = .error .value ∧
    getOovPlugin (.obj [(codes "class", .str (codes "sudachipy.plugin.oov.MeCabOovProviderPlugin")), (codes "charDef", .str [99])]) = .error .value :=
  ⟨((C68_class_refused _).2.2 _ ⟨_, rfl, [], [], rfl, by simp⟩).2.1
    (fun h => absurd (Json.str.inj h) (by decide +kernel)) (fun h => absurd (Json.str.inj h) (by decide +kernel)),
    (C68_key_refused _).1 ⟨_, rfl, [], _, rfl, by simp⟩ (.inr ⟨_, rfl, by unfold Silent; decide +kernel⟩)⟩

/-- **C68** What does not ask for an input text plugin is refused: an unknown class or a missing key with `ValueError`, a value of a wrong
type with `TypeError`. -/
theorem C68_input_refused {j : Json} {e : Err} (h : getInputPlugin j = .error e) : e = .value ∨ e = .type := by
  have hat : ∀ k x, j.at k = .error x → x = .key ∨ x = .type := by
    intro k x hx
    unfold Json.at at hx
    split at hx
    · unfold JDict.get at hx
      split at hx
      · cases hx
      · cases hx; exact .inl rfl
    · cases hx; exact .inr rfl
  have hit : ∀ v x, Settings.iterate v = .error x → x = .type := by
    intro v x hx; unfold Settings.iterate at hx; split at hx <;> cases hx; rfl
  have hord : ∀ (l : List Json) x, l.mapM Json.ord = .error x → x = .type := by
    intro l
    induction l with
    | nil => intro x hx; cases hx
    | cons a l ih =>
      intro x hx
      rw [List.mapM_cons] at hx
      cases h1 : Json.ord a with
      | error y =>
        rw [h1] at hx
        cases hx
        unfold Json.ord at h1
        split at h1 <;> cases h1; rfl
      | ok c =>
        rw [h1] at hx
        have hx : (l.mapM Json.ord).bind _ = _ := hx
        cases h2 : l.mapM Json.ord with
        | error y => rw [h2] at hx; cases hx; exact ih _ h2
        | ok cs => rw [h2] at hx; cases hx
  have hk : ∀ {r : Res InputPluginObj}, (∀ x, r = .error x → x = .key ∨ x = .value ∨ x = .type) → keyToValue r = .error e →
      e = .value ∨ e = .type := by
    intro r hr h
    cases r with
    | ok o => cases h
    | error x =>
      rcases hr x rfl with rfl | rfl | rfl <;> cases h
      · exact .inl rfl
      · exact .inl rfl
      · exact .inr rfl
  refine hk ?_ h
  intro x hx
  cases h1 : j.at keyClass with
  | error y => rw [h1] at hx; cases hx; rcases hat _ _ h1 with h | h <;> simp [h]
  | ok v =>
    rw [h1] at hx
    dsimp only [bind, Except.bind] at hx
    split at hx
    · split at hx
      · cases hx
      · split at hx
        · unfold prolongedInit at hx
          have hx : (marksOf j).bind _ = _ := hx
          cases h2 : marksOf j with
          | error y =>
            rw [h2] at hx
            cases hx
            unfold marksOf at h2
            split at h2
            · cases h2
            · rename_i v _
              have h2 : (Settings.iterate v).bind _ = _ := h2
              cases h3 : Settings.iterate v with
              | error z => rw [h3] at h2; cases h2; simp [hit _ _ h3]
              | ok l => rw [h3] at h2; simp [hord _ _ h2]
          | ok ms =>
            rw [h2] at hx
            dsimp only [Except.bind] at hx
            split at hx <;> cases hx
            simp
        · cases hx; simp
    · cases hx; simp

/-- Settings that ask for a plugin with an option, and settings that do not. -/
example : PathWanted (.obj [(codes "class", .str (codes "sudachipy.plugin.path_rewrite.JoinNumericPlugin")),
    (codes "enableNormalize", .num 0)]) (.numeric false) :=
  ⟨⟨_, rfl, [], _, rfl, by simp⟩, .inr ⟨.num 0, ⟨_, rfl, [_], [], rfl, by decide⟩, by simp [Json.Empty]⟩⟩
example : ∃ o, getPathPlugin (.obj [(codes "class", .str (codes "sudachipy.plugin.path_rewrite.JoinNumericPlugin")),
    (codes "enableNormalize", .num 0)]) = .ok o :=
  ⟨.numeric false, (C68_path _ _).mpr ⟨⟨_, rfl, [], _, rfl, by simp⟩, .inr ⟨.num 0, ⟨_, rfl, [_], [], rfl, by decide⟩, by simp [Json.Empty]⟩⟩⟩
example : ∃ e, getOovPlugin (.obj [(codes "class", .str (codes "sudachipy.plugin.oov.MeCabOovProviderPlugin")),
    (codes "charDef", .str (codes "char.def"))]) = .error e := ⟨.value, by rw [← classMeCab_eq, ← keyClass_eq, ← keyCharDefName_eq]; rfl⟩

end Sudachi
