/-
C69: the package as it ships.
-/
import Verif.Spec.ShippedMachine
import Verif.Lemmas.Shipped
import Verif.Props.Open
import Verif.Props.Config
import Verif.Props.EndToEnd
namespace Sudachi
open DictBuilder

/-- A built system dictionary loads, and its grammar has the parts of speech of its rows. -/
theorem system_loads {D : Darts} {src : DictSource} {file : Bytes} (hD : D.Ok) (hb : src.Builds D none file)
    (hv : src.header.version = SYSTEM_DICT_VERSION_2) :
    ∃ ds g, readDictionary file = .ok ds ∧ Dict.readSystem file = .ok ⟨g, LexSet.init ds.lexicon⟩ ∧
      ∀ w c, RowIs src.rows w c → c.Fits → c.pos ∈ g.posList := by
  obtain ⟨hS, ops, h1, hf⟩ := hb
  have hb : src.Builds D none file := ⟨hS, ops, h1, hf⟩
  obtain ⟨P, hP, hf'⟩ := DictBuilder.build_ok h1
  obtain ⟨g, g1, g2, g3⟩ := load_built hP hS hD
  rw [← hf', ← hf] at g1
  obtain ⟨g', F⟩ := compiled_facts hD hS (hb.compiled g1)
  have hg : g' = g := by have := F.grammar; cases this; rfl
  subst hg
  refine ⟨_, g', g1, ?_, ?_⟩
  · unfold Dict.readSystem fromSystemDictionary
    rw [g1]
    dsimp only [bind, Except.bind]
    rw [hv]
    rfl
  · intro w c hw hc
    obtain ⟨wi, _, hi, _⟩ := F.infos w c hw hc
    have := hi.pos.2
    exact List.mem_of_getElem? this

/-- The settings after opening with the shipped settings. -/
def shippedSet (M : Disk) (core : PStr) : Settings :=
  ⟨true, some (shippedSettings.set keySystemDict (.str core)), some M.defaultSetting, some M.resources⟩

theorem Disk.Shipped.setUp {M : Disk} {core : PStr} (h : M.Shipped core) (s : Settings) :
    s.setUp M.toMachine none none none = (shippedSet M core, .ok ()) := by
  obtain ⟨d, c, hd, hc⟩ := h.directory
  have hdir : dirname M.defaultSetting = M.resources := by
    rw [h.setting, hd]
    have : DirOf (d ++ [c] ++ List.replicate (0 + 1) 47 ++ codes "sudachi.json") (d ++ [c]) := .under d c 0 _ hc (by decide)
    have hk : codes "/sudachi.json" = List.replicate (0 + 1) 47 ++ codes "sudachi.json" := by decide
    rw [hk, ← List.append_assoc]
    exact dirname_ok this
  rw [Settings.setUp_ok M.toMachine s none none none shippedSettings h.settings]
  have hp : findDictPath M.toMachine Sudachi.core = .ok core := by
    rw [findDictPath_ok]
    have : packageOf Sudachi.core = codes "sudachidict_core" := by decide
    rw [this]; exact h.package
  have hcd : Settings.chooseDict M.toMachine shippedSettings none = .ok (shippedSettings.set keySystemDict (.str core)) := by
    unfold Settings.chooseDict
    have : shippedSettings.find keySystemDict = some (.str []) := by rfl
    dsimp only
    rw [this]
    dsimp only
    rw [if_neg (by decide), hp]
    rfl
  rw [hcd]
  dsimp only [strOr]
  rw [hdir]
  rfl

theorem Disk.Shipped.below {M : Disk} {core : PStr} (h : M.Shipped core) (name : PStr) (hn : name.head? ≠ some 47) :
    joinPath M.resources name = M.resources ++ 47 :: name := by
  obtain ⟨d, c, hd, hc⟩ := h.directory
  unfold joinPath
  rw [if_neg hn, if_neg]
  rw [hd]
  simp [hc]

theorem shipped_lines {M : Disk} {path : PStr} {ls : List PStr} (h : M.file path = .ok (textFile ls)) (hp : ls.all plainLine = true) :
    M.HasLines path (ls.map (· ++ [10])) := ⟨_, h, textLines_textFile hp⟩

/-- The shipped marks of prolonged sounds: ー, -, ⁓, 〜, 〰. -/
def shippedMarks : List Nat := [0x30FC, 0x2D, 0x2053, 0x301C, 0x3030]

/-- **C69** On a machine with the shipped files and a core dictionary built from a source with the shipped part of speech, a
dictionary opens with no arguments; it is the installation of that source alone, and the settings are such that no
exception can come from them: a complete configuration for any matrix that has the ids of the shipped settings. -/
theorem C69_opens {R : Runtime} {M : Disk} {core : PStr} {file : Bytes} {S : Sources} (hM : M.Shipped core) (hD : R.D.Ok)
    (hU : R.UnicodeOk) (hf : M.file core = .ok file) (hb : S.system.Builds R.D none file) (hs : S.system.ForShipped)
    (husers : S.users = []) (hsys : ∀ ds, readDictionary file = .ok ds → ∃ depth, S.sys = ds.toSysDict R.D depth) (s : Settings) :
    ∃ cfg dict, openDictionary R M s none none none = (shippedSet M core, .ok (cfg, dict)) ∧ S.Installed cfg dict ∧
      cfg.D = R.D ∧ cfg.depth = R.depth ∧ cfg.fuel = R.fuel ∧ (∀ n, 5968 < n → cfg.Complete n) ∧ NumericFirst cfg.pathPlugins ∧
      ∃ rs, compile R.pick shippedRanges = .ok rs ∧ cfg.catOf = getCategoryTypes rs := by
  obtain ⟨ds, g, r1, r2, r3⟩ := system_loads hD hb hs.system
  obtain ⟨w, c, hw, hc, hpos⟩ := hs.noun
  have hnoun := hpos ▸ r3 w c hw hc
  obtain ⟨rs, c1, c2, c3, c4, _⟩ := C21_shipped_char_def R.pick
  obtain ⟨cs, us, m1, m2, m3, m4⟩ := shipped_mecab R.others g
  have ht := shipped_table
  cases htb : readRewriteDef (shippedRewriteDef.map (· ++ [10])) with
  | error e => rw [htb] at ht; cases ht
  | ok tb =>
  rw [htb] at ht
  have hchar := shipped_lines hM.charDef shipped_char_plain
  have hunk := shipped_lines hM.unkDef shipped_unk_plain
  have hrew := shipped_lines hM.rewriteDef shipped_rewrite_plain
  have k1 : codes "/char.def" = 47 :: pstr! "char.def" := by decide
  have k2 : codes "/unk.def" = 47 :: pstr! "unk.def" := by decide
  have k3 : codes "/rewrite.def" = 47 :: rewriteDef := by decide
  rw [k1, ← hM.below _ (by decide)] at hchar
  rw [k2, ← hM.below _ (by decide)] at hunk
  rw [k3, ← hM.below _ (by decide)] at hrew
  have e1 : (shippedSet M core).systemDictPath = .ok core := by
    rw [Settings.systemDictPath_of (d := shippedSettings.set keySystemDict (.str core)) (dir := M.resources) (v := .str core) rfl rfl rfl]
    unfold toAbsolute toAbsoluteResourcePath
    dsimp only
    rw [if_pos ((absolute_iff core).mp hM.absolute)]
  have e2 : (shippedSet M core).charDefPath = .ok (joinPath M.resources (pstr! "char.def")) := rfl
  have e3 : M.read charDefLines (joinPath M.resources (pstr! "char.def")) = .ok shippedRanges := read_ok.mpr ⟨_, hchar, shipped_ranges⟩
  have e4 : getPlugins (shippedSettings.set keySystemDict (.str core)) keyInputPlugins getInputPlugin =
      .ok [.default, .psm shippedMarks [0x30FC]] := by rfl
  have e5 : getPlugins (shippedSettings.set keySystemDict (.str core)) keyOovPlugins getOovPlugin =
      .ok [.mecab (.str (pstr! "char.def")) (.str (pstr! "unk.def")),
        .simple 5968 5968 3857 (.list [.str (pstr! "補助記号"), .str (pstr! "一般"), .str [42], .str [42], .str [42], .str [42]])] := by rfl
  have e6 : getPlugins (shippedSettings.set keySystemDict (.str core)) keyPathPlugins getPathPlugin =
      .ok [.numeric true, .katakana (.list [.str (pstr! "名詞"), .str (pstr! "普通名詞"), .str (pstr! "一般"), .str [42], .str [42], .str [42]]) 3] := by
    rfl
  have e7 : (shippedSet M core).userDictPaths = .ok [] := rfl
  have i1 : ([.default, .psm shippedMarks [0x30FC]] : List InputPluginObj).mapM (·.setUp M) = .ok [.default tb, .psm shippedMarks [0x30FC]] := by
    rw [List.mapM_cons]
    unfold InputPluginObj.setUp
    dsimp only
    rw [read_ok.mpr ⟨_, hrew, htb⟩]
    rfl
  have hdef : ∀ name : PStr, name.head? ≠ some 47 → joinPath M.resources name ≠ [] := by
    intro name hn
    rw [hM.below _ hn]
    simp
  obtain ⟨so, hso⟩ : ∃ i, posIdOf g (.list [.str (pstr! "補助記号"), .str (pstr! "一般"), .str [42], .str [42], .str [42], .str [42]]) = i := ⟨_, rfl⟩
  have i2 : ([.mecab (.str (pstr! "char.def")) (.str (pstr! "unk.def")),
        .simple 5968 5968 3857 (.list [.str (pstr! "補助記号"), .str (pstr! "一般"), .str [42], .str [42], .str [42], .str [42]])]
        : List OovPluginObj).mapM (·.setUp M R.others M.resources g) =
      .ok [.mecab shippedCategories (members us), .simple ⟨5968, 5968, 3857, so⟩] := by
    have hm : (OovPluginObj.mecab (.str (pstr! "char.def")) (.str (pstr! "unk.def"))).setUp M R.others M.resources g =
        .ok (.mecab shippedCategories (members us)) := by
      unfold OovPluginObj.setUp joinJson
      dsimp only [bind, Except.bind]
      rw [defined_iff.mpr ⟨hdef _ (by decide), _, hchar, m1⟩]
      dsimp only
      rw [defined_iff.mpr ⟨hdef _ (by decide), _, hunk, m2⟩]
      dsimp only
      rw [m3]
      rfl
    rw [List.mapM_cons, hm, ← hso]
    rfl
  obtain ⟨kp, hkp, hk0⟩ : ∃ i : Int, posIdOf g (.list [.str (pstr! "名詞"), .str (pstr! "普通名詞"), .str (pstr! "一般"), .str [42], .str [42], .str [42]]) = i ∧
      0 ≤ i := by
    refine ⟨_, rfl, ?_⟩
    have hn : commonNoun = [pstr! "名詞", pstr! "普通名詞", pstr! "一般", [42], [42], [42]] := by decide
    rw [hn] at hnoun
    show 0 ≤ g.posId [pstr! "名詞", pstr! "普通名詞", pstr! "一般", [42], [42], [42]]
    rcases posNumber_iff.mpr (rfl : g.posId [pstr! "名詞", pstr! "普通名詞", pstr! "一般", [42], [42], [42]] = _) with ⟨i, h1, _⟩ | ⟨_, h2⟩
    · rw [h1]; omega
    · exact absurd hnoun h2
  have i3 : ([.numeric true, .katakana (.list [.str (pstr! "名詞"), .str (pstr! "普通名詞"), .str (pstr! "一般"), .str [42], .str [42], .str [42]]) 3]
        : List PathPluginObj).mapM (·.setUp g) = .ok [.numeric ⟨g.posId numericPos, true⟩, .katakana ⟨kp, 3⟩] := by
    have hm : (PathPluginObj.katakana (.list [.str (pstr! "名詞"), .str (pstr! "普通名詞"), .str (pstr! "一般"), .str [42], .str [42], .str [42]]) 3).setUp g =
        .ok (.katakana ⟨kp, 3⟩) := by
      unfold PathPluginObj.setUp
      dsimp only
      rw [if_neg (by simp [Json.truthy]), hkp, if_neg (by omega)]
      rfl
    rw [List.mapM_cons, List.mapM_cons, hm]
    rfl
  have ho : openWith R M (shippedSet M core) = .ok (⟨R.D, R.depth, R.fuel, getCategoryTypes rs, R.lower, R.nfkc,
      [.default tb, .psm shippedMarks [0x30FC]], [.mecab shippedCategories (members us), .simple ⟨5968, 5968, 3857, so⟩],
      [.numeric ⟨g.posId numericPos, true⟩, .katakana ⟨kp, 3⟩]⟩, ⟨g, LexSet.init ds.lexicon⟩) := by
    unfold openWith
    rw [e1]; dsimp only [bind, Except.bind]
    rw [hf]; dsimp only
    rw [r2]; dsimp only
    rw [e2]; dsimp only
    rw [e3]; dsimp only
    rw [c1]; dsimp only [Settings.theDict, Settings.theDir, shippedSet]
    rw [e4]; dsimp only
    rw [i1]; dsimp only
    rw [e5]; dsimp only
    rw [if_neg (by simp), i2]; dsimp only
    rw [e6]; dsimp only
    rw [i3]; dsimp only
    rfl
  have ho' : openDictionary R M s none none none = (shippedSet M core, openWith R M (shippedSet M core)) := by
    unfold openDictionary
    rw [hM.setUp s]
  rw [ho] at ho'
  refine ⟨_, _, ho', ?_, rfl, rfl, rfl, ?_, ?_, rs, c1, rfl⟩
  · obtain ⟨depth, hd⟩ := hsys ds r1
    refine ⟨file, [], ds, depth, hb, r1, hd, by rw [husers]; rfl, ?_, ?_⟩
    · intro k src b h
      rw [husers] at h
      cases h
    · unfold Dict.load
      rw [r2]
      rfl
  · intro n hn
    refine ⟨⟨hU.lower, hU.nfkc, ?_⟩, hU.lowerEnc, hU.nfkcEnc, ?_, c2, c3, ?_, ⟨_, rfl⟩, ?_, ?_⟩
    · intro marks sym h
      rcases List.mem_cons.mp h with h | h
      · cases h
      · rcases List.mem_cons.mp h with h | h
        · cases h; decide
        · cases h
    · intro p hp
      rcases List.mem_cons.mp hp with rfl | hp
      · intro k v hv x hx
        have hm := dictGet_mem hv
        exact List.all_eq_true.mp (List.all_eq_true.mp ht (k, v) hm) x hx
      · rcases List.mem_cons.mp hp with rfl | hp
        · show ∀ c ∈ [0x30FC], encodable c = true
          decide
        · cases hp
    · intro cats oovs h
      rcases List.mem_cons.mp h with h | h
      · cases h; exact c4
      · rcases List.mem_cons.mp h with h | h
        · cases h
        · cases h
    · intro p hp
      rcases List.mem_cons.mp hp with rfl | hp
      · intro e he
        have := m4 e.1 e.2 he
        simp only [entryInRange, Bool.and_eq_true, decide_eq_true_eq] at this
        exact ⟨this.1.2, this.2⟩
      · rcases List.mem_cons.mp hp with rfl | hp
        · show Short 3857
          exact ⟨by decide, by decide⟩
        · cases hp
    · intro p hp o ho
      rcases List.mem_cons.mp hp with rfl | hp
      · obtain ⟨ty, he⟩ := ho
        have := m4 _ _ he
        simp only [entryInRange, Bool.and_eq_true, decide_eq_true_eq] at this
        unfold Sources.InRange
        omega
      · rcases List.mem_cons.mp hp with rfl | hp
        · cases (ho : o = _)
          unfold Sources.InRange
          dsimp only
          omega
        · cases hp
  · intro p hp
    rcases List.mem_cons.mp hp with rfl | hp
    · exact ⟨_, rfl⟩
    · cases hp

/-- **C69** The package as it ships, with a core dictionary built from a complete source: every encodable text whose length
cannot overflow costs is tokenized, in every mode. -/
theorem C69_tokenizes {R : Runtime} {M : Disk} {core : PStr} {file : Bytes} {S : Sources} {n : Nat} {entries : List (Int × Int × Int)}
    (hM : M.Shipped core) (hD : R.D.Ok) (hU : R.UnicodeOk) (hf : M.file core = .ok file) (hb : S.system.Builds R.D none file)
    (hs : S.system.ForShipped) (husers : S.users = [])
    (hsys : ∀ ds, readDictionary file = .ok ds → ∃ depth, S.sys = ds.toSysDict R.D depth)
    (hS : S.Complete n entries R.depth) (hn : 5968 < n)
    (hsep : ∀ rs, compile R.pick shippedRanges = .ok rs → S.NoSeparators (getCategoryTypes rs)) (s : Settings) :
    ∃ cfg dict, openDictionary R M s none none none = (shippedSet M core, .ok (cfg, dict)) ∧
      ∀ (mode0 : Option Mode) (L : Lattice), (create cfg dict mode0).CleanHistory L → ∀ text : PStr, text ≠ [] → (∀ c ∈ text, encodable c = true) →
        (∀ t, (create cfg dict mode0).buildInput text = .ok t →
          SafeLength t.bytes.length ∧ 3 * (t.bytes.length + 1) * (t.bytes.length + 1) ≤ R.fuel) →
        ∀ mode : Option Mode, ∃ ml, ((create cfg dict mode0).tokenize L text mode).2 = .ok ml := by
  obtain ⟨cfg, dict, h1, h2, h3, h4, h5, h6, h7, rs, h8, h9⟩ := C69_opens hM hD hU hf hb hs husers hsys s
  refine ⟨cfg, dict, h1, ?_⟩
  intro mode0 L hL text hne henc hlen mode
  obtain ⟨rs', k1, _, _, _, k5⟩ := C21_shipped_char_def R.pick
  rw [h8] at k1
  cases k1
  exact C62_succeeds (h3 ▸ hD) h2 (h4 ▸ hS) (h6 n hn) (h9 ▸ hsep rs h8) (h9 ▸ k5) cfg.pathPlugins h7 (mode0.getD .C) hL hne henc
    (h5 ▸ hlen) mode

end Sudachi
