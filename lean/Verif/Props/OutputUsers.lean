import Verif.Props.Output
import Verif.Props.ShippedUsers
import Verif.Lemmas.SampleKyoto

/-!
# C83: what `tokenize` prints when there are user dictionaries
-/

namespace Sudachi

theorem Terminal.Starts.shippedUsers {S : Terminal} {a : TokenizeArgs} {M : Shell} {core : PStr} {paths qs : List PStr} {file : Bytes}
    {files : List Bytes} (h : S.Starts a M) (hS : S.toDisk.ShippedUsers core paths) (hf : S.file core = .ok file)
    (hfiles : Each (fun q b => S.file q = .ok b) qs files) (ha : a.SparesPackage S.toDisk core) (hq : ∀ p, a.ToFile p → p ∉ qs) :
    M.toDisk.ShippedUsers core paths ∧ M.file core = .ok file ∧ Each (fun q b => M.file q = .ok b) qs files ∧ M.resources = S.resources := by
  rcases h with ⟨_, rfl⟩ | ⟨p, hp, _, rfl⟩
  · exact ⟨hS, hf, hfiles, rfl⟩
  · obtain ⟨h1, h2, h3, h4⟩ := ha p hp
    refine ⟨⟨hS.directory, hS.setting, hS.settings, (if_neg (Ne.symm h2)).trans hS.charDef, (if_neg (Ne.symm h3)).trans hS.unkDef,
      (if_neg (Ne.symm h4)).trans hS.rewriteDef, hS.package, hS.absolute⟩, (if_neg (Ne.symm h1)).trans hf, ?_, rfl⟩
    exact each_mem hfiles fun q hm b hb => (if_neg fun e : q = p => hq p hp (e ▸ hm)).trans hb

/-- **C83** The package as it ships with user dictionaries in its settings, the core dictionary and the user dictionaries being built from
sources that are together complete: what is printed for each line of input is what the sources say. -/
theorem C83_users {R : Runtime} {S : Terminal} {a : TokenizeArgs} {M : Shell} {Src : Sources} {core : PStr} {file : Bytes}
    {paths qs : List PStr} {ufiles : List Bytes} {n : Nat} {entries : List (Int × Int × Int)} {files input : List PStr} {mode : Mode}
    (version : PStr) (hD : R.D.Ok) (hU : R.UnicodeOk)
    (hS : S.toDisk.ShippedUsers core paths) (hfile : S.file core = .ok file) (hb : Src.system.Builds R.D none file)
    (hs : Src.system.ForShipped) (hsys : ∀ ds, readDictionary file = .ok ds → ∃ depth, Src.sys = ds.toSysDict R.D depth)
    (hq : Each (Resolves S.resources) paths qs) (hfiles : Each (fun q b => S.file q = .ok b) qs ufiles)
    (husers : Each (fun src b => src.Builds R.D (some Src.sys) b) Src.users ufiles)
    (huk : ∀ src ∈ Src.users, src.header.version = USER_DICT_VERSION_3)
    (hC : Src.Complete n entries R.depth) (hn : 5968 < n)
    (hsep : ∀ rs, compile R.pick shippedRanges = .ok rs → Src.NoSeparators (getCategoryTypes rs))
    (hauto : ∀ cfg dict, (openDictionary R M.toDisk.withoutUsers Settings.init none none none).2 = .ok (cfg, dict) → Src.AutoTexts cfg)
    (hv : a.version = false) (hset : a.setting = none) (htype : a.dictType = none) (hspare : a.SparesPackage S.toDisk core)
    (hspare' : ∀ p, a.ToFile p → p ∉ qs)
    (hp : S.AllPresent a.inFiles) (hM : S.Starts a M) (hf : a.Files files) (hi : InputIs M.toDisk S.stdin files input) (hm : a.InMode mode)
    (hadd : Src.SplitsAddUp ∨ mode = .C)
    (hlines : ∀ cfg dict, (openDictionary R M.toDisk Settings.init none none none).2 = .ok (cfg, dict) →
      ∀ line ∈ input, (create cfg dict none).CanRead line) :
    (commandTokenize R S version a).ended = .done ∧
      ∃ cfg dict auto table blocks out, (openDictionary R M.toDisk Settings.init none none none).2 = .ok (cfg, dict) ∧
        Src.AutoCosts cfg auto ∧ Src.PosTable table ∧
        Each (Src.PrintsLine auto cfg table entries cfg.pathPlugins mode (create cfg dict none).buildInput a.all) input blocks ∧
        a.Output blocks out ∧ S.Leaves a out (commandTokenize R S version a) := by
  obtain ⟨hMs, hMf, hMu, hMr⟩ := hM.shippedUsers hS hfile hfiles hspare hspare'
  obtain ⟨s', cfg, dict, h1, h2, h3, h4, h5, h6, h7, rs, h8, h9⟩ := C69_opens_users (S := Src) hMs hD hU hMf hb hs hsys (hMr ▸ hq) hMu
    husers huk hC hn Settings.init hauto
  obtain ⟨rs', k1, _, _, _, k5⟩ := C21_shipped_char_def R.pick
  rw [h8] at k1
  cases k1
  obtain ⟨w, c, hw, _, _⟩ := hs.noun
  have hopen : openDictionary R M.toDisk Settings.init a.setting none a.dictType = (s', .ok (cfg, dict)) := by rw [hset, htype]; exact h1
  have hopen2 : (openDictionary R M.toDisk Settings.init none none none).2 = .ok (cfg, dict) := by rw [h1]
  have hC' : Src.Complete n entries cfg.depth := h4 ▸ hC
  have hpos : dict.grammar.posList ≠ [] := C74_has_pos (h3 ▸ hD) h2 hC'.fit hC'.chains (d := 0) (w := w) (c := c) ⟨Src.system, rfl, hw⟩
  obtain ⟨e1, auto, table, e0, e2, blocks, out, e3, e4, e5⟩ := C83_command (Src := Src) version hv hp hM hopen (h3 ▸ hD) h2 hC' (h6 n hn)
    (h9 ▸ hsep rs h8) (h9 ▸ k5) h7 hpos hf hi hm hadd (hlines cfg dict hopen2)
  exact ⟨e1, cfg, dict, auto, table, blocks, out, hopen2, e0, e2, e3, e4, e5⟩

/-- The system dictionary that `ubuild` takes without `-s` is the core dictionary. -/
theorem Disk.ShippedUsers.against {S : Shell} {core : PStr} {paths : List PStr} (h : S.toDisk.ShippedUsers core paths) :
    S.Against none core := by
  refine .inr ⟨.inl rfl, ?_⟩
  have hdir : ResourceDirIs (settingFile S.toMachine none) none S.resources := by
    refine .inr ⟨.inl rfl, ?_⟩
    obtain ⟨d, c, hd, hc⟩ := h.directory
    show DirOf S.defaultSetting S.resources
    rw [h.setting, hd]
    have hk : codes "/sudachi.json" = List.replicate (0 + 1) 47 ++ codes "sudachi.json" := by decide
    rw [hk, ← List.append_assoc]
    exact .under d c 0 _ hc (by decide)
  have hp : S.package (packageOf ("core".toList.map Char.toNat)) = some core := by
    have : packageOf ("core".toList.map Char.toNat) = codes "sudachidict_core" := by decide
    rw [this]; exact h.package
  obtain ⟨q, h1, h2, h3⟩ := (C52_core S.toMachine Settings.init none none _ S.resources h.settings hdir
    (.inr ⟨.str [], JDict.find_says.mp (by rw [systemKey_eq]; rfl), .inr (.inr (.inr (.inr (.inl rfl))))⟩)).1 core hp
  have hq : q = core := by
    rw [resolve_only h1]
    unfold toAbsoluteResourcePath
    rw [if_pos ((absolute_iff core).mp h.absolute)]
  exact ⟨_, Prod.ext rfl h2, hq ▸ h3⟩

/-- **C83** A session with a user dictionary: the package as it ships with `"userDict": [user]` in its settings; `sudachipy build` writes
the core dictionary, `sudachipy ubuild -o user TABLES` the user dictionary, and any `sudachipy [tokenize] …` after them, without `-r` and
`-s`, prints what the tables and the matrix say. -/
theorem C83_user_session {R : Runtime} {S : Terminal} (version : PStr) {core user m header : PStr} {lines ins w1 w2 : List PStr}
    {a1 a2 : List (Opt × PStr)} {tables : List (List (List PStr))} {src : DictSource}
    (hD : R.D.Ok) (hU : R.UnicodeOk) (hS : S.toDisk.ShippedUsers core [user]) (huser : Absolute user) (hcu : core ≠ user)
    (hcore : ∀ x, x = core ∨ x = user → x ≠ S.resources ++ codes "/char.def" ∧ x ≠ S.resources ++ codes "/unk.def" ∧
      x ≠ S.resources ++ codes "/rewrite.def")
    (b1 : Command.build.Spells w1 a1) (b2 : Command.build.Spells w2 a2) (bf : ∀ f ∈ ins, PlainArg f) (bne : ins ≠ [])
    (bm : lastOf .matrix (a1 ++ a2) = some m) (bo : lastOf .out (a1 ++ a2) = some core)
    (hm : S.IsMatrix m header lines) (ht : Each S.toDisk.IsTable ins tables) (hout : core ∉ m :: ins) (hpm : S.present m = true)
    (hpi : S.AllPresent ins) (ho : S.opens core = .ok ())
    (hsrc : src = ⟨⟨SYSTEM_DICT_VERSION_2, S.time, (lastOf .description (a1 ++ a2)).getD []⟩, tables.flatten, some (header, lines)⟩)
    (hB : src.Buildable R.D none) (hs : src.ForShipped) :
    ∃ file d, mainProgram R S version (Command.build.name :: (w1 ++ (ins ++ w2))) = ⟨S.put core file, [], .done⟩ ∧
      src.Builds R.D none file ∧ fromSystemDictionary file = .ok d ∧
      ∀ (U : Terminal) (u1 u2 uins : List PStr) (c1 c2 : List (Opt × PStr)) (utables : List (List (List PStr))) (usrc : DictSource) (n : Nat)
        (entries : List (Int × Int × Int)),
        U.toShell = S.put core file → Command.ubuild.Spells u1 c1 → Command.ubuild.Spells u2 c2 → (∀ f ∈ uins, PlainArg f) → uins ≠ [] →
        (lastOf .system (c1 ++ c2) = none ∨ lastOf .system (c1 ++ c2) = some core) → lastOf .out (c1 ++ c2) = some user →
        Each U.toDisk.IsTable uins utables → user ∉ uins → U.AllPresent uins → U.opens user = .ok () →
        usrc = ⟨⟨USER_DICT_VERSION_3, U.time, (lastOf .description (c1 ++ c2)).getD []⟩, utables.flatten, none⟩ →
        usrc.Buildable R.D (some (d.toSysDict R.D R.depth)) →
        Sources.Complete ⟨src, [usrc], d.toSysDict R.D R.depth⟩ n entries R.depth → 5968 < n →
        (∀ rs, compile R.pick shippedRanges = .ok rs → Sources.NoSeparators ⟨src, [usrc], d.toSysDict R.D R.depth⟩ (getCategoryTypes rs)) →
        ∃ ufile, mainProgram R U version (Command.ubuild.name :: (u1 ++ (uins ++ u2))) = ⟨U.put user ufile, [], .done⟩ ∧
        ∀ (T : Terminal) (M : Shell) (v1 v2 texts files input : List PStr) (a3 a4 : List (Opt × PStr)) (argv : List PStr) (mode : Mode),
          T.toShell = U.put user ufile → Command.tokenize.Spells v1 a3 → Command.tokenize.Spells v2 a4 → (∀ f ∈ texts, PlainArg f) →
          (argv = Command.tokenize.name :: (v1 ++ (texts ++ v2)) ∨
            argv = v1 ++ (texts ++ v2) ∧ ∀ w ∈ v1 ++ (texts ++ v2), ¬ CommandName w) →
          (∀ o v, (o, v) ∈ a3 ++ a4 → o ≠ .version ∧ o ≠ .setting ∧ o ≠ .dictType) →
          (tokenizeCall texts (a3 ++ a4)).SparesPackage T.toDisk core → ¬ (tokenizeCall texts (a3 ++ a4)).ToFile user → T.AllPresent texts →
          T.Starts (tokenizeCall texts (a3 ++ a4)) M → (tokenizeCall texts (a3 ++ a4)).Files files →
          InputIs M.toDisk T.stdin files input → (tokenizeCall texts (a3 ++ a4)).InMode mode →
          (Sources.SplitsAddUp ⟨src, [usrc], d.toSysDict R.D R.depth⟩ ∨ mode = .C) →
          (∀ cfg dict, (openDictionary R M.toDisk.withoutUsers Settings.init none none none).2 = .ok (cfg, dict) →
            Sources.AutoTexts ⟨src, [usrc], d.toSysDict R.D R.depth⟩ cfg) →
          (∀ cfg dict, (openDictionary R M.toDisk Settings.init none none none).2 = .ok (cfg, dict) →
            ∀ line ∈ input, (create cfg dict none).CanRead line) →
          (mainProgram R T version argv).ended = .done ∧
          ∃ cfg dict auto table blocks out, (openDictionary R M.toDisk Settings.init none none none).2 = .ok (cfg, dict) ∧
            Sources.AutoCosts ⟨src, [usrc], d.toSysDict R.D R.depth⟩ cfg auto ∧
            Sources.PosTable ⟨src, [usrc], d.toSysDict R.D R.depth⟩ table ∧
            Each (Sources.PrintsLine ⟨src, [usrc], d.toSysDict R.D R.depth⟩ auto cfg table entries cfg.pathPlugins mode
              (create cfg dict none).buildInput (tokenizeCall texts (a3 ++ a4)).all) input blocks ∧
            (tokenizeCall texts (a3 ++ a4)).Output blocks out ∧
            T.Leaves (tokenizeCall texts (a3 ++ a4)) out (mainProgram R T version argv) := by
  subst hsrc
  obtain ⟨file, d, h1, h2, h3⟩ := C75_build_makes hD hm ht hout hpm hpi ho hB
  have hrd : readDictionary file = .ok d := by
    unfold fromSystemDictionary at h3
    obtain ⟨x, k1, k2⟩ := bind_ok h3
    have k2 : (if (!isSystemDictionary x.header.version.toNat) = true then (.error .io : Res BinDict) else pure x) = .ok d := k2
    split at k2
    · cases k2
    · rw [k1]; exact k2
  refine ⟨file, d, ?_, h2, h3, ?_⟩
  · rw [C81_build R S version b1 b2 bf bne bm, bo]
    dsimp only [Option.getD_some]
    rw [h1]
  intro U u1 u2 uins c1 c2 utables usrc n entries hUT us1 us2 uf une usys uout utab unot upres uopens husrc hUB hC hn hsep
  subst husrc
  obtain ⟨x1, x2, x3⟩ := hcore core (.inl rfl)
  obtain ⟨y1, y2, y3⟩ := hcore user (.inr rfl)
  have hUS : U.toDisk.ShippedUsers core [user] ∧ U.file core = .ok file ∧ U.present core = true := by
    rw [hUT]
    exact ⟨⟨hS.directory, hS.setting, hS.settings, (if_neg (Ne.symm x1)).trans hS.charDef, (if_neg (Ne.symm x2)).trans hS.unkDef,
      (if_neg (Ne.symm x3)).trans hS.rewriteDef, hS.package, hS.absolute⟩, put_file _ _ _, if_pos rfl⟩
  have hag : U.toShell.Against (lastOf .system (c1 ++ c2)) core := by
    rcases usys with h | h
    · rw [h]; exact hUS.1.against
    · rw [h]
      refine .inl ⟨rfl, ?_⟩
      obtain ⟨q, hq⟩ := hS.absolute
      rw [hq]
      exact List.cons_ne_nil _ _
  obtain ⟨ufile, ud, g1, g2, g3⟩ := C75_ubuild_makes (S := U.toShell) (out := user) hD hag hUS.2.1 h3 utab
    (fun h => (List.mem_cons.mp h).elim (fun e => hcu e.symm) unot) hUS.2.2 upres uopens hUB
  refine ⟨ufile, ?_, ?_⟩
  · rw [C81_ubuild R U version us1 us2 uf une, uout]
    dsimp only [Option.getD_some]
    rw [g1]
  intro T M v1 v2 texts files input a3 a4 argv mode hT t1 t2 tf hargv hopt hspare hspareu hp hM hf hi hmode hadd hauto hlines
  have hrun : mainProgram R T version argv = commandTokenize R T version (tokenizeCall texts (a3 ++ a4)) := by
    rcases hargv with rfl | ⟨rfl, h⟩
    · exact C81_tokenize R T version t1 t2 tf
    · exact C81_default R T version t1 t2 tf h
  rw [hrun]
  have hlast : ∀ o, (∀ v, (o, v) ∉ a3 ++ a4) → lastOf o (a3 ++ a4) = none := by
    intro o ho
    cases hl : lastOf o (a3 ++ a4) with
    | none => rfl
    | some v => exact absurd (lastOf_mem hl) (ho v)
  have hr : U.resources = S.resources := by rw [hUT]; rfl
  have hsh : T.toDisk.ShippedUsers core [user] ∧ T.file core = .ok file ∧ T.file user = .ok ufile := by
    rw [hT]
    rw [← hr] at y1 y2 y3
    exact ⟨⟨hUS.1.directory, hUS.1.setting, hUS.1.settings, (if_neg (Ne.symm y1)).trans hUS.1.charDef,
      (if_neg (Ne.symm y2)).trans hUS.1.unkDef, (if_neg (Ne.symm y3)).trans hUS.1.rewriteDef, hUS.1.package, hUS.1.absolute⟩,
      (if_neg hcu).trans hUS.2.1, put_file _ _ _⟩
  refine C83_users version hD hU hsh.1 hsh.2.1 h2 hs (fun ds h => ⟨R.depth, by rw [hrd] at h; cases h; rfl⟩)
    (.cons (.absolute _ _ huser) .nil) (.cons hsh.2.2 .nil) (.cons g2 .nil) ?_ hC hn hsep hauto ?_
    (hlast _ fun v hv => (hopt _ _ hv).2.1 rfl) (hlast _ fun v hv => (hopt _ _ hv).2.2 rfl) hspare ?_ hp hM hf hi hmode hadd hlines
  · intro s hs
    rw [List.mem_singleton.mp hs]
  · show ((a3 ++ a4).any fun a => a.1 = .version) = false
    rw [List.any_eq_false]
    rintro ⟨o, v⟩ hv
    simpa using (hopt o v hv).1
  · intro p hp hm
    rw [List.mem_singleton.mp hm] at hp
    exact hspareu hp

namespace Sample

def userLexPath : PStr := pstr! "/user.csv"
def userDicPath : PStr := pstr! "/user.dic"
def userLexText : PStr := pstr! "京都,20,10,2000,京都,名詞,固有名詞,地名,*,*,*,キョウト,京都,*,A,*,*,*\n"

/-- The machine of the session without user dictionaries, with a user dictionary in its settings and the table of one. -/
def userTerminal : Terminal :=
  { buildTerminal with
    settings := fun _ => .ok (shippedSettings ++ [(userKey, .list [.str userDicPath])])
    file := fun p => if p = userLexPath then encodeUtf8 userLexText else buildTerminal.file p
    present := fun p => p = userLexPath || buildTerminal.present p }

theorem user_shipped : userTerminal.toDisk.ShippedUsers corePath [userDicPath] where
  directory := (core_shipped []).directory
  setting := rfl
  settings := rfl
  charDef := (core_shipped []).charDef
  unkDef := (core_shipped []).unkDef
  rewriteDef := (core_shipped []).rewriteDef
  package := (core_shipped []).package
  absolute := (core_shipped []).absolute

theorem user_table {M : Disk} (h : M.file userLexPath = encodeUtf8 userLexText) : M.IsTable userLexPath [kyotoCols.list] := by
  have h0 : FieldsText kyotoCols.list (joinOn 44 kyotoCols.list) := fieldsText_plain (by decide) (by decide)
  obtain ⟨b, hb⟩ : ∃ b, encodeUtf8 userLexText = .ok b := by
    cases h : encodeUtf8 userLexText with
    | ok b => exact ⟨b, rfl⟩
    | error e =>
      have : (encodeUtf8 userLexText).isOk = true := by decide +kernel
      rw [h] at this
      cases this
  refine ⟨b, userLexText, _, h.trans hb, hb, lines_iff.mp rfl, ?_, by decide⟩
  have e : (linesAux [] userLexText).flatten = joinOn 44 kyotoCols.list ++ 10 :: [] := by decide +kernel
  rw [e]
  exact .cons _ _ _ _ h0 (by decide) .nil

/-- `-o /user.dic -du` -/
theorem ubuild_spells : Command.ubuild.Spells [(pstr! "-o"), userDicPath, (pstr! "-du")] [(.out, userDicPath), (.description, [117])] :=
  .cons (.next (fs := []) (l := 111) (o := .out) (by simp) (by decide) trivial (.plain (by decide)))
    (.cons (.joined (fs := []) (l := 100) (o := .description) (v := [117]) (by simp) (by decide) trivial (by decide) (by decide)) .nil)

/-- `sudachipy build -m /matrix.def -o … -dd /lex.csv`, `sudachipy ubuild -o /user.dic -du /user.csv`, then `sudachipy -am A` with lines on
its standard input that are not too long. -/
example (version : PStr) (texts : List PStr) (henc : ∀ line ∈ texts, Encodable line) :
    ∃ file ufile, mainProgram coreRuntime userTerminal version
        [(pstr! "build"), (pstr! "-m"), matrixPath, (pstr! "-o"), corePath, (pstr! "-dd"), lexPath] = ⟨userTerminal.put corePath file, [], .done⟩ ∧
      mainProgram coreRuntime ⟨userTerminal.put corePath file, ([], .ok ()), encodeUtf8⟩ version
        [(pstr! "ubuild"), (pstr! "-o"), userDicPath, (pstr! "-du"), userLexPath] =
          ⟨(userTerminal.put corePath file).put userDicPath ufile, [], .done⟩ ∧
      ((∀ cfg dict, (openDictionary coreRuntime ((userTerminal.put corePath file).put userDicPath ufile).toDisk Settings.init none none none).2 =
          .ok (cfg, dict) →
        ∀ line ∈ texts, ∀ body t, Chomped line body → (create cfg dict none).buildInput body = .ok t → t.bytes.length ≤ 20) →
      (mainProgram coreRuntime ⟨(userTerminal.put corePath file).put userDicPath ufile, (texts, .ok ()), encodeUtf8⟩ version
        [(pstr! "-am"), (pstr! "A")]).ended = .done ∧
      ∃ cfg dict sys auto table blocks, Sources.PosTable ⟨coreSource, [kyotoSource], sys⟩ table ∧
        Each (Sources.PrintsLine ⟨coreSource, [kyotoSource], sys⟩ auto cfg table coreEntries cfg.pathPlugins .A
          (create cfg dict none).buildInput true) texts blocks ∧
        Written encodeUtf8 blocks.flatten
          (mainProgram coreRuntime ⟨(userTerminal.put corePath file).put userDicPath ufile, (texts, .ok ()), encodeUtf8⟩ version
            [(pstr! "-am"), (pstr! "A")]).stdout) := by
  obtain ⟨file, d, h1, hb, hd, h2⟩ := C83_user_session (R := coreRuntime) (S := userTerminal) version (core := corePath) (user := userDicPath)
    (src := coreSource) SimpleTrie.ok core_unicode user_shipped ⟨_, rfl⟩ (by decide) (by rintro x (rfl | rfl) <;> decide) build_spells .nil
    (ins := [lexPath]) (by decide) (by decide) rfl rfl build_matrix (.cons build_table .nil) (by decide) (by decide)
    (by unfold Shell.AllPresent; decide) rfl rfl core_buildable core_for_shipped
  have hrd : readDictionary file = .ok d := by
    unfold fromSystemDictionary at hd
    obtain ⟨x, k1, k2⟩ := bind_ok hd
    have k2 : (if (!isSystemDictionary x.header.version.toNat) = true then (.error .io : Res BinDict) else pure x) = .ok d := k2
    split at k2
    · cases k2
    · rw [k1]; exact k2
  obtain ⟨ufile, g1, g2⟩ := h2 ⟨userTerminal.put corePath file, ([], .ok ()), encodeUtf8⟩ [(pstr! "-o"), userDicPath, (pstr! "-du")] []
    [userLexPath] _ _ [[kyotoCols.list]] kyotoSource 5969 coreEntries rfl ubuild_spells .nil (by decide) (by decide) (.inl rfl) rfl
    (.cons (user_table rfl) .nil) (by decide) (fun p hp => by rw [List.mem_singleton.mp hp]; rfl) rfl rfl
    (kyoto_buildable (core_pos hb hrd _)) (kyoto_complete (by decide)) (by decide) (fun _ _ => kyoto_separators _)
  refine ⟨file, ufile, h1, g1, fun hlen => ?_⟩
  have hi : InputIs ((userTerminal.put corePath file).put userDicPath ufile).toDisk (texts, .ok ()) [lit "-"] texts := by
    have := InputIs.stdin (M := ((userTerminal.put corePath file).put userDicPath ufile).toDisk) (ls := texts) (.nil (stdin := ([], .ok ())))
    rwa [List.append_nil] at this
  have hcan : ∀ cfg dict, (openDictionary coreRuntime ((userTerminal.put corePath file).put userDicPath ufile).toDisk Settings.init none none
      none).2 = .ok (cfg, dict) → ∀ line ∈ texts, (create cfg dict none).CanRead line := by
    intro cfg dict ho line hl
    have hc := chomped_rstrip line
    refine ⟨_, hc, hc.encodable (henc line hl), fun t ht => ?_⟩
    have := hlen cfg dict ho line hl _ t hc ht
    refine ⟨by unfold SafeLength; omega, ?_⟩
    have hfuel : (create cfg dict none).fuel = 100000 := by
      rcases hop : openDictionary coreRuntime ((userTerminal.put corePath file).put userDicPath ufile).toDisk Settings.init none none none
        with ⟨s, r⟩
      rw [hop] at ho
      have ho : r = .ok (cfg, dict) := ho
      rw [ho] at hop
      obtain ⟨_, d, dir, f, fs, hO⟩ := (C68_opens _ _ _ _ _ _ _ _ _).mp hop
      exact hO.runtime.2.2.1
    rw [hfuel]
    exact Nat.le_trans (Nat.mul_le_mul (Nat.mul_le_mul_left 3 (Nat.succ_le_succ this)) (Nat.succ_le_succ this)) (by decide)
  obtain ⟨e1, cfg, dict, auto, table, blocks, out, _, _, e2, e3, e4, e5⟩ :=
    g2 ⟨(userTerminal.put corePath file).put userDicPath ufile, (texts, .ok ()), encodeUtf8⟩
      ((userTerminal.put corePath file).put userDicPath ufile)
      [(pstr! "-am"), (pstr! "A")] [] [] [lit "-"] texts [(.all, []), (.mode, (pstr! "A"))] [] [(pstr! "-am"), (pstr! "A")] .A rfl
      tokenize_spells .nil (by decide) (.inr ⟨rfl, by decide⟩)
      (by rintro o v hv
          simp only [List.append_nil, List.mem_cons, Prod.mk.injEq, List.not_mem_nil, or_false] at hv
          rcases hv with ⟨rfl, _⟩ | ⟨rfl, _⟩ <;> decide)
      (fun p ⟨h, _⟩ => by cases h) (fun ⟨h, _⟩ => by cases h) (fun p hp => by cases hp) (.inl ⟨.inl rfl, rfl⟩) (.inl ⟨rfl, rfl⟩) hi
      (.inl ⟨rfl, rfl⟩) (.inl kyoto_add) (fun cfg _ _ => kyoto_auto cfg) hcan
  refine ⟨e1, cfg, dict, _, auto, table, blocks, e2, e3, ?_⟩
  have hout : out = blocks.flatten := by
    rcases e4 with h | ⟨h, _⟩
    · exact h.2
    · cases h
  rcases e5 with ⟨_, _, h⟩ | ⟨p, ⟨h, _⟩, _⟩
  · exact hout ▸ h
  · cases h

/-- The core dictionary with 東京 and the user dictionary with 京都 (**C69_opens_users**, and through it **C68_users_added**). -/
example : ∃ file ufile s' cfg dict sys, openDictionary coreRuntime ((userTerminal.put corePath file).put userDicPath ufile).toDisk Settings.init
    none none none = (s', .ok (cfg, dict)) ∧ Sources.Installed ⟨coreSource, [kyotoSource], sys⟩ cfg dict := by
  obtain ⟨hS, cs, T, c1, c2, c3⟩ := core_buildable
  obtain ⟨file, d, hb, hd, _⟩ := C71_usable SimpleTrie.ok hS c1 c2 c3
  obtain ⟨uS, us, U, u1, u2, u3⟩ := kyoto_buildable (core_pos hb hd 100)
  obtain ⟨ufile, _, hu, _⟩ := C71_usable SimpleTrie.ok uS u1 u2 u3
  have hput : ∀ {x y : PStr} {b c : Bytes}, x ≠ y → ((userTerminal.put x b).put y c).file x = .ok b := fun h => (if_neg h).trans (put_file _ _ _)
  obtain ⟨s', cfg, dict, h1, h2, _⟩ := C69_opens_users (R := coreRuntime) (M := ((userTerminal.put corePath file).put userDicPath ufile).toDisk)
    (core := corePath) (paths := [userDicPath]) (qs := [userDicPath]) (S := ⟨coreSource, [kyotoSource], d.toSysDict SimpleTrie.trie 100⟩)
    ⟨user_shipped.directory, rfl, rfl, user_shipped.charDef, user_shipped.unkDef, user_shipped.rewriteDef, user_shipped.package,
      user_shipped.absolute⟩ SimpleTrie.ok core_unicode (hput (by decide)) hb core_for_shipped
    (fun ds h => ⟨100, by rw [hd] at h; cases h; rfl⟩) (.cons (.absolute _ _ ⟨_, rfl⟩) .nil) (.cons (put_file _ _ _) .nil) (.cons hu .nil)
    (by intro src h; rw [List.mem_singleton.mp h]; rfl) (kyoto_complete (by decide)) (by decide) Settings.init (fun cfg _ _ => kyoto_auto cfg)
  exact ⟨file, ufile, s', cfg, dict, _, h1, h2⟩

end Sample

end Sudachi
