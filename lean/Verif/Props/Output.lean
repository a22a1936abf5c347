/-
C83: what `tokenize` prints, from the sources alone: the words of a cheapest segmentation, joined and divided, and what their rows say.
-/
import Verif.Lemmas.Output2
import Verif.Props.TokenizeShipped
import Verif.Props.Arguments
namespace Sudachi
namespace Sources
variable {S : Sources} {cfg : DictConfig} {dict : Dict}

theorem Installed.block (hD : cfg.D.Ok) (h : S.Installed cfg dict) (hp : cfg.PluginsOk) {n : Nat} {entries : List (Int × Int × Int)}
    (hmat : S.Matrix n entries) (hids : S.IdsInRange n) (hshort : ∀ p ∈ cfg.oov, p.Short)
    (hoov : ∀ p ∈ cfg.oov, ∀ o, p.Entry o → InRange n o.leftId ∧ InRange n o.rightId) (hf : S.Fit) (hch : S.ChainsEnd cfg.depth)
    {ps : List PathPlugin} {mode0 : Mode} (hpos : (dict.tokenizer cfg ps mode0).PosOk dict.grammar) {mode : Mode} {all : Bool} {input : PStr}
    {block : List PStr} (hb : BlockOf (dict.tokenizer cfg ps mode0) dict.grammar mode all input block)
    (hlen : ∀ body t, Chomped input body → (dict.tokenizer cfg ps mode0).buildInput body = .ok t → SafeLength t.bytes.length) :
    S.PrintsLine (loadedCost dict) cfg dict.grammar.posList entries ps mode (dict.tokenizer cfg ps mode0).buildInput all input block := by
  obtain ⟨body, ml, out, h1, h2, h3, h4, h5⟩ := hb
  refine ⟨body, out, h1, h3, ?_⟩
  have ht : (dict.tokenizer cfg ps mode0).tokenize Lattice.init body (some mode) = (_, .ok ml) := Prod.ext rfl h2
  by_cases hne : body = []
  · subst hne
    left
    have h2 : .ok MorphemeList.empty = Except.ok (ε := Err) ml := h2
    cases h2
    exact ⟨rfl, List.eq_nil_of_length_eq_zero h4⟩
  · obtain ⟨t, k1, k2, k3, k4⟩ := h.analysed hD hp hmat hids hshort hoov hf hch hpos .fresh hne ht
    obtain ⟨pieces, k5, k6⟩ := k4 (hlen body t h1 k1)
    refine .inr ⟨hne, t, pieces, k1, k5, ?_⟩
    have hlen' : pieces.length = out.length := by rw [← k6.length]; exact h4.symm
    refine each_of_get hlen' fun i p line hp' hl => ?_
    have hlt : i < ml.path.length := by rw [k6.length]; exact (List.getElem?_eq_some_iff.1 hp').1
    obtain ⟨p', e1, e2⟩ := k6.get (List.getElem?_eq_getElem hlt)
    rw [hp'] at e1
    cases e1
    rw [← k3]
    exact e2.line k2 (List.getElem?_eq_getElem hlt) (h5 i line hl)

/-- **C83** The lines printed for a line of input are those of a cheapest segmentation of the normalised line into words of the sources
and unknown words, joined by the plugins and divided for the mode, with what the rows say. -/
theorem C83_block (hD : cfg.D.Ok) (h : S.Installed cfg dict) (hp : cfg.PluginsOk) {n : Nat} {entries : List (Int × Int × Int)}
    (hmat : S.Matrix n entries) (hids : S.IdsInRange n) (hshort : ∀ p ∈ cfg.oov, p.Short)
    (hoov : ∀ p ∈ cfg.oov, ∀ o, p.Entry o → InRange n o.leftId ∧ InRange n o.rightId) (hf : S.Fit) (hch : S.ChainsEnd cfg.depth)
    (ps : List PathPlugin) (mode0 : Mode) (hpos : (dict.tokenizer cfg ps mode0).PosOk dict.grammar) :
    ∃ auto table, S.AutoCosts cfg auto ∧ S.PosTable table ∧ ∀ mode all input block,
      BlockOf (dict.tokenizer cfg ps mode0) dict.grammar mode all input block →
      (∀ body t, Chomped input body → (dict.tokenizer cfg ps mode0).buildInput body = .ok t → SafeLength t.bytes.length) →
      S.PrintsLine auto cfg table entries ps mode (dict.tokenizer cfg ps mode0).buildInput all input block :=
  ⟨_, _, h.autoCosts hD hp, h.posTable hD, fun _ _ _ _ hb hl => h.block hD hp hmat hids hshort hoov hf hch hpos hb hl⟩

end Sources

theorem blocksOf_each {T : Tokenizer} {g : Grammar} {mode : Mode} {all : Bool} : ∀ {input : List PStr} {blocks : List (List PStr)},
    BlocksOf T g mode all input blocks → Each (BlockOf T g mode all) input blocks
  | [], [], _ => .nil
  | _ :: _, _ :: _, ⟨h1, h2⟩ => .cons h1 (blocksOf_each h2)

theorem each_mem {α β : Type} {R Q : α → β → Prop} {as : List α} {bs : List β} (h : Each R as bs) :
    (∀ a ∈ as, ∀ b, R a b → Q a b) → Each Q as bs := by
  induction h with
  | nil => exact fun _ => .nil
  | cons h1 _ ih => exact fun hq => .cons (hq _ (by simp) _ h1) (ih fun a ha => hq a (by simp [ha]))

/-- The printed lines: blocks, with or without dumps before them. -/
def TokenizeArgs.Output (a : TokenizeArgs) (blocks : List (List PStr)) (out : List PStr) : Prop :=
  (a.dump = false ∧ out = blocks.flatten) ∨
  (a.dump = true ∧ ∃ dumps, dumps.length = blocks.length ∧ out = (List.zipWith (· ++ ·) dumps blocks).flatten)

/-- **C83** On an installation of complete sources `tokenize` ends without an exception, and what it prints for each line of input is
what the sources say. -/
theorem C83_command {R : Runtime} {S : Terminal} {a : TokenizeArgs} {Src : Sources} {M : Shell} {s : Settings} {cfg : DictConfig}
    {dict : Dict} {n : Nat} {entries : List (Int × Int × Int)} {files input : List PStr} {mode : Mode} (version : PStr)
    (hv : a.version = false) (hp : S.AllPresent a.inFiles) (hM : S.Starts a M)
    (hopen : openDictionary R M.toDisk Settings.init a.setting none a.dictType = (s, .ok (cfg, dict)))
    (hD : cfg.D.Ok) (h : Src.Installed cfg dict) (hS : Src.Complete n entries cfg.depth) (hcfg : cfg.Complete n)
    (hsep : Src.NoSeparators cfg.catOf) (hchars : ∀ c, c = 44 ∨ c = 46 → Cat.NUMERIC ∉ cfg.catOf c ∧ Cat.KANJINUMERIC ∉ cfg.catOf c)
    (hnf : NumericFirst cfg.pathPlugins) (hpos : dict.grammar.posList ≠ []) (hf : a.Files files) (hi : InputIs M.toDisk S.stdin files input)
    (hm : a.InMode mode) (hadd : Src.SplitsAddUp ∨ mode = .C) (hlines : ∀ line ∈ input, (create cfg dict none).CanRead line) :
    (commandTokenize R S version a).ended = .done ∧ ∃ auto table, Src.AutoCosts cfg auto ∧ Src.PosTable table ∧ ∃ blocks out,
      Each (Src.PrintsLine auto cfg table entries cfg.pathPlugins mode (create cfg dict none).buildInput a.all) input blocks ∧
      a.Output blocks out ∧ S.Leaves a out (commandTokenize R S version a) := by
  obtain ⟨e1, out, ⟨blocks, e2, e3⟩, e4⟩ := C76_complete version hv hp hM hopen hD h hS hcfg hsep hchars hnf hpos hf hi hm hadd hlines
  have hposok : (create cfg dict none).PosOk dict.grammar := by
    unfold openDictionary at hopen
    split at hopen
    · cases hopen
    · obtain ⟨_, hopen⟩ := Prod.mk.inj hopen
      exact C74_opened hopen hpos none
  refine ⟨e1, _, _, h.autoCosts hD hcfg.plugins, h.posTable hD, blocks, out, ?_, ?_, e4⟩
  · refine each_mem (blocksOf_each e2) fun line hl block hb => ?_
    refine h.block hD hcfg.plugins hS.matrix hS.ids hcfg.oovShort hcfg.oovIds hS.fit hS.chains hposok hb fun body t h1 h2 => ?_
    obtain ⟨body', k1, _, k2⟩ := hlines line hl
    have : body = body' := h1.eq.symm.trans k1.eq
    exact (k2 t (this ▸ h2)).1
  · rcases e3 with h | ⟨h1, dumps, h2, h3⟩
    · exact .inl h
    · refine .inr ⟨h1, dumps, ?_, h3⟩
      exact (Each.length h2).symm.trans (blocksOf_each e2).length

/-- **C83** The package as it ships, with a core dictionary built from a complete source: what is printed for each line of input is what
the source says. -/
theorem C83_shipped {R : Runtime} {S : Terminal} {a : TokenizeArgs} {M : Shell} {src : DictSource} {core : PStr} {file : Bytes} {n : Nat}
    {entries : List (Int × Int × Int)} {files input : List PStr} {mode : Mode} (version : PStr) (hD : R.D.Ok) (hU : R.UnicodeOk)
    (hS : S.toDisk.Shipped core) (hfile : S.file core = .ok file) (hb : src.Builds R.D none file) (hs : src.ForShipped)
    (hC : ∀ sys, Sources.Complete ⟨src, [], sys⟩ n entries R.depth) (hn : 5968 < n)
    (hsep : ∀ sys rs, compile R.pick shippedRanges = .ok rs → Sources.NoSeparators ⟨src, [], sys⟩ (getCategoryTypes rs))
    (hv : a.version = false) (hset : a.setting = none) (htype : a.dictType = none) (hspare : a.SparesPackage S.toDisk core)
    (hp : S.AllPresent a.inFiles) (hM : S.Starts a M) (hf : a.Files files) (hi : InputIs M.toDisk S.stdin files input) (hm : a.InMode mode)
    (hadd : (∀ sys, Sources.SplitsAddUp ⟨src, [], sys⟩) ∨ mode = .C)
    (hlines : ∀ cfg dict, (openDictionary R M.toDisk Settings.init none none none).2 = .ok (cfg, dict) →
      ∀ line ∈ input, (create cfg dict none).CanRead line) :
    (commandTokenize R S version a).ended = .done ∧
      ∃ cfg dict sys auto table blocks out, (openDictionary R M.toDisk Settings.init none none none).2 = .ok (cfg, dict) ∧
        Sources.PosTable ⟨src, [], sys⟩ table ∧
        Each (Sources.PrintsLine ⟨src, [], sys⟩ auto cfg table entries cfg.pathPlugins mode (create cfg dict none).buildInput a.all) input blocks ∧
        a.Output blocks out ∧ S.Leaves a out (commandTokenize R S version a) := by
  obtain ⟨hMs, hMf⟩ := hM.shipped hS hfile hspare
  obtain ⟨ds, g, r1, _, _⟩ := system_loads hD hb hs.system
  let Src : Sources := ⟨src, [], ds.toSysDict R.D R.depth⟩
  obtain ⟨cfg, dict, h1, h2, h3, h4, h5, h6, h7, rs, h8, h9⟩ := C69_opens (S := Src) hMs hD hU hMf hb hs rfl
    (fun ds' h => ⟨R.depth, by rw [r1] at h; cases h; rfl⟩) Settings.init
  obtain ⟨rs', k1, _, _, _, k5⟩ := C21_shipped_char_def R.pick
  rw [h8] at k1
  cases k1
  obtain ⟨w, c, hw, _, _⟩ := hs.noun
  have hopen : openDictionary R M.toDisk Settings.init a.setting none a.dictType = (shippedSet M.toDisk core, .ok (cfg, dict)) := by rw [hset, htype]; exact h1
  have hopen2 : (openDictionary R M.toDisk Settings.init none none none).2 = .ok (cfg, dict) := by rw [h1]
  have hC' : Src.Complete n entries cfg.depth := h4 ▸ hC _
  have hpos : dict.grammar.posList ≠ [] := C74_has_pos (h3 ▸ hD) h2 hC'.fit hC'.chains (d := 0) (w := w) (c := c) ⟨src, rfl, hw⟩
  obtain ⟨e1, auto, table, _, e2, blocks, out, e3, e4, e5⟩ := C83_command (Src := Src) version hv hp hM hopen (h3 ▸ hD) h2 hC' (h6 n hn)
    (h9 ▸ hsep _ rs h8) (h9 ▸ k5) h7 hpos hf hi hm (hadd.elim (fun h => .inl (h _)) .inr) (hlines cfg dict hopen2)
  exact ⟨e1, cfg, dict, _, auto, table, blocks, out, hopen2, e2, e3, e4, e5⟩

/-- **C83** A session: `sudachipy build -m MATRIX -o CORE TABLES` with the package as it ships writes the core dictionary, and any
`sudachipy [tokenize] …` on the machine after it, without `-r` and `-s`, prints what the tables and the matrix say. -/
theorem C83_session {R : Runtime} {S : Terminal} (version : PStr) {core m header : PStr} {lines ins w1 w2 : List PStr}
    {a1 a2 : List (Opt × PStr)} {tables : List (List (List PStr))} {src : DictSource} {n : Nat} {entries : List (Int × Int × Int)}
    (hD : R.D.Ok) (hU : R.UnicodeOk) (hS : S.toDisk.Shipped core)
    (hcore : core ≠ S.resources ++ codes "/char.def" ∧ core ≠ S.resources ++ codes "/unk.def" ∧ core ≠ S.resources ++ codes "/rewrite.def")
    (b1 : Command.build.Spells w1 a1) (b2 : Command.build.Spells w2 a2) (bf : ∀ f ∈ ins, PlainArg f) (bne : ins ≠ [])
    (bm : lastOf .matrix (a1 ++ a2) = some m) (bo : lastOf .out (a1 ++ a2) = some core)
    (hm : S.IsMatrix m header lines) (ht : Each S.toDisk.IsTable ins tables) (hout : core ∉ m :: ins) (hpm : S.present m = true)
    (hpi : S.AllPresent ins) (ho : S.opens core = .ok ())
    (hsrc : src = ⟨⟨SYSTEM_DICT_VERSION_2, S.time, (lastOf .description (a1 ++ a2)).getD []⟩, tables.flatten, some (header, lines)⟩)
    (hB : src.Buildable R.D none) (hs : src.ForShipped) (hC : ∀ sys, Sources.Complete ⟨src, [], sys⟩ n entries R.depth) (hn : 5968 < n)
    (hsep : ∀ sys rs, compile R.pick shippedRanges = .ok rs → Sources.NoSeparators ⟨src, [], sys⟩ (getCategoryTypes rs)) :
    ∃ file, mainProgram R S version (Command.build.name :: (w1 ++ (ins ++ w2))) = ⟨S.put core file, [], .done⟩ ∧
      ∀ (T : Terminal) (M : Shell) (v1 v2 texts files input : List PStr) (a3 a4 : List (Opt × PStr)) (argv : List PStr) (mode : Mode),
        T.toShell = S.put core file → Command.tokenize.Spells v1 a3 → Command.tokenize.Spells v2 a4 → (∀ f ∈ texts, PlainArg f) →
        (argv = Command.tokenize.name :: (v1 ++ (texts ++ v2)) ∨
          argv = v1 ++ (texts ++ v2) ∧ ∀ w ∈ v1 ++ (texts ++ v2), ¬ CommandName w) →
        (∀ o v, (o, v) ∈ a3 ++ a4 → o ≠ .version ∧ o ≠ .setting ∧ o ≠ .dictType) →
        (tokenizeCall texts (a3 ++ a4)).SparesPackage T.toDisk core → T.AllPresent texts →
        T.Starts (tokenizeCall texts (a3 ++ a4)) M → (tokenizeCall texts (a3 ++ a4)).Files files →
        InputIs M.toDisk T.stdin files input → (tokenizeCall texts (a3 ++ a4)).InMode mode →
        ((∀ sys, Sources.SplitsAddUp ⟨src, [], sys⟩) ∨ mode = .C) →
        (∀ cfg dict, (openDictionary R M.toDisk Settings.init none none none).2 = .ok (cfg, dict) →
          ∀ line ∈ input, (create cfg dict none).CanRead line) →
        (mainProgram R T version argv).ended = .done ∧
        ∃ cfg dict sys auto table blocks out, (openDictionary R M.toDisk Settings.init none none none).2 = .ok (cfg, dict) ∧
          Sources.PosTable ⟨src, [], sys⟩ table ∧
          Each (Sources.PrintsLine ⟨src, [], sys⟩ auto cfg table entries cfg.pathPlugins mode (create cfg dict none).buildInput
            (tokenizeCall texts (a3 ++ a4)).all) input blocks ∧
          (tokenizeCall texts (a3 ++ a4)).Output blocks out ∧ T.Leaves (tokenizeCall texts (a3 ++ a4)) out (mainProgram R T version argv) := by
  subst hsrc
  obtain ⟨file, d, h1, h2, _⟩ := C75_build_makes hD hm ht hout hpm hpi ho hB
  refine ⟨file, ?_, ?_⟩
  · rw [C81_build R S version b1 b2 bf bne bm, bo]
    dsimp only [Option.getD_some]
    rw [h1]
  intro T M v1 v2 texts files input a3 a4 argv mode hT t1 t2 tf hargv hopt hspare hp hM hf hi hmode hadd hlines
  have hrun : mainProgram R T version argv = commandTokenize R T version (tokenizeCall texts (a3 ++ a4)) := by
    rcases hargv with rfl | ⟨rfl, h⟩
    · exact C81_tokenize R T version t1 t2 tf
    · exact C81_default R T version t1 t2 tf h
  rw [hrun]
  have hlast : ∀ o, (∀ v, (o, v) ∉ a3 ++ a4) → lastOf o (a3 ++ a4) = none := by
    intro o ho
    cases hl : lastOf o (a3 ++ a4) with
    | none => rfl
    | some v => exact absurd (lastOf_mem hl) (ho v)
  have hsh : T.toDisk.Shipped core ∧ T.file core = .ok file := by
    rw [hT]
    obtain ⟨c1, c2, c3⟩ := hcore
    exact ⟨⟨hS.directory, hS.setting, hS.settings, (if_neg (Ne.symm c1)).trans hS.charDef, (if_neg (Ne.symm c2)).trans hS.unkDef,
      (if_neg (Ne.symm c3)).trans hS.rewriteDef, hS.package, hS.absolute⟩, put_file _ _ _⟩
  refine C83_shipped version hD hU hsh.1 hsh.2 h2 hs hC hn hsep ?_ (hlast _ fun v hv => (hopt _ _ hv).2.1 rfl)
    (hlast _ fun v hv => (hopt _ _ hv).2.2 rfl) hspare hp hM hf hi hmode hadd hlines
  show ((a3 ++ a4).any fun a => a.1 = .version) = false
  rw [List.any_eq_false]
  rintro ⟨o, v⟩ hv
  simpa using (hopt o v hv).1

namespace Sample

/-- The sample's command in every mode: what it leaves in the output file is what the sample's sources say. -/
example (m : PStr) (all dump : Bool) : ∃ cfg dict auto table blocks out bytes, sources.AutoCosts cfg auto ∧ sources.PosTable table ∧
    Each (sources.PrintsLine auto cfg table entries cfg.pathPlugins (modeArg m) (create cfg dict none).buildInput all) textLines3 blocks ∧
    (argsOf m all dump).Output blocks out ∧ Written encodeUtf8 out bytes ∧
    (commandTokenize runtime terminal [] (argsOf m all dump)).shell.file textOutput = .ok bytes := by
  obtain ⟨cfg, dict, h⟩ := file_opens
  have hs : HasSample (terminal.put textOutput []).toDisk := disk_put (by decide) (by decide) (by decide) (by decide)
  obtain ⟨k1, k2, k3, _, _, _, _, _, k9, _⟩ := opened hs h
  obtain ⟨n1, n2⟩ := opened_separators hs h
  have hD : cfg.D.Ok := k2 ▸ SimpleTrie.ok
  have hC : sources.Complete 2 entries cfg.depth := by rw [k3]; exact sources_complete
  obtain ⟨_, auto, table, e2, e3, blocks, out, e4, e5, e6⟩ := C83_command (a := argsOf m all dump) (mode := modeArg m) [] rfl
    (args_present m all dump) (args_start m all dump) h hD k1 hC (opened_complete hs h) n1 n2 (k9 ▸ trivial)
    (C74_has_pos hD k1 hC.fit hC.chains (d := 0) (w := 0) (c := cols0) ⟨_, rfl, row0⟩)
    (.inr ⟨List.cons_ne_nil _ _, rfl⟩) args_input (inMode_iff.mpr rfl) (.inl splits_add_up) (text_can_read hs h)
  rcases e6 with ⟨h | h, _⟩ | ⟨p, ⟨hp, _⟩, _, _, _, bytes, h1, h2⟩
  · cases h
  · cases h
  · cases hp
    exact ⟨cfg, dict, auto, table, blocks, out, bytes, e2, e3, e4, e5, h1, h2⟩

def lexPath : PStr := pstr! "/lex.csv"
def matrixPath : PStr := pstr! "/matrix.def"
def lexText : PStr := pstr! "東京,10,20,3000,東京,名詞,普通名詞,一般,*,*,*,トウキョウ,東京,*,A,*,*,*\n"
def coreMatrixText : PStr := pstr! "5969 5969\n10 20 -100\n5968 5968 0\n"

/-- A machine with the package, without a core dictionary, and with the tables of one. -/
def buildTerminal : Terminal where
  toDisk := { coreDisk [] with file := fun p => if p = corePath then .error .io else if p = lexPath then encodeUtf8 lexText
                else if p = matrixPath then .ok coreMatrixText else (coreDisk []).file p }
  present p := p = lexPath ∨ p = matrixPath
  opens _ := .ok ()
  decode b := .ok b
  headLine _ := none
  time := 100
  stdin := ([], .ok ())
  encode := encodeUtf8

theorem build_shipped : buildTerminal.toDisk.Shipped corePath where
  directory := (core_shipped []).directory
  setting := rfl
  settings := (core_shipped []).settings
  charDef := (core_shipped []).charDef
  unkDef := (core_shipped []).unkDef
  rewriteDef := (core_shipped []).rewriteDef
  package := (core_shipped []).package
  absolute := (core_shipped []).absolute

theorem build_table : buildTerminal.toDisk.IsTable lexPath [coreCols.list] := by
  have h0 : FieldsText coreCols.list (joinOn 44 coreCols.list) := fieldsText_plain (by decide) (by decide)
  obtain ⟨b, hb⟩ : ∃ b, encodeUtf8 lexText = .ok b := by
    cases h : encodeUtf8 lexText with
    | ok b => exact ⟨b, rfl⟩
    | error e =>
      have : (encodeUtf8 lexText).isOk = true := by decide +kernel
      rw [h] at this
      cases this
  refine ⟨b, lexText, _, hb, hb, lines_iff.mp rfl, ?_, by decide⟩
  have e : (linesAux [] lexText).flatten = joinOn 44 coreCols.list ++ 10 :: [] := by decide +kernel
  rw [e]
  exact .cons _ _ _ _ h0 (by decide) .nil

theorem build_matrix : buildTerminal.IsMatrix matrixPath coreMatrix.1 coreMatrix.2 :=
  ⟨coreMatrixText, coreMatrixText, _, rfl, rfl, lines_iff.mp rfl, .inr (by decide +kernel)⟩

/-- `-m /matrix.def -o … -dd` -/
theorem build_spells : Command.build.Spells [(pstr! "-m"), matrixPath, (pstr! "-o"), corePath, (pstr! "-dd")]
    [(.matrix, matrixPath), (.out, corePath), (.description, [100])] :=
  .cons (.next (fs := []) (l := 109) (o := .matrix) (by simp) (by decide) trivial (.plain (by decide)))
    (.cons (.next (fs := []) (l := 111) (o := .out) (by simp) (by decide) trivial (.plain (by decide)))
      (.cons (.joined (fs := []) (l := 100) (o := .description) (v := [100]) (by simp) (by decide) trivial (by decide) (by decide)) .nil))

/-- `-a -m A` -/
theorem tokenize_spells : Command.tokenize.Spells [(pstr! "-am"), (pstr! "A")] [(.all, []), (.mode, (pstr! "A"))] :=
  .cons (.next (fs := [(97, .all)]) (l := 109) (o := .mode) (by decide) (by decide) (.inl rfl) (.plain (by decide))) .nil

/-- `sudachipy build -m /matrix.def -o … -dd /lex.csv`, then `sudachipy -am A` with lines on its standard input that are not too long. -/
example (version : PStr) (texts : List PStr) (henc : ∀ line ∈ texts, Encodable line) :
    ∃ file, mainProgram coreRuntime buildTerminal version
        [(pstr! "build"), (pstr! "-m"), matrixPath, (pstr! "-o"), corePath, (pstr! "-dd"), lexPath] = ⟨buildTerminal.put corePath file, [], .done⟩ ∧
      ((∀ cfg dict, (openDictionary coreRuntime (buildTerminal.put corePath file).toDisk Settings.init none none none).2 = .ok (cfg, dict) →
        ∀ line ∈ texts, ∀ body t, Chomped line body → (create cfg dict none).buildInput body = .ok t → t.bytes.length ≤ 20) →
      (mainProgram coreRuntime ⟨buildTerminal.put corePath file, (texts, .ok ()), encodeUtf8⟩ version [(pstr! "-am"), (pstr! "A")]).ended = .done ∧
      ∃ cfg dict sys auto table blocks, Sources.PosTable ⟨coreSource, [], sys⟩ table ∧
        Each (Sources.PrintsLine ⟨coreSource, [], sys⟩ auto cfg table coreEntries cfg.pathPlugins .A (create cfg dict none).buildInput true) texts blocks ∧
        Written encodeUtf8 blocks.flatten
          (mainProgram coreRuntime ⟨buildTerminal.put corePath file, (texts, .ok ()), encodeUtf8⟩ version [(pstr! "-am"), (pstr! "A")]).stdout) := by
  obtain ⟨file, h1, h2⟩ := C83_session (R := coreRuntime) (S := buildTerminal) version (core := corePath) (src := coreSource) SimpleTrie.ok core_unicode
    build_shipped (by decide) build_spells .nil (ins := [lexPath]) (by decide) (by decide) rfl rfl build_matrix
    (.cons build_table .nil) (by decide) (by decide) (by unfold Shell.AllPresent; decide) rfl rfl core_buildable core_for_shipped
    (fun _ => core_complete rfl rfl (by decide)) (by decide) (fun _ _ _ => core_separators rfl rfl _)
  refine ⟨file, h1, fun hlen => ?_⟩
  have hi : InputIs (buildTerminal.put corePath file).toDisk (texts, .ok ()) [lit "-"] texts := by
    have := InputIs.stdin (M := (buildTerminal.put corePath file).toDisk) (ls := texts) (.nil (stdin := ([], .ok ())))
    rwa [List.append_nil] at this
  have hadd : ∀ sys, Sources.SplitsAddUp ⟨coreSource, [], sys⟩ := by
    intro sys d w c cs' ⟨src, h1, h2⟩ _ hsp hlen'
    match d with
    | 0 =>
      cases h1
      obtain ⟨rfl, rfl⟩ := core_rows h2
      exfalso
      rcases hsp with hsp | hsp
      · have := star_rows hsp; omega
      · have := star_rows hsp; omega
    | d + 1 => cases h1
  have hcan : ∀ cfg dict, (openDictionary coreRuntime (buildTerminal.put corePath file).toDisk Settings.init none none none).2 = .ok (cfg, dict) →
      ∀ line ∈ texts, (create cfg dict none).CanRead line := by
    intro cfg dict ho line hl
    have hc := chomped_rstrip line
    refine ⟨_, hc, hc.encodable (henc line hl), fun t ht => ?_⟩
    have := hlen cfg dict ho line hl _ t hc ht
    refine ⟨by unfold SafeLength; omega, ?_⟩
    have hfuel : (create cfg dict none).fuel = 100000 := by
      rcases hop : openDictionary coreRuntime (buildTerminal.put corePath file).toDisk Settings.init none none none with ⟨s, r⟩
      rw [hop] at ho
      have ho : r = .ok (cfg, dict) := ho
      rw [ho] at hop
      obtain ⟨_, d, dir, f, fs, hO⟩ := (C68_opens _ _ _ _ _ _ _ _ _).mp hop
      exact hO.runtime.2.2.1
    rw [hfuel]
    exact Nat.le_trans (Nat.mul_le_mul (Nat.mul_le_mul_left 3 (Nat.succ_le_succ this)) (Nat.succ_le_succ this)) (by decide)
  obtain ⟨e1, cfg, dict, sys, auto, table, blocks, out, _, e2, e3, e4, e5⟩ := h2 ⟨buildTerminal.put corePath file, (texts, .ok ()), encodeUtf8⟩ (buildTerminal.put corePath file)
    [(pstr! "-am"), (pstr! "A")] [] [] [lit "-"] texts [(.all, []), (.mode, (pstr! "A"))] [] [(pstr! "-am"), (pstr! "A")] .A rfl tokenize_spells .nil
    (by decide) (.inr ⟨rfl, by decide⟩) (by rintro o v hv; simp only [List.append_nil, List.mem_cons, Prod.mk.injEq, List.not_mem_nil, or_false] at hv; rcases hv with ⟨rfl, _⟩ | ⟨rfl, _⟩ <;> decide)
    (fun p ⟨h, _⟩ => by cases h) (fun p hp => by cases hp) (.inl ⟨.inl rfl, rfl⟩) (.inl ⟨rfl, rfl⟩) hi (.inl ⟨rfl, rfl⟩) (.inl hadd) hcan
  refine ⟨e1, cfg, dict, sys, auto, table, blocks, e2, e3, ?_⟩
  have hout : out = blocks.flatten := by
    rcases e4 with h | ⟨h, _⟩
    · exact h.2
    · cases h
  rcases e5 with ⟨_, _, h⟩ | ⟨p, ⟨h, _⟩, _⟩
  · exact hout ▸ h
  · cases h

end Sample

end Sudachi
