/-
C76: the command `tokenize` on the package as it ships, and on the sample dictionaries.
-/
import Verif.Props.TokenizeCommand
import Verif.Props.ShippedCore
import Verif.Lemmas.SampleTerminal
namespace Sudachi

/-- The output file is not one of the files of the package. -/
def TokenizeArgs.SparesPackage (a : TokenizeArgs) (M : Disk) (core : PStr) : Prop :=
  ∀ p, a.ToFile p → p ≠ core ∧ p ≠ M.resources ++ codes "/char.def" ∧ p ≠ M.resources ++ codes "/unk.def" ∧ p ≠ M.resources ++ codes "/rewrite.def"

theorem Terminal.Starts.shipped {S : Terminal} {a : TokenizeArgs} {M : Shell} {core : PStr} {file : Bytes} (h : S.Starts a M)
    (hS : S.toDisk.Shipped core) (hf : S.file core = .ok file) (ha : a.SparesPackage S.toDisk core) :
    M.toDisk.Shipped core ∧ M.file core = .ok file := by
  rcases h with ⟨_, rfl⟩ | ⟨p, hp, _, rfl⟩
  · exact ⟨hS, hf⟩
  · obtain ⟨h1, h2, h3, h4⟩ := ha p hp
    exact ⟨⟨hS.directory, hS.setting, hS.settings, (if_neg (Ne.symm h2)).trans hS.charDef, (if_neg (Ne.symm h3)).trans hS.unkDef,
      (if_neg (Ne.symm h4)).trans hS.rewriteDef, hS.package, hS.absolute⟩, (if_neg (Ne.symm h1)).trans hf⟩

/-- **C76** On a machine with the shipped files and a core dictionary built from a complete source, the command prints the analysis of
every readable input without an exception: with or without an output file, dumps, and all columns. -/
theorem C76_shipped {R : Runtime} {S : Terminal} {a : TokenizeArgs} {M : Shell} {src : DictSource} {core : PStr} {file : Bytes} {n : Nat}
    {entries : List (Int × Int × Int)} {files input : List PStr} {mode : Mode} (version : PStr) (hD : R.D.Ok) (hU : R.UnicodeOk)
    (hS : S.toDisk.Shipped core) (hfile : S.file core = .ok file) (hb : src.Builds R.D none file) (hs : src.ForShipped)
    (hC : ∀ sys, Sources.Complete ⟨src, [], sys⟩ n entries R.depth) (hn : 5968 < n)
    (hsep : ∀ sys rs, compile R.pick shippedRanges = .ok rs → Sources.NoSeparators ⟨src, [], sys⟩ (getCategoryTypes rs))
    (hv : a.version = false) (hset : a.setting = none) (htype : a.dictType = none) (hspare : a.SparesPackage S.toDisk core)
    (hp : S.AllPresent a.inFiles) (hM : S.Starts a M) (hf : a.Files files) (hi : InputIs M.toDisk S.stdin files input) (hm : a.InMode mode)
    (hadd : (∀ sys, Sources.SplitsAddUp ⟨src, [], sys⟩) ∨ mode = .C)
    (hlines : ∀ cfg dict, (openDictionary R M.toDisk Settings.init none none none).2 = .ok (cfg, dict) →
      ∀ line ∈ input, (create cfg dict none).CanRead line) :
    (commandTokenize R S version a).ended = .done ∧
      ∃ cfg dict out, (openDictionary R M.toDisk Settings.init none none none).2 = .ok (cfg, dict) ∧
        a.Prints (create cfg dict none) dict.grammar mode input out ∧ S.Leaves a out (commandTokenize R S version a) := by
  obtain ⟨hMs, hMf⟩ := hM.shipped hS hfile hspare
  obtain ⟨ds, g, r1, _, _⟩ := system_loads hD hb hs.system
  let Src : Sources := ⟨src, [], ds.toSysDict R.D R.depth⟩
  obtain ⟨cfg, dict, h1, h2, h3, h4, h5, h6, h7, rs, h8, h9⟩ := C69_opens (S := Src) hMs hD hU hMf hb hs rfl
    (fun ds' h => ⟨R.depth, by rw [r1] at h; cases h; rfl⟩) Settings.init
  obtain ⟨rs', k1, _, _, _, k5⟩ := C21_shipped_char_def R.pick
  rw [h8] at k1
  cases k1
  obtain ⟨w, c, hw, _, _⟩ := hs.noun
  have hopen : openDictionary R M.toDisk Settings.init a.setting none a.dictType = (shippedSet M.toDisk core, .ok (cfg, dict)) := by rw [hset, htype]; exact h1
  have hopen2 : (openDictionary R M.toDisk Settings.init none none none).2 = .ok (cfg, dict) := by rw [h1]
  have hC' : Src.Complete n entries cfg.depth := h4 ▸ hC _
  have hpos : dict.grammar.posList ≠ [] := C74_has_pos (h3 ▸ hD) h2 hC'.fit hC'.chains (d := 0) (w := w) (c := c) ⟨src, rfl, hw⟩
  obtain ⟨e1, out, e2, e3⟩ := C76_complete (Src := Src) version hv hp hM hopen (h3 ▸ hD) h2 hC' (h6 n hn) (h9 ▸ hsep _ rs h8) (h9 ▸ k5) h7 hpos hf hi hm
    (hadd.elim (fun h => .inl (h _)) .inr) (hlines cfg dict hopen2)
  exact ⟨e1, cfg, dict, out, hopen2, e2, e3⟩

namespace Sample

/-- What the sample's commands do not write to. -/
def Spares (a : TokenizeArgs) : Prop := ∀ p, a.ToFile p → p ≠ systemDic ∧ p ≠ userDic1 ∧ p ≠ userDic2 ∧ p ≠ charFile

theorem starts_sample {a : TokenizeArgs} (ha : Spares a) {M : Shell} (h : terminal.Starts a M) : HasSample M.toDisk := by
  rcases h with ⟨_, rfl⟩ | ⟨p, hp, _, rfl⟩
  · exact disk_sample
  · obtain ⟨h1, h2, h3, h4⟩ := ha p hp
    exact disk_put h1 h2 h3 h4

theorem opens_sound {a : TokenizeArgs} (ha : Spares a) (h1 : a.setting = some settingFile) (h2 : a.dictType = none) :
    terminal.OpensSound runtime a := by
  intro M s cfg dict hM hopen
  rw [h1, h2] at hopen
  have hs := starts_sample ha hM
  obtain ⟨k1, k2, k3, _⟩ := opened hs hopen
  have := k1.complete (k2 ▸ SimpleTrie.ok) (by rw [k3]; exact sources_complete) (opened_complete hs hopen) cfg.pathPlugins .C
  exact ⟨this.plugins, this.lexOk⟩

/-- `tokenize -r s.json -m … -o out.txt in.txt`, possibly with `-a` and `-d`. -/
def argsOf (mode : PStr) (all dump : Bool) : TokenizeArgs := ⟨false, [textInput], mode, some textOutput, some settingFile, none, all, dump⟩

theorem args_spare (mode : PStr) (all dump : Bool) : Spares (argsOf mode all dump) := by
  rintro p ⟨h, _⟩
  cases h
  decide

theorem args_start (mode : PStr) (all dump : Bool) : terminal.Starts (argsOf mode all dump) (terminal.put textOutput []) :=
  .inr ⟨textOutput, ⟨rfl, by decide⟩, rfl, rfl⟩

theorem args_present (mode : PStr) (all dump : Bool) : terminal.AllPresent (argsOf mode all dump).inFiles := by
  intro p hp
  rw [List.mem_singleton.mp hp]
  decide

/-- The lines of the text. -/
def textLines3 : List PStr := [pstr! "abx\n", pstr! "\n", pstr! "aa"]

theorem args_input : InputIs (terminal.put textOutput []).toDisk terminal.stdin [textInput] textLines3 := by
  have h : (terminal.put textOutput []).toDisk.HasLines textInput textLines3 := ⟨pstr! "abx\n\naa", by decide, by decide +kernel⟩
  have := InputIs.file (by decide) h (.nil (stdin := terminal.stdin))
  rwa [List.append_nil] at this

theorem text_can_read {M : Disk} (hM : HasSample M) {s : Settings} {cfg : DictConfig} {dict : Dict}
    (h : openDictionary runtime M Settings.init (some settingFile) none none = (s, .ok (cfg, dict))) :
    ∀ line ∈ textLines3, (create cfg dict none).CanRead line := by
  have key : ∀ body : PStr, body.getLast? ≠ some 10 → ∀ b, body ≠ b ++ [10] := by
    intro body hb b e
    rw [e] at hb
    simp at hb
  intro line hl
  rcases List.mem_cons.mp hl with rfl | hl
  · exact opened_can_read hM h (body := pstr! "abx") ⟨1, rfl, key _ (by decide)⟩ (by decide) (by decide)
  rcases List.mem_cons.mp hl with rfl | hl
  · exact opened_can_read hM h (body := []) ⟨1, rfl, key _ (by decide)⟩ (by decide) (by decide)
  · rw [List.mem_singleton.mp hl]
    exact opened_can_read hM h (body := pstr! "aa") ⟨0, rfl, key _ (by decide)⟩ (by decide) (by decide)

/-- The sample's command succeeds, in every mode, with or without all columns, with or without dumps. -/
theorem command_succeeds (m : PStr) (all dump : Bool) : (commandTokenize runtime terminal [] (argsOf m all dump)).ended = .done ∧
    ∃ out, terminal.Leaves (argsOf m all dump) out (commandTokenize runtime terminal [] (argsOf m all dump)) := by
  obtain ⟨cfg, dict, h⟩ := file_opens
  have hs : HasSample (terminal.put textOutput []).toDisk := disk_put (by decide) (by decide) (by decide) (by decide)
  obtain ⟨k1, k2, k3, _, _, _, _, _, k9, _⟩ := opened hs h
  obtain ⟨n1, n2⟩ := opened_separators hs h
  have hD : cfg.D.Ok := k2 ▸ SimpleTrie.ok
  have hC : sources.Complete 2 entries cfg.depth := by rw [k3]; exact sources_complete
  obtain ⟨e1, out, _, e3⟩ := C76_complete (a := argsOf m all dump) (mode := modeArg m) [] rfl (args_present m all dump) (args_start m all dump) h hD
    k1 hC (opened_complete hs h) n1 n2 (k9 ▸ trivial) (C74_has_pos hD k1 hC.fit hC.chains (d := 0) (w := 0) (c := cols0) ⟨_, rfl, row0⟩)
    (.inr ⟨List.cons_ne_nil _ _, rfl⟩) args_input (inMode_iff.mpr rfl) (.inl splits_add_up) (text_can_read hs h)
  exact ⟨e1, out, e3⟩

/-- Nothing is lost: what the sample's command prints is in the file, in UTF-8. -/
example (m : PStr) (all dump : Bool) : ∃ input out bytes, terminal.Runs runtime (argsOf m all dump) input out ∧
    encodeUtf8 (out.map (· ++ lit "\n")).flatten = .ok bytes ∧
    (commandTokenize runtime terminal [] (argsOf m all dump)).shell.file textOutput = .ok bytes := by
  have hT : terminal.OpensSound runtime (argsOf m all dump) := opens_sound (args_spare m all dump) rfl rfl
  obtain ⟨input, out, h⟩ := (C76_done runtime terminal [] _ rfl hT).mp (command_succeeds m all dump).1
  obtain ⟨bytes, h1, h2, _⟩ := C76_lossless runtime terminal [] _ rfl hT disk_octets
    (fun l hl => by rw [List.mem_singleton.mp hl]; unfold Encodable; decide) input out h
  exact ⟨input, out, bytes, h, h1, h2 textOutput ⟨rfl, by decide⟩⟩

/-- The lines `abx`, nothing and `aa` in mode C; the output as Python's `str` would show it. -/
example : (commandTokenize runtime terminal [] (argsOf (lit "C") false false)).shell.file textOutput =
    .ok (pstr! "ab\tp,p,p,p,p,q\tn\nx\tp,p,p,p,p,p\tx\nEOS\nEOS\na\tp,p,p,p,p,p\ta\na\tp,p,p,p,p,p\ta\nEOS\n") := by decide +kernel

/-- A byte that is not UTF-8 on the standard input (a lone surrogate in Python): the line before is printed, then the exception. -/
example : (fun o : Outcome => (o.stdout, o.ended))
      (commandTokenize runtime { terminal with stdin := ([pstr! "a\n", [0xDC80, 10], pstr! "a\n"], .ok ()) } []
        ⟨false, [], lit "C", none, some settingFile, none, false, false⟩) =
    (pstr! "a\tp,p,p,p,p,p\ta\nEOS\n", .raised .unicode) := by decide +kernel

/-- `tokenize -v` -/
example : commandTokenize runtime terminal (pstr! "0.6.3") ⟨true, [], lit "C", none, none, none, false, false⟩ =
    ⟨terminal.toShell, pstr! "sudachipy 0.6.3\n", .done⟩ :=
  C76_version _ _ _ _ rfl _ (by decide +kernel)

/-- `tokenize -r s.json -o out.txt in.txt -`: there is no file `-`. -/
example : commandTokenize runtime terminal [] ⟨false, [textInput, lit "-"], lit "C", some textOutput, some settingFile, none, false, false⟩ =
    ⟨terminal.toShell, [], .exit 1⟩ :=
  C76_missing _ _ _ _ rfl (lit "-") (by decide) (by decide)

/-- `tokenize -r s.json -o in.txt in.txt`: the text is lost. -/
theorem own_input_lost : (commandTokenize runtime terminal [] ⟨false, [textInput], lit "C", some textInput, some settingFile, none, false, false⟩).ended = .done ∧
    (commandTokenize runtime terminal [] ⟨false, [textInput], lit "C", some textInput, some settingFile, none, false, false⟩).shell.file textInput =
      .ok [] ∧ terminal.file textInput ≠ .ok [] := by
  have hd : (commandTokenize runtime terminal [] ⟨false, [textInput], lit "C", some textInput, some settingFile, none, false, false⟩).ended = .done := by
    decide +kernel
  refine ⟨hd, ?_, by decide⟩
  have hsp : Spares ⟨false, [textInput], lit "C", some textInput, some settingFile, none, false, false⟩ := by
    rintro p ⟨h, _⟩
    cases h
    decide
  exact C76_own_input runtime terminal [] _ rfl (opens_sound hsp rfl rfl) textInput ⟨rfl, by decide⟩ rfl (by decide) hd

/-- The machine with the package and the given core dictionary, and lines on its standard input. -/
def coreTerminal (file : Bytes) (lines : List PStr) : Terminal where
  toDisk := coreDisk file
  present _ := false
  opens _ := .ok ()
  decode b := .ok b
  headLine _ := none
  time := 100
  stdin := (lines, .ok ())
  encode := encodeUtf8

/-- `tokenize` with the package as it ships and a core dictionary with the word 東京: all lines of the standard input that are not too
long are printed, in every mode. -/
example (lines : List PStr) (m : PStr) (all dump : Bool) (mode : Mode)
    (hmode : TokenizeArgs.InMode ⟨false, [], m, none, none, none, all, dump⟩ mode)
    (henc : ∀ line ∈ lines, Encodable line) :
    ∃ file, coreSource.Builds SimpleTrie.trie none file ∧
      ((∀ cfg dict, (openDictionary coreRuntime (coreDisk file) Settings.init none none none).2 = .ok (cfg, dict) →
        ∀ line ∈ lines, ∀ body t, Chomped line body → (create cfg dict none).buildInput body = .ok t → t.bytes.length ≤ 20) →
      (commandTokenize coreRuntime (coreTerminal file lines) [] ⟨false, [], m, none, none, none, all, dump⟩).ended = .done) := by
  obtain ⟨hSO, cs, T, hcs, hroom, hw⟩ := core_buildable
  obtain ⟨file, ds, hb, _, _⟩ := C71_usable SimpleTrie.ok hSO hcs hroom hw
  refine ⟨file, hb, fun hlen => ?_⟩
  have hi : InputIs (coreDisk file) (lines, .ok ()) [lit "-"] lines := by
    have := InputIs.stdin (M := coreDisk file) (ls := lines) (.nil (stdin := ([], .ok ())))
    rwa [List.append_nil] at this
  refine (C76_shipped (R := coreRuntime) (S := coreTerminal file lines) (M := (coreTerminal file lines).toShell) (core := corePath) [] SimpleTrie.ok
    core_unicode (core_shipped file) (by show (coreDisk file).file corePath = _; simp only [coreDisk, if_true]) hb core_for_shipped
    (fun _ => core_complete rfl rfl (by decide)) (by decide) (fun _ _ _ => core_separators rfl rfl _) rfl rfl rfl
    (fun p ⟨h, _⟩ => by cases h) (fun p hp => by cases hp) (.inl ⟨.inl rfl, rfl⟩) (.inl ⟨rfl, rfl⟩) hi hmode ?_ ?_).1
  · left
    intro sys d w c cs' ⟨src, h1, h2⟩ _ hsp hlen'
    match d with
    | 0 =>
      cases h1
      obtain ⟨rfl, rfl⟩ := core_rows h2
      exfalso
      rcases hsp with hsp | hsp
      · have := star_rows hsp; omega
      · have := star_rows hsp; omega
    | d + 1 => cases h1
  · intro cfg dict ho line hl
    have hc := chomped_rstrip line
    refine ⟨_, hc, hc.encodable (henc line hl), fun t ht => ?_⟩
    have := hlen cfg dict ho line hl _ t hc ht
    refine ⟨by unfold SafeLength; omega, ?_⟩
    have hfuel : (create cfg dict none).fuel = 100000 := by
      rcases hop : openDictionary coreRuntime (coreDisk file) Settings.init none none none with ⟨s, r⟩
      rw [show (coreTerminal file lines).toShell.toDisk = coreDisk file from rfl, hop] at ho
      have ho : r = .ok (cfg, dict) := ho
      rw [ho] at hop
      obtain ⟨_, d, dir, f, fs, hO⟩ := (C68_opens _ _ _ _ _ _ _ _ _).mp hop
      exact hO.runtime.2.2.1
    rw [hfuel]
    exact Nat.le_trans (Nat.mul_le_mul (Nat.mul_le_mul_left 3 (Nat.succ_le_succ this)) (Nat.succ_le_succ this)) (by decide)

end Sample

end Sudachi
