/-
C76: the command `tokenize`.
-/
import Verif.Lemmas.TokenizeCommand
import Verif.Lemmas.Encodable3
import Verif.Props.Commands
import Verif.Props.Shipped
import Verif.Props.Definitions
namespace Sudachi

/-- **C76** With `-v` the version is printed, nothing is read or changed. -/
theorem C76_version (R : Runtime) (S : Terminal) (version : PStr) (a : TokenizeArgs) (hv : a.version = true) (b : Bytes)
    (hb : S.encode (lit "sudachipy " ++ version ++ lit "\n") = .ok b) : commandTokenize R S version a = ⟨S.toShell, b, .done⟩ := by
  have h1 : lit "sudachipy " = [115, 117, 100, 97, 99, 104, 105, 112, 121, 32] := by decide
  rw [h1, lit_newline] at hb
  unfold commandTokenize
  rw [hv, if_pos rfl, hb]

/-- **C76** The command exits with a status exactly if an input file does not exist; the status is 1, nothing is written, and no output
file is created. -/
theorem C76_refused (R : Runtime) (S : Terminal) (version : PStr) (a : TokenizeArgs) (code : Nat) :
    (commandTokenize R S version a).ended = .exit code ↔
      a.version = false ∧ code = 1 ∧ (∃ p ∈ a.inFiles, S.present p = false) ∧ commandTokenize R S version a = ⟨S.toShell, [], .exit 1⟩ := by
  constructor
  · intro h
    cases hv : a.version with
    | true =>
      unfold commandTokenize at h
      rw [hv, if_pos rfl] at h
      split at h <;> cases h
    | false =>
      by_cases hp : S.AllPresent a.inFiles
      · by_cases hM : ∃ M, S.Starts a M
        · obtain ⟨M, hM⟩ := hM
          rw [(command_starts hv hp hM).2] at h
          unfold runInput at h
          split at h
          · cases h
          · dsimp only at h
            split at h
            · cases h
            split at h
            · cases h
            · exact absurd h (by
                cases (inputOf M.toDisk S.stdin a.inFiles).2 with
                | ok u => exact fun h => by cases h
                | error e => exact fun h => by cases h)
        · obtain ⟨p, e, _, _, he⟩ := command_not_starts (R := R) (version := version) hv hp (fun M h => hM ⟨M, h⟩)
          rw [he] at h
          cases h
      · have hall : (!a.inFiles.all S.present) = true := by
          cases hb : (!a.inFiles.all S.present) with
          | true => rfl
          | false => exact absurd (all_present.mp hb) hp
        have he : commandTokenize R S version a = ⟨S.toShell, [], .exit 1⟩ := by
          unfold commandTokenize
          rw [hv, if_neg (by simp), hall, if_pos rfl]
        rw [he] at h
        refine ⟨rfl, by cases h; rfl, ?_, he⟩
        simpa [List.all_eq_true] using hall
  · rintro ⟨_, rfl, _, he⟩
    rw [he]

/-- **C76** An input file that does not exist is refused, before the output file is opened. -/
theorem C76_missing (R : Runtime) (S : Terminal) (version : PStr) (a : TokenizeArgs) (hv : a.version = false) (p : PStr)
    (hp : p ∈ a.inFiles) (hn : S.present p = false) : commandTokenize R S version a = ⟨S.toShell, [], .exit 1⟩ := by
  have hall : (!a.inFiles.all S.present) = true := by
    cases hb : (!a.inFiles.all S.present) with
    | true => rfl
    | false => have := all_present.mp hb p hp; rw [hn] at this; cases this
  unfold commandTokenize
  rw [hv, if_neg (by simp), hall, if_pos rfl]

/-- **C76** So `-`, the usual name of the standard input, is refused, unless there is a file of that name. -/
theorem C76_dash (R : Runtime) (S : Terminal) (version : PStr) (a : TokenizeArgs) (hv : a.version = false)
    (hp : lit "-" ∈ a.inFiles) (hn : S.present (lit "-") = false) : (commandTokenize R S version a).ended = .exit 1 := by
  rw [C76_missing R S version a hv _ hp hn]

/-- **C76** Nothing but the output file is changed, and with an output file nothing but the version is printed to the standard
output. -/
theorem C76_touches (R : Runtime) (S : Terminal) (version : PStr) (a : TokenizeArgs) :
    (a.ToStdout → (commandTokenize R S version a).shell = S.toShell) ∧
    ∀ p, a.ToFile p → S.SameBut (commandTokenize R S version a).shell p ∧ (a.version = false → (commandTokenize R S version a).stdout = []) := by
  cases hv : a.version with
  | true =>
    have key : (commandTokenize R S version a).shell = S.toShell := by
      unfold commandTokenize
      rw [hv, if_pos rfl]
      split <;> rfl
    exact ⟨fun _ => key, fun p _ => ⟨by rw [key]; exact .refl _ _, fun h => by cases h⟩⟩
  | false =>
    by_cases hp : S.AllPresent a.inFiles
    · by_cases hM : ∃ M, S.Starts a M
      · obtain ⟨M, hM⟩ := hM
        rcases (command_starts (R := R) (version := version) hv hp hM).1 with ⟨ho, h1, _⟩ | ⟨p, ⟨ho, hne⟩, h1, h2, _⟩
        · refine ⟨fun _ => h1, fun p hp => ?_⟩
          obtain ⟨h2, h3⟩ := hp
          rcases ho with ho | ho
          · rw [ho] at h2; cases h2
          · rw [ho] at h2; cases h2; exact absurd rfl h3
        · refine ⟨fun h => ?_, fun q hq => ?_⟩
          · rcases h with h | h
            · rw [ho] at h; cases h
            · rw [ho] at h; cases h; exact absurd rfl hne
          · obtain ⟨h3, _⟩ := hq
            rw [ho] at h3
            cases h3
            exact ⟨h2, fun _ => h1⟩
      · obtain ⟨p, e, _, _, he⟩ := command_not_starts (R := R) (version := version) hv hp (fun M h => hM ⟨M, h⟩)
        rw [he]
        exact ⟨fun _ => rfl, fun p _ => ⟨.refl _ _, fun _ => rfl⟩⟩
    · have : ∃ p ∈ a.inFiles, S.present p = false := by
        apply Classical.byContradiction
        intro hno
        refine hp fun q hq => ?_
        cases hs : S.present q with
        | true => rfl
        | false => exact absurd ⟨q, hq, hs⟩ hno
      obtain ⟨p, h1, h2⟩ := this
      rw [C76_missing R S version a hv p h1 h2]
      exact ⟨fun _ => rfl, fun p _ => ⟨.refl _ _, fun _ => rfl⟩⟩

theorem noCells_false {d : Dict} : d.noCells = false ↔ d.HasCells := by
  unfold Dict.noCells Dict.HasCells
  rw [decide_eq_false_iff_not, Nat.mul_eq_zero]
  omega

theorem createTokenizer_ok {cfg : DictConfig} {d : Dict} {mode : Option Mode} {T : Tokenizer} :
    createTokenizer cfg d mode = .ok T ↔ d.HasCells ∧ T = create cfg d mode := by
  unfold createTokenizer
  rw [← noCells_false]
  cases d.noCells with
  | true => exact ⟨fun h => (by cases h), fun h => (by cases h.1)⟩
  | false => exact ⟨fun h => by cases h; exact ⟨rfl, rfl⟩, fun h => by rw [h.2]; rfl⟩

/-- **C76** A dictionary without connection costs can be opened but not used: `ValueError`, and nothing is printed. -/
theorem C76_no_cells (R : Runtime) (S : Terminal) (version : PStr) (a : TokenizeArgs) (hv : a.version = false) {M : Shell} {s : Settings}
    {cfg : DictConfig} {dict : Dict} (hp : S.AllPresent a.inFiles) (hM : S.Starts a M)
    (hopen : openDictionary R M.toDisk Settings.init a.setting none a.dictType = (s, .ok (cfg, dict))) (hc : ¬ dict.HasCells) :
    (commandTokenize R S version a).ended = .raised .value ∧ S.Leaves a [] (commandTokenize R S version a) := by
  have := command_starts (R := R) (version := version) hv hp hM
  unfold runInput at this
  rw [hopen] at this
  dsimp only at this
  rw [show createTokenizer cfg dict none = .error .value by
    unfold createTokenizer
    rw [if_pos (by
      cases h : dict.noCells with
      | true => rfl
      | false => exact absurd (noCells_false.mp h) hc)]] at this
  exact ⟨this.2, this.1⟩

/-- The tokenizer of every dictionary that the command can open is sound. -/
def Terminal.OpensSound (R : Runtime) (S : Terminal) (a : TokenizeArgs) : Prop :=
  ∀ M s cfg dict, S.Starts a M → openDictionary R M.toDisk Settings.init a.setting none a.dictType = (s, .ok (cfg, dict)) →
    (create cfg dict none).PluginsOk ∧ (create cfg dict none).lex.Ok

/-- **C76** When the command ends normally: exactly if the input files exist, the output file can be opened, the dictionary can be
opened, the input can be read to its end, and every line has its block (and its dump). -/
theorem C76_done (R : Runtime) (S : Terminal) (version : PStr) (a : TokenizeArgs) (hv : a.version = false) (hT : S.OpensSound R a) :
    (commandTokenize R S version a).ended = .done ↔ ∃ input out, S.Runs R a input out := by
  constructor
  · intro h
    by_cases hp : S.AllPresent a.inFiles
    · by_cases hM : ∃ M, S.Starts a M
      · obtain ⟨M, hM⟩ := hM
        rw [(command_starts hv hp hM).2] at h
        unfold runInput at h
        split at h
        · cases h
        · rename_i s cfg dict hopen
          obtain ⟨h1, h2⟩ := hT M s cfg dict hM hopen
          cases hcr : createTokenizer cfg dict none with
          | error e => rw [hcr] at h; cases h
          | ok T =>
          rw [hcr] at h
          obtain ⟨hcells, rfl⟩ := createTokenizer_ok.mp hcr
          dsimp only at h
          split at h
          · cases h
          · rename_i out hr
            obtain ⟨files, hf⟩ := files_exists a
            have h := ended_done.mp h
            rw [inputOf_files hf] at h hr
            exact ⟨_, out, hp, M, s, cfg, dict, files, _, hM, hopen, hcells, hf, inputLines_ok.mp (Prod.ext rfl h), inMode_iff.mpr rfl,
              (prints_iff h1 h2 .fresh).mp hr⟩
      · obtain ⟨p, e, _, _, he⟩ := command_not_starts (R := R) (version := version) hv hp (fun M h => hM ⟨M, h⟩)
        rw [he] at h
        cases h
    · have : ∃ p ∈ a.inFiles, S.present p = false := by
        apply Classical.byContradiction
        intro hno
        refine hp fun q hq => ?_
        cases hs : S.present q with
        | true => rfl
        | false => exact absurd ⟨q, hq, hs⟩ hno
      obtain ⟨p, h1, h2⟩ := this
      rw [C76_missing R S version a hv p h1 h2] at h
      cases h
  · rintro ⟨input, out, hp, M, s, cfg, dict, files, mode, hM, hopen, hcells, hf, hi, hm, hpr⟩
    obtain ⟨h1, h2⟩ := hT M s cfg dict hM hopen
    rw [(command_starts hv hp hM).2]
    unfold runInput
    rw [hopen]
    dsimp only
    rw [createTokenizer_ok.mpr ⟨hcells, rfl⟩]
    dsimp only
    rw [inputOf_files hf, inputLines_ok.mpr hi, ← inMode_iff.mp hm, (prints_iff h1 h2 .fresh).mpr hpr]
    rfl

/-- **C76** What it leaves then: the lines printed for the lines of input, in their order, and nothing else. -/
theorem C76_writes (R : Runtime) (S : Terminal) (version : PStr) (a : TokenizeArgs) (hv : a.version = false) (hT : S.OpensSound R a)
    (input out : List PStr) (h : S.Runs R a input out) : S.Leaves a out (commandTokenize R S version a) := by
  obtain ⟨hp, M, s, cfg, dict, files, mode, hM, hopen, hcells, hf, hi, hm, hpr⟩ := h
  obtain ⟨h1, h2⟩ := hT M s cfg dict hM hopen
  have := (command_starts (R := R) (version := version) hv hp hM).1
  unfold runInput at this
  rw [hopen] at this
  dsimp only at this
  rw [createTokenizer_ok.mpr ⟨hcells, rfl⟩] at this
  dsimp only at this
  rw [inputOf_files hf, inputLines_ok.mpr hi, ← inMode_iff.mp hm, (prints_iff h1 h2 .fresh).mpr hpr] at this
  exact this

/-- **C76** An input that cannot be read to its end: what was read before is analysed and printed, then the exception is raised. -/
theorem C76_unreadable (R : Runtime) (S : Terminal) (version : PStr) (a : TokenizeArgs) (hv : a.version = false) (hT : S.OpensSound R a)
    {M : Shell} {s : Settings} {cfg : DictConfig} {dict : Dict} {files input out : List PStr} {mode : Mode} {e : Err}
    (hp : S.AllPresent a.inFiles) (hM : S.Starts a M)
    (hopen : openDictionary R M.toDisk Settings.init a.setting none a.dictType = (s, .ok (cfg, dict)))
    (hcells : dict.HasCells) (hf : a.Files files) (hi : InputFails M.toDisk S.stdin files input e) (hm : a.InMode mode)
    (hpr : a.Prints (create cfg dict none) dict.grammar mode input out) :
    (commandTokenize R S version a).ended = .raised e ∧ S.Leaves a out (commandTokenize R S version a) := by
  obtain ⟨h1, h2⟩ := hT M s cfg dict hM hopen
  have := command_starts (R := R) (version := version) hv hp hM
  unfold runInput at this
  rw [hopen] at this
  dsimp only at this
  rw [createTokenizer_ok.mpr ⟨hcells, rfl⟩] at this
  dsimp only at this
  rw [inputOf_files hf, inputLines_error.mpr hi, ← inMode_iff.mp hm, (prints_iff h1 h2 .fresh).mpr hpr] at this
  exact ⟨this.2, this.1⟩

/-- **C76** A line that cannot be analysed or printed: the lines before have their blocks in the output, and the lines after have
nothing. -/
theorem C76_interrupted (R : Runtime) (S : Terminal) (version : PStr) (a : TokenizeArgs) (hv : a.version = false) (hd : a.dump = false)
    (hT : S.OpensSound R a) {M : Shell} {s : Settings} {cfg : DictConfig} {dict : Dict} {files input : List PStr} {mode : Mode} {e : Err}
    (hp : S.AllPresent a.inFiles) (hM : S.Starts a M)
    (hopen : openDictionary R M.toDisk Settings.init a.setting none a.dictType = (s, .ok (cfg, dict)))
    (hcells : dict.HasCells) (hf : a.Files files) (hi : InputIs M.toDisk S.stdin files input) (hm : a.InMode mode)
    (h : (commandTokenize R S version a).ended = .raised e) :
    ∃ before line after blocks part body, input = before ++ line :: after ∧
      BlocksOf (create cfg dict none) dict.grammar mode a.all before blocks ∧ Chomped line body ∧
      (((create cfg dict none).tokenize Lattice.init body (some mode)).2 = .error e ∧ part = [] ∨
       ∃ ml, ((create cfg dict none).tokenize Lattice.init body (some mode)).2 = .ok ml ∧ part.length < ml.len ∧
        (∀ i l, part[i]? = some l → LineOf dict.grammar (create cfg dict none).lex ml a.all i l) ∧
        ∀ l, ¬ LineOf dict.grammar (create cfg dict none).lex ml a.all part.length l) ∧
      S.Leaves a (blocks.flatten ++ part) (commandTokenize R S version a) := by
  obtain ⟨h1, h2⟩ := hT M s cfg dict hM hopen
  have hc := command_starts (R := R) (version := version) hv hp hM
  rw [h] at hc
  unfold runInput at hc
  rw [hopen] at hc
  dsimp only at hc
  rw [createTokenizer_ok.mpr ⟨hcells, rfl⟩] at hc
  dsimp only at hc
  rw [hd, if_neg (by simp), inputOf_files hf, inputLines_ok.mpr hi, ← inMode_iff.mp hm] at hc
  cases hr : runLines (create cfg dict none) dict.grammar mode a.all Lattice.init input with
  | mk out r =>
    rw [hr] at hc
    cases r with
    | ok u => exact absurd hc.2 (by intro h; cases h)
    | error e' =>
      have : e' = e := by have := hc.2; cases this; rfl
      subst this
      obtain ⟨before, line, after, blocks, part, body, k1, k2, rfl, k4, k5⟩ := C53_interrupted _ h1 h2 _ _ _ _ .fresh _ _ _ hr
      exact ⟨before, line, after, blocks, part, body, k1, k2, k4, k5, hc.1⟩

theorem Lines.encodable {text : PStr} {ls : List PStr} (h : Lines text ls) (he : Encodable text) : ∀ l ∈ ls, Encodable l := by
  induction h with
  | nil => intro l hl; cases hl
  | last s h1 h2 => intro l hl; rw [List.mem_singleton.mp hl]; exact he
  | cons s nl rest ls h1 h2 _ ih =>
    intro l hl
    rcases List.mem_cons.mp hl with rfl | hl
    · exact Encodable.append (fun c hc => he c (by simp [hc])) (.cons (by decide) .nil)
    · exact ih (fun c hc => he c (by simp [hc])) l hl

theorem InputIs.encodable {M : Disk} {stdin : List PStr × Res Unit} {files lines : List PStr} (h : InputIs M stdin files lines)
    (hs : ∀ l ∈ stdin.1, Encodable l) : ∀ l ∈ lines, Encodable l := by
  induction h with
  | nil => intro l hl; cases hl
  | stdin _ ih =>
    intro l hl
    rcases List.mem_append.mp hl with hl | hl
    · exact hs l hl
    · exact ih (fun l hl => by cases hl) l hl
  | file _ h1 _ ih =>
    intro l hl
    rcases List.mem_append.mp hl with hl | hl
    · obtain ⟨b, _, hb⟩ := h1
      obtain ⟨text, ht, hls⟩ := C65_text.mp hb
      exact hls.encodable (encodeUtf8_ok ht).1 l hl
    · exact ih hs l hl

/-- All lines that can be encoded are there. -/
theorem Written.all {lines : List PStr} {b : Bytes} (h : Written encodeUtf8 lines b) (he : ∀ l ∈ lines, Encodable l) :
    encodeUtf8 (lines.map (· ++ lit "\n")).flatten = .ok b := by
  induction h with
  | nil => rfl
  | @line l ls b bs h1 _ ih =>
    have ih := ih (fun l hl => he l (by simp [hl]))
    obtain ⟨e1, rfl⟩ := encodeUtf8_ok h1
    obtain ⟨e2, rfl⟩ := encodeUtf8_ok ih
    rw [List.map_cons, List.flatten_cons, ← List.flatMap_append]
    refine encodeUtf8_eq fun x hx => ?_
    rcases List.mem_append.mp hx with hx | hx
    · exact e1 x hx
    · exact e2 x hx
  | @lost l ls e bs h1 _ _ =>
    rw [encodeUtf8_eq ((he l (by simp)).append (lit_encodable _))] at h1
    cases h1

/-- The files of the machine hold bytes. -/
def Disk.Octets (M : Disk) : Prop := ∀ p b, M.file p = .ok b → Sudachi.Octets b

theorem Opens.encodable {R : Runtime} {M : Disk} {s : Settings} {cfg : DictConfig} {dict : Dict} {d : JDict} {dir : PStr} {file : Bytes}
    {files : List Bytes} (h : Opens R M s d dir file files cfg dict) (hM : M.Octets) : dict.Encodable := by
  obtain ⟨p, _, hp⟩ := h.system
  obtain ⟨ps, _, hps⟩ := h.users
  refine load_encodable (hM p file hp) (fun b hb => ?_) h.loaded
  obtain ⟨q, _, hq⟩ := hps.mem b hb
  exact hM q b hq

theorem Terminal.Starts.octets {S : Terminal} {a : TokenizeArgs} {M : Shell} (h : S.Starts a M) (hS : S.toDisk.Octets) : M.toDisk.Octets := by
  rcases h with ⟨_, rfl⟩ | ⟨p, _, _, rfl⟩
  · exact hS
  · intro q b hb
    have hb : (if q = p then Except.ok [] else S.file q) = .ok b := hb
    split at hb
    · cases hb; intro x hx; cases hx
    · exact hS q b hb

theorem TokenizeArgs.Prints.encodable {a : TokenizeArgs} {T : Tokenizer} {g : Grammar} {mode : Mode} {input out : List PStr}
    (h : a.Prints T g mode input out) (hp : T.PluginsOk) (hlex : T.lex.Ok) (hE : T.lex.Encodable) (hg : g.Encodable)
    (hi : ∀ l ∈ input, Encodable l) : ∀ l ∈ out, Encodable l := by
  obtain ⟨blocks, hb, ⟨_, rfl⟩ | ⟨_, dumps, hd, rfl⟩⟩ := h
  · intro l hl
    obtain ⟨b, h1, h2⟩ := List.mem_flatten.mp hl
    exact hb.encodable hp hlex hE hg hi b h1 l h2
  · intro l hl
    obtain ⟨x, h1, h2⟩ := List.mem_flatten.mp hl
    rw [← List.map_uncurry_zip_eq_zipWith] at h1
    obtain ⟨⟨d, b⟩, h3, rfl⟩ := List.mem_map.mp h1
    obtain ⟨h4, h5⟩ := List.of_mem_zip h3
    rcases List.mem_append.mp h2 with h2 | h2
    · obtain ⟨line, _, body, _, hd'⟩ := hd.mem d h4
      exact hd'.encodable hp hlex hE hg l h2
    · exact hb.encodable hp hlex hE hg hi b h5 l h2

/-- **C76** Nothing is lost in UTF-8: the output file, or the standard output if it is UTF-8, is the text of the printed lines, each
with a newline, if the lines of the standard input can be encoded. -/
theorem C76_lossless (R : Runtime) (S : Terminal) (version : PStr) (a : TokenizeArgs) (hv : a.version = false) (hT : S.OpensSound R a)
    (hS : S.toDisk.Octets) (hin : ∀ l ∈ S.stdin.1, Encodable l) (input out : List PStr) (h : S.Runs R a input out) :
    ∃ bytes, encodeUtf8 (out.map (· ++ lit "\n")).flatten = .ok bytes ∧
      (∀ p, a.ToFile p → (commandTokenize R S version a).shell.file p = .ok bytes) ∧
      (a.ToStdout → S.encode = encodeUtf8 → (commandTokenize R S version a).stdout = bytes) := by
  have hw := C76_writes R S version a hv hT input out h
  obtain ⟨hp, M, s, cfg, dict, files, mode, hM, hopen, hcells, hf, hi, hm, hpr⟩ := h
  obtain ⟨h1, h2⟩ := hT M s cfg dict hM hopen
  obtain ⟨_, d, dir, file, bs, hO⟩ := (C68_opens _ _ _ _ _ _ _ _ _).mp hopen
  have hE := hO.encodable (hM.octets hS)
  have henc := hpr.encodable h1 h2 (LexSet.encodable hE.set _ _) hE.grammar (hi.encodable hin)
  obtain ⟨b, hb⟩ : ∃ b, Written encodeUtf8 out b := ⟨_, written_iff.mpr rfl⟩
  refine ⟨b, hb.all henc, ?_, ?_⟩
  · intro p ⟨ho, hne⟩
    rcases hw with ⟨ho', _⟩ | ⟨q, ⟨ho', _⟩, _, _, _, b', hb', hfile⟩
    · rcases ho' with h | h
      · rw [ho] at h; cases h
      · rw [ho] at h; cases h; exact absurd rfl hne
    · rw [ho] at ho'
      cases ho'
      rw [hfile, written_iff.mp hb', written_iff.mp hb]
  · intro ho he
    rcases hw with ⟨_, _, hb'⟩ | ⟨q, ⟨ho', hne⟩, _⟩
    · rw [he] at hb'
      rw [written_iff.mp hb', written_iff.mp hb]
    · rcases ho with h | h
      · rw [ho'] at h; cases h
      · rw [ho'] at h; cases h; exact absurd rfl hne

/-- **C76** On an installation of complete sources the command always succeeds: whatever the readable lines of the input are, all are
analysed and printed, with or without dumps. -/
theorem C76_complete {R : Runtime} {S : Terminal} {a : TokenizeArgs} {Src : Sources} {M : Shell} {s : Settings} {cfg : DictConfig}
    {dict : Dict} {n : Nat} {entries : List (Int × Int × Int)} {files input : List PStr} {mode : Mode} (version : PStr)
    (hv : a.version = false) (hp : S.AllPresent a.inFiles) (hM : S.Starts a M)
    (hopen : openDictionary R M.toDisk Settings.init a.setting none a.dictType = (s, .ok (cfg, dict)))
    (hD : cfg.D.Ok) (h : Src.Installed cfg dict) (hS : Src.Complete n entries cfg.depth) (hcfg : cfg.Complete n)
    (hsep : Src.NoSeparators cfg.catOf) (hchars : ∀ c, c = 44 ∨ c = 46 → Cat.NUMERIC ∉ cfg.catOf c ∧ Cat.KANJINUMERIC ∉ cfg.catOf c)
    (hnf : NumericFirst cfg.pathPlugins) (hpos : dict.grammar.posList ≠ []) (hf : a.Files files) (hi : InputIs M.toDisk S.stdin files input)
    (hm : a.InMode mode) (hadd : Src.SplitsAddUp ∨ mode = .C) (hlines : ∀ line ∈ input, (create cfg dict none).CanRead line) :
    (commandTokenize R S version a).ended = .done ∧ ∃ out, a.Prints (create cfg dict none) dict.grammar mode input out ∧
      S.Leaves a out (commandTokenize R S version a) := by
  have hT := h.complete hD hS hcfg cfg.pathPlugins .C
  have hposok : (create cfg dict none).PosOk dict.grammar := by
    unfold openDictionary at hopen
    split at hopen
    · cases hopen
    · obtain ⟨_, hopen⟩ := Prod.mk.inj hopen
      exact C74_opened hopen hpos none
  obtain ⟨out, ho⟩ : ∃ out, (if a.dump then runDump else runLines) (create cfg dict none) dict.grammar mode a.all Lattice.init input =
      (out, .ok ()) := by
    cases a.dump with
    | false => exact C74_prints hD h hS hcfg hsep hchars cfg.pathPlugins hnf .C hposok mode hadd a.all input hlines .fresh
    | true => exact C77_prints hD h hS hcfg hsep hchars cfg.pathPlugins hnf .C hposok mode hadd a.all input hlines .fresh
  have hc := command_starts (R := R) (version := version) hv hp hM
  unfold runInput at hc
  rw [hopen] at hc
  dsimp only at hc
  rw [createTokenizer_ok.mpr ⟨noCells_false.mp (h.cells hD hS.matrix), rfl⟩] at hc
  dsimp only at hc
  rw [inputOf_files hf, inputLines_ok.mpr hi, ← inMode_iff.mp hm, ho] at hc
  exact ⟨hc.2, out, (prints_iff hT.plugins hT.lexOk .fresh).mp ho, hc.1⟩

/-- **C76** An output file that is also the only input file is lost: it is emptied before it is read, and nothing is printed. -/
theorem C76_own_input (R : Runtime) (S : Terminal) (version : PStr) (a : TokenizeArgs) (hv : a.version = false) (hT : S.OpensSound R a)
    (p : PStr) (ho : a.ToFile p) (hi : a.inFiles = [p]) (hd : p ≠ lit "-") (h : (commandTokenize R S version a).ended = .done) :
    (commandTokenize R S version a).shell.file p = .ok [] := by
  obtain ⟨input, out, hr⟩ := (C76_done R S version a hv hT).mp h
  have hw := C76_writes R S version a hv hT input out hr
  obtain ⟨_, M, s, cfg, dict, files, mode, hM, _, _, hf, hin, _, hpr⟩ := hr
  have hfile : M.file p = .ok [] := by
    rcases hM with ⟨h1, _⟩ | ⟨q, ⟨h1, _⟩, _, rfl⟩
    · rcases h1 with h1 | h1
      · rw [ho.1] at h1; cases h1
      · rw [ho.1] at h1; cases h1; exact absurd rfl ho.2
    · rw [ho.1] at h1
      cases h1
      exact put_file _ _ _
  have hin0 : input = [] := by
    rcases hf with ⟨h1, _⟩ | ⟨_, rfl⟩
    · rw [hi] at h1; cases h1
    · rw [hi] at hin
      generalize S.stdin = st at hin
      cases hin with
      | stdin _ => exact absurd rfl hd
      | file _ h2 h3 =>
        obtain ⟨b, e1, e2⟩ := h2
        rw [hfile] at e1
        cases e1
        cases e2
        cases h3
        rfl
  subst hin0
  have hout : out = [] := by
    obtain ⟨blocks, hb, ⟨_, rfl⟩ | ⟨_, dumps, hd, rfl⟩⟩ := hpr
    · cases blocks with
      | nil => rfl
      | cons => exact hb.elim
    · cases hd
      rfl
  subst hout
  rcases hw with ⟨h1, _⟩ | ⟨q, ⟨h1, _⟩, _, _, _, b, hb, hfile⟩
  · rcases h1 with h1 | h1
    · rw [ho.1] at h1; cases h1
    · rw [ho.1] at h1; cases h1; exact absurd rfl ho.2
  · rw [ho.1] at h1
    cases h1
    cases hb
    exact hfile

end Sudachi
