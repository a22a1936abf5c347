/-
C81: the command line of the program (sudachipy/command_line.py:33-54, 172-226).

However the options of a command are written and in whatever order (apart, joined, with `=`, flags together), with all the files in one
place, the command is called once with the files in order and with the last argument given to each option; `tokenize` may be left out if
no word is the name of a command.  Files in two places, or a missing file or matrix, end the program with code 2 before anything is done.
The commands are called with a mode and a dictionary type they know and, to build, with at least one file.

A word that is the name of a command stops `tokenize` from being the default, even if it is a file or the argument of an option.
-/
import Verif.Lemmas.Arguments3
import Verif.Spec.Shipped
namespace Sudachi

/-- C81: `tokenize`. -/
theorem C81_tokenize (R : Runtime) (S : Terminal) (version : PStr) {w1 w2 files : List PStr} {a1 a2 : List (Opt × PStr)}
    (h1 : Command.tokenize.Spells w1 a1) (h2 : Command.tokenize.Spells w2 a2) (hf : ∀ f ∈ files, PlainArg f) :
    mainProgram R S version (Command.tokenize.name :: (w1 ++ (files ++ w2))) = commandTokenize R S version (tokenizeCall files (a1 ++ a2)) := by
  unfold mainProgram
  rw [parseArgs_command, parse_spelled .tokenize h1 h2 (fun f h => .plain (hf f h))]
  simp [Command.request, Command.filesOf, last_eq, flag_eq, tokenizeCall]

/-- C81: without the name `tokenize`. -/
theorem C81_default (R : Runtime) (S : Terminal) (version : PStr) {w1 w2 files : List PStr} {a1 a2 : List (Opt × PStr)}
    (h1 : Command.tokenize.Spells w1 a1) (h2 : Command.tokenize.Spells w2 a2) (hf : ∀ f ∈ files, PlainArg f)
    (hn : ∀ w ∈ w1 ++ (files ++ w2), ¬ CommandName w) :
    mainProgram R S version (w1 ++ (files ++ w2)) = commandTokenize R S version (tokenizeCall files (a1 ++ a2)) := by
  rw [← C81_tokenize R S version h1 h2 hf]
  unfold mainProgram
  rw [parseArgs_default _ hn]
  intro w hw
  rcases List.mem_append.1 hw with hw | hw
  · exact h1.words w hw
  · rcases List.mem_append.1 hw with hw | hw
    · exact plain_help (hf w hw)
    · exact h2.words w hw

/-- C81: `build`, with the default name of the file it writes. -/
theorem C81_build (R : Runtime) (S : Terminal) (version : PStr) {w1 w2 files : List PStr} {a1 a2 : List (Opt × PStr)} {matrix : PStr}
    (h1 : Command.build.Spells w1 a1) (h2 : Command.build.Spells w2 a2) (hf : ∀ f ∈ files, PlainArg f) (hne : files ≠ [])
    (hm : lastOf .matrix (a1 ++ a2) = some matrix) :
    mainProgram R S version (Command.build.name :: (w1 ++ (files ++ w2))) =
      ⟨(commandBuild R.D S.toShell matrix files ((lastOf .out (a1 ++ a2)).getD (pstr! "system.dic")) ((lastOf .description (a1 ++ a2)).getD [])).1, [],
        (commandBuild R.D S.toShell matrix files ((lastOf .out (a1 ++ a2)).getD (pstr! "system.dic")) ((lastOf .description (a1 ++ a2)).getD [])).2⟩ := by
  unfold mainProgram
  rw [parseArgs_command, parse_spelled .build h1 h2 (fun f h => .plain (hf f h))]
  simp [Command.request, Command.filesOf, last_eq, hne, hm]

/-- C81: `ubuild`. -/
theorem C81_ubuild (R : Runtime) (S : Terminal) (version : PStr) {w1 w2 files : List PStr} {a1 a2 : List (Opt × PStr)}
    (h1 : Command.ubuild.Spells w1 a1) (h2 : Command.ubuild.Spells w2 a2) (hf : ∀ f ∈ files, PlainArg f) (hne : files ≠ []) :
    mainProgram R S version (Command.ubuild.name :: (w1 ++ (files ++ w2))) =
      ⟨(commandUserBuild R.D R.depth S.toShell (lastOf .system (a1 ++ a2)) files ((lastOf .out (a1 ++ a2)).getD (pstr! "user.dic"))
          ((lastOf .description (a1 ++ a2)).getD [])).1, [],
        (commandUserBuild R.D R.depth S.toShell (lastOf .system (a1 ++ a2)) files ((lastOf .out (a1 ++ a2)).getD (pstr! "user.dic"))
          ((lastOf .description (a1 ++ a2)).getD [])).2⟩ := by
  unfold mainProgram
  rw [parseArgs_command, parse_spelled .ubuild h1 h2 (fun f h => .plain (hf f h))]
  simp [Command.request, Command.filesOf, last_eq, hne]

/-- C81: a file or, for `build`, the matrix is missing. -/
theorem C81_missing (R : Runtime) (S : Terminal) (version : PStr) {c : Command} {w1 w2 files : List PStr} {a1 a2 : List (Opt × PStr)}
    (h1 : c.Spells w1 a1) (h2 : c.Spells w2 a2) (hf : ∀ f ∈ files, PlainArg f)
    (hm : (c ≠ .tokenize ∧ files = []) ∨ (c = .build ∧ lastOf .matrix (a1 ++ a2) = none)) :
    mainProgram R S version (c.name :: (w1 ++ (files ++ w2))) = ⟨S.toShell, [], .exit 2⟩ := by
  unfold mainProgram
  rw [parseArgs_command, parse_spelled c h1 h2 (fun f h => .plain (hf f h))]
  rcases hm with ⟨hc, rfl⟩ | ⟨rfl, hm⟩
  · cases c <;> simp_all [Command.request, Command.filesOf]
  · by_cases hne : files = []
    · simp [Command.request, Command.filesOf, hne]
    · simp [Command.request, Command.filesOf, last_eq, hne, hm]

/-- C81: files in two places. -/
theorem C81_split_files (R : Runtime) (S : Terminal) (version : PStr) {c : Command} {w1 w2 w3 f1 f2 : List PStr} {a1 a2 a3 : List (Opt × PStr)}
    (h1 : c.Spells w1 a1) (h2 : c.Spells w2 a2) (h3 : c.Spells w3 a3) (hw : w2 ≠ []) (hp1 : ∀ f ∈ f1, PlainArg f)
    (hp2 : ∀ f ∈ f2, PlainArg f) (hn1 : f1 ≠ []) (hn2 : f2 ≠ []) :
    mainProgram R S version (c.name :: (w1 ++ (f1 ++ (w2 ++ (f2 ++ w3))))) = ⟨S.toShell, [], .exit 2⟩ := by
  unfold mainProgram
  rw [parseArgs_command, parse_split c h1 h2 h3 hw (fun f h => .plain (hp1 f h)) (fun f h => .plain (hp2 f h)) hn1 hn2]
  dsimp only
  cases hq : c.request ⟨a1 ++ a2 ++ a3, some f1, f2⟩ with
  | none => rfl
  | some q => simp [hn2]

/-- C81: the first word is not a command, but there is a command or `-h` somewhere: nothing is done. -/
theorem C81_nothing_runs (R : Runtime) (S : Terminal) (version : PStr) {argv : List PStr} {w : PStr} (hw : w ∈ argv)
    (h : CommandName w ∨ HelpWord w) (h0 : ∀ s, argv.head? = some s → ¬ CommandName s) :
    mainProgram R S version argv = ⟨S.toShell, [], .exit 0⟩ ∨ mainProgram R S version argv = ⟨S.toShell, [], .exit 2⟩ := by
  have hd : withDefault argv = argv := by
    unfold withDefault
    split
    · rfl
    · rename_i hh
      rw [if_pos]
      rcases h with (rfl | rfl | rfl) | (rfl | rfl)
      · exact .inl hw
      · exact .inr (.inl hw)
      · exact .inr (.inr hw)
      · exact absurd (.inl hw) hh
      · exact absurd (.inr hw) hh
  unfold mainProgram
  cases hp : parseArgs argv with
  | error x => cases x <;> simp
  | ok q =>
    obtain ⟨c, rest, _, hc, _⟩ := parseArgs_first hp
    rw [hd] at hc
    exact absurd (commandName c) (h0 c.name (by rw [hc]; rfl))

/-- C81: whatever the arguments are, the mode and the dictionary type are known ones. -/
theorem C81_tokenize_known {argv : List PStr} {a : TokenizeArgs} (h : parseArgs argv = .ok (.tokenize a)) :
    (a.mode = (pstr! "A") ∨ a.mode = (pstr! "B") ∨ a.mode = (pstr! "C")) ∧
      ∀ t, a.dictType = some t → t = (pstr! "small") ∨ t = (pstr! "core") ∨ t = (pstr! "full") := by
  obtain ⟨c, rest, sub, _, hp, hq, _⟩ := parseArgs_first h
  have ha := parse_allows hp
  unfold Command.request at hq
  split at hq
  · cases hq
  · cases hq
    dsimp only
    constructor
    · rw [last_eq]
      cases hl : lastOf .mode sub.acts with
      | none => exact .inr (.inr rfl)
      | some v => exact ha _ (lastOf_mem hl)
    · intro t ht
      rw [last_eq] at ht
      exact ha _ (lastOf_mem ht)
  · cases hl : sub.last .matrix with
    | none => rw [hl] at hq; cases hq
    | some m => rw [hl] at hq; cases hq
  · cases hq

/-- C81: whatever the arguments are, `build` and `ubuild` have a file; and one of the commands is called if the arguments are accepted. -/
theorem C81_files_known {argv : List PStr} {q : Request} (h : parseArgs argv = .ok q) :
    match q with
    | .tokenize _ => True
    | .build _ files _ _ => files ≠ []
    | .ubuild _ files _ _ => files ≠ []
    | .noCommand => False := by
  obtain ⟨c, rest, sub, _, hp, hq, _⟩ := parseArgs_first h
  unfold Command.request at hq
  split at hq
  · cases hq
  · cases hq; trivial
  · rename_i files hf _
    cases hl : sub.last .matrix with
    | none => rw [hl] at hq; cases hq
    | some m =>
      rw [hl] at hq
      cases hq
      show files ≠ []
      rintro rfl
      exact plus_parse rfl hp hf
  · rename_i files hf _
    cases hq
    show files ≠ []
    rintro rfl
    exact plus_parse rfl hp hf

/-! Cases. -/

/-- `-m A` -/
theorem spells_mode : Command.tokenize.Spells [(pstr! "-m"), (pstr! "A")] [(.mode, (pstr! "A"))] :=
  .cons (.next (fs := []) (l := 109) (o := .mode) (by simp) (by decide) (.inl rfl) (.plain (by decide))) .nil

/-- `-adofile -m=B --vers` -/
theorem spells_cluster : Command.tokenize.Spells [(pstr! "-adofile"), (pstr! "-m=B"), (pstr! "--vers")]
    [(.all, []), (.dump, []), (.out, (pstr! "file")), (.mode, (pstr! "B")), (.version, [])] :=
  .cons (.joined (fs := [(97, .all), (100, .dump)]) (l := 111) (o := .out) (v := (pstr! "file")) (by decide) (by decide) trivial (by decide) (by decide))
    (.cons (.equals (fs := []) (l := 109) (o := .mode) (v := (pstr! "B")) (by simp) (by decide) (.inr (.inl rfl)))
      (.cons (.version (n := 6) rfl (by decide)) .nil))

/-- `-m matrix` -/
theorem spells_matrix : Command.build.Spells [(pstr! "-m"), (pstr! "matrix.def")] [(.matrix, (pstr! "matrix.def"))] :=
  .cons (.next (fs := []) (l := 109) (o := .matrix) (by simp) (by decide) trivial (.plain (by decide))) .nil

/-- `sudachipy -m A one two -adofile -m=B --vers`: the last mode is meant. -/
example (R : Runtime) (S : Terminal) (version : PStr) :
    mainProgram R S version [(pstr! "-m"), (pstr! "A"), (pstr! "one"), (pstr! "two"), (pstr! "-adofile"), (pstr! "-m=B"), (pstr! "--vers")] =
      commandTokenize R S version ⟨true, [(pstr! "one"), (pstr! "two")], (pstr! "B"), some (pstr! "file"), none, none, true, true⟩ :=
  C81_default R S version (files := [(pstr! "one"), (pstr! "two")]) spells_mode spells_cluster (by decide) (by decide)

/-- `sudachipy` -/
example (R : Runtime) (S : Terminal) (version : PStr) :
    mainProgram R S version [] = commandTokenize R S version ⟨false, [], (pstr! "C"), none, none, none, false, false⟩ :=
  C81_default R S version (files := []) .nil .nil (by simp) (by simp)

/-- `sudachipy build -m matrix.def lex.csv` -/
example (R : Runtime) (S : Terminal) (version : PStr) :
    mainProgram R S version [(pstr! "build"), (pstr! "-m"), (pstr! "matrix.def"), (pstr! "lex.csv")] =
      ⟨(commandBuild R.D S.toShell (pstr! "matrix.def") [(pstr! "lex.csv")] (pstr! "system.dic") []).1, [],
        (commandBuild R.D S.toShell (pstr! "matrix.def") [(pstr! "lex.csv")] (pstr! "system.dic") []).2⟩ :=
  C81_build R S version (files := [(pstr! "lex.csv")]) spells_matrix .nil (by decide) (by simp) rfl

/-- `sudachipy ubuild user.csv` -/
example (R : Runtime) (S : Terminal) (version : PStr) :
    mainProgram R S version [(pstr! "ubuild"), (pstr! "user.csv")] =
      ⟨(commandUserBuild R.D R.depth S.toShell none [(pstr! "user.csv")] (pstr! "user.dic") []).1, [],
        (commandUserBuild R.D R.depth S.toShell none [(pstr! "user.csv")] (pstr! "user.dic") []).2⟩ :=
  C81_ubuild R S version (files := [(pstr! "user.csv")]) .nil .nil (by decide) (by simp)

/-- `sudachipy build lex.csv`: no matrix. -/
example (R : Runtime) (S : Terminal) (version : PStr) : mainProgram R S version [(pstr! "build"), (pstr! "lex.csv")] = ⟨S.toShell, [], .exit 2⟩ :=
  C81_missing R S version (c := .build) (files := [(pstr! "lex.csv")]) .nil .nil (by decide) (.inr ⟨rfl, rfl⟩)

/-- `sudachipy tokenize one -m A two`: not recognised. -/
example (R : Runtime) (S : Terminal) (version : PStr) :
    mainProgram R S version [(pstr! "tokenize"), (pstr! "one"), (pstr! "-m"), (pstr! "A"), (pstr! "two")] = ⟨S.toShell, [], .exit 2⟩ :=
  C81_split_files R S version (c := .tokenize) (f1 := [(pstr! "one")]) (f2 := [(pstr! "two")]) .nil spells_mode .nil (by simp) (by decide) (by decide)
    (by simp) (by simp)

/-- `sudachipy -o build text`, to write the result to `build`. -/
example (R : Runtime) (S : Terminal) (version : PStr) :
    mainProgram R S version [(pstr! "-o"), (pstr! "build"), (pstr! "text")] = ⟨S.toShell, [], .exit 2⟩ := by
  have h : parseArgs [(pstr! "-o"), (pstr! "build"), (pstr! "text")] = .error .error := by rfl
  unfold mainProgram
  rw [h]

/-- Accepted arguments, for `C81_tokenize_known` and `C81_files_known`. -/
example : parseArgs [(pstr! "-sfull"), (pstr! "one")] = .ok (.tokenize ⟨false, [(pstr! "one")], (pstr! "C"), none, none, some (pstr! "full"), false, false⟩) ∧
    parseArgs [(pstr! "ubuild"), (pstr! "--"), (pstr! "-x.csv")] = .ok (.ubuild none [(pstr! "-x.csv")] (pstr! "user.dic") []) := by
  constructor <;> with_unfolding_all rfl

/-- An unknown mode. -/
example : parseArgs [(pstr! "-m"), (pstr! "D"), (pstr! "one")] = .error .error := by with_unfolding_all rfl

end Sudachi
