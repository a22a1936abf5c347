/-
C95: the command lines that the program accepts (sudachipy/command_line.py:33-54, 172-226).

The program calls a command exactly for the lines of `Asked`, with what they ask for, and a line asks for one thing only; for all other
lines it ends with code 0 or 2 and nothing was done.  The code is 0 exactly if the program, or the command by its arguments, is asked for
help before anything else is wrong.
-/
import Verif.Lemmas.Arguments8
namespace Sudachi

/-- C95: the lines that are accepted. -/
theorem C95_accepted (argv : List PStr) (q : Request) : parseArgs argv = .ok q ↔ Asked argv q := by
  have hnamed : ∀ {c : Command} {ws files : List PStr} {acts : List (Opt × PStr)}, c.Line ws acts files → c.Asks acts files q →
      parseArgs (c.name :: ws) = .ok q := by
    intro c ws files acts hl ha
    have hne : c = .tokenize ∨ files ≠ [] := by
      cases ha with
      | tokenize => exact .inl rfl
      | build h _ => exact .inr h
      | ubuild h => exact .inr h
    have hp : c.parser.parse ws = .ok ⟨acts, some files, []⟩ := by
      cases hl with
      | @files w1 w2 _ a1 a2 h1 h2 h3 =>
        rw [List.append_assoc, parse_spelled c h1 h3 h2, Command.filesOf, if_neg]
        rintro ⟨h, h'⟩
        rcases hne with hne | hne
        · exact h' hne
        · exact hne h
      | @dashes w1 f1 f2 _ h1 h2 => rw [List.append_assoc]; exact parse_dashes c h1 h2 hne
    rw [parseArgs_command, hp]
    cases ha with
    | tokenize => simp [Command.request, last_eq, flag_eq, tokenizeCall]
    | build _ hm => simp [Command.request, last_eq, hm]
    | ubuild _ => simp [Command.request, last_eq]
  constructor
  · intro h
    obtain ⟨c, rest, sub, hw, hp, hq, hx⟩ := parseArgs_first h
    have key : ∃ files, c.Line rest sub.acts files ∧ c.Asks sub.acts files q := by
      cases hf : sub.files with
      | none => unfold Command.request at hq; rw [hf] at hq; cases hq
      | some files =>
        refine ⟨files, parse_line hp hx hf, ?_⟩
        have hne : ∀ c', c' = c → c' ≠ .tokenize → files ≠ [] := by
          rintro c' rfl hc rfl
          exact plus_parse (by cases c' <;> first | rfl | exact absurd rfl hc) hp hf
        unfold Command.request at hq
        rw [hf] at hq
        cases c with
        | tokenize =>
          cases hq
          have := Command.Asks.tokenize (acts := sub.acts) (files := files)
          simpa [last_eq, flag_eq, tokenizeCall] using this
        | build =>
          dsimp only at hq
          rw [last_eq] at hq
          cases hm : lastOf .matrix sub.acts with
          | none => rw [hm] at hq; cases hq
          | some m =>
            rw [hm] at hq
            cases hq
            rw [last_eq, last_eq]
            exact .build (hne _ rfl (by decide)) hm
        | ubuild =>
          cases hq
          rw [last_eq, last_eq, last_eq]
          exact .ubuild (hne _ rfl (by decide))
    obtain ⟨files, hl, ha⟩ := key
    unfold withDefault at hw
    split at hw
    · rw [hw]; exact .named hl ha
    · rename_i h1
      split at hw
      · rw [hw]; exact .named hl ha
      · rename_i h2
        injection hw with hw1 hw2
        have hc : c = .tokenize := by cases c <;> first | rfl | (revert hw1; decide)
        subst hc
        subst hw2
        refine .default (fun w hw => ⟨?_, ?_⟩) hl ha
        · rintro (rfl | rfl | rfl)
          · exact h2 (.inl hw)
          · exact h2 (.inr (.inl hw))
          · exact h2 (.inr (.inr hw))
        · rintro (rfl | rfl)
          · exact h1 (.inl hw)
          · exact h1 (.inr hw)
  · intro h
    cases h with
    | named hl ha => exact hnamed hl ha
    | default hw hl ha =>
      rw [parseArgs_default (fun w h => (hw w h).2) fun w h => (hw w h).1]
      exact hnamed hl ha

/-- C95: a line asks for one thing. -/
theorem C95_one_meaning {argv : List PStr} {q q' : Request} (h : Asked argv q) (h' : Asked argv q') : q = q' := by
  have e := (C95_accepted argv q).2 h
  rw [(C95_accepted argv q').2 h'] at e
  exact (Except.ok.inj e).symm

/-- C95: what the program does. -/
theorem C95_runs (R : Runtime) (S : Terminal) (version : PStr) (argv : List PStr) :
    (∀ a, Asked argv (.tokenize a) → mainProgram R S version argv = commandTokenize R S version a) ∧
      (∀ m files out desc, Asked argv (.build m files out desc) → mainProgram R S version argv =
        ⟨(commandBuild R.D S.toShell m files out desc).1, [], (commandBuild R.D S.toShell m files out desc).2⟩) ∧
      (∀ sys files out desc, Asked argv (.ubuild sys files out desc) → mainProgram R S version argv =
        ⟨(commandUserBuild R.D R.depth S.toShell sys files out desc).1, [], (commandUserBuild R.D R.depth S.toShell sys files out desc).2⟩) ∧
      ((∀ q, ¬ Asked argv q) →
        mainProgram R S version argv = ⟨S.toShell, [], .exit 0⟩ ∨ mainProgram R S version argv = ⟨S.toShell, [], .exit 2⟩) := by
  refine ⟨fun a h => ?_, fun m files out desc h => ?_, fun sys files out desc h => ?_, fun h => ?_⟩
  · rw [← C95_accepted] at h; unfold mainProgram; rw [h]
  · rw [← C95_accepted] at h; unfold mainProgram; rw [h]
  · rw [← C95_accepted] at h; unfold mainProgram; rw [h]
  · unfold mainProgram
    cases hp : parseArgs argv with
    | error x => cases x <;> simp
    | ok q => exact absurd ((C95_accepted argv q).1 hp) (h q)

/-- C95: the arguments of a command that is named: code 0 if they ask for help, and 2 if they are wrong. -/
theorem C95_help (R : Runtime) (S : Terminal) (version : PStr) (c : Command) (ws : List PStr) (h : ∀ q, ¬ Asked (c.name :: ws) q) :
    (c.AsksHelp ws → mainProgram R S version (c.name :: ws) = ⟨S.toShell, [], .exit 0⟩) ∧
      (¬ c.AsksHelp ws → mainProgram R S version (c.name :: ws) = ⟨S.toShell, [], .exit 2⟩) := by
  have hc : parseArgs (c.name :: ws) = .error .help ↔ c.AsksHelp ws := by
    rw [← parse_help, parseArgs_command]
    constructor
    · intro h
      split at h
      · rename_i hp; cases h; exact hp
      · split at h
        · cases h
        · split at h <;> cases h
    · intro h; rw [h]
  unfold mainProgram
  cases hp : parseArgs (c.name :: ws) with
  | error x =>
    rw [hp] at hc
    cases x with
    | help => exact ⟨fun _ => rfl, fun hn => absurd (hc.1 rfl) hn⟩
    | error => exact ⟨(fun ha => nomatch hc.2 ha), fun _ => rfl⟩
  | ok q => exact absurd ((C95_accepted _ q).1 hp) (h q)

/-- C95: help is not asked for by a line that is accepted. -/
theorem C95_help_refused {c : Command} {ws : List PStr} (h : c.AsksHelp ws) : ∀ q, ¬ Asked (c.name :: ws) q := by
  intro q hq
  rw [← C95_accepted, parseArgs_command, (parse_help c ws).2 h] at hq
  cases hq

/-- C95: the same without the name `tokenize`, if no word is the name of a command or `-h` or `--help`. -/
theorem C95_help_default (R : Runtime) (S : Terminal) (version : PStr) {ws : List PStr} (hw : ∀ w ∈ ws, ¬ CommandName w ∧ ¬ HelpWord w)
    (h : ∀ q, ¬ Asked ws q) :
    (Command.tokenize.AsksHelp ws → mainProgram R S version ws = ⟨S.toShell, [], .exit 0⟩) ∧
      (¬ Command.tokenize.AsksHelp ws → mainProgram R S version ws = ⟨S.toShell, [], .exit 2⟩) := by
  have e : parseArgs ws = parseArgs (Command.tokenize.name :: ws) := parseArgs_default (fun w h => (hw w h).2) fun w h => (hw w h).1
  have em : mainProgram R S version ws = mainProgram R S version (Command.tokenize.name :: ws) := by unfold mainProgram; rw [e]
  rw [em]
  refine C95_help R S version .tokenize ws fun q hq => h q ?_
  rw [← C95_accepted] at hq ⊢
  rw [e]; exact hq

/-- C95: `-h` or `--help` as the first word. -/
theorem C95_help_first (R : Runtime) (S : Terminal) (version : PStr) {w : PStr} (hw : HelpWord w) (ws : List PStr) :
    mainProgram R S version (w :: ws) = ⟨S.toShell, [], .exit 0⟩ := by
  have hd : withDefault (w :: ws) = w :: ws := by
    unfold withDefault
    rw [if_pos]
    rcases hw with rfl | rfl
    · exact .inl (List.mem_cons_self ..)
    · exact .inr (List.mem_cons_self ..)
  have hp : rootParser.parse (w :: ws) = .error .help := by
    obtain ⟨ts, hts, _⟩ := root_classifyAll ws
    unfold ArgParser.parse
    rcases hw with rfl | rfl
    · have hc : rootParser.classify [45, 104] = some (.opt (some (.help, [45, 104])) none) := rfl
      rw [classifyAll_cons (by decide) hc, hts]
      simp only [Option.map_some, List.length_cons]
      rw [parseLoop_opt]
      simp only [consumeOptional]
      rw [expandWord_flag rfl]
      rfl
    · have hc : rootParser.classify [45, 45, 104, 101, 108, 112] = some (.opt (some (.help, [45, 45, 104, 101, 108, 112])) none) := rfl
      rw [classifyAll_cons (by decide) hc, hts]
      simp only [Option.map_some, List.length_cons]
      rw [parseLoop_opt]
      simp only [consumeOptional]
      rw [expandWord_flag rfl]
      rfl
  have : parseArgs (w :: ws) = .error .help := by unfold parseArgs; rw [hd, hp]
  unfold mainProgram
  rw [this]

/-- C95: how the program ends for every line that is not accepted: with code 0 if it asks for help, and else with code 2. -/
theorem C95_exit (R : Runtime) (S : Terminal) (version : PStr) (argv : List PStr) :
    (AsksForHelp argv → mainProgram R S version argv = ⟨S.toShell, [], .exit 0⟩) ∧
      (¬ AsksForHelp argv → (∀ q, ¬ Asked argv q) → mainProgram R S version argv = ⟨S.toShell, [], .exit 2⟩) := by
  constructor
  · intro h
    rw [← parseArgs_help] at h
    unfold mainProgram
    rw [h]
  · intro h hq
    rw [← parseArgs_help] at h
    unfold mainProgram
    cases hp : parseArgs argv with
    | error x =>
      cases x with
      | help => exact absurd hp h
      | error => rfl
    | ok q => exact absurd ((C95_accepted argv q).1 hp) (hq q)

/-- C95: a line that asks for help is not accepted. -/
theorem C95_exit_refused {argv : List PStr} (h : AsksForHelp argv) (q : Request) : ¬ Asked argv q := by
  rw [← parseArgs_help] at h
  rw [← C95_accepted, h]
  exact nofun

/-! Cases. -/

example (R : Runtime) (S : Terminal) (version : PStr) : mainProgram R S version [(pstr! "-h"), (pstr! "build")] = ⟨S.toShell, [], .exit 0⟩ :=
  C95_help_first R S version (.inl rfl) _

/-- `-12` is a negative number. -/
theorem negative_twelve : NegativeNumber (pstr! "-12") :=
  .whole (ds := (pstr! "12")) (e := []) (by decide)
    (by
      intro c hc
      simp at hc
      rcases hc with rfl | rfl
      · exact ⟨1, (C65_digits 49 1).1 rfl⟩
      · exact ⟨2, (C65_digits 50 2).1 rfl⟩) (.inl rfl)

/-- `sudachipy -o -12 -ad "-x y" -- -m`: the output is written to the file `-12`, the texts are read from `-x y` and `-m`. -/
theorem line_odd : Command.tokenize.Line [(pstr! "-o"), (pstr! "-12"), (pstr! "-ad"), (pstr! "-x y"), (pstr! "--"), (pstr! "-m")]
    [(.out, (pstr! "-12")), (.all, []), (.dump, [])] [(pstr! "-x y"), (pstr! "-m")] :=
  .dashes (w1 := [(pstr! "-o"), (pstr! "-12"), (pstr! "-ad")]) (f1 := [(pstr! "-x y")]) (f2 := [(pstr! "-m")])
    (.cons (.next (fs := []) (l := 111) (o := .out) (v := (pstr! "-12")) (by simp) (by decide) trivial
        (.odd (x := 49) (r := (pstr! "2")) (.inl negative_twelve) (by decide) (by decide) (by simp [Command.flags, Command.valued])))
      (.cons (.flags (fs := [(97, .all), (100, .dump)]) (by simp) (by decide)) .nil))
    (by
      intro f hf
      simp at hf
      subst hf
      exact .odd (x := 120) (r := (pstr! " y")) (.inr (by decide)) (by decide) (by decide) (by simp [Command.flags, Command.valued]))

example (R : Runtime) (S : Terminal) (version : PStr) :
    mainProgram R S version [(pstr! "-o"), (pstr! "-12"), (pstr! "-ad"), (pstr! "-x y"), (pstr! "--"), (pstr! "-m")] =
      commandTokenize R S version ⟨false, [(pstr! "-x y"), (pstr! "-m")], (pstr! "C"), some (pstr! "-12"), none, none, true, true⟩ :=
  (C95_runs R S version _).1 _ (.default (by decide) line_odd .tokenize)

/-- `sudachipy build -m matrix.def -- -lex.csv` -/
example : Asked [(pstr! "build"), (pstr! "-m"), (pstr! "matrix.def"), (pstr! "--"), (pstr! "-lex.csv")]
    (.build (pstr! "matrix.def") [(pstr! "-lex.csv")] (pstr! "system.dic") []) :=
  .named (c := .build) (files := [(pstr! "-lex.csv")]) (acts := [(.matrix, (pstr! "matrix.def"))])
    (.dashes (w1 := [(pstr! "-m"), (pstr! "matrix.def")]) (f1 := []) (f2 := [(pstr! "-lex.csv")])
      (.cons (.next (fs := []) (l := 109) (o := .matrix) (by simp) (by decide) trivial (.plain (by decide))) .nil) (by simp))
    (.build (by simp) rfl)

/-- `sudachipy tokenize "--vers=x y"` is refused: it is `--version` with an argument, cut short. -/
example : ∀ q, ¬ Asked [(pstr! "tokenize"), (pstr! "--vers=x y")] q := by
  intro q h
  rw [← C95_accepted] at h
  have : parseArgs [(pstr! "tokenize"), (pstr! "--vers=x y")] = .error .error := by with_unfolding_all rfl
  rw [this] at h
  cases h

/-- A file in two places is refused, for `C95_runs`. -/
example : ∀ q, ¬ Asked [(pstr! "tokenize"), (pstr! "one"), (pstr! "-a"), (pstr! "two")] q := by
  intro q h
  rw [← C95_accepted] at h
  have : parseArgs [(pstr! "tokenize"), (pstr! "one"), (pstr! "-a"), (pstr! "two")] = .error .error := by with_unfolding_all rfl
  rw [this] at h
  cases h

/-- `sudachipy tokenize one -x two -dxyz --he -m`: `-x` and `-dxyz` are no options and `-m` has no argument, but help is printed. -/
theorem help_asked : Command.tokenize.AsksHelp [(pstr! "one"), (pstr! "-x"), (pstr! "two"), (pstr! "-dxyz"), (pstr! "--he"), (pstr! "-m")] := by
  refine ⟨⟨[(pstr! "one"), (pstr! "-x"), (pstr! "two"), (pstr! "-dxyz")], [(pstr! "--he")], [(pstr! "-m")], rfl, ?_, .long (n := 4) (by decide)⟩, ?_⟩
  · refine .arg (.plain (by decide)) (.unknown (.short (x := 120) (r := []) ⟨by decide, by decide, by simp [Command.flags, Command.valued]⟩ ?_ (by decide))
      (.arg (.plain (by decide)) (.unknown (.after (fs := [(100, .dump)]) (y := 120) (r := (pstr! "yz")) (by simp) (by decide)
        ⟨by decide, by decide, by simp [Command.flags, Command.valued]⟩ (by decide)) .nil)))
    rw [← looksNegative_iff]
    decide
  · intro w1 s w2 h1 _ h2
    have hm : s ∈ [(pstr! "one"), (pstr! "-x"), (pstr! "two"), (pstr! "-dxyz"), (pstr! "--he"), (pstr! "-m")] := by rw [h1]; simp
    obtain ⟨_, b, rfl⟩ := h2
    simp at hm

example (R : Runtime) (S : Terminal) (version : PStr) :
    mainProgram R S version [(pstr! "tokenize"), (pstr! "one"), (pstr! "-x"), (pstr! "two"), (pstr! "-dxyz"), (pstr! "--he"), (pstr! "-m")] =
      ⟨S.toShell, [], .exit 0⟩ :=
  (C95_help R S version .tokenize _ (C95_help_refused help_asked)).1 help_asked

/-- `sudachipy one -x two -dxyz --he -m` -/
example (R : Runtime) (S : Terminal) (version : PStr) :
    mainProgram R S version [(pstr! "one"), (pstr! "-x"), (pstr! "two"), (pstr! "-dxyz"), (pstr! "--he"), (pstr! "-m")] = ⟨S.toShell, [], .exit 0⟩ := by
  refine (C95_help_default R S version (by decide) fun q hq => ?_).1 help_asked
  rw [← C95_accepted] at hq
  have : parseArgs [(pstr! "one"), (pstr! "-x"), (pstr! "two"), (pstr! "-dxyz"), (pstr! "--he"), (pstr! "-m")] = .error .help := by with_unfolding_all rfl
  rw [this] at hq
  cases hq

/-- `-x` in front of a command is taken for an option. -/
theorem foreign_x : ForeignOption (pstr! "-x") :=
  .short (x := 120) (r := []) (by decide) (by decide) (by rw [← looksNegative_iff]; decide) (by decide)

/-- `sudachipy -x -hh? build`: the help of the program. -/
example (R : Runtime) (S : Terminal) (version : PStr) :
    mainProgram R S version [(pstr! "-x"), (pstr! "-hh?"), (pstr! "build")] = ⟨S.toShell, [], .exit 0⟩ :=
  (C95_exit R S version _).1
    (.program (ws := [(pstr! "-x")]) (w := (pstr! "-hh?")) (rest := [(pstr! "build")]) (by simpa using foreign_x)
      (.letters (n := 1) (r := [63]) (by simp)) ⟨(pstr! "build"), by simp, .inl (.inr (.inl rfl))⟩)

/-- `sudachipy -x tokenize one -x two -dxyz --he -m`: the help of `tokenize`. -/
example (R : Runtime) (S : Terminal) (version : PStr) :
    mainProgram R S version
        [(pstr! "-x"), (pstr! "tokenize"), (pstr! "one"), (pstr! "-x"), (pstr! "two"), (pstr! "-dxyz"), (pstr! "--he"), (pstr! "-m")] =
      ⟨S.toShell, [], .exit 0⟩ :=
  (C95_exit R S version _).1 (.command (ws := [(pstr! "-x")]) (c := .tokenize) (by simpa using foreign_x) help_asked)

/-- `sudachipy -h=1 build -h`: the word `-h=1` is wrong. -/
example (R : Runtime) (S : Terminal) (version : PStr) :
    mainProgram R S version [(pstr! "-h=1"), (pstr! "build"), (pstr! "-h")] = ⟨S.toShell, [], .exit 2⟩ := by
  have e : parseArgs [(pstr! "-h=1"), (pstr! "build"), (pstr! "-h")] = .error .error := by with_unfolding_all rfl
  refine (C95_exit R S version _).2 ?_ fun q hq => ?_
  · rw [← parseArgs_help, e]
    exact nofun
  · rw [← C95_accepted, e] at hq
    cases hq

/-- `sudachipy tokenize --= -h`: help is asked for, but `--=` is ambiguous. -/
example : ¬ Command.tokenize.AsksHelp [(pstr! "--="), (pstr! "-h")] :=
  fun h => h.2 [] _ _ rfl (by simp) ⟨rfl, [], rfl⟩

end Sudachi
