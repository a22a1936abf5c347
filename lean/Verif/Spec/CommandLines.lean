/-
The command lines that the program accepts (sudachipy/command_line.py:33-54, 172-226), and what they ask for.
-/
import Verif.Spec.Arguments
import Verif.Spec.Shipped
namespace Sudachi

/-- The arguments of a command: options, all files in one place, options; or options, files, `--`, and files that may start with a minus
sign.  The options and the files they give. -/
inductive Command.Line (c : Command) : List PStr → List (Opt × PStr) → List PStr → Prop
  | files {w1 w2 files : List PStr} {a1 a2 : List (Opt × PStr)} : c.Spells w1 a1 → (∀ f ∈ files, c.ArgWord f) → c.Spells w2 a2 →
      c.Line (w1 ++ files ++ w2) (a1 ++ a2) files
  | dashes {w1 f1 f2 : List PStr} {a1 : List (Opt × PStr)} : c.Spells w1 a1 → (∀ f ∈ f1, c.ArgWord f) →
      c.Line (w1 ++ f1 ++ (pstr! "--") :: f2) a1 (f1 ++ f2)

/-- What options and files ask for: a file is required to build, and a matrix to build the system dictionary. -/
inductive Command.Asks : Command → List (Opt × PStr) → List PStr → Request → Prop
  | tokenize {acts : List (Opt × PStr)} {files : List PStr} : Command.tokenize.Asks acts files (.tokenize (tokenizeCall files acts))
  | build {acts : List (Opt × PStr)} {files : List PStr} {matrix : PStr} : files ≠ [] → lastOf .matrix acts = some matrix →
      Command.build.Asks acts files
        (.build matrix files ((lastOf .out acts).getD (pstr! "system.dic")) ((lastOf .description acts).getD []))
  | ubuild {acts : List (Opt × PStr)} {files : List PStr} : files ≠ [] →
      Command.ubuild.Asks acts files
        (.ubuild (lastOf .system acts) files ((lastOf .out acts).getD (pstr! "user.dic")) ((lastOf .description acts).getD []))

/-- A command line and what it asks for: the name of a command and its arguments; or the arguments of `tokenize`, if no word is the name
of a command or asks for help. -/
inductive Asked : List PStr → Request → Prop
  | named {c : Command} {ws files : List PStr} {acts : List (Opt × PStr)} {q : Request} : c.Line ws acts files → c.Asks acts files q →
      Asked (c.name :: ws) q
  | default {ws files : List PStr} {acts : List (Opt × PStr)} {q : Request} : (∀ w ∈ ws, ¬ CommandName w ∧ ¬ HelpWord w) →
      Command.tokenize.Line ws acts files → Command.tokenize.Asks acts files q → Asked ws q

/-- No option of a command starts with the letter. -/
def Command.NoLetter (c : Command) (x : Nat) : Prop := x ≠ 45 ∧ x ≠ 104 ∧ ∀ o, (x, o) ∉ c.flags ∧ (x, o) ∉ c.valued

/-- A word that is taken for an option which the command does not have. -/
inductive Command.Unknown (c : Command) : PStr → Prop
  | short {x : Nat} {r : PStr} : c.NoLetter x → ¬ NegativeNumber (45 :: x :: r) → 32 ∉ x :: r → c.Unknown (45 :: x :: r)
  | long {a b : PStr} : 32 ∉ a ++ b → 61 ∉ a → b = [] ∨ b.head? = some 61 → (∀ n ∈ c.longNames, ¬ a <+: n) → c.Unknown (45 :: 45 :: (a ++ b))
  | after {fs : List (Nat × Opt)} {y : Nat} {r : PStr} : fs ≠ [] → (∀ x ∈ fs, x ∈ c.flags) → c.NoLetter y → y ≠ 61 →
      c.Unknown (45 :: (fs.map (·.1) ++ y :: r))

/-- Words that can come before a word that asks for help: arguments, options as they are written, and options that the command does not
have. -/
inductive Command.Passes (c : Command) : List PStr → Prop
  | nil : c.Passes []
  | arg {s : PStr} {ws : List PStr} : c.ArgWord s → c.Passes ws → c.Passes (s :: ws)
  | group {ws ws' : List PStr} {acts : List (Opt × PStr)} : c.Group ws acts → c.Passes ws' → c.Passes (ws ++ ws')
  | unknown {s : PStr} {ws : List PStr} : c.Unknown s → c.Passes ws → c.Passes (s :: ws)

/-- The letter of a flag, or `h`. -/
def Command.FlagLetter (c : Command) (x : Nat) : Prop := x = 104 ∨ ∃ o, (x, o) ∈ c.flags

/-- A word that asks for help, and perhaps a word after it: `-h` among flags, with an option after them whose argument is the next word
or the rest of the word, or with a letter after them that is no option; or `--help`, perhaps cut short. -/
inductive Command.Help (c : Command) : List PStr → Prop
  | letters {fs gs : PStr} : (∀ x ∈ fs ++ gs, c.FlagLetter x) → c.Help [45 :: (fs ++ 104 :: gs)]
  | next {fs gs : PStr} {l : Nat} {o : Opt} {v : PStr} : (∀ x ∈ fs ++ gs, c.FlagLetter x) → (l, o) ∈ c.valued → c.ArgWord v →
      c.Help [45 :: (fs ++ 104 :: (gs ++ [l])), v]
  | joined {fs gs : PStr} {l : Nat} {o : Opt} {v : PStr} : (∀ x ∈ fs ++ gs, c.FlagLetter x) → (l, o) ∈ c.valued → v ≠ [] →
      c.Help [45 :: (fs ++ 104 :: (gs ++ l :: v))]
  | after {fs gs : PStr} {y : Nat} {r : PStr} : (∀ x ∈ fs ++ gs, c.FlagLetter x) → c.NoLetter y → y ≠ 61 →
      c.Help [45 :: (fs ++ 104 :: (gs ++ y :: r))]
  | long {n : Nat} : 3 ≤ n → c.Help [(pstr! "--help").take n]

/-- A word that may stand for more than one option of `tokenize`, `--help` and `--version`. -/
def Command.Ambiguous (c : Command) (s : PStr) : Prop := c = .tokenize ∧ (pstr! "--=") <+: s

/-- The arguments of a command ask for help: they do before anything is wrong with them, and no word before `--` is ambiguous. -/
def Command.AsksHelp (c : Command) (ws : List PStr) : Prop :=
  (∃ w1 w w2, ws = w1 ++ w ++ w2 ∧ c.Passes w1 ∧ c.Help w) ∧
    ∀ w1 s w2, ws = w1 ++ s :: w2 → (pstr! "--") ∉ w1 → ¬ c.Ambiguous s

/-- A word in front of the command that is taken for an option, which the program itself does not have. -/
inductive ForeignOption : PStr → Prop
  | short {x : Nat} {r : PStr} : x ≠ 45 → x ≠ 104 → ¬ NegativeNumber (45 :: x :: r) → 32 ∉ x :: r → ForeignOption (45 :: x :: r)
  | long {a b : PStr} : 32 ∉ a ++ b → 61 ∉ a → b = [] ∨ b.head? = some 61 → ¬ a <+: (pstr! "help") → ForeignOption (45 :: 45 :: (a ++ b))

/-- A word in front of the command that asks for help: `-h`, `-hh`, perhaps with more letters after it, or `--help`, perhaps cut short. -/
inductive ProgramHelp : PStr → Prop
  | letters {n : Nat} {r : PStr} : (∀ y, r.head? = some y → y ≠ 45 ∧ y ≠ 61 ∧ y ≠ 104) → ProgramHelp (45 :: 104 :: (List.replicate n 104 ++ r))
  | long {n : Nat} : 3 ≤ n → ProgramHelp ((pstr! "--help").take n)

/-- A command line asks for help: the program itself is asked, or the command that is named, before anything but options in front of the
command is wrong; or `tokenize`, if no word is the name of a command or `-h` or `--help`. -/
inductive AsksForHelp : List PStr → Prop
  | program {ws rest : List PStr} {w : PStr} : (∀ u ∈ ws, ForeignOption u) → ProgramHelp w →
      (∃ u ∈ ws ++ w :: rest, CommandName u ∨ HelpWord u) → AsksForHelp (ws ++ w :: rest)
  | command {ws rest : List PStr} {c : Command} : (∀ u ∈ ws, ForeignOption u) → c.AsksHelp rest → AsksForHelp (ws ++ c.name :: rest)
  | default {ws : List PStr} : (∀ w ∈ ws, ¬ CommandName w ∧ ¬ HelpWord w) → Command.tokenize.AsksHelp ws → AsksForHelp ws

end Sudachi
