/-
How the command line of the program is written (sudachipy/command_line.py:172-215, README.md): the letters of the options, the ways to
write an option with its argument, and what the command is called with.
-/
import Verif.Model.Arguments
import Verif.Spec.Digits
namespace Sudachi

/-- An argument that is not taken for an option: one without a minus sign in front, or the minus sign alone. -/
def PlainArg (s : PStr) : Prop := s.head? ≠ some 45 ∨ s = [45]

instance (s : PStr) : Decidable (PlainArg s) := by unfold PlainArg; infer_instance

/-- The flags of a command: `-a`, `-d`, `-v`. -/
def Command.flags : Command → List (Nat × Opt)
  | .tokenize => [(97, .all), (100, .dump), (118, .version)]
  | _ => []

/-- The options of a command that have an argument. -/
def Command.valued : Command → List (Nat × Opt)
  | .tokenize => [(114, .setting), (109, .mode), (111, .out), (115, .dictType)]
  | .build => [(111, .out), (100, .description), (109, .matrix)]
  | .ubuild => [(100, .description), (111, .out), (115, .system)]

/-- The long names of the options of a command, without the two minus signs: `help`, `version`. -/
def Command.longNames : Command → List PStr
  | .tokenize => [[104, 101, 108, 112], [118, 101, 114, 115, 105, 111, 110]]
  | _ => [[104, 101, 108, 112]]

/-- Digits of any script. -/
def ScriptDigits (s : PStr) : Prop := ∀ c ∈ s, ∃ d, DecimalDigit c d

/-- A number with a minus sign in front, perhaps with a line feed after it: `-12`, `-1.5`, `-.5`. -/
inductive NegativeNumber : PStr → Prop
  | whole {ds e : PStr} : ds ≠ [] → ScriptDigits ds → e = [] ∨ e = [10] → NegativeNumber (45 :: (ds ++ e))
  | point {ds es e : PStr} : ScriptDigits ds → es ≠ [] → ScriptDigits es → e = [] ∨ e = [10] → NegativeNumber (45 :: (ds ++ 46 :: (es ++ e)))

/-- A word that is taken as an argument: one without a minus sign in front or the minus sign alone; a negative number, or a word with a
space in it, unless it starts with the letter of an option; a word with a space in it that starts with two minus signs, unless it goes on
with the first characters of a long name, up to `=` or the end. -/
inductive Command.ArgWord (c : Command) : PStr → Prop
  | plain {s : PStr} : PlainArg s → c.ArgWord s
  | odd {x : Nat} {r : PStr} : NegativeNumber (45 :: x :: r) ∨ 32 ∈ x :: r → x ≠ 45 → x ≠ 104 → (∀ o, (x, o) ∉ c.flags ∧ (x, o) ∉ c.valued) →
      c.ArgWord (45 :: x :: r)
  | long {a b : PStr} : 32 ∈ a ++ b → 61 ∉ a → b = [] ∨ b.head? = some 61 → (∀ n ∈ c.longNames, ¬ a <+: n) → c.ArgWord (45 :: 45 :: (a ++ b))

/-- `A`, `B` or `C` for `-m`, and `small`, `core` or `full` for `-s` of `tokenize`. -/
def Opt.Allows : Opt → PStr → Prop
  | .mode, v => v = [65] ∨ v = [66] ∨ v = [67]
  | .dictType, v => v = [115, 109, 97, 108, 108] ∨ v = [99, 111, 114, 101] ∨ v = [102, 117, 108, 108]
  | _, _ => True

/-- One word that starts with a minus sign, and perhaps a word after it: flags written together, with an option after them whose
argument is the next word, the rest of the word, or the rest of the word after `=`; or `--version`, perhaps cut short. -/
inductive Command.Group (c : Command) : List PStr → List (Opt × PStr) → Prop
  | flags {fs : List (Nat × Opt)} : fs ≠ [] → (∀ x ∈ fs, x ∈ c.flags) → c.Group [45 :: fs.map (·.1)] (fs.map fun x => (x.2, []))
  | next {fs : List (Nat × Opt)} {l : Nat} {o : Opt} {v : PStr} : (∀ x ∈ fs, x ∈ c.flags) → (l, o) ∈ c.valued → o.Allows v → c.ArgWord v →
      c.Group [45 :: (fs.map (·.1) ++ [l]), v] ((fs.map fun x => (x.2, [])) ++ [(o, v)])
  | joined {fs : List (Nat × Opt)} {l : Nat} {o : Opt} {v : PStr} : (∀ x ∈ fs, x ∈ c.flags) → (l, o) ∈ c.valued → o.Allows v →
      v ≠ [] → v.head? ≠ some 61 → c.Group [45 :: (fs.map (·.1) ++ l :: v)] ((fs.map fun x => (x.2, [])) ++ [(o, v)])
  | equals {fs : List (Nat × Opt)} {l : Nat} {o : Opt} {v : PStr} : (∀ x ∈ fs, x ∈ c.flags) → (l, o) ∈ c.valued → o.Allows v →
      c.Group [45 :: (fs.map (·.1) ++ l :: 61 :: v)] ((fs.map fun x => (x.2, [])) ++ [(o, v)])
  | version {n : Nat} : c = .tokenize → 3 ≤ n → c.Group [[45, 45, 118, 101, 114, 115, 105, 111, 110].take n] [(.version, [])]

/-- Some words that write options of a command, and the options in order. -/
inductive Command.Spells (c : Command) : List PStr → List (Opt × PStr) → Prop
  | nil : c.Spells [] []
  | cons {ws ws' : List PStr} {acts acts' : List (Opt × PStr)} : c.Group ws acts → c.Spells ws' acts' → c.Spells (ws ++ ws') (acts ++ acts')

/-- The argument of the last time an option is given. -/
def lastOf (o : Opt) (acts : List (Opt × PStr)) : Option PStr := acts.foldl (fun x a => if a.1 = o then some a.2 else x) none

/-- What `tokenize` is called with: the mode is `C` if none is given. -/
def tokenizeCall (files : List PStr) (acts : List (Opt × PStr)) : TokenizeArgs where
  version := acts.any fun a => a.1 = .version
  inFiles := files
  mode := (lastOf .mode acts).getD [67]
  out := lastOf .out acts
  setting := lastOf .setting acts
  dictType := lastOf .dictType acts
  all := acts.any fun a => a.1 = .all
  dump := acts.any fun a => a.1 = .dump

/-- The name of a command. -/
def CommandName (s : PStr) : Prop := s = Command.tokenize.name ∨ s = Command.build.name ∨ s = Command.ubuild.name

instance (s : PStr) : Decidable (CommandName s) := by unfold CommandName; infer_instance

/-- `-h` or `--help`. -/
def HelpWord (s : PStr) : Prop := s = [45, 104] ∨ s = [45, 45, 104, 101, 108, 112]

instance (s : PStr) : Decidable (HelpWord s) := by unfold HelpWord; infer_instance

end Sudachi
