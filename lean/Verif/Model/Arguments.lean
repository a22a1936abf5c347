/-
sudachipy/command_line.py: `main` and `_set_default_subparser`, with what `argparse` of CPython 3.11 does for the parsers declared there.

Left out: the texts of usage, help and error messages.
-/
import Verif.Model.TokenizeCommand
namespace Sudachi

/-- The options of the parsers declared in command_line.py:174-212. -/
inductive Opt
  | help | setting | mode | out | dictType | all | dump | version | description | matrix | system
  deriving DecidableEq, Repr

/-- `store_true` and `help` take no argument (command_line.py:186-188), the other options take one. -/
def Opt.takes : Opt → Bool
  | .help | .all | .dump | .version => false
  | _ => true

/-- command_line.py:182, 184: `choices`. -/
def Opt.choices : Opt → Option (List PStr)
  | .mode => some [[65], [66], [67]]
  | .dictType => some [[115, 109, 97, 108, 108], [99, 111, 114, 101], [102, 117, 108, 108]]
  | _ => none

/-- `nargs` of the positional argument: `*`, `+`, and that of subcommands. -/
inductive Nargs
  | star | plus | parser
  deriving DecidableEq, Repr

/-- A parser: its option strings and its positional argument. -/
structure ArgParser where
  options : List (PStr × Opt)
  nargs : Nargs

/-- `-h` and `--help`, which every parser has. -/
def helpOptions : List (PStr × Opt) := [([45, 104], .help), ([45, 45, 104, 101, 108, 112], .help)]

/-- command_line.py:173-175: the parser of the program. -/
def rootParser : ArgParser := ⟨helpOptions, .parser⟩

/-- command_line.py:178-190: `tokenize`. -/
def tokenizeParser : ArgParser :=
  ⟨helpOptions ++ [([45, 114], .setting), ([45, 109], .mode), ([45, 111], .out), ([45, 115], .dictType), ([45, 97], .all), ([45, 100], .dump),
    ([45, 118], .version), ([45, 45, 118, 101, 114, 115, 105, 111, 110], .version)], .star⟩

/-- command_line.py:193-203: `build`. -/
def buildParser : ArgParser := ⟨helpOptions ++ [([45, 111], .out), ([45, 100], .description), ([45, 109], .matrix)], .plus⟩

/-- command_line.py:206-215: `ubuild`. -/
def ubuildParser : ArgParser := ⟨helpOptions ++ [([45, 100], .description), ([45, 111], .out), ([45, 115], .system)], .plus⟩

/-- `argparse`: what an argument is: `--`, an argument, or an option (none: not one of the parser) with its name, the separator before
its explicit argument and the explicit argument. -/
inductive Tok
  | dashes
  | arg
  | opt (o : Option (Opt × PStr)) (explicit : Option (Bool × PStr))
  deriving DecidableEq, Repr

/-- `arg_string.partition('=')`, if there is one. -/
def partitionEq : PStr → Option (PStr × PStr)
  | [] => none
  | c :: cs => if c = 61 then some ([], cs) else (partitionEq cs).map fun (a, b) => (c :: a, b)

/-- `_negative_number_matcher`: `^-\d+$|^-\d*\.\d+$`. -/
def looksNegative (s : PStr) : Bool :=
  let isDigit := fun c => (digitVal c).isSome
  let ends := fun t : PStr => t == [] || t == [10]
  match s with
  | 45 :: t =>
    (!(t.takeWhile isDigit).isEmpty && ends (t.dropWhile isDigit)) ||
      (match t.dropWhile isDigit with
       | 46 :: u => !(u.takeWhile isDigit).isEmpty && ends (u.dropWhile isDigit)
       | _ => false)
  | _ => false

/-- `_get_option_tuples`: the options that an abbreviated or joined option string may mean, with the separator and explicit argument.
`true` stands for the separator `=`, `false` for the empty one. -/
def optionTuples (P : ArgParser) (s : PStr) : List ((Opt × PStr) × Option (Bool × PStr)) :=
  match s with
  | 45 :: 45 :: _ =>
    match partitionEq s with
    | some (prefix_, e) => (P.options.filter fun x => prefix_.isPrefixOf x.1).map fun x => ((x.2, x.1), some (true, e))
    | none => (P.options.filter fun x => s.isPrefixOf x.1).map fun x => ((x.2, x.1), none)
  | _ =>
    P.options.filterMap fun x =>
      if x.1 = s.take 2 then some ((x.2, x.1), some (false, s.drop 2))
      else if s.isPrefixOf x.1 then some ((x.2, x.1), none)
      else none

/-- An option string of the parser. -/
def ArgParser.find (P : ArgParser) (s : PStr) : Option Opt := (P.options.find? fun x => x.1 = s).map (·.2)

/-- `_parse_optional`; `none` is the error of an ambiguous option. -/
def ArgParser.classify (P : ArgParser) (s : PStr) : Option Tok :=
  match s with
  | 45 :: rest =>
    match P.find s with
    | some o => some (.opt (some (o, s)) none)
    | none =>
      if rest.isEmpty then some .arg
      else
        match (partitionEq s).bind fun (name, e) => (P.find name).map fun o => Tok.opt (some (o, name)) (some (true, e)) with
        | some t => some t
        | none =>
          match optionTuples P s with
          | [(x, e)] => some (.opt (some x) e)
          | _ :: _ :: _ => none
          | [] => if looksNegative s then some .arg else if 32 ∈ s then some .arg else some (.opt none none)
  | _ => some .arg

/-- `_parse_known_args`, the first loop: all arguments after `--` are no options. -/
def ArgParser.classifyAll (P : ArgParser) : List PStr → Option (List (PStr × Tok))
  | [] => some []
  | s :: ss =>
    if s = [45, 45] then some ((s, .dashes) :: ss.map fun x => (x, .arg))
    else do
      let t ← P.classify s
      let ts ← P.classifyAll ss
      pure ((s, t) :: ts)

/-- How parsing ends early: after `-h`, or with an error. -/
inductive Stop
  | help | error
  deriving DecidableEq, Repr

/-- What was parsed: the options in order with their arguments, the positional argument, the arguments that were not recognised. -/
structure Parsed where
  acts : List (Opt × PStr)
  files : Option (List PStr)
  extras : List PStr
  deriving DecidableEq, Repr

/-- `take_action` of an option: `help` ends, `choices` are checked. -/
def takeAct (r : Parsed) (o : Opt) (v : PStr) : Except Stop Parsed :=
  if o = .help then .error .help
  else
    match o.choices with
    | some cs => if v ∈ cs then .ok { r with acts := r.acts ++ [(o, v)] } else .error .error
    | none => .ok { r with acts := r.acts ++ [(o, v)] }

/-- `take_action` of some options in order. -/
def takeActs : Parsed → List (Opt × PStr) → Except Stop Parsed
  | r, [] => .ok r
  | r, (o, v) :: acts => do
    let r' ← takeAct r o v
    takeActs r' acts

/-- `consume_optional`, the inner loop: the options in one argument (`-ad`), the argument that is not recognised, and whether the next
argument of the command line is used.  `next` is that argument, if it is one. -/
def expandWord (P : ArgParser) (next : Option PStr) (o : Opt) (name : PStr) (done : List (Opt × PStr)) :
    Option (Bool × PStr) → Except Stop (List (Opt × PStr) × Option PStr × Bool)
  | none =>
    if o.takes then
      match next with
      | some v => .ok (done ++ [(o, v)], none, true)
      | none => .error .error
    else .ok (done ++ [(o, [])], none, false)
  | some (sep, e) =>
    if o.takes then .ok (done ++ [(o, e)], none, false)
    else
      match e with
      | [] => .error .error
      | c :: cs =>
        if (name.drop 1).head? = some 45 then .error .error
        else if sep || c == 45 then .error .error
        else
          match P.find [45, c] with
          | none => .ok (done ++ [(o, [])], some (45 :: c :: cs), false)
          | some o' =>
            match cs with
            | [] => expandWord P next o' [45, c] (done ++ [(o, [])]) none
            | 61 :: cs' => expandWord P next o' [45, c] (done ++ [(o, [])]) (some (true, cs'))
            | d :: ds => expandWord P next o' [45, c] (done ++ [(o, [])]) (some (false, d :: ds))
  termination_by x => match x with | none => 0 | some (_, e) => e.length + 1
  decreasing_by all_goals simp_all; try omega

/-- An option. -/
def Tok.isOpt : Tok → Bool
  | .opt _ _ => true
  | _ => false

/-- `_match_arguments_partial` for the positional argument: how many arguments it takes. -/
def Nargs.count (n : Nargs) (ts : List (PStr × Tok)) : Option Nat :=
  let k := (ts.takeWhile fun x => !x.2.isOpt).length
  match n with
  | .star => some k
  | .plus => if ((ts.dropWhile fun x => x.2 == .dashes).head?.map (·.2)) = some .arg then some k else none
  | .parser => if ((ts.dropWhile fun x => x.2 == .dashes).head?.map (·.2)) = some .arg then some ts.length else none

/-- `_get_values` of the positional argument: the first `--` is removed, except for subcommands. -/
def Nargs.values (n : Nargs) (ss : List PStr) : List PStr := if n = .parser then ss else ss.erase [45, 45]

/-- `consume_positionals`: the arguments left. -/
def consumePositionals (P : ArgParser) (r : Parsed) (ts : List (PStr × Tok)) : Parsed × List (PStr × Tok) :=
  if r.files.isSome then (r, ts)
  else
    match P.nargs.count ts with
    | none => (r, ts)
    | some k => ({ r with files := some (P.nargs.values ((ts.take k).map (·.1))) }, ts.drop k)

/-- The next argument of the command line, if it is one. -/
def nextArg : List (PStr × Tok) → Option PStr
  | (v, .arg) :: _ => some v
  | _ => none

/-- `consume_optional`. -/
def consumeOptional (P : ArgParser) (r : Parsed) (s : PStr) (o : Option (Opt × PStr)) (e : Option (Bool × PStr)) (ts : List (PStr × Tok)) :
    Except Stop (Parsed × List (PStr × Tok)) :=
  match o with
  | none => .ok ({ r with extras := r.extras ++ [s] }, ts)
  | some (o, name) => do
    let (acts, extra, used) ← expandWord P (nextArg ts) o name [] e
    let r' ← takeActs { r with extras := r.extras ++ extra.toList } acts
    pure (r', if used then ts.drop 1 else ts)

/-- `_parse_known_args`, the second loop: positional arguments and options in turn, up to the last option; then the positional
arguments after it.  (Every round takes at least one argument: `fuel` is their number.) -/
def parseLoop (P : ArgParser) : Nat → Parsed → List (PStr × Tok) → Except Stop Parsed
  | 0, r, ts => .ok { (consumePositionals P r ts).1 with extras := (consumePositionals P r ts).1.extras ++ (consumePositionals P r ts).2.map (·.1) }
  | fuel + 1, r, ts =>
    if ts.any fun x => x.2.isOpt then
      match ts with
      | (s, .opt o e) :: ts' => do
        let (r', ts'') ← consumeOptional P r s o e ts'
        parseLoop P fuel r' ts''
      | _ =>
        let (r', ts') := consumePositionals P r ts
        if ts'.length < ts.length then parseLoop P fuel r' ts'
        else parseLoop P fuel { r' with extras := r'.extras ++ (ts.takeWhile fun x => !x.2.isOpt).map (·.1) } (ts.dropWhile fun x => !x.2.isOpt)
    else .ok { (consumePositionals P r ts).1 with extras := (consumePositionals P r ts).1.extras ++ (consumePositionals P r ts).2.map (·.1) }

/-- `parse_known_args`, except for arguments that are required. -/
def ArgParser.parse (P : ArgParser) (ss : List PStr) : Except Stop Parsed :=
  match P.classifyAll ss with
  | none => .error .error
  | some ts => parseLoop P ts.length ⟨[], none, []⟩ ts

/-- The argument of the last occurrence of an option. -/
def Parsed.last (r : Parsed) (o : Opt) : Option PStr := (r.acts.reverse.find? fun x => x.1 = o).map (·.2)

/-- A flag. -/
def Parsed.flag (r : Parsed) (o : Opt) : Bool := (r.last o).isSome

/-- The names of the subcommands: `tokenize`, `build`, `ubuild`. -/
inductive Command
  | tokenize | build | ubuild
  deriving DecidableEq, Repr

def Command.name : Command → PStr
  | .tokenize => [116, 111, 107, 101, 110, 105, 122, 101]
  | .build => [98, 117, 105, 108, 100]
  | .ubuild => [117, 98, 117, 105, 108, 100]

def Command.parser : Command → ArgParser
  | .tokenize => tokenizeParser
  | .build => buildParser
  | .ubuild => ubuildParser

/-- `_SubParsersAction.__call__`: the parser of a name. -/
def Command.find (s : PStr) : Option Command := [Command.tokenize, .build, .ubuild].find? fun c => c.name = s

/-- command_line.py:33-54 `_set_default_subparser`. -/
def withDefault (argv : List PStr) : List PStr :=
  if [45, 104] ∈ argv ∨ [45, 45, 104, 101, 108, 112] ∈ argv then argv
  else if Command.tokenize.name ∈ argv ∨ Command.build.name ∈ argv ∨ Command.ubuild.name ∈ argv then argv
  else Command.tokenize.name :: argv

/-- What the arguments of the program ask for. -/
inductive Request
  | tokenize (a : TokenizeArgs)
  | build (matrixFile : PStr) (inFiles : List PStr) (outFile description : PStr)
  | ubuild (systemDic : Option PStr) (inFiles : List PStr) (outFile description : PStr)
  | noCommand

/-- The arguments of a subcommand, its defaults (command_line.py:182, 194, 196, 208, 210) and required arguments. -/
def Command.request (c : Command) (r : Parsed) : Option Request :=
  match c, r.files with
  | _, none => none
  | .tokenize, some files =>
    some (.tokenize ⟨r.flag .version, files, (r.last .mode).getD [67], r.last .out, r.last .setting, r.last .dictType, r.flag .all, r.flag .dump⟩)
  | .build, some files => do
    let m ← r.last .matrix
    pure (.build m files ((r.last .out).getD [115, 121, 115, 116, 101, 109, 46, 100, 105, 99]) ((r.last .description).getD []))
  | .ubuild, some files =>
    some (.ubuild (r.last .system) files ((r.last .out).getD [117, 115, 101, 114, 46, 100, 105, 99]) ((r.last .description).getD []))

/-- command_line.py:219-221: `parse_args` after the default subcommand. -/
def parseArgs (argv : List PStr) : Except Stop Request :=
  match rootParser.parse (withDefault argv) with
  | .error x => .error x
  | .ok root =>
    match root.files with
    | some (name :: rest) =>
      match Command.find name with
      | none => .error .error
      | some c =>
        match c.parser.parse rest with
        | .error x => .error x
        | .ok sub =>
          match c.request sub with
          | none => .error .error
          | some q => if (root.extras ++ sub.extras).isEmpty then .ok q else .error .error
    | _ => if root.extras.isEmpty then .ok .noCommand else .error .error

/-- command_line.py:172-226 `main`. Help ends with exit code 0, an error of the arguments with 2. -/
def mainProgram (R : Runtime) (S : Terminal) (version : PStr) (argv : List PStr) : Outcome :=
  match parseArgs argv with
  | .error .help => ⟨S.toShell, [], .exit 0⟩
  | .error .error => ⟨S.toShell, [], .exit 2⟩
  | .ok (.tokenize a) => commandTokenize R S version a
  | .ok (.build m files out desc) =>
    let r := commandBuild R.D S.toShell m files out desc
    ⟨r.1, [], r.2⟩
  | .ok (.ubuild sys files out desc) =>
    let r := commandUserBuild R.D R.depth S.toShell sys files out desc
    ⟨r.1, [], r.2⟩
  | .ok .noCommand => ⟨S.toShell, [], .done⟩

end Sudachi
