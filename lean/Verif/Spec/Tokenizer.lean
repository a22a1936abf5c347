/-
What a tokenization result must be, independently of how it is computed.
-/
import Verif.Model.Tokenizer
import Verif.Spec.Lattice
import Verif.Spec.PathRewrite
namespace Sudachi

/-- A Unicode function never makes a non-empty text empty (true of `str.lower` and of NFKC), and the symbol that replaces
prolonged sound marks is not empty. -/
structure Tokenizer.PluginsOk (T : Tokenizer) : Prop where
  lower : ∀ c, T.lower [c] ≠ []
  nfkc : ∀ s, s ≠ [] → T.nfkc s ≠ []
  psm : ∀ marks sym, InputPlugin.psm marks sym ∈ T.inputPlugins → sym ≠ []

/-- The lattices a tokenizer can have: after its construction and any sequence of calls, successful or not. -/
inductive Tokenizer.History (T : Tokenizer) : Lattice → Prop
  | fresh : T.History Lattice.init
  | call {L L' : Lattice} {r : Res MorphemeList} (text : PStr) (mode : Option Mode) : T.History L →
      T.tokenize L text mode = (L', r) → T.History L'

/-- The lattices a tokenizer can have after successful calls only. -/
inductive Tokenizer.CleanHistory (T : Tokenizer) : Lattice → Prop
  | fresh : T.CleanHistory Lattice.init
  | call {L L' : Lattice} {ml : MorphemeList} (text : PStr) (mode : Option Mode) : T.CleanHistory L →
      T.tokenize L text mode = (L', .ok ml) → T.CleanHistory L'

/-- The lattices after calls of which none failed while the lattice was in use: each analysed its text in mode C (so that only
the splitting of mode A or B may have failed), or failed before, because the input text could not be built. -/
inductive Tokenizer.HarmlessHistory (T : Tokenizer) : Lattice → Prop
  | fresh : T.HarmlessHistory Lattice.init
  | call {L L' L'' : Lattice} {r : Res MorphemeList} {ml : MorphemeList} (text : PStr) (mode : Option Mode) : T.HarmlessHistory L →
      T.tokenize L text mode = (L', r) → T.tokenize L text (some .C) = (L'', .ok ml) → T.HarmlessHistory L'
  | unbuilt {L L' : Lattice} {r : Res MorphemeList} {x : Err} (text : PStr) (mode : Option Mode) : T.HarmlessHistory L →
      T.tokenize L text mode = (L', r) → T.buildInput text = .error x → T.HarmlessHistory L'

/-- What the callers see of the morphemes of a list, in order: begin, end, surface. -/
def MorphemeList.Shows (ml : MorphemeList) (spans : List (Nat × Nat × PStr)) : Prop :=
  ml.len = spans.length ∧ ∀ i b e s, spans[i]? = some (b, e, s) → ml.getBegin i = .ok b ∧ ml.getEnd i = .ok e ∧ ml.getSurface i = .ok s

/-- The spans are consecutive pieces of `text` from character `a` to its end. -/
def Partition (text : PStr) : Nat → List (Nat × Nat × PStr) → Prop
  | a, [] => a = text.length
  | a, (b, e, s) :: rest => b = a ∧ b ≤ e ∧ e ≤ text.length ∧ s = (text.take e).drop b ∧ Partition text e rest

/-- A split is consistent: the head-word lengths of the units (as far as they can be read) add up to that of the word. -/
def SplitConsistent (lex : Lex) (units : List Int) (length : Nat) : Prop :=
  ∀ infos : List WordInfo, units.map lex.wordInfo = infos.map Except.ok → (infos.map (·.headWordLength)).sum = length

/-- What the short modes need of the dictionary: the head-word length of a word found is the length of its match, and
its splits are consistent. -/
structure Lex.SplitsOk (lex : Lex) : Prop where
  head : ∀ bytes i ws w e wi, lex.lookup bytes i = .ok ws → (w, e) ∈ ws → lex.wordInfo w = .ok wi → wi.headWordLength = e - i
  a : ∀ bytes i ws w e wi, lex.lookup bytes i = .ok ws → (w, e) ∈ ws → lex.wordInfo w = .ok wi → 2 ≤ wi.aUnitSplit.length →
    SplitConsistent lex wi.aUnitSplit wi.headWordLength
  b : ∀ bytes i ws w e wi, lex.lookup bytes i = .ok ws → (w, e) ∈ ws → lex.wordInfo w = .ok wi → 2 ≤ wi.bUnitSplit.length →
    SplitConsistent lex wi.bUnitSplit wi.headWordLength

/-- What a morpheme (a list and an index) can depend on: the input text and its node. -/
def MorphemeList.node (ml : MorphemeList) (i : Nat) : Option InputText × Option NodeData := (ml.input, ml.path[i]?)

/-- `[m.split(mode) for m in ms]`, concatenated; `is` are the indexes. -/
def MorphemeList.splitAll (ml : MorphemeList) (lex : Lex) (mode : Mode) : List Nat → Res (List (MorphemeList × Nat))
  | [] => .ok []
  | i :: is => do
    let a ← ml.split lex mode i
    let b ← ml.splitAll lex mode is
    pure (a ++ b)

end Sudachi
