/-
The output of the tokenize command.
-/
import Verif.Model.CommandLine
import Verif.Spec.Tokenizer
namespace Sudachi

/-- A text literal. -/
def lit (s : String) : PStr := s.toList.map Char.toNat

/-- Fields with tabs between them. -/
def tabbed (fields : List PStr) : PStr := List.intercalate (lit "\t") fields

/-- Texts with commas between them. -/
def commas (texts : List PStr) : PStr := List.intercalate (lit ",") texts

/-- `line` is `body` with newlines at its end. -/
def Chomped (line body : PStr) : Prop := ∃ n, line = body ++ List.replicate n 10 ∧ ∀ b, body ≠ b ++ [10]

/-- What is printed for the morpheme `i` of a list. -/
def ShortLine (g : Grammar) (lex : Lex) (ml : MorphemeList) (i : Nat) (line : PStr) : Prop :=
  ∃ surface wi pos, ml.getSurface i = .ok surface ∧ ml.getWordInfo lex i = .ok wi ∧ g.posString wi.posId = .ok pos ∧
    line = tabbed [surface, commas pos, wi.normalizedForm]

/-- The same with `-a`. -/
def LongLine (g : Grammar) (lex : Lex) (ml : MorphemeList) (i : Nat) (line : PStr) : Prop :=
  ∃ surface wi pos d oov, ml.getSurface i = .ok surface ∧ ml.getWordInfo lex i = .ok wi ∧ g.posString wi.posId = .ok pos ∧
    ml.dictionaryId i = .ok d ∧ ml.isOov i = .ok oov ∧
    line = tabbed ([surface, commas pos, wi.normalizedForm, wi.dictionaryForm, wi.readingForm, lit (toString d),
      lit "[" ++ commas (wi.synonymGroupIds.map (fun n => lit (toString n))) ++ lit "]"] ++ if oov then [lit "(OOV)"] else [])

/-- The line of a morpheme. -/
def LineOf (g : Grammar) (lex : Lex) (ml : MorphemeList) (all : Bool) (i : Nat) (line : PStr) : Prop :=
  if all then LongLine g lex ml i line else ShortLine g lex ml i line

/-- The lines printed for one line of input: one for each morpheme of its analysis by a fresh tokenizer, then `EOS`. -/
def BlockOf (T : Tokenizer) (g : Grammar) (mode : Mode) (all : Bool) (input : PStr) (block : List PStr) : Prop :=
  ∃ body ml out, Chomped input body ∧ (T.tokenize Lattice.init body (some mode)).2 = .ok ml ∧ block = out ++ [lit "EOS"] ∧
    out.length = ml.len ∧ ∀ i line, out[i]? = some line → LineOf g T.lex ml all i line

/-- The blocks of the lines of input. -/
def BlocksOf (T : Tokenizer) (g : Grammar) (mode : Mode) (all : Bool) : List PStr → List (List PStr) → Prop
  | [], [] => True
  | l :: ls, b :: bs => BlockOf T g mode all l b ∧ BlocksOf T g mode all ls bs
  | _, _ => False

end Sudachi
