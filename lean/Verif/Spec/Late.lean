/-
Values of the wrong type in the settings of plugins.
-/
import Verif.Model.Late
import Verif.Spec.Open
namespace Sudachi

/-- A stored value is `v`, or its use raises an exception of `E`. -/
def FitsVal {α : Type} (E : Err → Prop) (r : Res α) (v : α) : Prop := r = .ok v ∨ ∃ e, E e ∧ r = .error e

/-- The plugin holds the numbers and texts of the other, or values that cannot be used. -/
def LateInput.Fits (E : Err → Prop) : LateInput → InputPlugin → Prop
  | .default tb, .default tb' => tb = tb'
  | .psm marks sym, .psm marks' s => marks = marks' ∧ FitsVal E sym s
  | _, _ => False

def LateOov.Fits (E : Err → Prop) : LateOov → OovPlugin → Prop
  | .mecab a b, .mecab a' b' => a = a' ∧ b = b'
  | .simple l r c posId, .simple o => FitsVal E l o.leftId ∧ FitsVal E r o.rightId ∧ FitsVal E c o.cost ∧ posId = o.posId
  | _, _ => False

def LatePath.Fits (E : Err → Prop) : LatePath → PathPlugin → Prop
  | .numeric cfg, .numeric cfg' => cfg = cfg'
  | .katakana posId shorter, .katakana cfg => posId = cfg.posId ∧ ∀ n, FitsVal E (shorter n) (decide (n < cfg.minLength))
  | _, _ => False

/-- One by one. -/
inductive Paired {α β : Type} (R : α → β → Prop) : List α → List β → Prop
  | nil : Paired R [] []
  | cons {a b l l'} : R a b → Paired R l l' → Paired R (a :: l) (b :: l')

/-- The same tokenizer but for values in the settings of plugins: where they differ, the value cannot be used and raises an exception
of `E`. -/
structure LateTokenizer.Fits (E : Err → Prop) (T : LateTokenizer) (T' : Tokenizer) : Prop where
  catOf : T.catOf = T'.catOf
  lower : T.lower = T'.lower
  nfkc : T.nfkc = T'.nfkc
  conn : T.conn = T'.conn
  lex : T.lex = T'.lex
  mode : T.mode = T'.mode
  fuel : T.fuel = T'.fuel
  inputs : Paired (LateInput.Fits E) T.inputPlugins T'.inputPlugins
  oov : Paired (LateOov.Fits E) T.oov T'.oov
  paths : Paired (LatePath.Fits E) T.pathPlugins T'.pathPlugins

/-! ### Plugins with values of the right type -/

def InputPlugin.late : InputPlugin → LateInput
  | .default tb => .default tb
  | .psm marks s => .psm marks (.ok s)

def OovPlugin.late : OovPlugin → LateOov
  | .mecab a b => .mecab a b
  | .simple o => .simple (.ok o.leftId) (.ok o.rightId) (.ok o.cost) o.posId

def PathPlugin.late : PathPlugin → LatePath
  | .numeric cfg => .numeric cfg
  | .katakana cfg => .katakana cfg.posId fun n => .ok (n < cfg.minLength)

def DictConfig.late (cfg : DictConfig) : LateConfig :=
  ⟨cfg.D, cfg.depth, cfg.fuel, cfg.catOf, cfg.lower, cfg.nfkc, cfg.inputPlugins.map (·.late), cfg.oov.map (·.late),
    cfg.pathPlugins.map (·.late)⟩

/-- The exception of the first value that cannot be used. -/
def FirstFault (l r c : Res Int) (e : Err) : Prop :=
  l = .error e ∨ ((∃ x, l = .ok x) ∧ (r = .error e ∨ ((∃ y, r = .ok y) ∧ c = .error e)))

/-- Two marks in a row. -/
def HasRun (marks : List Nat) (text : PStr) : Prop := ∃ pre a b post, text = pre ++ a :: b :: post ∧ a ∈ marks ∧ b ∈ marks

/-- At every place of the text where a word can begin, the dictionary has one that ends where a word can end. -/
def Lex.Everywhere (lex : Lex) (t : InputText) : Prop :=
  ∀ i ws, t.canBow i = .ok true → lex.lookup t.bytes i = .ok ws → ∃ w e, (w, e) ∈ ws ∧ (t.bytes.length ≤ e ∨ t.canBow e = .ok true)

/-! ### What is kept of the settings -/

/-- Neither a number nor `true` nor `false`. -/
def Json.NoNumber (v : Json) : Prop := v = .null ∨ (∃ s, v = .str s) ∨ (∃ l, v = .list l) ∨ ∃ d, v = .obj d

/-- What use of the value as an integer gives. -/
def Json.AsInt (F : Floats) (v : Json) (r : Res Int) : Prop :=
  (∃ n, v.IsInt n ∧ r = .ok n) ∨ (∃ x, v = .real x ∧ r = F.toInt x) ∨ (v.NoNumber ∧ r = .error .type)

/-- What comparing numbers with the value gives. -/
def Json.AsLength (F : Floats) (v : Json) (f : Int → Res Bool) : Prop :=
  (∃ m, v.IsInt m ∧ ∀ n, f n = .ok (decide (n < m))) ∨ (∃ x, v = .real x ∧ ∀ n, f n = .ok (F.less n x)) ∨
    (v.NoNumber ∧ ∀ n, f n = .error .type)

/-- What use of the value as a text gives. -/
def Json.AsText (v : Json) (r : Res PStr) : Prop := (∃ s, v = .str s ∧ r = .ok s) ∨ ((∀ s, v ≠ .str s) ∧ r = .error .attribute)

def LateInputWanted (j : Json) : LateInputObj → Prop
  | .default => j.Has "class" (.str (codes "sudachipy.plugin.input_text.DefaultInputTextPlugin"))
  | .psm marks sym =>
    j.Has "class" (.str (codes "sudachipy.plugin.input_text.ProlongedSoundMarkInputTextPlugin")) ∧
    ((j.Lacks "prolongedSoundMarks" ∧ marks = []) ∨ ∃ v, j.Has "prolongedSoundMarks" v ∧ v.IsChars marks) ∧
    ((j.Lacks "replacementSymbol" ∧ sym = .ok [0x30FC]) ∨ ∃ v, j.Has "replacementSymbol" v ∧ v.AsText sym)

def LateOovWanted (F : Floats) (j : Json) : LateOovObj → Prop
  | .mecab c u =>
    j.Has "class" (.str (codes "sudachipy.plugin.oov.MeCabOovProviderPlugin")) ∧ j.Has "charDef" c ∧ j.Has "unkDef" u
  | .simple l r c p =>
    j.Has "class" (.str (codes "sudachipy.plugin.oov.SimpleOovProviderPlugin")) ∧ j.Has "oovPOS" p ∧
    (∃ v, j.Has "leftId" v ∧ v.AsInt F l) ∧ (∃ v, j.Has "rightId" v ∧ v.AsInt F r) ∧ ∃ v, j.Has "cost" v ∧ v.AsInt F c

def LatePathWanted (F : Floats) (j : Json) : LatePathObj → Prop
  | .numeric b =>
    j.Has "class" (.str (codes "sudachipy.plugin.path_rewrite.JoinNumericPlugin")) ∧
    ((j.Lacks "enableNormalize" ∧ b = true) ∨ ∃ v, j.Has "enableNormalize" v ∧ (b = false ↔ v.Empty))
  | .katakana p shorter =>
    j.Has "class" (.str (codes "sudachipy.plugin.path_rewrite.JoinKatakanaOovPlugin")) ∧ j.Has "oovPOS" p ∧
    ((j.Lacks "minLength" ∧ ∀ n, shorter n = .ok (decide (n < 1))) ∨ ∃ v, j.Has "minLength" v ∧ v.AsLength F shorter)

end Sudachi
