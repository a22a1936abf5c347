/-
When a tokenizer cannot fail, independently of how it works.
-/
import Verif.Spec.Tokenizer
import Verif.Spec.Text
namespace Sudachi

/-- Every word with a left id in `left` may follow every word with a right id in `right`; the sentence begin and end
(id 0) are included. -/
structure Joinable (conn : Conn) (left right : Int → Prop) : Prop where
  bos : right 0
  eos : left 0
  link : ∀ l r, left l → right r → ∃ c, conn l r = .ok c ∧ c ≠ 0x7fff

/-- The entries of unk.def or of the configuration. -/
def OovPlugin.Entry (o : OovEntry) : OovPlugin → Prop
  | .mecab _ oovList => ∃ ty, (ty, o) ∈ oovList
  | .simple o' => o = o'

/-- The lexicon answers every lookup, and the words it finds have parameters that may be connected and readable word
infos. -/
structure Lex.Answers (lex : Lex) (left right : Int → Prop) : Prop where
  lookup : ∀ bytes i, i < bytes.length → ∃ ws, lex.lookup bytes i = .ok ws ∧ ∀ w e, (w, e) ∈ ws →
    w < 2 ^ 31 ∧ ∃ l r c, lex.params w = .ok (l, r, c) ∧ left l ∧ right r
  readable : ∀ bytes i ws w e, lex.lookup bytes i = .ok ws → (w, e) ∈ ws → ∃ wi, lex.wordInfo w = .ok wi

/-- The units of the words the lexicon finds are ids of readable words. -/
def Lex.UnitsReadable (lex : Lex) : Prop :=
  ∀ bytes i ws w e wi, lex.lookup bytes i = .ok ws → (w, e) ∈ ws → lex.wordInfo w = .ok wi →
    ∀ u, u ∈ wi.aUnitSplit ∨ u ∈ wi.bUnitSplit → -2147483648 ≤ u ∧ u ≤ 2147483647 ∧ ∃ wi', lex.wordInfo u = .ok wi'

/-- A character of an alphabet belongs to that one category only. -/
def SingleAlphabets (catOf : Nat → CatSet) : Prop :=
  ∀ c, Alphabetic (catOf c) → ∀ x y, x ∈ catOf c → y ∈ catOf c → x = y

/-- The categories of alphabets do not offer unknown words of fixed lengths. -/
def NoAlphabetPrefixes (categories : List (Cat × CategoryInfo)) : Prop :=
  ∀ ty info, Alphabetic [ty] → dictGet categories ty = some info → info.length ≤ 0

/-- The texts a text plugin puts in can be encoded. -/
def InputPlugin.Encodable : InputPlugin → Prop
  | .default tb => ∀ k v, dictGet tb.replaceMap k = some v → ∀ c ∈ v, encodable c = true
  | .psm _ sym => ∀ c ∈ sym, encodable c = true

/-- The setting in which tokenization of non-empty text must not fail. -/
structure Tokenizer.Complete (T : Tokenizer) (left right : Int → Prop) : Prop where
  plugins : T.PluginsOk
  lowerEnc : ∀ c, encodable c = true → ∀ x ∈ T.lower [c], encodable x = true
  nfkcEnc : ∀ s : PStr, (∀ c ∈ s, encodable c = true) → ∀ x ∈ T.nfkc s, encodable x = true
  pluginEnc : ∀ p ∈ T.inputPlugins, p.Encodable
  categorised : ∀ c, T.catOf c ≠ []
  single : SingleAlphabets T.catOf
  prefixes : ∀ categories oovList, OovPlugin.mecab categories oovList ∈ T.oov → NoAlphabetPrefixes categories
  simpleLast : ∃ o, T.oov.getLast? = some (.simple o)
  oovShort : ∀ p ∈ T.oov, p.Short
  oovStores : ∀ p ∈ T.oov, p.Stores
  oovIds : ∀ p ∈ T.oov, ∀ o, p.Entry o → left o.leftId ∧ right o.rightId
  connShort : T.conn.Short
  joinable : Joinable T.conn left right
  lexOk : T.lex.Ok
  answers : T.lex.Answers left right

/-- `JoinNumericPlugin` comes first, if at all, and only once. -/
def NumericFirst : List PathPlugin → Prop
  | [] => True
  | _ :: ps => ∀ p ∈ ps, ∃ cfg, p = .katakana cfg

/-- Numbers have no separator in them: the characters `,` and `.` are not numerals, and a dictionary word of numerals
only has no separator in its normalised form (this is what shipped dictionaries and char.def look like; without it
`JoinNumericPlugin` may run forever, see C30). -/
structure Tokenizer.NoSeparators (T : Tokenizer) : Prop where
  chars : ∀ c, c = 44 ∨ c = 46 → Cat.NUMERIC ∉ T.catOf c ∧ Cat.KANJINUMERIC ∉ T.catOf c
  words : ∀ bytes i ws w e wi (s : PStr) ty, T.lex.lookup bytes i = .ok ws → (w, e) ∈ ws → T.lex.wordInfo w = .ok wi →
    pySlice bytes i e = s.flatMap utf8Cp → (ty = Cat.NUMERIC ∨ ty = Cat.KANJINUMERIC) → (∀ c ∈ s, ty ∈ T.catOf c) →
    44 ∉ wi.normalizedForm ∧ 46 ∉ wi.normalizedForm

end Sudachi
