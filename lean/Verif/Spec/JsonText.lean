/-
The grammar of the setting file: which texts stand for which values.
-/
import Verif.Model.Config
import Verif.Spec.Definitions
namespace Sudachi
namespace JsonText

/-- White space: spaces, tabs and line ends. -/
def Spaces (w : PStr) : Prop := ∀ c ∈ w, c = 32 ∨ c = 9 ∨ c = 10 ∨ c = 13

/-- A hexadecimal digit and its value. -/
inductive Hex : Nat → Nat → Prop
  | digit (i : Nat) : i < 10 → Hex (48 + i) i
  | upper (i : Nat) : i < 6 → Hex (65 + i) (10 + i)
  | lower (i : Nat) : i < 6 → Hex (97 + i) (10 + i)

/-- `\u` and four hexadecimal digits. -/
inductive Unit16 : PStr → Nat → Prop
  | mk (a b c d x y z w : Nat) : Hex a x → Hex b y → Hex c z → Hex d w → Unit16 [92, 117, a, b, c, d] (4096 * x + 256 * y + 16 * z + w)

/-- The first and the second half of a pair of surrogates. -/
def High (x : Nat) : Prop := 0xD800 ≤ x ∧ x < 0xDC00
def Low (x : Nat) : Prop := 0xDC00 ≤ x ∧ x < 0xE000

/-- What a backslash and another character stand for. -/
def shortEscapes : List (Nat × Nat) :=
  [('"'.toNat, '"'.toNat), ('\\'.toNat, '\\'.toNat), ('/'.toNat, '/'.toNat), ('b'.toNat, 8), ('f'.toNat, 12), ('n'.toNat, 10),
   ('r'.toNat, 13), ('t'.toNat, 9)]

/-- What stands between the quotes of a string, and the string.  Two escaped surrogates that make a pair are one character; any other
escaped surrogate stands for itself. -/
inductive StringText : PStr → PStr → Prop
  | nil : StringText [] []
  | char (c : Nat) (t s : PStr) : 32 ≤ c → c ≠ '"'.toNat → c ≠ '\\'.toNat → StringText t s → StringText (c :: t) (c :: s)
  | short (x c : Nat) (t s : PStr) : (x, c) ∈ shortEscapes → StringText t s → StringText ('\\'.toNat :: x :: t) (c :: s)
  | pair (u u' : PStr) (x y : Nat) (t s : PStr) : Unit16 u x → High x → Unit16 u' y → Low y → StringText t s →
      StringText (u ++ u' ++ t) ((0x10000 + 0x400 * (x - 0xD800) + (y - 0xDC00)) :: s)
  | unit (u : PStr) (x : Nat) (t s : PStr) : Unit16 u x → (High x → ∀ u' y t', t = u' ++ t' → Unit16 u' y → ¬ Low y) → StringText t s →
      StringText (u ++ t) (x :: s)

/-- Decimal digits and their value. -/
inductive Digits : PStr → Nat → Prop
  | one (i : Nat) : i < 10 → Digits [48 + i] i
  | more (t : PStr) (n i : Nat) : Digits t n → i < 10 → Digits (t ++ [48 + i]) (10 * n + i)

/-- The same without a zero in front. -/
def Whole (t : PStr) (n : Nat) : Prop := Digits t n ∧ (t = ['0'.toNat] ∨ t.head? ≠ some '0'.toNat)

/-- A minus sign or nothing. -/
inductive Sign : PStr → Bool → Prop
  | plus : Sign [] false
  | minus : Sign ['-'.toNat] true

/-- The exponent of a number. -/
inductive ExponentText : PStr → Int → Prop
  | plain (e : Nat) (t : PStr) (n : Nat) : e = 'e'.toNat ∨ e = 'E'.toNat → Digits t n → ExponentText (e :: t) n
  | plus (e : Nat) (t : PStr) (n : Nat) : e = 'e'.toNat ∨ e = 'E'.toNat → Digits t n → ExponentText (e :: '+'.toNat :: t) n
  | minus (e : Nat) (t : PStr) (n : Nat) : e = 'e'.toNat ∨ e = 'E'.toNat → Digits t n → ExponentText (e :: '-'.toNat :: t) (-(n : Int))

/-- What is no string, list or object. -/
inductive Plain : PStr → Json → Prop
  | null : Plain (codes "null") .null
  | true : Plain (codes "true") (.bool true)
  | false : Plain (codes "false") (.bool false)
  | nan : Plain (codes "NaN") (.real .nan)
  | infinity (g : PStr) (neg : Bool) : Sign g neg → Plain (g ++ codes "Infinity") (.real (.infinity neg))
  | whole (g t : PStr) (neg : Bool) (n : Nat) : Sign g neg → Whole t n → Plain (g ++ t) (.num (if neg then -(n : Int) else n))
  | exponent (g t u : PStr) (neg : Bool) (n : Nat) (e : Int) : Sign g neg → Whole t n → ExponentText u e →
      Plain (g ++ t ++ u) (.real (.decimal neg n e))
  | fraction (g t f : PStr) (neg : Bool) (n m k : Nat) : Sign g neg → Whole t n → Digits f m → Digits (t ++ f) k →
      Plain (g ++ t ++ '.'.toNat :: f) (.real (.decimal neg k (-(f.length : Int))))
  | both (g t f u : PStr) (neg : Bool) (n m k : Nat) (e : Int) : Sign g neg → Whole t n → Digits f m → Digits (t ++ f) k → ExponentText u e →
      Plain (g ++ t ++ '.'.toNat :: f ++ u) (.real (.decimal neg k (e - f.length)))

/-- The dictionary that keys and values make, in order: a new key comes last, and one that has been there keeps its place and gets the
new value. -/
inductive Collected : List (PStr × Json) → JDict → Prop
  | nil : Collected [] []
  | new (ps : List (PStr × Json)) (d : JDict) (k : PStr) (v : Json) : Collected ps d → (∀ w, (k, w) ∉ d) →
      Collected (ps ++ [(k, v)]) (d ++ [(k, v)])
  | again (ps : List (PStr × Json)) (d d' : JDict) (k : PStr) (w v : Json) : Collected ps (d ++ (k, w) :: d') →
      Collected (ps ++ [(k, v)]) (d ++ (k, v) :: d')

mutual

/-- The text stands for the value, in which lists and objects are nested at most `n` deep. -/
inductive Denotes : Nat → PStr → Json → Prop
  | plain (n : Nat) (t : PStr) (v : Json) : Plain t v → Denotes n t v
  | string (n : Nat) (t s : PStr) : StringText t s → Denotes n ('"'.toNat :: t ++ ['"'.toNat]) (.str s)
  | emptyList (n : Nat) (w : PStr) : Spaces w → Denotes (n + 1) ('['.toNat :: w ++ [']'.toNat]) (.list [])
  | list (n : Nat) (w t : PStr) (vs : List Json) : Spaces w → Elements n t vs → Denotes (n + 1) ('['.toNat :: w ++ t ++ [']'.toNat]) (.list vs)
  | emptyObject (n : Nat) (w : PStr) : Spaces w → Denotes (n + 1) ('{'.toNat :: w ++ ['}'.toNat]) (.obj [])
  | object (n : Nat) (w t : PStr) (ps : List (PStr × Json)) (d : JDict) : Spaces w → Members n t ps → Collected ps d →
      Denotes (n + 1) ('{'.toNat :: w ++ t ++ ['}'.toNat]) (.obj d)

/-- Values with commas between them. -/
inductive Elements : Nat → PStr → List Json → Prop
  | one (n : Nat) (t w : PStr) (v : Json) : Denotes n t v → Spaces w → Elements n (t ++ w) [v]
  | more (n : Nat) (t w w' t' : PStr) (v : Json) (vs : List Json) : Denotes n t v → Spaces w → Spaces w' → Elements n t' vs →
      Elements n (t ++ w ++ ','.toNat :: w' ++ t') (v :: vs)

/-- Keys and values with colons and commas between them. -/
inductive Members : Nat → PStr → List (PStr × Json) → Prop
  | one (n : Nat) (k key w1 w2 t w : PStr) (v : Json) : StringText k key → Spaces w1 → Spaces w2 → Denotes n t v → Spaces w →
      Members n ('"'.toNat :: k ++ '"'.toNat :: w1 ++ ':'.toNat :: w2 ++ t ++ w) [(key, v)]
  | more (n : Nat) (k key w1 w2 t w w' t' : PStr) (v : Json) (ps : List (PStr × Json)) : StringText k key → Spaces w1 → Spaces w2 →
      Denotes n t v → Spaces w → Spaces w' → Members n t' ps →
      Members n ('"'.toNat :: k ++ '"'.toNat :: w1 ++ ':'.toNat :: w2 ++ t ++ w ++ ','.toNat :: w' ++ t') ((key, v) :: ps)

end

/-- The text of a whole file: a value with white space around it. -/
def Document (n : Nat) (text : PStr) (v : Json) : Prop := ∃ w t w', Spaces w ∧ Denotes n t v ∧ Spaces w' ∧ text = w ++ t ++ w'

end JsonText
end Sudachi
