/-
The format of the entry of a word in a dictionary file, and what is wrong with an entry that has not this format.
-/
import Verif.Spec.FileLayout
namespace Sudachi

/-- A length at place `i`, up to place `j`: one byte below 128, or two bytes, the first with 128 added. -/
inductive LengthAt (b : Bytes) (i : Nat) : Nat → Nat → Prop
  | one (n : Nat) : b[i]? = some n → n < 128 → LengthAt b i n (i + 1)
  | two (h l : Nat) : b[i]? = some (128 + h) → b[i + 1]? = some l → LengthAt b i (h * 256 + l) (i + 2)

/-- A text at place `i`, up to place `j`: the number of 16-bit units and the units (as far as the file goes). -/
inductive TextAt (b : Bytes) (i : Nat) : PStr → Nat → Prop
  | mk (s : PStr) (n k : Nat) : LengthAt b i n k → Encodable s → bytesAt b k (2 * n) = utf16Le s → TextAt b i s (clip b (k + 2 * n))

/-- The signed 32-bit number at place `i`, where the file has four bytes. -/
def signed32At (b : Bytes) (i : Nat) : Int :=
  if numberAt b i 4 < 2147483648 then (numberAt b i 4 : Int) else (numberAt b i 4 : Int) - 4294967296

/-- Numbers at place `i`, up to place `j`: a byte with how many there are, and four bytes for each. -/
inductive NumbersAt (b : Bytes) (i : Nat) : List Int → Nat → Prop
  | mk (l : List Int) : b[i]? = some l.length → i + 1 + 4 * l.length ≤ b.length →
      (∀ k, k < l.length → l[k]? = some (signed32At b (i + 1 + 4 * k))) → NumbersAt b i l (i + 1 + 4 * l.length)

/-- An entry of a word from place `i` on: surface, length of the head word, part of speech, normalised form, word of the dictionary form,
reading, and three or four lists of numbers. An empty normalised form or reading stands for the surface. -/
def EntryAt (b : Bytes) (syn : Bool) (i : Nat) (w : WordInfo) : Prop :=
  ∃ i1 i2 i3 i4 i5 i6 i7 i8 norm reading,
    TextAt b i w.surface i1 ∧ LengthAt b i1 w.headWordLength i2 ∧ w.posId = numberAt b i2 2 ∧
    TextAt b (i2 + 2) norm i3 ∧ w.normalizedForm = (if norm = [] then w.surface else norm) ∧ w.dictionaryFormWordId = signed32At b i3 ∧
    TextAt b (i3 + 4) reading i4 ∧ w.readingForm = (if reading = [] then w.surface else reading) ∧
    NumbersAt b i4 w.aUnitSplit i5 ∧ NumbersAt b i5 w.bUnitSplit i6 ∧ NumbersAt b i6 w.wordStructure i7 ∧
    (if syn then NumbersAt b i7 w.synonymGroupIds i8 else w.synonymGroupIds = []) ∧ w.dictionaryForm = w.surface

/-- The kinds of the parts of an entry. -/
inductive Part
  | text | length | two | four | numbers

/-- The parts of an entry. -/
def entryParts (syn : Bool) : List Part :=
  [.text, .length, .two, .text, .four, .text, .numbers, .numbers, .numbers] ++ (if syn then [.numbers] else [])

/-- A part of an entry lies between two places. -/
inductive PartAt (b : Bytes) : Part → Nat → Nat → Prop
  | text (i j : Nat) (s : PStr) : TextAt b i s j → PartAt b .text i j
  | length (i j n : Nat) : LengthAt b i n j → PartAt b .length i j
  | two (i : Nat) : PartAt b .two i (clip b (i + 2))
  | four (i : Nat) : PartAt b .four i (clip b (i + 4))
  | numbers (i j : Nat) (l : List Int) : NumbersAt b i l j → PartAt b .numbers i j

/-- The file ends before or in a length. -/
def NoLength (b : Bytes) (i : Nat) : Prop := b[i]? = none ∨ ∃ h, b[i]? = some (128 + h) ∧ b[i + 1]? = none

/-- What is wrong at place `i` where a part of an entry should be. -/
inductive PartFails (b : Bytes) : Part → Nat → Err → Prop
  | noText (i : Nat) : NoLength b i → PartFails b .text i .value
  | text (i n k : Nat) : LengthAt b i n k → (¬∃ s, Encodable s ∧ bytesAt b k (2 * n) = utf16Le s) → PartFails b .text i .unicode
  | noLength (i : Nat) : NoLength b i → PartFails b .length i .value
  | noNumbers (i : Nat) : b[i]? = none → PartFails b .numbers i .value
  | numbers (i n : Nat) : b[i]? = some n → b.length < i + 1 + 4 * n → PartFails b .numbers i .struct

/-- Parts follow each other from the first place to the second. -/
inductive PartsAt (b : Bytes) : List Part → Nat → Nat → Prop
  | nil (i : Nat) : PartsAt b [] i i
  | cons (p : Part) (ps : List Part) (i j k : Nat) : PartAt b p i j → PartsAt b ps j k → PartsAt b (p :: ps) i k

/-- What is wrong with an entry at place `i`: the place is not in the file, or, after parts that are right, a part is wrong. -/
inductive EntryFails (b : Bytes) (syn : Bool) (i : Nat) : Err → Prop
  | start : b.length < i → EntryFails b syn i .value
  | part (pre post : List Part) (p : Part) (j : Nat) (e : Err) : i ≤ b.length → entryParts syn = pre ++ p :: post → PartsAt b pre i j →
      PartFails b p j e → EntryFails b syn i e

/-- The place of the entry of word `w`: a number in the table of places. -/
def DALex.entryPlace (x : DALex) (w : Nat) : Nat := numberAt x.bytes (x.infoOff + 4 * w) 4

/-- The entry of word `w` is right. -/
def DALex.Entry (x : DALex) (w : Nat) (wi : WordInfo) : Prop := EntryAt x.bytes x.hasSyn (x.entryPlace w) wi

/-- Going from the dictionary form of a word to its dictionary form, `n` times, leads from `w` to `v`. -/
inductive DALex.Leads (x : DALex) : Nat → Nat → Nat → Prop
  | here (w : Nat) : x.Leads 0 w w
  | step (n w u v : Nat) (wi : WordInfo) : x.Entry w wi → wi.dictionaryFormWordId = u → u ≠ w → x.Leads n u v → x.Leads (n + 1) w v

/-- A word without another word as its dictionary form. -/
def DALex.Last (x : DALex) (v : Nat) : Prop := ∃ wi, x.Entry v wi ∧ (wi.dictionaryFormWordId < 0 ∨ wi.dictionaryFormWordId = v)

/-- What a word has: what its entry says, and the surface of the word that is its dictionary form. -/
def DALex.InfoIs (x : DALex) (w : Nat) (info : WordInfo) : Prop :=
  ∃ wi, x.Entry w wi ∧
    ((wi.dictionaryFormWordId < 0 ∨ wi.dictionaryFormWordId = w) ∧ info = wi ∨
     ∃ (u : Nat) (wu : WordInfo), wi.dictionaryFormWordId = u ∧ u ≠ w ∧ x.Entry u wu ∧ info = { wi with dictionaryForm := wu.surface })

end Sudachi
