/-
The format of a dictionary file, as places in the file and what stands there, and what is wrong with a file that is none.
-/
import Verif.Model.DictFile
import Verif.Spec.Encodable
namespace Sudachi

/-- The number in `n` bytes from place `i` on, the least byte first; bytes after the end of the file count as zero. -/
def numberAt (b : Bytes) (i n : Nat) : Nat := ((List.range n).map fun k => (b[i + k]?).getD 0 * 256 ^ k).sum

/-- The signed 16-bit number at place `i`.  If the file ends after one byte this byte is a signed 8-bit number; if it has ended
before, the number is zero. -/
def signedAt (b : Bytes) (i : Nat) : Int :=
  match b[i]?, b[i + 1]? with
  | some x, some y => if y < 128 then (x : Int) + 256 * y else (x : Int) + 256 * y - 65536
  | some x, none => if x < 128 then (x : Int) else (x : Int) - 256
  | none, _ => 0

/-- The place `i`, but not after the end of the file. -/
def clip (b : Bytes) (i : Nat) : Nat := min i b.length

/-- The bytes from place `i` on, `n` of them or as many as the file has. -/
def bytesAt (b : Bytes) (i n : Nat) : Bytes := (b.drop i).take n

/-- UTF-16 with the low byte first. -/
def utf16Le (s : PStr) : Bytes := (s.flatMap utf16Units).flatMap fun u => [u % 256, u / 256]

/-- UTF-16 with the high byte first. -/
def utf16Be (s : PStr) : Bytes := (s.flatMap utf16Units).flatMap fun u => [u / 256, u % 256]

/-- Bytes that are a text in UTF-16: with a byte-order mark, which is no part of the text, or without, low byte first. -/
inductive Utf16Text : Bytes → PStr → Prop
  | plain (s : PStr) : Encodable s → s.head? ≠ some 0xFEFF → s.head? ≠ some 0xFFFE → Utf16Text (utf16Le s) s
  | low (s : PStr) : Encodable s → Utf16Text (0xFF :: 0xFE :: utf16Le s) s
  | high (s : PStr) : Encodable s → Utf16Text (0xFE :: 0xFF :: utf16Be s) s

/-- The bytes of the description, which begin at place 16: up to the first zero, at most 256. -/
def DescriptionIs (b t : Bytes) : Prop :=
  ∃ k, k ≤ 256 ∧ t = bytesAt b 16 k ∧ t.length = k ∧ 0 ∉ t ∧ (k = 256 ∨ b[16 + k]? = some 0)

/-- A file that begins with this header. -/
def HeaderIs (b : Bytes) (h : Header) : Prop :=
  16 ≤ b.length ∧ h.version = numberAt b 0 8 ∧ h.createTime = numberAt b 8 8 ∧
  ∃ t, DescriptionIs b t ∧ encodeUtf8 h.description = .ok t

/-- What is wrong with a file that begins with no header: it has no two 64-bit numbers, the description goes on to the end of the
file, or it is not UTF-8. -/
inductive HeaderFails (b : Bytes) : Err → Prop
  | short : b.length < 16 → HeaderFails b .struct
  | noEnd : 16 ≤ b.length → b.length < 272 → 0 ∉ b.drop 16 → HeaderFails b .index
  | text (t : Bytes) : 16 ≤ b.length → DescriptionIs b t → (¬∃ s, encodeUtf8 s = .ok t) → HeaderFails b .unicode

/-- Strings follow each other from the first place to the second: each is a byte with the number of its 16-bit units, then these; the
last one may be cut by the end of the file. -/
inductive StringsAt (b : Bytes) : Nat → List PStr → Nat → Prop
  | nil (i : Nat) : StringsAt b i [] i
  | cons (i n : Nat) (s : PStr) (ss : List PStr) (j : Nat) : b[i]? = some n → Utf16Text (bytesAt b (i + 1) (2 * n)) s →
      StringsAt b (clip b (i + 1 + 2 * n)) ss j → StringsAt b i (s :: ss) j

/-- One of the `n` strings from place `i` on is missing (the file ends) or is no UTF-16. -/
inductive StringsFail (b : Bytes) (i n : Nat) : Err → Prop
  | ended (ss : List PStr) (j : Nat) : StringsAt b i ss j → ss.length < n → b.length ≤ j → StringsFail b i n .value
  | text (ss : List PStr) (j m : Nat) : StringsAt b i ss j → ss.length < n → b[j]? = some m →
      (¬∃ s, Utf16Text (bytesAt b (j + 1) (2 * m)) s) → StringsFail b i n .unicode

/-- The number of parts of speech that the file states; none if it is negative. -/
def posCount (b : Bytes) : Nat := (signedAt b 272).toNat

/-- The place after the parts of speech: `6 * posCount` strings from place 274 on. -/
def PosEnd (b : Bytes) (j : Nat) : Prop := ∃ ss, ss.length = 6 * posCount b ∧ StringsAt b (clip b 274) ss j

/-- A file with this grammar after the header: the number of parts of speech, six strings for each, the two sizes of the matrix, and
its cells. -/
structure GrammarIs (b : Bytes) (g : Grammar) : Prop where
  room : 272 ≤ b.length
  parts : ∃ j, g.posList.length = posCount b ∧ (∀ p ∈ g.posList, p.length = 6) ∧ StringsAt b (clip b 274) g.posList.flatten j ∧
    g.left = (signedAt b j).toNat ∧ g.right = (signedAt b (clip b (j + 2))).toNat ∧
    (signedAt b j * signedAt b (clip b (j + 2)) = 0 ∨ 0 < signedAt b j ∧ 0 < signedAt b (clip b (j + 2))) ∧
    (g.left * g.right ≠ 0 → clip b (j + 4) + 2 * (g.left * g.right) ≤ b.length) ∧
    g.matrix.length = g.left * g.right ∧ (∀ k, k < g.left * g.right → g.matrix[k]? = some (signedAt b (clip b (j + 4) + 2 * k))) ∧
    g.storageSize = clip b (j + 4) - 272 + 2 * (g.left * g.right)

/-- The bytes between two places of a file of `size` bytes; the second place counts from the end of the file if it is negative. -/
def bytesBetween (size start : Nat) (stop : Int) : Nat :=
  (if stop < 0 then (size + stop).toNat else min size stop.toNat) - start

/-- What is wrong with a file that has no grammar after the header. -/
inductive GrammarFails (b : Bytes) : Err → Prop
  | short : b.length < 272 → GrammarFails b .value
  | pos (e : Err) : 272 ≤ b.length → StringsFail b (clip b 274) (6 * posCount b) e → GrammarFails b e
  | cells (j : Nat) : 272 ≤ b.length → PosEnd b j → 0 < signedAt b j → 0 < signedAt b (clip b (j + 2)) →
      b.length < clip b (j + 4) + 2 * ((signedAt b j).toNat * (signedAt b (clip b (j + 2))).toNat) → GrammarFails b .type
  | negative (j : Nat) (l r : Int) (n : Nat) : 272 ≤ b.length → PosEnd b j → l = signedAt b j → r = signedAt b (clip b (j + 2)) →
      l * r ≠ 0 → l < 0 ∨ r < 0 → n = bytesBetween b.length (clip b (j + 4)) (clip b (j + 4) + 2 * l * r) →
      GrammarFails b (if n = 0 ∨ n % 2 = 1 then .type else .value)

/-- The place of the word-id table: after the size of the trie and the trie. -/
def widPlace (b : Bytes) (o : Nat) : Nat := o + 4 + 4 * numberAt b o 4

/-- The place of the number of words: after the size of the word-id table and the table. -/
def countPlace (b : Bytes) (o : Nat) : Nat := widPlace b o + 4 + numberAt b (widPlace b o) 4

/-- The parameters of the words, six bytes for each: from a place to a place, as far as the file goes. -/
def paramStart (b : Bytes) (o : Nat) : Nat := clip b (countPlace b o + 4)

def paramEnd (b : Bytes) (o : Nat) : Nat := clip b (paramStart b o + 6 * numberAt b (countPlace b o) 4)

/-- A file with this lexicon from place `o` on. -/
structure LexiconIs (b : Bytes) (o : Nat) (syn : Bool) (x : DALex) : Prop where
  start : o ≤ b.length
  trie : widPlace b o ≤ b.length
  table : countPlace b o ≤ b.length
  even : (paramEnd b o - paramStart b o) % 2 = 0
  is : x = { bytes := b, trie := bytesAt b (o + 4) (4 * numberAt b o 4), widOff := widPlace b o + 4,
             widLen := countPlace b o - (widPlace b o + 4), size := numberAt b (countPlace b o) 4, parOff := paramStart b o,
             parLen := paramEnd b o - paramStart b o, infoOff := countPlace b o + 4 + 6 * numberAt b (countPlace b o) 4, hasSyn := syn }

/-- What is wrong with a file that has no lexicon from place `o` on: it ends before the lexicon, in the trie or in the word-id table, or
in the middle of a 16-bit parameter. -/
inductive LexiconFails (b : Bytes) (o : Nat) : Err → Prop
  | ends : b.length < o ∨ b.length < widPlace b o ∨ b.length < countPlace b o → LexiconFails b o .value
  | odd : countPlace b o ≤ b.length → (paramEnd b o - paramStart b o) % 2 = 1 → LexiconFails b o .type

/-- The versions of dictionaries that have a grammar (all but the first version of user dictionaries), and those that have synonym groups. -/
def versionsWithGrammar : List Nat := [0x7366d3f18bd111e7, 0xce9f011a92394434, 0x9fdeb5a90168d868, 0xca9811756ff64fb0]
def versionsWithSynonyms : List Nat := [0xce9f011a92394434, 0xca9811756ff64fb0]

/-- A dictionary file and what is in it. -/
inductive FileIs (b : Bytes) : BinDict → Prop
  | grammar (h : Header) (g : Grammar) (x : DALex) : HeaderIs b h → numberAt b 0 8 ∈ versionsWithGrammar → GrammarIs b g →
      LexiconIs b (272 + g.storageSize) (decide (numberAt b 0 8 ∈ versionsWithSynonyms)) x → FileIs b ⟨h, some g, x⟩
  | plain (h : Header) (x : DALex) : HeaderIs b h → numberAt b 0 8 = 0xa50f31188bd211e7 → LexiconIs b 272 false x →
      FileIs b ⟨h, none, x⟩

/-- What is wrong with a file that is no dictionary. -/
inductive FileFails (b : Bytes) : Err → Prop
  | empty : b = [] → FileFails b .value
  | header (e : Err) : b ≠ [] → HeaderFails b e → FileFails b e
  | version (h : Header) : HeaderIs b h → numberAt b 0 8 ∉ 0xa50f31188bd211e7 :: versionsWithGrammar → FileFails b .exception
  | grammar (h : Header) (e : Err) : HeaderIs b h → numberAt b 0 8 ∈ versionsWithGrammar → GrammarFails b e → FileFails b e
  | lexicon (h : Header) (g : Grammar) (e : Err) : HeaderIs b h → numberAt b 0 8 ∈ versionsWithGrammar → GrammarIs b g →
      LexiconFails b (272 + g.storageSize) e → FileFails b e
  | plain (h : Header) (e : Err) : HeaderIs b h → numberAt b 0 8 = 0xa50f31188bd211e7 → LexiconFails b 272 e → FileFails b e

end Sudachi
