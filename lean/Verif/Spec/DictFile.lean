/-
What a dictionary source says, independently of how it is written to a file.
-/
import Verif.Model.Builder
namespace Sudachi

/-- A line `left right cost` of matrix.def: three numbers separated by white space; `none` for an empty line, a comment
and a line of fewer than three words. -/
def matrixEntry (line : PStr) : Option (Int × Int × Int) :=
  if strip line = [] ∨ (strip line).head? = some 35 then none
  else
    match splitWs (strip line) with
    | [a, b, c] =>
      match pyInt a, pyInt b, pyInt c with
      | .ok l, .ok r, .ok cost => some (l, r, cost)
      | _, _, _ => none
    | _ => none

/-- The cost a matrix definition gives to `left right`: that of the last line for the pair, 0 if there is none. -/
def lastCost (entries : List (Int × Int × Int)) (l r : Int) : Int :=
  match (entries.filter (fun e => decide (e.1 = l) && decide (e.2.1 = r))).getLast? with
  | some e => e.2.2
  | none => 0

/-- The number of UTF-16 units of a string. -/
def units (s : PStr) : Nat := (s.flatMap utf16Units).length

/-- The strings and numbers of a word that fit the file format. -/
structure Entry.Fits (e : Entry) : Prop where
  surface : units e.info.surface ≤ 32767
  normalized : units e.info.normalizedForm ≤ 32767
  reading : units e.info.readingForm ≤ 32767
  headWord : e.info.headWordLength ≤ 32767
  pos : 0 ≤ e.info.posId

/-- What should be read back for an entry whose splits have been resolved to `a`, `b`, `c` (the dictionary form is not
stored): an empty normalised form or reading stands for the surface. -/
def Entry.stored (e : Entry) (a b c : List Int) : WordInfo :=
  ⟨e.info.surface, e.info.headWordLength, e.info.posId, if e.info.normalizedForm = [] then e.info.surface else e.info.normalizedForm,
   e.info.dictionaryFormWordId, e.info.surface, if e.info.readingForm = [] then e.info.surface else e.info.readingForm,
   a, b, c, e.info.synonymGroupIds⟩

/-- Keys in increasing order. -/
def SortedKeys (kvs : List (Bytes × Nat)) : Prop := kvs.Pairwise (fun a b => DictBuilder.bytesLt a.1 b.1 = true)

/-- The contract of the trie library: for sorted, distinct, non-empty keys it builds an array of 32-bit units, and a common
prefix search in that array finds exactly the keys that are prefixes of the text, with value and length, shortest first. -/
structure Darts.Ok (D : Darts) : Prop where
  units : ∀ kvs arr, D.build kvs = .ok arr → arr.length % 4 = 0
  search : ∀ kvs arr text, SortedKeys kvs → (∀ kv ∈ kvs, kv.1 ≠ []) → D.build kvs = .ok arr →
    D.search arr text = (kvs.filter (fun kv => kv.1.isPrefixOf text)).map (fun kv => (kv.2, kv.1.length))

/-- The parts of the file that calls write, from position `p` on. -/
def writeRanges : Nat → List OutOp → List (Nat × Nat)
  | _, [] => []
  | p, .write b :: r => (p, p + b.length) :: writeRanges (p + b.length) r
  | _, .seek q :: r => writeRanges q r

/-- Nothing is written over. -/
def NoOverlap (ops : List OutOp) : Prop := (writeRanges 0 ops).Pairwise (fun a b => a.2 ≤ b.1 ∨ b.2 ≤ a.1)

end Sudachi
