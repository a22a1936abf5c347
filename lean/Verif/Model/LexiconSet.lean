/-
sudachipy/dictionarylib/lexiconset.py
-/
import Verif.Model.DictFile
namespace Sudachi

/-- lexiconset.py:25-27. -/
structure LexSet where
  lexicons : List DALex
  posOffsets : List Nat
  deriving DecidableEq, Repr

/-- `word_id >> 28` (lexiconset.py:73-74 `get_dictionary_id`; rounds down for negative ids, too). -/
def dictionaryIdOf (w : Int) : Int := w / 2 ^ 28

/-- `0x0FFFFFFF & word_id` (lexiconset.py:76-78 `get_word_id1`). -/
def localId (w : Int) : Nat := (w % 2 ^ 28).toNat

/-- `l[i]` for any index: negative ones count from the end. -/
def pyGetI {α : Type} (l : List α) (i : Int) : Res α :=
  if i < 0 then (if i < -(l.length : Int) then .error .index else pyGet l (l.length + i).toNat) else pyGet l i.toNat

namespace LexSet

/-- lexiconset.py:25-27 `__init__`. -/
def init (system : DALex) : LexSet := ⟨[system], [0]⟩

/-- lexiconset.py:29-32 `add`, for a lexicon that is not yet in the list (dictionary.py:78-83: always a new object;
lexicons are compared by identity). -/
def add (s : LexSet) (l : DALex) (posOffset : Nat) : LexSet := ⟨s.lexicons ++ [l], s.posOffsets ++ [posOffset]⟩

/-- lexiconset.py:23, 34-35 `is_full`. -/
def isFull (s : LexSet) : Bool := decide (s.lexicons.length ≥ 16)

/-- lexiconset.py:87-92 `build_word_id`.  `|` is addition here, unless `word_id` is negative (only -1 occurs, and
`x | -1 = -1`). -/
def buildWordId (s : LexSet) (dictId : Int) (w : Int) : Res Int :=
  if w > 0x0FFFFFFF then .error .attribute
  else if dictId > s.lexicons.length then .error .attribute
  else if w < 0 then .ok (-1)
  else .ok (dictId * 2 ^ 28 + w)

/-- lexiconset.py:46-47: the matches of one dictionary. -/
def tag (s : LexSet) (dictId : Nat) : List (Nat × Nat) → Res (List (Nat × Nat))
  | [] => .ok []
  | (w, e) :: rest => do
    let v ← s.buildWordId dictId w
    let r ← s.tag dictId rest
    pure ((v.toNat, e) :: r)

/-- lexiconset.py:44-47: the loop over the dictionaries. -/
def lookupLoop (D : Darts) (s : LexSet) (text : Bytes) (offset : Nat) : List Nat → Res (List (Nat × Nat))
  | [] => .ok []
  | d :: ds => do
    let x ← pyGet s.lexicons d
    let pairs ← x.lookup D text offset
    let a ← s.tag d pairs
    let b ← lookupLoop D s text offset ds
    pure (a ++ b)

/-- lexiconset.py:37-47 `lookup` and `__lookup`. -/
def lookup (D : Darts) (s : LexSet) (text : Bytes) (offset : Nat) : Res (List (Nat × Nat)) :=
  if s.lexicons.length = 1 then do
    let x ← pyGet s.lexicons 0
    x.lookup D text offset
  else lookupLoop D s text offset ((List.range s.lexicons.length).drop 1 ++ [0])

/-- lexiconset.py:49-59 `get_left_id`, `get_right_id`, `get_cost`. -/
def params (s : LexSet) (w : Int) : Res (Int × Int × Int) := do
  let x ← pyGetI s.lexicons (dictionaryIdOf w)
  let l ← x.leftId (localId w)
  let r ← x.rightId (localId w)
  let c ← x.cost (localId w)
  pure (l, r, c)

/-- tokenizer.pyx:53-55: the slice of the three parameters of a word; `ValueError` if it has fewer than three cells. -/
def nodeParams (s : LexSet) (w : Nat) : Res (Int × Int × Int) := do
  let x ← pyGet s.lexicons (w / 2 ^ 28)
  match x.leftId (w % 2 ^ 28), x.rightId (w % 2 ^ 28), x.cost (w % 2 ^ 28) with
  | .ok l, .ok r, .ok c => .ok (l, r, c)
  | _, _, _ => .error .value

/-- lexiconset.py:99-100: one id of a split list. -/
def convertUnit (s : LexSet) (dictId : Int) (u : Int) : Res Int :=
  if dictionaryIdOf u > 0 then s.buildWordId dictId (localId u) else .ok u

/-- lexiconset.py:97-101 `convert_split`. -/
def convertSplit (s : LexSet) (dictId : Int) : List Int → Res (List Int)
  | [] => .ok []
  | u :: us => do
    let u' ← s.convertUnit dictId u
    let r ← s.convertSplit dictId us
    pure (u' :: r)

/-- lexiconset.py:65-67: the part-of-speech id in the combined table. -/
def convertPos (s : LexSet) (dictId : Int) (posId : Int) : Res Int :=
  if dictId > 0 then do
    let o1 ← pyGet s.posOffsets 1
    if posId ≥ o1 then do
      let o ← pyGetI s.posOffsets dictId
      pure (posId - o1 + o)
    else pure posId
  else pure posId

/-- lexiconset.py:62-71 `get_word_info`, the function under the cache. -/
def wordInfo (s : LexSet) (depth : Nat) (w : Int) : Res WordInfo := do
  let x ← pyGetI s.lexicons (dictionaryIdOf w)
  let wi ← x.wordInfo depth (localId w)
  let p ← s.convertPos (dictionaryIdOf w) wi.posId
  let a ← s.convertSplit (dictionaryIdOf w) wi.aUnitSplit
  let b ← s.convertSplit (dictionaryIdOf w) wi.bUnitSplit
  let c ← s.convertSplit (dictionaryIdOf w) wi.wordStructure
  pure { wi with posId := p, aUnitSplit := a, bUnitSplit := b, wordStructure := c }

/-- lexiconset.py:81-84: the loop of `get_word_id`; `none` when it runs to its end. -/
def getWordIdLoop (D : Darts) (s : LexSet) (depth : Nat) (headword : PStr) (posId : Int) (reading : PStr) : List Nat → Res (Option Int)
  | [] => .ok none
  | d :: ds => do
    let x ← pyGet s.lexicons d
    let wid ← x.getWordId D depth headword posId reading
    if wid ≤ 0 then do
      let v ← s.buildWordId d wid
      pure (some v)
    else getWordIdLoop D s depth headword posId reading ds

/-- lexiconset.py:80-85 `get_word_id`. -/
def getWordId (D : Darts) (s : LexSet) (depth : Nat) (headword : PStr) (posId : Int) (reading : PStr) : Res Int := do
  let r ← getWordIdLoop D s depth headword posId reading (List.range s.lexicons.length)
  match r with
  | some v => pure v
  | none => do
    let x ← pyGet s.lexicons 0
    x.getWordId D depth headword posId reading

/-- lexiconset.py:94-95 `size`. -/
def size (s : LexSet) : Nat := (s.lexicons.map (·.size)).sum

/-- What the tokenizer uses of the lexicon set. -/
def toLex (D : Darts) (depth : Nat) (s : LexSet) : Lex where
  lookup := s.lookup D
  params := s.nodeParams
  wordInfo := s.wordInfo depth

end LexSet

/-- A lexicon set with the cache of `get_word_info` (lexiconset.py:61): the results it remembers. -/
structure CachedSet where
  set : LexSet
  cache : List (Int × WordInfo)
  deriving DecidableEq, Repr

/-- lexiconset.py:61-71: a remembered result is answered without a computation; otherwise the result is computed and, if it
is not an exception, remembered.  `lru_cache` may forget any results at that point: `keep` chooses those it does not. -/
def CachedSet.getWordInfo (c : CachedSet) (depth : Nat) (keep : List (Int × WordInfo) → List (Int × WordInfo)) (w : Int) :
    CachedSet × Res WordInfo :=
  match c.cache.find? (fun e => e.1 == w) with
  | some e => (c, .ok e.2)
  | none =>
    match c.set.wordInfo depth w with
    | .ok wi => ({ c with cache := keep ((w, wi) :: c.cache) }, .ok wi)
    | .error x => (c, .error x)

/-- lexiconset.py:29-32 `add` with the cache in place: it is not cleared. -/
def CachedSet.add (c : CachedSet) (l : DALex) (posOffset : Nat) : CachedSet := { c with set := c.set.add l posOffset }

end Sudachi
