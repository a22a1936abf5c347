/-
Reading a dictionary file: sudachipy/dictionarylib/dictionaryheader.py, dictionaryversion.py, grammar.py, wordidtable.py,
wordparameterlist.py, wordinfolist.py, doublearraylexicon.py, binarydictionary.py

A file is its bytes.  The position of the `mmap` object is passed explicitly; every reader seeks before it reads, so the
position left behind by the previous one does not matter.
-/
import Verif.Model.Bytes
import Verif.Model.LatticeBuild
namespace Sudachi

/-- dictionaryversion.py:16. -/
def SYSTEM_DICT_VERSION_1 : Nat := 0x7366d3f18bd111e7
/-- dictionaryversion.py:19. -/
def SYSTEM_DICT_VERSION_2 : Nat := 0xce9f011a92394434
/-- dictionaryversion.py:22. -/
def USER_DICT_VERSION_1 : Nat := 0xa50f31188bd211e7
/-- dictionaryversion.py:25. -/
def USER_DICT_VERSION_2 : Nat := 0x9fdeb5a90168d868
/-- dictionaryversion.py:28. -/
def USER_DICT_VERSION_3 : Nat := 0xca9811756ff64fb0

/-- dictionaryversion.py:31-35 `is_dictionary`. -/
def isDictionary (v : Nat) : Bool :=
  [SYSTEM_DICT_VERSION_1, SYSTEM_DICT_VERSION_2, USER_DICT_VERSION_1, USER_DICT_VERSION_2, USER_DICT_VERSION_3].contains v

/-- dictionaryversion.py:38-39 `is_system_dictionary`. -/
def isSystemDictionary (v : Nat) : Bool := v == SYSTEM_DICT_VERSION_1 || v == SYSTEM_DICT_VERSION_2

/-- dictionaryversion.py:42-43 `is_user_dictionary`. -/
def isUserDictionary (v : Nat) : Bool := v == USER_DICT_VERSION_1 || v == USER_DICT_VERSION_2 || v == USER_DICT_VERSION_3

/-- dictionaryversion.py:46-47 `has_grammar`. -/
def hasGrammar (v : Nat) : Bool := isSystemDictionary v || v == USER_DICT_VERSION_2 || v == USER_DICT_VERSION_3

/-- dictionaryversion.py:50-51 `has_synonym_group_ids`. -/
def hasSynonymGroupIds (v : Nat) : Bool := v == SYSTEM_DICT_VERSION_2 || v == USER_DICT_VERSION_3

/-- dictionaryheader.py:26-29. -/
structure Header where
  version : Int
  createTime : Int
  description : PStr
  deriving DecidableEq, Repr

/-- dictionaryheader.py:23 `__DESCRIPTION_SIZE`. -/
def DESCRIPTION_SIZE : Nat := 256

/-- dictionaryheader.py:55-56 `storage_size`. -/
def HEADER_SIZE : Nat := 8 + 8 + DESCRIPTION_SIZE

/-- dictionaryheader.py:36-40: the loop that looks for the terminating zero, with `n` bytes left to try. -/
def descriptionLength (b : Bytes) : Nat → Nat → Res Nat
  | _, 0 => .ok 0
  | i, n + 1 =>
    match b[i]? with
    | none => .error .index
    | some 0 => .ok 0
    | some _ => do
      let l ← descriptionLength b (i + 1) n
      pure (l + 1)

/-- dictionaryheader.py:31-42 `from_bytes`. -/
def Header.fromBytes (b : Bytes) (offset : Nat) : Res Header :=
  if b.length < offset + 16 then .error .struct
  else do
    let version := fromLe (pySlice b offset (offset + 8))
    let createTime := fromLe (pySlice b (offset + 8) (offset + 16))
    let len ← descriptionLength b (offset + 16) DESCRIPTION_SIZE
    let description ← decodeUtf8 (pySlice b (offset + 16) (offset + 16 + len))
    pure ⟨version, createTime, description⟩

/-- dictionaryheader.py:44-53 `to_bytes`: the buffer starts as 272 zeros. -/
def Header.toBytes (h : Header) : Res Bytes := do
  let v ← writeInt h.version .long false
  let t ← writeInt h.createTime .long
  let bdesc ← encodeUtf8 h.description
  if bdesc.length > DESCRIPTION_SIZE then .error .value
  else pure ((((⟨List.replicate (16 + DESCRIPTION_SIZE) 0, 0⟩ : Stream).write v).write t).write bdesc).data

/-- grammar.py:104-106 `bytes_get_short`, with the new position. -/
def getShort (b : Bytes) (i : Nat) : Int × Nat := (fromLeSigned (mRead b i 2).1, (mRead b i 2).2)

/-- grammar.py:98-102 `bytes_get_string`, with the new position. -/
def getPosString (b : Bytes) (i : Nat) : Res (PStr × Nat) := do
  let (length, i1) ← mReadByte b i
  let s ← decodeUtf16 (mRead b i1 (2 * length)).1
  pure (s, (mRead b i1 (2 * length)).2)

/-- grammar.py:33-34: the components of one part of speech. -/
def getPosStrings (b : Bytes) : Nat → Nat → Res (List PStr × Nat)
  | 0, i => .ok ([], i)
  | n + 1, i => do
    let (s, i1) ← getPosString b i
    let (ss, i2) ← getPosStrings b n i1
    pure (s :: ss, i2)

/-- grammar.py:31-35: the parts of speech, `_POS_DEPTH = 6` components each. -/
def getPosList (b : Bytes) : Nat → Nat → Res (List (List PStr) × Nat)
  | 0, i => .ok ([], i)
  | n + 1, i => do
    let (p, i1) ← getPosStrings b 6 i
    let (ps, i2) ← getPosList b n i1
    pure (p :: ps, i2)

/-- grammar.py:19-46: what a `Grammar` holds.  `matrix` are the 16-bit cells of `_matrix_view`, `left` × `right` its
shape.  (The character categories are set later and passed separately in this model.) -/
structure Grammar where
  posList : List (List PStr)
  left : Nat
  right : Nat
  matrix : List Int
  storageSize : Nat
  deriving DecidableEq, Repr

/-- The signed 16-bit cells of bytes. -/
def shorts : Bytes → List Int
  | a :: b :: r => fromLeSigned [a, b] :: shorts r
  | _ => []

/-- grammar.py:42-45: `memoryview(bytes_)[a:b]`, cast to 16-bit cells of the given shape unless the product is zero.
`TypeError` if the map ends too early. -/
def castMatrix (b : Bytes) (i : Nat) (left right : Nat) : Res (List Int) :=
  if left * right = 0 then .ok []
  else if (pySlice b i (i + 2 * left * right)).length = 2 * left * right then .ok (shorts (pySlice b i (i + 2 * left * right)))
  else .error .type

/-- grammar.py:41-43: the number of bytes of `memoryview(bytes_)[a:b]`; a negative `b` counts from the end. -/
def viewLength (size start : Nat) (stop : Int) : Nat :=
  min size (if stop < 0 then (size + stop).toNat else stop.toNat) - start

/-- grammar.py:19-46 `__init__`.  With a negative size and no zero, `memoryview.cast` raises a `TypeError` if the view is empty or
has an odd number of bytes, and then a `ValueError` as the sizes are looked at. -/
def Grammar.read (b : Bytes) (offset : Nat) : Res Grammar := do
  let i0 ← mSeek b offset
  let (posSize, i1) := getShort b i0
  let (posList, i2) ← getPosList b posSize.toNat i1
  let (left, i3) := getShort b i2
  let (right, i4) := getShort b i3
  if left * right ≠ 0 ∧ (left < 0 ∨ right < 0) then
    let n := viewLength b.length i4 (i4 + 2 * left * right)
    .error (if n = 0 ∨ n % 2 = 1 then .type else .value)
  else do
    let cells ← castMatrix b i4 left.toNat right.toNat
    pure ⟨posList, left.toNat, right.toNat, cells, (i4 - offset) + 2 * left.toNat * right.toNat⟩

namespace Grammar

/-- grammar.py:51-52 `get_part_of_speech_size`. -/
def posSize (g : Grammar) : Nat := g.posList.length

/-- grammar.py:54-55 `get_part_of_speech_string` (a negative id counts from the end). -/
def posString (g : Grammar) (posId : Int) : Res (List PStr) :=
  if posId < 0 then
    if posId < -(g.posList.length : Int) then .error .index else pyGet g.posList (g.posList.length + posId).toNat
  else pyGet g.posList posId.toNat

/-- grammar.py:57-58 `get_part_of_speech_id`. -/
def posId (g : Grammar) (pos : List PStr) : Int :=
  match g.posList.idxOf? pos with
  | some i => i
  | none => -1

/-- The index `i` of a dimension of length `n` of a `memoryview` (negative indexes count from the end). -/
def viewIndex (n : Nat) (i : Int) : Res Nat :=
  if i < 0 then (if i < -(n : Int) then .error .index else .ok (n + i).toNat)
  else if i < n then .ok i.toNat else .error .index

/-- `_matrix_view[x, y]`, row by row (lattice.pyx:97, grammar.py:71). -/
def cell (g : Grammar) (x y : Int) : Res Int := do
  let a ← viewIndex g.left x
  let b ← viewIndex g.right y
  pyGet g.matrix (a * g.right + b)

/-- grammar.py:60-71 `get_connect_cost(left, right)`. -/
def getConnectCost (g : Grammar) (left right : Int) : Res Int := g.cell right left

/-- grammar.py:108-109 `add_pos_list`. -/
def addPosList (g g' : Grammar) : Grammar := { g with posList := g.posList ++ g'.posList }

end Grammar

/-- The double-array trie library (dartsclone), which is not part of the repository.  `build` gives the array, as bytes,
for keys with their values; `search` is `common_prefix_search` on an array: values and lengths. -/
structure Darts where
  build : List (Bytes × Nat) → Res Bytes
  search : Bytes → Bytes → List (Nat × Nat)

/-- doublearraylexicon.py:35-51: where the parts of a lexicon are in the file.  `widOff`, `widLen`: the view of the word-id
table; `size`: the number of words; `parOff`, `parLen`: the view of the word parameters; `infoOff`: the word-info offsets. -/
structure DALex where
  bytes : Bytes
  trie : Bytes
  widOff : Nat
  widLen : Nat
  size : Nat
  parOff : Nat
  parLen : Nat
  infoOff : Nat
  hasSyn : Bool
  deriving DecidableEq, Repr

/-- doublearraylexicon.py:35-51 `__init__`, with wordidtable.py:19-23, 28-29 and wordparameterlist.py:21-29, 34-35.
`TypeError` if the file ends in the middle of a 16-bit parameter. -/
def DALex.read (b : Bytes) (offset : Nat) (hasSyn : Bool) : Res DALex := do
  let i0 ← mSeek b offset
  let size := fromLe (mRead b i0 4).1
  let trie := pySlice b (offset + 4) (offset + 4 + size * 4)
  let o1 := offset + 4 + size * 4
  let i1 ← mSeek b o1
  let widSize := fromLe (mRead b i1 4).1
  let o2 := o1 + (4 + widSize)
  let i2 ← mSeek b o2
  let parSize := fromLe (mRead b i2 4).1
  let parOff := (mRead b i2 4).2
  let parLen := (pySlice b parOff (parOff + parSize * 6)).length
  if parLen % 2 = 1 then .error .type
  else pure ⟨b, trie, o1 + 4, (pySlice b (o1 + 4) (o1 + 4 + widSize)).length, parSize, parOff, parLen, o2 + (4 + 6 * parSize), hasSyn⟩

/-- `struct.unpack_from("<nI", view, i)`: `struct.error` if the view is too short. -/
def unpackU32 (view : Bytes) : Nat → Nat → Res (List Nat)
  | 0, i => if i ≤ view.length then .ok [] else .error .struct
  | n + 1, i =>
    if i + 4 ≤ view.length then do
      let r ← unpackU32 view n (i + 4)
      pure (fromLe (pySlice view i (i + 4)) :: r)
    else .error .struct

/-- `struct.unpack('ni', b)` of exactly `4 * n` bytes. -/
def unpackI32 : Nat → Bytes → Res (List Int)
  | 0, b => if b.length = 0 then .ok [] else .error .struct
  | n + 1, b =>
    if 4 ≤ b.length then do
      let r ← unpackI32 n (b.drop 4)
      pure (fromLeSigned (b.take 4) :: r)
    else .error .struct

namespace DALex

/-- The word-id table's view. -/
def widView (x : DALex) : Bytes := pySlice x.bytes x.widOff (x.widOff + x.widLen)

/-- wordidtable.py:31-34 `get`. -/
def widGet (x : DALex) (index : Nat) : Res (List Nat) := do
  let length ← pyGet x.widView index
  unpackU32 x.widView length (index + 1)

/-- doublearraylexicon.py:59-63: the loop of `lookup` over the matches of the trie. -/
def lookupLoop (x : DALex) (offset : Nat) : List (Nat × Nat) → Res (List (Nat × Nat))
  | [] => .ok []
  | (index, length) :: rest => do
    let ids ← x.widGet index
    let r ← lookupLoop x offset rest
    pure (ids.map (fun w => (w, length + offset)) ++ r)

/-- doublearraylexicon.py:56-63 `lookup`. -/
def lookup (D : Darts) (x : DALex) (text : Bytes) (offset : Nat) : Res (List (Nat × Nat)) :=
  x.lookupLoop offset (D.search x.trie (text.drop offset))

/-- `_array_view[k]` (wordparameterlist.py:40-47): the `k`-th 16-bit cell of the view. -/
def param (x : DALex) (k : Nat) : Res Int :=
  if 2 * k + 2 ≤ x.parLen then .ok (fromLeSigned (pySlice x.bytes (x.parOff + 2 * k) (x.parOff + 2 * k + 2))) else .error .index

/-- wordparameterlist.py:40-41 `get_left_id`. -/
def leftId (x : DALex) (w : Nat) : Res Int := x.param (3 * w)
/-- wordparameterlist.py:43-44 `get_right_id`. -/
def rightId (x : DALex) (w : Nat) : Res Int := x.param (3 * w + 1)
/-- wordparameterlist.py:46-47 `get_cost`. -/
def cost (x : DALex) (w : Nat) : Res Int := x.param (3 * w + 2)

/-- wordparameterlist.py:49-51 `set_cost`: writes into the (private) map.  `ValueError` if the cost is not a 16-bit number. -/
def setCost (x : DALex) (w : Nat) (c : Int) : Res DALex :=
  if 2 * (3 * w + 2) + 2 ≤ x.parLen then
    match toBytes 2 true c with
    | .ok b => .ok { x with bytes := x.bytes.take (x.parOff + 2 * (3 * w + 2)) ++ b ++ x.bytes.drop (x.parOff + 2 * (3 * w + 2) + 2) }
    | .error _ => .error .value
  else .error .index

/-- wordinfolist.py:59-61 `word_id_to_offset`. -/
def infoOffset (x : DALex) (w : Nat) : Nat := fromLe (pySlice x.bytes (x.infoOff + 4 * w) (x.infoOff + 4 * w + 4))

end DALex

/-- wordinfolist.py:63-68 `buffer_to_string_length`, with the new position. -/
def getStringLength (b : Bytes) (i : Nat) : Res (Nat × Nat) := do
  let (length, i1) ← mReadByte b i
  if length < 128 then pure (length, i1)
  else do
    let (low, i2) ← mReadByte b i1
    pure (length % 128 * 256 + low, i2)

/-- wordinfolist.py:70-72 `buffer_to_string`. -/
def getString (b : Bytes) (i : Nat) : Res (PStr × Nat) := do
  let (length, i1) ← getStringLength b i
  let s ← decodeUtf16Le (mRead b i1 (2 * length)).1
  pure (s, (mRead b i1 (2 * length)).2)

/-- wordinfolist.py:74-77 `buffer_to_int_array`. -/
def getIntArray (b : Bytes) (i : Nat) : Res (List Int × Nat) := do
  let (length, i1) ← mReadByte b i
  let l ← unpackI32 length (mRead b i1 (4 * length)).1
  pure (l, (mRead b i1 (4 * length)).2)

/-- wordinfolist.py:30-47: the stored part of a word info; `dictionaryForm` is filled in by the caller. -/
def getStoredInfo (b : Bytes) (hasSyn : Bool) (index : Nat) : Res WordInfo := do
  let i0 ← mSeek b index
  let (surface, i1) ← getString b i0
  let (headWordLength, i2) ← getStringLength b i1
  let posId := fromLe (mRead b i2 2).1
  let (norm, i3) ← getString b (mRead b i2 2).2
  let dfw := fromLeSigned (mRead b i3 4).1
  let (reading, i4) ← getString b (mRead b i3 4).2
  let (a, i5) ← getIntArray b i4
  let (bb, i6) ← getIntArray b i5
  let (ws, i7) ← getIntArray b i6
  let (syn, _) ← if hasSyn then getIntArray b i7 else .ok ([], i7)
  pure ⟨surface, headWordLength, posId, if norm.isEmpty then surface else norm, dfw, surface,
    if reading.isEmpty then surface else reading, a, bb, ws, syn⟩

namespace DALex

/-- wordinfolist.py:27-57 `get_word_info`.  The recursion for the dictionary form is bounded by Python's recursion limit,
here `depth`: `RecursionError` when it is exceeded. -/
def wordInfo (x : DALex) : Nat → Nat → Res WordInfo
  | 0, _ => .error .recursion
  | depth + 1, w => do
    let wi ← getStoredInfo x.bytes x.hasSyn (x.infoOffset w)
    if 0 ≤ wi.dictionaryFormWordId ∧ wi.dictionaryFormWordId ≠ w then do
      let wi' ← x.wordInfo depth wi.dictionaryFormWordId.toNat
      pure { wi with dictionaryForm := wi'.surface }
    else pure wi

/-- doublearraylexicon.py:91-95 `_compare_word_id`. -/
def compareWordId (x : DALex) (depth w : Nat) (headword : PStr) (posId : Int) (reading : PStr) : Res Bool := do
  let info ← x.wordInfo depth w
  pure (decide (info.surface = headword) && decide ((info.posId : Int) = posId) && decide (info.readingForm = reading))

/-- doublearraylexicon.py:81-87: the first word of a list that matches. -/
def firstMatch (x : DALex) (depth : Nat) (headword : PStr) (posId : Int) (reading : PStr) : List Nat → Res (Option Nat)
  | [] => .ok none
  | w :: ws => do
    let c ← x.compareWordId depth w headword posId reading
    if c then pure (some w) else x.firstMatch depth headword posId reading ws

/-- doublearraylexicon.py:80-89 `get_word_id`. -/
def getWordId (D : Darts) (x : DALex) (depth : Nat) (headword : PStr) (posId : Int) (reading : PStr) : Res Int := do
  let key ← encodeUtf8 headword
  let found ← x.lookup D key 0
  let r ← x.firstMatch depth headword posId reading (found.map (·.1))
  match r with
  | some w => pure (w : Int)
  | none => do
    let r' ← x.firstMatch depth headword posId reading (List.range x.size)
    match r' with
    | some w => pure (w : Int)
    | none => pure (-1)

end DALex

/-- binarydictionary.py:23-29. -/
structure BinDict where
  header : Header
  grammar : Option Grammar
  lexicon : DALex
  deriving DecidableEq, Repr

/-- binarydictionary.py:31-46 `_read_dictionary`, on the bytes of the file (`mmap` of an empty file: `ValueError`). -/
def readDictionary (b : Bytes) : Res BinDict :=
  if b.isEmpty then .error .value
  else do
    let header ← Header.fromBytes b 0
    if !isDictionary header.version.toNat then .error .exception
    else if hasGrammar header.version.toNat then do
      let g ← Grammar.read b HEADER_SIZE
      let lex ← DALex.read b (HEADER_SIZE + g.storageSize) (hasSynonymGroupIds header.version.toNat)
      pure ⟨header, some g, lex⟩
    else do
      let lex ← DALex.read b HEADER_SIZE (hasSynonymGroupIds header.version.toNat)
      pure ⟨header, none, lex⟩

/-- binarydictionary.py:48-53 `from_system_dictionary`. -/
def fromSystemDictionary (b : Bytes) : Res BinDict := do
  let d ← readDictionary b
  if !isSystemDictionary d.header.version.toNat then .error .io else pure d

/-- binarydictionary.py:55-60 `from_user_dictionary`. -/
def fromUserDictionary (b : Bytes) : Res BinDict := do
  let d ← readDictionary b
  if !isUserDictionary d.header.version.toNat then .error .io else pure d

end Sudachi
