/-
sudachipy/dictionarylib/dictionarybuilder.py and userdictionarybuilder.py; command_line.py `_command_build`,
`_command_user_build`

What a builder does to its output file is the list of its `write` and `seek` calls, and whether it ends in an exception.
`byte_buffer` is always filled by appending, then read from its start and cleared, so a filled buffer is just its bytes.
Log messages are left out.
-/
import Verif.Model.DictFile
import Verif.Model.PyText
namespace Sudachi

/-- dictionarybuilder.py:38-44 `WordEntry`; `headword` is `None` for words that are not put into the trie. -/
structure Entry where
  headword : Option PStr
  params : Int × Int × Int
  info : WordInfo
  aSplit : PStr
  bSplit : PStr
  cSplit : PStr
  deriving DecidableEq, Repr

/-- userdictionarybuilder.py:20-24: what a `UserDictionaryBuilder` uses of the system dictionary. -/
structure SysDict where
  posList : List (List PStr)
  size : Nat
  getWordId : PStr → Int → PStr → Res Int

/-- dictionarybuilder.py:72-78: the state of a builder.  `sys` is `none` for `DictionaryBuilder` and the system
dictionary for `UserDictionaryBuilder`. -/
structure DictBuilder where
  sys : Option SysDict
  trieKeys : List (Bytes × List Nat)
  entries : List Entry
  posTable : List PStr

namespace DictBuilder

/-- dictionarybuilder.py:72-78 `__init__`. -/
def init (sys : Option SysDict) : DictBuilder := ⟨sys, [], [], []⟩

/-- dictionarybuilder.py:51-56, 159-160 `PosTable.get_id` of the joined text, with the new table. -/
def baseGetPosid (db : DictBuilder) (strs : List PStr) : Int × DictBuilder :=
  match db.posTable.idxOf? (joinOn 44 strs) with
  | some i => (i, db)
  | none => (db.posTable.length, { db with posTable := db.posTable ++ [joinOn 44 strs] })

/-- dictionarybuilder.py:159-160 and userdictionarybuilder.py:42-46 `get_posid`. -/
def getPosid (db : DictBuilder) (strs : List PStr) : Int × DictBuilder :=
  match db.sys with
  | none => db.baseGetPosid strs
  | some s =>
    match s.posList.idxOf? strs with
    | some i => (i, db)
    | none => ((db.baseGetPosid strs).1 + s.posList.length, (db.baseGetPosid strs).2)

/-- dictionarybuilder.py:315-317 `check_splitinfo_format`. -/
def checkSplitinfo (s : PStr) : Res Unit :=
  if s.count 47 + 1 > 127 then .error .value else .ok ()

/-- dictionarybuilder.py:373-379 `parse_synonym_group_ids`. -/
def parseSynonyms (text : PStr) : Res (List Int) :=
  if text = [42] then .ok []
  else if (splitOn 47 text).length > 127 then .error .value
  else pyInts (splitOn 47 text)

/-- dictionarybuilder.py:146-151 `__is_length_valid`, given columns 0, 4, 11, 12. -/
def lengthValid (c0 c4 c11 c12 : PStr) : Res Bool := do
  let h ← encodeUtf8 c0
  pure (decide (h.length ≤ 32767) && decide (c4.length ≤ 32767) && decide (c11.length ≤ 32767) && decide (c12.length ≤ 32767))

/-- dictionarybuilder.py:136-138: the synonym groups, from the column after the eighteenth if there is one. -/
def synOf (more : List PStr) : Res (List Int) :=
  match more with
  | [] => .ok []
  | c18 :: _ => parseSynonyms c18

/-- dictionarybuilder.py:141: the dictionary-form id. -/
def dfwOf (s : PStr) : Res Int := if s = [42] then .ok (-1) else pyInt s

/-- dictionarybuilder.py:111-144: the part of `parse_line` after the columns have been decoded and their lengths checked. -/
def parseCols (db : DictBuilder) (c0 c1 c2 c3 c4 : PStr) (pos : List PStr) (c11 c12 c13 c14 c15 c16 c17 : PStr)
    (more : List PStr) : Res (DictBuilder × Entry) := do
  if c0.isEmpty then .error .value
  else do
    let l ← pyInt c1
    let r ← pyInt c2
    let c ← pyInt c3
    let (posId, db') := db.getPosid pos
    if posId < 0 then .error .value
    else do
      checkSplitinfo c15
      checkSplitinfo c16
      checkSplitinfo c17
      if c14 = [65] ∧ ¬(c15 = [42] ∧ c16 = [42]) then .error .value
      else do
        let syn ← synOf more
        let head ← encodeUtf8 c0
        let dfw ← dfwOf c13
        pure (db', ⟨if c1 = [45, 49] then none else some c0, (l, r, c),
          ⟨c4, head.length, posId, c12, dfw, [], c11, [], [], [], syn⟩, c15, c16, c17⟩)

/-- dictionarybuilder.py:105-144 `parse_line`. -/
def parseLine (db : DictBuilder) (cols : List PStr) : Res (DictBuilder × Entry) :=
  if cols.length < 18 then .error .value
  else do
    let cols ← decodeCols cols
    match cols with
    | c0 :: c1 :: c2 :: c3 :: c4 :: c5 :: c6 :: c7 :: c8 :: c9 :: c10 :: c11 :: c12 :: c13 :: c14 :: c15 :: c16 :: c17 :: more => do
      let ok ← lengthValid c0 c4 c11 c12
      if !ok then .error .value
      else db.parseCols c0 c1 c2 c3 c4 [c5, c6, c7, c8, c9, c10] c11 c12 c13 c14 c15 c16 c17 more
    | _ => .error .value

/-- The order of `bytes` keys in the `SortedDict`. -/
def bytesLt : Bytes → Bytes → Bool
  | _, [] => false
  | [], _ :: _ => true
  | a :: as, b :: bs => decide (a < b) || (a == b && bytesLt as bs)

/-- dictionarybuilder.py:153-157 `add_to_trie` on the sorted list of keys. -/
def addKey (key : Bytes) (w : Nat) : List (Bytes × List Nat) → List (Bytes × List Nat)
  | [] => [(key, [w])]
  | (k, ws) :: rest =>
    if key = k then (k, ws ++ [w]) :: rest
    else if bytesLt key k then (key, [w]) :: (k, ws) :: rest
    else (k, ws) :: addKey key w rest

/-- dictionarybuilder.py:95-98: one row. -/
def addRow (db : DictBuilder) (cols : List PStr) : Res DictBuilder := do
  let (db', e) ← db.parseLine cols
  match e.headword with
  | some h => do
    let key ← encodeUtf8 h
    pure { db' with trieKeys := addKey key db'.entries.length db'.trieKeys, entries := db'.entries ++ [e] }
  | none => pure { db' with entries := db'.entries ++ [e] }

/-- dictionarybuilder.py:90-103 `build_lexicon` on the rows `csv.reader` yields (81-84: for all files). -/
def addRows (db : DictBuilder) : List (List PStr) → Res DictBuilder
  | [] => .ok db
  | row :: rows => do
    let db' ← db.addRow row
    db'.addRows rows

end DictBuilder

/-- dictionarybuilder.py:382-387: the number of UTF-16 units. -/
def utf16Length (s : PStr) : Nat := (s.map (fun c => if 0x10000 ≤ c ∧ c ≤ 0x10FFFF then 2 else 1)).sum

/-- dictionarybuilder.py:391-396 `write_stringlength`.  (`len_ >> 8 | 0x80` sets bit 7 of the high byte.) -/
def writeStringLength (len : Nat) : Res Bytes :=
  if len ≤ 127 then writeInt len .byte
  else do
    let h ← writeInt ((if len / 256 / 128 % 2 = 1 then len / 256 else len / 256 + 128 : Nat) : Int) .byte
    let l ← writeInt ((len % 256 : Nat) : Int) .byte
    pure (h ++ l)

/-- dictionarybuilder.py:381-389 `write_string`. -/
def writeString (s : PStr) : Res Bytes := do
  let l ← writeStringLength (utf16Length s)
  let b ← encodeUtf16 s
  pure (l ++ b)

/-- dictionarybuilder.py:399-401: the items of an array. -/
def writeInts : List Int → Res Bytes
  | [] => .ok []
  | v :: vs => do
    let a ← writeInt v .int
    let b ← writeInts vs
    pure (a ++ b)

/-- dictionarybuilder.py:398-401 `write_intarray`. -/
def writeIntArray (l : List Int) : Res Bytes := do
  let n ← writeInt l.length .byte
  let b ← writeInts l
  pure (n ++ b)

/-- dictionarybuilder.py:189-190: the strings of one part of speech. -/
def writeStrings : List PStr → Res Bytes
  | [] => .ok []
  | s :: ss => do
    let a ← writeString s
    let b ← writeStrings ss
    pure (a ++ b)

/-- dictionarybuilder.py:188-190. -/
def writePosList : List PStr → Res Bytes
  | [] => .ok []
  | p :: ps => do
    let a ← writeStrings (splitOn 44 p)
    let b ← writePosList ps
    pure (a ++ b)

/-- dictionarybuilder.py:186-190 `convert_postable`. -/
def convertPosTable (table : List PStr) : Res Bytes := do
  let n ← writeInt table.length .short
  let b ← writePosList table
  pure (n ++ b)

/-- dictionarybuilder.py:203-215: the lines of matrix.def after the header. -/
def matrixLines (lsize : Int) : Stream → List PStr → Res Stream
  | m, [] => .ok m
  | m, line :: lines =>
    if (strip line).isEmpty ∨ (strip line).head? = some 35 then matrixLines lsize m lines
    else if (splitWs (strip line)).length < 3 then matrixLines lsize m lines
    else do
      let vs ← pyInts (splitWs (strip line))
      match vs with
      | [l, r, cost] => do
        let m1 ← m.seek (2 * (l + lsize * r))
        let b ← writeInt cost .short
        let m2 ← (m1.write b).seek m.pos
        matrixLines lsize m2 lines
      | _ => .error .value

/-- dictionarybuilder.py:192-216 `convert_matrix` (and 179-183): the four bytes of the sizes, and the cells. -/
def convertMatrix (header : PStr) (lines : List PStr) : Res (Bytes × Bytes) :=
  if (strip header).isEmpty then .error .value
  else do
    let vs ← pyInts (splitWs (strip header))
    match vs with
    | [lsize, rsize] => do
      let a ← writeInt lsize .short
      let b ← writeInt rsize .short
      let m ← matrixLines lsize .empty lines
      pure (a ++ b, m.read)
    | _ => .error .value

/-- A call that changes the output file. -/
inductive OutOp
  | write (b : Bytes)
  | seek (p : Nat)
  deriving DecidableEq, Repr

/-- The effect of a call. -/
def OutOp.run (s : Stream) : OutOp → Stream
  | .write b => s.write b
  | .seek p => { s with pos := p }

/-- The file after some calls, starting from an empty one. -/
def runOps (ops : List OutOp) : Stream := ops.foldl OutOp.run .empty

/-- What a builder function does: its calls in order, and whether it ends with an exception. -/
abbrev Out := List OutOp × Res Unit

/-- One step after another; an exception ends it. -/
def Out.andThen (a : Out) (b : Unit → Out) : Out :=
  match a with
  | (ops, .ok ()) => (ops ++ (b ()).1, (b ()).2)
  | (ops, .error x) => (ops, .error x)

/-- Compute, then go on. -/
def Out.withRes {α : Type} (r : Res α) (f : α → Out) : Out :=
  match r with
  | .ok a => f a
  | .error x => ([], .error x)

/-- `output_stream.write(b)`. -/
def Out.write (b : Bytes) : Out := ([.write b], .ok ())

namespace DictBuilder

/-- dictionarybuilder.py:162-184 `write_grammar`; the matrix file is given as its first line and the other lines. -/
def writeGrammar (db : DictBuilder) (matrix : Option (PStr × List PStr)) : Out :=
  (Out.withRes (convertPosTable db.posTable) Out.write).andThen fun _ =>
    match matrix with
    | none => Out.withRes (do let a ← writeInt 0 .short; let b ← writeInt 0 .short; pure (a ++ b)) Out.write
    | some (header, lines) =>
      Out.withRes (convertMatrix header lines) fun (sizes, cells) => (Out.write sizes).andThen fun _ => Out.write cells

/-- dictionarybuilder.py:223-228: the word-id table for some keys, from position `tell` on, and the value of each key. -/
def wordIdTable : Nat → List (Bytes × List Nat) → Res (Bytes × List (Bytes × Nat))
  | _, [] => .ok ([], [])
  | tell, (key, ids) :: rest => do
    let n ← writeInt ids.length .byte
    let b ← writeInts (ids.map Int.ofNat)
    let (t, kvs) ← wordIdTable (tell + n.length + b.length) rest
    pure (n ++ b ++ t, (key, tell) :: kvs)

/-- dictionarybuilder.py:260-266: the parameters, one `write` per entry; `pending` is what is in the buffer before (the
number of entries, written together with the first entry). -/
def writeParams (pending : Bytes) : List Entry → Out
  | [] => ([], .ok ())
  | e :: es =>
    Out.withRes (do
      let a ← writeInt e.params.1 .short
      let b ← writeInt e.params.2.1 .short
      let c ← writeInt e.params.2.2 .short
      pure (a ++ b ++ c)) fun b =>
    (Out.write (pending ++ b)).andThen fun _ => writeParams [] es

/-- dictionarybuilder.py:369-371 and userdictionarybuilder.py:54-58 `check_wordid`. -/
def checkWordid (db : DictBuilder) (w : Int) : Res Unit :=
  match db.sys with
  | none => if w < 0 ∨ w ≥ db.entries.length then .error .value else .ok ()
  | some s =>
    if w ≥ 2 ^ 28 then (if w % 2 ^ 28 ≥ db.entries.length then .error .value else .ok ())
    else if w < 0 ∨ w ≥ s.size then .error .value else .ok ()

/-- `id_ | (1 << 28)` for a non-negative id. -/
def setUserBit (w : Nat) : Nat := if w / 2 ^ 28 % 2 = 1 then w else w + 2 ^ 28

/-- dictionarybuilder.py:340-345: the number in a reference by id. -/
def idNumber (db : DictBuilder) (text : PStr) : Res Int :=
  match text with
  | 85 :: r => do
    let v ← pyInt r
    pure (if db.sys.isSome then (setUserBit v.toNat : Int) else v)
  | _ => pyInt text

/-- dictionarybuilder.py:339-347 `parse_id`. -/
def parseId (db : DictBuilder) (text : PStr) : Res Int := do
  let w ← db.idNumber text
  db.checkWordid w
  pure w

/-- dictionarybuilder.py:360-367: the first entry with the given surface, part of speech and reading. -/
def baseGetWordid (db : DictBuilder) (headword : PStr) (posId : Int) (reading : PStr) : Int :=
  match db.entries.findIdx? (fun e => decide (e.info.surface = headword) && decide (e.info.posId = posId) &&
      decide (e.info.readingForm = reading)) with
  | some i => i
  | none => -1

/-- dictionarybuilder.py:360-367 and userdictionarybuilder.py:48-52 `get_wordid`. -/
def getWordid (db : DictBuilder) (headword : PStr) (posId : Int) (reading : PStr) : Res Int :=
  match db.sys with
  | none => .ok (db.baseGetWordid headword posId reading)
  | some s =>
    if db.baseGetWordid headword posId reading ≥ 0 then
      .ok (setUserBit (db.baseGetWordid headword posId reading).toNat)
    else s.getWordId headword posId reading

/-- dictionarybuilder.py:349-358 `word_to_id`. -/
def wordToId (db : DictBuilder) (text : PStr) : Res (Int × DictBuilder) :=
  match splitOn 44 text with
  | c0 :: c1 :: c2 :: c3 :: c4 :: c5 :: c6 :: c7 :: _ => do
    let headword ← decodeText c0
    let (posId, db') := db.getPosid [c1, c2, c3, c4, c5, c6]
    if posId < 0 then .error .value
    else do
      let reading ← decodeText c7
      let w ← db'.getWordid headword posId reading
      pure (w, db')
  | _ => .error .value

/-- dictionarybuilder.py:326-332: one unit of a split. -/
def parseUnit (db : DictBuilder) (word : PStr) : Res (Int × DictBuilder) :=
  if isId word then do
    let w ← db.parseId word
    pure (w, db)
  else do
    let (w, db') ← db.wordToId word
    if w < 0 then .error .value else pure (w, db')

/-- dictionarybuilder.py:326-332: the loop over the units. -/
def parseUnits (db : DictBuilder) : List PStr → Res (List Int × DictBuilder)
  | [] => .ok ([], db)
  | word :: words => do
    let (w, db1) ← db.parseUnit word
    let (ws, db2) ← db1.parseUnits words
    pure (w :: ws, db2)

/-- dictionarybuilder.py:319-333 `parse_splitinfo`. -/
def parseSplitinfo (db : DictBuilder) (info : PStr) : Res (List Int × DictBuilder) :=
  if info = [42] then .ok ([], db)
  else if (splitOn 47 info).length > 127 then .error .value
  else db.parseUnits (splitOn 47 info)

/-- dictionarybuilder.py:277-295: the bytes of one word info.  (The part-of-speech table may grow while a split is
resolved, after it has been written.) -/
def wordInfoBytes (db : DictBuilder) (e : Entry) : Res (Bytes × DictBuilder) := do
  let s ← writeString e.info.surface
  let h ← writeStringLength e.info.headWordLength
  let p ← writeInt e.info.posId .short
  let n ← writeString (if e.info.normalizedForm = e.info.surface then [] else e.info.normalizedForm)
  let d ← writeInt e.info.dictionaryFormWordId .int
  let r ← writeString (if e.info.readingForm = e.info.surface then [] else e.info.readingForm)
  let (a, db1) ← db.parseSplitinfo e.aSplit
  let a' ← writeIntArray a
  let (b, db2) ← db1.parseSplitinfo e.bSplit
  let b' ← writeIntArray b
  let (c, db3) ← db2.parseSplitinfo e.cSplit
  let c' ← writeIntArray c
  let y ← writeIntArray e.info.synonymGroupIds
  pure (s ++ h ++ p ++ n ++ d ++ r ++ a' ++ b' ++ c' ++ y, db3)

/-- dictionarybuilder.py:276-298 and 301-303: the word infos from position `tell` on, then the offsets (`offs` are those
collected so far) at `mark`. -/
def writeInfos (mark : Nat) : DictBuilder → Nat → Bytes → List Entry → Out
  | _, _, offs, [] => ([.seek mark, .write offs], .ok ())
  | db, tell, offs, e :: es =>
    Out.withRes (do
      let o ← writeInt tell .int
      let (b, db') ← db.wordInfoBytes e
      pure (o, b, db')) fun (o, b, db') =>
    (Out.write b).andThen fun _ => writeInfos mark db' (tell + b.length) (offs ++ o) es

/-- dictionarybuilder.py:270-304 `write_wordinfo`; `mark` is the position of the stream. -/
def writeWordInfo (db : DictBuilder) (mark : Nat) : Out :=
  Out.andThen ([.seek (mark * 4 + db.entries.length)], .ok ()) fun _ =>
    writeInfos mark db (mark * 4 + db.entries.length) [] db.entries

/-- dictionarybuilder.py:218-267: `write_lexicon` without the word infos. -/
def writeTables (D : Darts) (db : DictBuilder) : Out :=
  Out.withRes (do
    let (table, kvs) ← wordIdTable 0 db.trieKeys
    let arr ← D.build kvs
    let size ← writeInt (arr.length / 4 : Nat) .int
    pure (table, arr, size)) fun (table, arr, size) =>
  (Out.write size).andThen fun _ => (Out.write arr).andThen fun _ =>
  (Out.withRes (writeInt table.length .int) Out.write).andThen fun _ => (Out.write table).andThen fun _ =>
  Out.withRes (writeInt db.entries.length .int) fun n => writeParams n db.entries

/-- command_line.py:111-114, 122-125 with dictionarybuilder.py:80-88 and userdictionarybuilder.py:26-40: the header is
written first, then all the rows are read, then grammar, tables and word infos are written. -/
def build (D : Darts) (db : DictBuilder) (header : Header) (rows : List (List PStr)) (matrix : Option (PStr × List PStr)) : Out :=
  (Out.withRes header.toBytes Out.write).andThen fun _ =>
  Out.withRes (db.addRows rows) fun db' =>
    let front := ((Out.withRes header.toBytes Out.write).andThen fun _ => (db'.writeGrammar matrix).andThen fun _ => db'.writeTables D).1
    (db'.writeGrammar matrix).andThen fun _ => (db'.writeTables D).andThen fun _ => db'.writeWordInfo (runOps front).pos

end DictBuilder

/-- userdictionarybuilder.py:20-24 with command_line.py:110, 113: the system dictionary of a user dictionary builder.  (A
system dictionary always has a grammar.) -/
def BinDict.toSysDict (D : Darts) (depth : Nat) (d : BinDict) : SysDict :=
  ⟨match d.grammar with
    | some g => g.posList
    | none => [],
   d.lexicon.size, d.lexicon.getWordId D depth⟩

end Sudachi
