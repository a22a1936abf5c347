/-
Lemmas on the dictionary builder: the file a successful build leaves.
-/
import Verif.Lemmas.DictFile
namespace Sudachi

theorem Out.andThen_ok {a : Out} {b : Unit → Out} {ops : List OutOp} (h : a.andThen b = (ops, .ok ())) :
    ∃ ops1 ops2, a = (ops1, .ok ()) ∧ b () = (ops2, .ok ()) ∧ ops = ops1 ++ ops2 := by
  unfold Out.andThen at h
  split at h
  · rename_i o
    cases hb : b () with
    | mk o2 r2 =>
      rw [hb] at h
      simp only [Prod.mk.injEq] at h
      exact ⟨o, o2, rfl, by rw [h.2], h.1.symm⟩
  · simp only [Prod.mk.injEq, reduceCtorEq, and_false] at h

theorem Out.withRes_ok {α : Type} {r : Res α} {f : α → Out} {ops : List OutOp} (h : Out.withRes r f = (ops, .ok ())) :
    ∃ a, r = .ok a ∧ f a = (ops, .ok ()) := by
  unfold Out.withRes at h
  split at h
  · rename_i a; exact ⟨a, rfl, h⟩
  · simp only [Prod.mk.injEq, reduceCtorEq, and_false] at h

theorem Out.write_ok {b : Bytes} {ops : List OutOp} (h : Out.write b = (ops, .ok ())) : ops = [.write b] := by
  unfold Out.write at h
  exact (Prod.mk.inj h).1.symm

/-- Writes at the end of a stream append. -/
theorem run_writes (bs : List Bytes) (s : Stream) (h : s.pos = s.data.length) :
    (bs.map OutOp.write).foldl OutOp.run s = ⟨s.data ++ bs.flatten, s.pos + bs.flatten.length⟩ := by
  induction bs generalizing s with
  | nil => simp
  | cons b bs ih =>
    simp only [List.map_cons, List.foldl_cons, OutOp.run]
    rw [Stream.write_end s h, ih _ (by simp [h])]
    simp only [List.flatten_cons, List.append_assoc, List.length_append, Nat.add_assoc]

/-- The six bytes of the parameters of a word. -/
def paramBytes (p : Int × Int × Int) : Bytes :=
  leBytes 2 (p.1 % 65536).toNat ++ leBytes 2 (p.2.1 % 65536).toNat ++ leBytes 2 (p.2.2 % 65536).toNat

theorem paramBytes_length (p : Int × Int × Int) : (paramBytes p).length = 6 := by
  simp [paramBytes, leBytes_length]

theorem writeInt_short_eq {v : Int} {b : Bytes} (h : writeInt v .short = .ok b) :
    b = leBytes 2 (v % 65536).toNat ∧ -32768 ≤ v ∧ v ≤ 32767 := by
  have h1 := writeInt_short h
  refine ⟨?_, h1.2.2.2⟩
  simp only [writeInt, toBytes, if_true] at h
  split at h
  · cases h; rfl
  · cases h

theorem writeInt_int_eq {v : Nat} {b : Bytes} (h : writeInt v .int = .ok b) : b = leBytes 4 v ∧ v < 2147483648 := by
  have h1 := writeInt_int h
  refine ⟨?_, by omega⟩
  simp only [writeInt, toBytes, if_true] at h
  split at h
  · have e := Except.ok.inj h
    have h2 : (2 : Int) ^ (8 * 4) = 4294967296 := by decide
    have h3 : ((v : Int) % 2 ^ (8 * 4)).toNat = v := by rw [h2]; omega
    rw [← e]
    exact congrArg (leBytes 4) h3
  · cases h

/-- Three 16-bit numbers. -/
def ShortParams (p : Int × Int × Int) : Prop :=
  (-32768 ≤ p.1 ∧ p.1 ≤ 32767) ∧ (-32768 ≤ p.2.1 ∧ p.2.1 ≤ 32767) ∧ (-32768 ≤ p.2.2 ∧ p.2.2 ≤ 32767)

namespace DictBuilder

theorem writeParams_ok {es : List Entry} {pending : Bytes} {ops : List OutOp} (h : writeParams pending es = (ops, .ok ())) :
    (∀ e ∈ es, ShortParams e.params) ∧
    ∃ bs : List Bytes, ops = bs.map OutOp.write ∧
      bs.flatten = if es = [] then [] else pending ++ es.flatMap (fun e => paramBytes e.params) := by
  induction es generalizing pending ops with
  | nil =>
    simp only [writeParams, Prod.mk.injEq] at h
    exact ⟨by simp, [], by simp [← h.1], rfl⟩
  | cons e es ih =>
    unfold writeParams at h
    obtain ⟨b, hb, h⟩ := Out.withRes_ok h
    obtain ⟨ops1, ops2, h1, h2, rfl⟩ := Out.andThen_ok h
    have := Out.write_ok h1
    subst this
    obtain ⟨i1, bs, i2, i3⟩ := ih h2
    obtain ⟨x, hx, hb⟩ := bind_ok hb
    obtain ⟨y, hy, hb⟩ := bind_ok hb
    obtain ⟨z, hz, hb⟩ := bind_ok hb
    cases hb
    obtain ⟨hx1, hx2⟩ := writeInt_short_eq hx
    obtain ⟨hy1, hy2⟩ := writeInt_short_eq hy
    obtain ⟨hz1, hz2⟩ := writeInt_short_eq hz
    refine ⟨?_, (pending ++ (x ++ y ++ z)) :: bs, ?_, ?_⟩
    · intro e' he'
      rcases List.mem_cons.1 he' with rfl | he'
      · exact ⟨hx2, hy2, hz2⟩
      · exact i1 e' he'
    · rw [i2]; rfl
    · simp only [List.flatten_cons, i3, reduceCtorEq, if_false, List.flatMap_cons, List.append_assoc]
      congr 1
      rw [show paramBytes e.params = x ++ y ++ z by rw [hx1, hy1, hz1]; rfl]
      simp only [List.append_assoc]
      by_cases he : es = []
      · subst he; simp
      · simp only [he, if_false, List.nil_append]

/-- The positions of consecutive pieces of bytes. -/
def offsetsOf : Nat → List Bytes → List Nat
  | _, [] => []
  | tell, b :: bs => tell :: offsetsOf (tell + b.length) bs

theorem offsetsOf_length (tell : Nat) (bs : List Bytes) : (offsetsOf tell bs).length = bs.length := by
  induction bs generalizing tell with
  | nil => rfl
  | cons b bs ih => simp [offsetsOf, ih]

/-- What resolving splits may change: the part-of-speech table. -/
structure Same (db db' : DictBuilder) : Prop where
  sys : db'.sys = db.sys
  entries : db'.entries = db.entries
  trieKeys : db'.trieKeys = db.trieKeys
  posTable : ∃ more, db'.posTable = db.posTable ++ more

theorem Same.refl (db : DictBuilder) : Same db db := ⟨rfl, rfl, rfl, [], by simp⟩

theorem Same.trans {a b c : DictBuilder} (h : Same a b) (h' : Same b c) : Same a c := by
  obtain ⟨m, hm⟩ := h.posTable
  obtain ⟨m', hm'⟩ := h'.posTable
  exact ⟨by rw [h'.sys, h.sys], by rw [h'.entries, h.entries], by rw [h'.trieKeys, h.trieKeys], m ++ m', by rw [hm', hm]; simp⟩

theorem baseGetPosid_same (db : DictBuilder) (strs : List PStr) : Same db (db.baseGetPosid strs).2 := by
  unfold baseGetPosid
  split
  · exact .refl db
  · exact ⟨rfl, rfl, rfl, _, rfl⟩

theorem getPosid_same (db : DictBuilder) (strs : List PStr) : Same db (db.getPosid strs).2 := by
  unfold getPosid
  split
  · exact baseGetPosid_same db strs
  · split
    · exact .refl db
    · exact baseGetPosid_same db strs

theorem wordToId_same {db db' : DictBuilder} {text : PStr} {w : Int} (h : db.wordToId text = .ok (w, db')) : Same db db' := by
  unfold wordToId at h
  split at h
  · obtain ⟨a, _, h⟩ := bind_ok h
    dsimp only at h
    split at h
    · cases h
    · obtain ⟨r, _, h⟩ := bind_ok h
      obtain ⟨v, _, h⟩ := bind_ok h
      cases h
      exact getPosid_same _ _
  · cases h

theorem parseUnit_same {db db' : DictBuilder} {word : PStr} {w : Int} (h : db.parseUnit word = .ok (w, db')) : Same db db' := by
  unfold parseUnit at h
  split at h
  · obtain ⟨a, _, h⟩ := bind_ok h
    cases h
    exact .refl _
  · obtain ⟨a, ha, h⟩ := bind_ok h
    obtain ⟨v, db1⟩ := a
    dsimp only at h
    split at h
    · cases h
    · cases h
      exact wordToId_same ha

theorem parseUnits_same {words : List PStr} : ∀ {db db' : DictBuilder} {ws : List Int},
    db.parseUnits words = .ok (ws, db') → Same db db' := by
  induction words with
  | nil => intro db db' ws h; cases h; exact .refl _
  | cons word words ih =>
    intro db db' ws h
    unfold parseUnits at h
    obtain ⟨⟨w, db1⟩, h1, h⟩ := bind_ok h
    obtain ⟨⟨ws', db2⟩, h2, h⟩ := bind_ok h
    cases h
    exact (parseUnit_same h1).trans (ih h2)

theorem parseSplitinfo_same {db db' : DictBuilder} {info : PStr} {ws : List Int} (h : db.parseSplitinfo info = .ok (ws, db')) :
    Same db db' := by
  unfold parseSplitinfo at h
  split at h
  · cases h; exact .refl _
  · split at h
    · cases h
    · exact parseUnits_same h

/-- What is written for an entry, step by step. -/
theorem wordInfoBytes_ok {db db' : DictBuilder} {e : Entry} {w : Bytes} (h : db.wordInfoBytes e = .ok (w, db')) :
    ∃ s hd p n d r a' b' c' y a b c db1 db2,
      writeString e.info.surface = .ok s ∧ writeStringLength e.info.headWordLength = .ok hd ∧ writeInt e.info.posId .short = .ok p ∧
      writeString (if e.info.normalizedForm = e.info.surface then [] else e.info.normalizedForm) = .ok n ∧
      writeInt e.info.dictionaryFormWordId .int = .ok d ∧
      writeString (if e.info.readingForm = e.info.surface then [] else e.info.readingForm) = .ok r ∧
      db.parseSplitinfo e.aSplit = .ok (a, db1) ∧ writeIntArray a = .ok a' ∧
      db1.parseSplitinfo e.bSplit = .ok (b, db2) ∧ writeIntArray b = .ok b' ∧
      db2.parseSplitinfo e.cSplit = .ok (c, db') ∧ writeIntArray c = .ok c' ∧
      writeIntArray e.info.synonymGroupIds = .ok y ∧
      w = s ++ hd ++ p ++ n ++ d ++ r ++ a' ++ b' ++ c' ++ y := by
  unfold wordInfoBytes at h
  obtain ⟨s, h1, h⟩ := bind_ok h
  obtain ⟨hd, h2, h⟩ := bind_ok h
  obtain ⟨p, h3, h⟩ := bind_ok h
  obtain ⟨n, h4, h⟩ := bind_ok h
  obtain ⟨d, h5, h⟩ := bind_ok h
  obtain ⟨r, h6, h⟩ := bind_ok h
  obtain ⟨⟨a, db1⟩, h7, h⟩ := bind_ok h
  obtain ⟨a', h8, h⟩ := bind_ok h
  obtain ⟨⟨b, db2⟩, h9, h⟩ := bind_ok h
  obtain ⟨b', h10, h⟩ := bind_ok h
  obtain ⟨⟨c, db3⟩, h11, h⟩ := bind_ok h
  obtain ⟨c', h12, h⟩ := bind_ok h
  obtain ⟨y, h13, h⟩ := bind_ok h
  cases h
  exact ⟨s, hd, p, n, d, r, a', b', c', y, a, b, c, db1, db2, h1, h2, h3, h4, h5, h6, h7, h8, h9, h10, h11, h12, h13, rfl⟩

theorem wordInfoBytes_same {db db' : DictBuilder} {e : Entry} {w : Bytes} (h : db.wordInfoBytes e = .ok (w, db')) : Same db db' := by
  obtain ⟨_, _, _, _, _, _, _, _, _, _, _, _, _, _, _, _, _, _, _, _, _, h7, _, h9, _, h11, _⟩ := wordInfoBytes_ok h
  exact ((parseSplitinfo_same h7).trans (parseSplitinfo_same h9)).trans (parseSplitinfo_same h11)

theorem writeStringLength_ne {n : Nat} {w : Bytes} (h : writeStringLength n = .ok w) : w ≠ [] := by
  unfold writeStringLength at h
  split at h
  · obtain ⟨_, _, rfl⟩ := writeInt_byte h; simp
  · obtain ⟨a, ha, h⟩ := bind_ok h
    obtain ⟨b, hb, h⟩ := bind_ok h
    cases h
    obtain ⟨_, _, rfl⟩ := writeInt_byte ha
    simp

theorem wordInfoBytes_ne {db db' : DictBuilder} {e : Entry} {w : Bytes} (h : db.wordInfoBytes e = .ok (w, db')) : w ≠ [] := by
  obtain ⟨s, hd, p, n, d, r, a', b', c', y, a, b, c, db1, db2, h1, h2, h3, h4, h5, h6, h7, h8, h9, h10, h11, h12, h13, rfl⟩ := wordInfoBytes_ok h
  have := writeStringLength_ne h2
  simp [this]

theorem writeInfos_ok {mark : Nat} {es : List Entry} : ∀ {db : DictBuilder} {tell : Nat} {offs : Bytes} {ops : List OutOp},
    writeInfos mark db tell offs es = (ops, .ok ()) →
    ∃ infos : List Bytes, infos.length = es.length ∧
      ops = infos.map OutOp.write ++ [.seek mark, .write (offs ++ (offsetsOf tell infos).flatMap (leBytes 4))] ∧
      (∀ o ∈ offsetsOf tell infos, o < 2147483648) ∧
      ∀ (k : Nat) (e : Entry) (b : Bytes), es[k]? = some e → infos[k]? = some b →
        ∃ db1 db2, Same db db1 ∧ db1.wordInfoBytes e = .ok (b, db2) := by
  induction es with
  | nil =>
    intro db tell offs ops h
    simp only [writeInfos, Prod.mk.injEq] at h
    exact ⟨[], rfl, by simp [offsetsOf, ← h.1], by simp [offsetsOf], by simp⟩
  | cons e es ih =>
    intro db tell offs ops h
    unfold writeInfos at h
    obtain ⟨⟨o, b, db'⟩, hr, h⟩ := Out.withRes_ok h
    obtain ⟨ops1, ops2, h1, h2, rfl⟩ := Out.andThen_ok h
    have := Out.write_ok h1
    subst this
    obtain ⟨o', ho, hr⟩ := bind_ok hr
    obtain ⟨⟨b', db''⟩, hb, hr⟩ := bind_ok hr
    cases hr
    obtain ⟨ho1, ho2⟩ := writeInt_int_eq ho
    obtain ⟨infos, i1, i2, i3, i4⟩ := ih h2
    refine ⟨b :: infos, by simp [i1], ?_, ?_, ?_⟩
    · rw [i2, ho1]
      simp only [offsetsOf, List.flatMap_cons, List.map_cons, List.cons_append, List.nil_append, List.append_assoc]
    · intro x hx
      simp only [offsetsOf, List.mem_cons] at hx
      rcases hx with rfl | hx
      · exact ho2
      · exact i3 x hx
    · intro k e' b' hk hb'
      cases k with
      | zero =>
        simp only [List.getElem?_cons_zero, Option.some.injEq] at hk hb'
        subst hk hb'
        exact ⟨db, db', .refl _, hb⟩
      | succ k =>
        simp only [List.getElem?_cons_succ] at hk hb'
        obtain ⟨d1, d2, j1, j2⟩ := i4 k e' b' hk hb'
        exact ⟨d1, d2, (wordInfoBytes_same hb).trans j1, j2⟩

/-- The pieces of a dictionary file. -/
structure Parts where
  db : DictBuilder
  hb : Bytes
  posb : Bytes
  sizes : Bytes
  cells : Bytes
  arr : Bytes
  table : Bytes
  kvs : List (Bytes × Nat)
  infos : List Bytes

namespace Parts

/-- The bytes of the word parameters.  (The number of words is written together with the first word.) -/
def params (P : Parts) : Bytes :=
  if P.db.entries = [] then [] else leBytes 4 P.db.entries.length ++ P.db.entries.flatMap (fun e => paramBytes e.params)

/-- Everything before the word infos. -/
def front (P : Parts) : Bytes :=
  P.hb ++ P.posb ++ P.sizes ++ P.cells ++ leBytes 4 (P.arr.length / 4) ++ P.arr ++ leBytes 4 P.table.length ++ P.table ++ P.params

/-- Where the word infos start. -/
def base (P : Parts) : Nat := P.front.length * 4 + P.db.entries.length

/-- The bytes of the word-info offsets. -/
def offs (P : Parts) : Bytes := (offsetsOf P.base P.infos).flatMap (leBytes 4)

/-- The whole file. -/
def file (P : Parts) : Bytes :=
  P.front ++ if P.db.entries = [] then [] else
    P.offs ++ List.replicate (P.base - P.front.length - P.offs.length) 0 ++ P.infos.flatten

end Parts

/-- The bytes of the matrix: the two sizes and the cells. -/
def MatrixParts (sizes cells : Bytes) : Option (PStr × List PStr) → Prop
  | none => sizes = [0, 0, 0, 0] ∧ cells = []
  | some (h, ls) => convertMatrix h ls = .ok (sizes, cells)

/-- The pieces before the word infos are what a builder computes. -/
structure Parts.Front (P : Parts) (D : Darts) (db0 : DictBuilder) (header : Header) (rows : List (List PStr))
    (matrix : Option (PStr × List PStr)) : Prop where
  rows : db0.addRows rows = .ok P.db
  header : header.toBytes = .ok P.hb
  pos : convertPosTable P.db.posTable = .ok P.posb
  matrix : MatrixParts P.sizes P.cells matrix
  table : wordIdTable 0 P.db.trieKeys = .ok (P.table, P.kvs)
  trie : D.build P.kvs = .ok P.arr
  trieSmall : P.arr.length / 4 < 2147483648
  tableSmall : P.table.length < 2147483648
  count : P.db.entries.length < 2147483648
  params : ∀ e ∈ P.db.entries, ShortParams e.params

/-- The pieces are what a builder computes. -/
structure Parts.Built (P : Parts) (D : Darts) (db0 : DictBuilder) (header : Header) (rows : List (List PStr))
    (matrix : Option (PStr × List PStr)) : Prop extends P.Front D db0 header rows matrix where
  infosLength : P.infos.length = P.db.entries.length
  offsets : ∀ o ∈ offsetsOf P.base P.infos, o < 2147483648
  infos : ∀ (k : Nat) (e : Entry) (b : Bytes), P.db.entries[k]? = some e → P.infos[k]? = some b →
    ∃ db1 db2, Same P.db db1 ∧ db1.wordInfoBytes e = .ok (b, db2)

theorem writeGrammar_ok {db : DictBuilder} {matrix : Option (PStr × List PStr)} {ops : List OutOp}
    (h : db.writeGrammar matrix = (ops, .ok ())) :
    ∃ posb sizes cells, convertPosTable db.posTable = .ok posb ∧
      MatrixParts sizes cells matrix ∧
      ∃ bs : List Bytes, ops = bs.map OutOp.write ∧ bs.flatten = posb ++ sizes ++ cells := by
  unfold writeGrammar at h
  obtain ⟨o1, o2, h1, h2, rfl⟩ := Out.andThen_ok h
  obtain ⟨posb, hp, h1⟩ := Out.withRes_ok h1
  have := Out.write_ok h1
  subst this
  cases matrix with
  | none =>
    dsimp only at h2
    obtain ⟨b, hb, h2⟩ := Out.withRes_ok h2
    have := Out.write_ok h2
    subst this
    have e : writeInt 0 .short = .ok [0, 0] := by decide
    simp only [e] at hb
    have hb : b = [0, 0, 0, 0] := (Except.ok.inj hb).symm
    subst hb
    exact ⟨posb, [0, 0, 0, 0], [], hp, ⟨rfl, rfl⟩, [posb, [0, 0, 0, 0]], rfl, by simp⟩
  | some m =>
    obtain ⟨hdr, ls⟩ := m
    dsimp only at h2
    obtain ⟨⟨sizes, cells⟩, hm, h2⟩ := Out.withRes_ok h2
    dsimp only at h2
    obtain ⟨o3, o4, h3, h4, rfl⟩ := Out.andThen_ok h2
    have := Out.write_ok h3
    subst this
    have := Out.write_ok h4
    subst this
    exact ⟨posb, sizes, cells, hp, hm, [posb, sizes, cells], rfl, by simp⟩

theorem writeTables_ok {D : Darts} {db : DictBuilder} {ops : List OutOp} (h : db.writeTables D = (ops, .ok ())) :
    ∃ table kvs arr, wordIdTable 0 db.trieKeys = .ok (table, kvs) ∧ D.build kvs = .ok arr ∧ arr.length / 4 < 2147483648 ∧
      table.length < 2147483648 ∧ db.entries.length < 2147483648 ∧ (∀ e ∈ db.entries, ShortParams e.params) ∧
      ∃ bs : List Bytes, ops = bs.map OutOp.write ∧
        bs.flatten = leBytes 4 (arr.length / 4) ++ arr ++ leBytes 4 table.length ++ table ++
          (if db.entries = [] then [] else leBytes 4 db.entries.length ++ db.entries.flatMap (fun e => paramBytes e.params)) := by
  unfold writeTables at h
  obtain ⟨⟨table, arr, size⟩, hr, h⟩ := Out.withRes_ok h
  obtain ⟨⟨table', kvs⟩, ht, hr⟩ := bind_ok hr
  obtain ⟨arr', ha, hr⟩ := bind_ok hr
  obtain ⟨size', hs, hr⟩ := bind_ok hr
  cases hr
  dsimp only at h
  obtain ⟨o1_0, o2_0, h1, h, hops0⟩ := Out.andThen_ok h
  have := Out.write_ok h1
  subst this
  obtain ⟨o1_1, o2_1, h1, h, hops1⟩ := Out.andThen_ok h
  have := Out.write_ok h1
  subst this
  obtain ⟨o1_2, o2_2, h1, h, hops2⟩ := Out.andThen_ok h
  obtain ⟨tl, htl, h1⟩ := Out.withRes_ok h1
  have := Out.write_ok h1
  subst this
  obtain ⟨o1_3, o2_3, h1, h, hops3⟩ := Out.andThen_ok h
  have := Out.write_ok h1
  subst this
  obtain ⟨n, hn, h⟩ := Out.withRes_ok h
  obtain ⟨hp, bs, hbs1, hbs2⟩ := writeParams_ok h
  obtain ⟨e1, l1⟩ := writeInt_int_eq hs
  obtain ⟨e2, l2⟩ := writeInt_int_eq htl
  obtain ⟨e3, l3⟩ := writeInt_int_eq hn
  refine ⟨table, kvs, arr, ht, ha, l1, l2, l3, hp, size :: arr :: tl :: table :: bs, ?_, ?_⟩
  · rw [hops0, hops1, hops2, hops3, hbs1]; rfl
  · simp only [List.flatten_cons, hbs2, e1, e2, e3, List.append_assoc]

theorem offsetsOf_bytes_length (tell : Nat) (bs : List Bytes) : ((offsetsOf tell bs).flatMap (leBytes 4)).length = 4 * bs.length := by
  induction bs generalizing tell with
  | nil => rfl
  | cons b bs ih => simp only [offsetsOf, List.flatMap_cons, List.length_append, leBytes_length, ih, List.length_cons]; omega

theorem params_flat_length (es : List Entry) : (es.flatMap (fun e => paramBytes e.params)).length = 6 * es.length := by
  induction es with
  | nil => rfl
  | cons e es ih => simp only [List.flatMap_cons, List.length_append, paramBytes_length, ih, List.length_cons]; omega

theorem Parts.Built.params_length {P : Parts} {D : Darts} {db0 : DictBuilder} {header : Header} {rows : List (List PStr)}
    {matrix : Option (PStr × List PStr)} (_h : P.Built D db0 header rows matrix) :
    P.params.length = if P.db.entries = [] then 0 else 4 + 6 * P.db.entries.length := by
  unfold Parts.params
  split
  · rfl
  · simp only [List.length_append, leBytes_length, params_flat_length]
    try omega

theorem front_ge (P : Parts) : P.db.entries.length ≤ P.front.length := by
  unfold Parts.front Parts.params
  split
  · rename_i h; simp [h]
  · simp only [List.length_append, leBytes_length, params_flat_length]
    try omega

/-- Seek forward, write the infos, seek back, write the offsets. -/
theorem infos_file (F : Bytes) (base : Nat) (infos : List Bytes) (offs : Bytes) (hne : ∀ b ∈ infos, b ≠ []) (hn : infos ≠ [])
    (ho : offs ≠ []) (hb : F.length + offs.length ≤ base) :
    (([OutOp.seek base] ++ (infos.map OutOp.write ++ [OutOp.seek F.length, OutOp.write offs])).foldl OutOp.run ⟨F, F.length⟩).data =
      F ++ (offs ++ List.replicate (base - F.length - offs.length) 0 ++ infos.flatten) := by
  cases infos with
  | nil => exact absurd rfl hn
  | cons b bs =>
    have hb0 := hne b (by simp)
    simp only [List.cons_append, List.nil_append, List.foldl_cons, List.map_cons, List.foldl_append, OutOp.run, List.foldl_nil]
    have hw : (⟨F, base⟩ : Stream).write b = ⟨F ++ List.replicate (base - F.length) 0 ++ b, base + b.length⟩ := by
      unfold Stream.write
      rw [if_neg (by simpa using hb0)]
      simp only
      rw [List.take_of_length_le (by simp; omega), List.drop_of_length_le (by omega), List.append_nil]
    rw [hw, run_writes bs _ (by simp; omega)]
    simp only
    unfold Stream.write
    rw [if_neg (by simpa using ho)]
    simp only [List.flatten_cons]
    have h1 : List.take F.length ((F ++ List.replicate (base - F.length) 0 ++ b ++ bs.flatten) ++
        List.replicate (F.length - (F ++ List.replicate (base - F.length) 0 ++ b ++ bs.flatten).length) 0) = F := by
      rw [List.append_assoc, List.append_assoc, List.append_assoc, List.take_left]
    have h2 : List.drop (F.length + offs.length) (F ++ List.replicate (base - F.length) 0 ++ b ++ bs.flatten) =
        List.replicate (base - F.length - offs.length) 0 ++ (b ++ bs.flatten) := by
      rw [List.append_assoc, List.append_assoc, List.drop_append, List.drop_of_length_le (by omega), List.nil_append]
      rw [show F.length + offs.length - F.length = offs.length by omega]
      rw [List.drop_append_of_le_length (by simp; omega), List.drop_replicate]
    rw [h1, h2]
    simp only [List.append_assoc]

/-- The file a successful build leaves. -/
theorem build_calls {D : Darts} {db0 : DictBuilder} {header : Header} {rows : List (List PStr)} {matrix : Option (PStr × List PStr)}
    {ops : List OutOp} (h : db0.build D header rows matrix = (ops, .ok ())) :
    ∃ P : Parts, P.Built D db0 header rows matrix ∧ (runOps ops).data = P.file ∧
      ∃ bs : List Bytes, bs.flatten = P.front ∧
        ops = bs.map OutOp.write ++ ([.seek P.base] ++ (P.infos.map OutOp.write ++ [.seek P.front.length, .write P.offs])) := by
  unfold build at h
  obtain ⟨o1, o2, h1, h2, rfl⟩ := Out.andThen_ok h
  rw [h1] at h2
  obtain ⟨hb, hhb, h1⟩ := Out.withRes_ok h1
  have := Out.write_ok h1
  subst this
  obtain ⟨db, hdb, h2⟩ := Out.withRes_ok h2
  dsimp only at h2
  obtain ⟨o3, o4, h3, h4, rfl⟩ := Out.andThen_ok h2
  obtain ⟨o5, o6, h5, h6, rfl⟩ := Out.andThen_ok h4
  rw [h3, h5] at h6
  simp only [Out.andThen] at h6
  obtain ⟨posb, sizes, cells, g1, g2, bs1, g3, g4⟩ := writeGrammar_ok h3
  obtain ⟨table, kvs, arr, t1, t2, t3, t4, t5, t6, bs2, t7, t8⟩ := writeTables_ok h5
  subst g3 t7
  have hfront : runOps ([OutOp.write hb] ++ (bs1.map OutOp.write ++ bs2.map OutOp.write)) =
      ⟨hb ++ (bs1.flatten ++ bs2.flatten), (hb ++ (bs1.flatten ++ bs2.flatten)).length⟩ := by
    have := run_writes (hb :: (bs1 ++ bs2)) Stream.empty rfl
    simp only [List.map_cons, List.map_append, List.flatten_cons, List.flatten_append] at this
    unfold runOps
    rw [List.cons_append, List.nil_append, this]
    simp [Stream.empty]
  rw [hfront] at h6
  dsimp only at h6
  unfold writeWordInfo at h6
  obtain ⟨o7, o8, h7, h8, rfl⟩ := Out.andThen_ok h6
  simp only [Prod.mk.injEq] at h7
  have h7 := h7.1
  subst h7
  obtain ⟨infos, w1, w2, w3, w4⟩ := writeInfos_ok h8
  subst w2
  let P : Parts := ⟨db, hb, posb, sizes, cells, arr, table, kvs, infos⟩
  have hF : hb ++ (bs1.flatten ++ bs2.flatten) = P.front := by
    rw [g4, t8]
    simp only [Parts.front, Parts.params, List.append_assoc, P]
  rw [hF] at w3 hfront ⊢
  have hP : P.Built D db0 header rows matrix :=
    ⟨⟨hdb, hhb, g1, g2, t1, t2, t3, t4, t5, t6⟩, w1, w3, w4⟩
  refine ⟨P, hP, ?_, hb :: (bs1 ++ bs2), by rw [← hF]; simp, by
    simp only [List.map_cons, List.map_append, List.append_assoc, List.cons_append, List.nil_append]; rfl⟩
  have hassoc : [OutOp.write hb] ++ (bs1.map OutOp.write ++ (bs2.map OutOp.write ++ ([.seek (P.front.length * 4 + db.entries.length)] ++
      (infos.map OutOp.write ++ [.seek P.front.length, .write ([] ++ (offsetsOf (P.front.length * 4 + db.entries.length) infos).flatMap (leBytes 4))])))) =
      ([OutOp.write hb] ++ (bs1.map OutOp.write ++ bs2.map OutOp.write)) ++ ([.seek (P.front.length * 4 + db.entries.length)] ++
      (infos.map OutOp.write ++ [.seek P.front.length, .write ([] ++ (offsetsOf (P.front.length * 4 + db.entries.length) infos).flatMap (leBytes 4))])) := by
    simp only [List.append_assoc]
  rw [hassoc]
  have hrun : ∀ a b : List OutOp, runOps (a ++ b) = b.foldl OutOp.run (runOps a) := fun a b => by
    unfold runOps; rw [List.foldl_append]
  rw [hrun, hfront, List.nil_append]
  have hlen := offsetsOf_bytes_length (P.front.length * 4 + db.entries.length) infos
  by_cases he : db.entries = []
  · have hi : infos = [] := by
      rw [he] at w1; simpa using w1
    subst hi
    have : P.file = P.front := by
      unfold Parts.file
      rw [if_pos (show P.db.entries = [] from he), List.append_nil]
    rw [this]
    simp [OutOp.run, offsetsOf, Stream.write]
  · have hfile : P.file = P.front ++ (P.offs ++ List.replicate (P.base - P.front.length - P.offs.length) 0 ++ P.infos.flatten) := by
      unfold Parts.file
      rw [if_neg (show ¬ P.db.entries = [] from he)]
    rw [hfile]
    have hi0 : infos ≠ [] := fun e => by
      rw [e] at w1
      exact he (List.length_eq_zero_iff.1 w1.symm)
    refine infos_file P.front P.base infos P.offs ?_ hi0 ?_ ?_
    · intro b hb'
      obtain ⟨k, hk⟩ := List.getElem?_of_mem hb'
      have hkl : k < db.entries.length := by
        rw [← w1]; exact (List.getElem?_eq_some_iff.1 hk).1
      obtain ⟨db1, db2, _, hw⟩ := w4 k db.entries[k] b (List.getElem?_eq_getElem hkl) hk
      exact wordInfoBytes_ne hw
    · intro e
      have h9 : P.offs.length = 4 * infos.length := hlen
      rw [e] at h9
      simp only [List.length_nil] at h9
      exact hi0 (List.length_eq_zero_iff.1 (by omega))
    · have h9 : P.offs.length = 4 * infos.length := hlen
      have := front_ge P
      have hb' : P.base = P.front.length * 4 + P.db.entries.length := rfl
      have w1' : infos.length = P.db.entries.length := w1
      omega

theorem build_ok {D : Darts} {db0 : DictBuilder} {header : Header} {rows : List (List PStr)} {matrix : Option (PStr × List PStr)}
    {ops : List OutOp} (h : db0.build D header rows matrix = (ops, .ok ())) :
    ∃ P : Parts, P.Built D db0 header rows matrix ∧ (runOps ops).data = P.file := by
  obtain ⟨P, h1, h2, _⟩ := build_calls h
  exact ⟨P, h1, h2⟩

end DictBuilder

end Sudachi
