/-
Lemmas on reading back the lexicon part of a built file.
-/
import Verif.Lemmas.Load
namespace Sudachi
open DictBuilder

namespace DictBuilder.Parts

/-- Where the lexicon starts. -/
def lexOff (P : Parts) : Nat := (P.hb ++ P.posb ++ P.sizes ++ P.cells).length

/-- Where the word parameters start. -/
def parStart (P : Parts) : Nat := P.lexOff + 4 + P.arr.length + (4 + P.table.length)

/-- The lexicon that is read from a file that begins with the front part. -/
def lexiconIn (P : Parts) (F : Bytes) (hasSyn : Bool) : DALex :=
  ⟨F, P.arr, P.lexOff + 4 + P.arr.length + 4, P.table.length, P.db.entries.length,
    P.parStart + (if P.db.entries = [] then 0 else 4), 6 * P.db.entries.length, P.parStart + (4 + 6 * P.db.entries.length), hasSyn⟩

/-- The lexicon that is read from the built file. -/
def lexicon (P : Parts) (hasSyn : Bool) : DALex := P.lexiconIn P.file hasSyn

theorem front_eq (P : Parts) : P.front = (P.hb ++ P.posb ++ P.sizes ++ P.cells) ++
    (leBytes 4 (P.arr.length / 4) ++ P.arr ++ leBytes 4 P.table.length ++ P.table ++ P.params) := by
  unfold front; simp only [List.append_assoc]

theorem front_at (P : Parts) : At P.file 0 P.front := by
  unfold file
  exact (At.whole _).extend _

theorem lex_at {P : Parts} {F : Bytes} (hF : At F 0 P.front) : At F P.lexOff
    (leBytes 4 (P.arr.length / 4) ++ P.arr ++ leBytes 4 P.table.length ++ P.table ++ P.params) := by
  have h := hF
  rw [front_eq] at h
  have := h.right
  rw [Nat.zero_add] at this
  exact this

theorem arr_at {P : Parts} {F : Bytes} (hF : At F 0 P.front) : At F (P.lexOff + 4) P.arr := by
  have h := (lex_at hF).left.left.left.right
  rw [leBytes_length] at h
  exact h

theorem table_at {P : Parts} {F : Bytes} (hF : At F 0 P.front) : At F (P.lexOff + 4 + P.arr.length + 4) P.table := by
  have h := (lex_at hF).left.right
  simp only [List.length_append, leBytes_length, ← Nat.add_assoc] at h
  exact h

theorem params_at {P : Parts} {F : Bytes} (hF : At F 0 P.front) : At F P.parStart P.params := by
  have h := (lex_at hF).right
  simp only [List.length_append, leBytes_length] at h
  have e : P.parStart = P.lexOff + (4 + P.arr.length + 4 + P.table.length) := by unfold parStart; omega
  rw [e]; exact h

theorem front_length (P : Parts) : P.front.length = P.parStart + P.params.length := by
  rw [front_eq]
  unfold parStart lexOff
  simp only [List.length_append, leBytes_length]
  omega

theorem params_length (P : Parts) : P.params.length = if P.db.entries = [] then 0 else 4 + 6 * P.db.entries.length := by
  unfold params
  split
  · rfl
  · simp only [List.length_append, leBytes_length, params_flat_length]

/-- The parameters of the words. -/
theorem words_at {P : Parts} {F : Bytes} (hF : At F 0 P.front) :
    At F (P.lexicon true).parOff (P.db.entries.flatMap (fun e => paramBytes e.params)) := by
  have h := params_at hF
  unfold params at h
  unfold lexicon lexiconIn
  dsimp only
  split at h
  · rename_i he
    rw [if_pos he, he]
    exact h
  · rename_i he
    rw [if_neg he]
    have := h.right
    rw [leBytes_length] at this
    exact this

end DictBuilder.Parts

theorem fromLe_le4 {n : Nat} (h : n < 4294967296) : fromLe (leBytes 4 n) = n := by
  rw [fromLe_leBytes]
  exact Nat.mod_eq_of_lt h

/-- Reading the lexicon part of a file that begins with the front part. -/
theorem lex_read_front {P : Parts} {D : Darts} {db0 : DictBuilder} {header : Header} {rows : List (List PStr)}
    {matrix : Option (PStr × List PStr)} {F : Bytes} (hB : P.Front D db0 header rows matrix) (hD : D.Ok) (hs : Bool)
    (hF : At F 0 P.front) (hE : P.db.entries = [] → F = P.file) :
    DALex.read F P.lexOff hs = .ok (P.lexiconIn F hs) := by
  have h4 := hD.units _ _ hB.trie
  have h1 := hB.trieSmall
  have h2 := hB.tableSmall
  have h3 := hB.count
  have hdiv : P.arr.length / 4 * 4 = P.arr.length := by omega
  have A0 := (Parts.lex_at hF).left.left.left.left
  have A1 := Parts.arr_at hF
  have A2 := (Parts.lex_at hF).left.left.right
  simp only [List.length_append, leBytes_length, ← Nat.add_assoc] at A2
  have A3 := Parts.table_at hF
  have A4 := Parts.params_at hF
  unfold DALex.read
  rw [A0.seek]
  simp only [bind, Except.bind]
  rw [A0.mRead' (n := 4) (leBytes_length _ _).symm]
  simp only [fromLe_le4 (show P.arr.length / 4 < 4294967296 by omega), hdiv]
  rw [A2.seek]
  simp only []
  rw [A2.mRead' (n := 4) (leBytes_length _ _).symm]
  simp only [fromLe_le4 (show P.table.length < 4294967296 by omega)]
  have e2 : P.lexOff + 4 + P.arr.length + (4 + P.table.length) = P.parStart := rfl
  rw [e2, A4.seek]
  simp only []
  rw [A1.slice, A3.slice]
  by_cases he : P.db.entries = []
  · have hFile := hE he
    subst hFile
    have hf : P.file = P.front := by unfold Parts.file; rw [if_pos he, List.append_nil]
    have hp : P.params = [] := by unfold Parts.params; rw [if_pos he]
    have hl : P.file.length = P.parStart := by rw [hf, P.front_length, hp]; rfl
    have hr : mRead P.file P.parStart 4 = ([], P.parStart) := by
      unfold mRead pySlice
      rw [hl]
      have : List.drop P.parStart (List.take (P.parStart + 4) P.file) = [] := by
        apply List.drop_of_length_le
        rw [List.length_take]; omega
      rw [this]
      congr 1
      omega
    rw [hr]
    simp only [fromLe, Nat.zero_mul, Nat.add_zero, Nat.mul_zero]
    have hsl : pySlice P.file P.parStart P.parStart = [] := by
      unfold pySlice
      apply List.drop_of_length_le
      rw [List.length_take]; omega
    rw [hsl]
    simp only [List.length_nil, Nat.zero_mod]
    rw [if_neg (by omega)]
    simp only [pure, Except.pure, Parts.lexiconIn, he, if_true, List.length_nil, Nat.mul_zero, Nat.add_zero]
  · have hp : P.params = leBytes 4 P.db.entries.length ++ P.db.entries.flatMap (fun e => paramBytes e.params) := by
      unfold Parts.params; rw [if_neg he]
    rw [hp] at A4
    rw [A4.left.mRead' (n := 4) (leBytes_length _ _).symm]
    simp only [fromLe_le4 (show P.db.entries.length < 4294967296 by omega)]
    have A5 := A4.right
    rw [leBytes_length] at A5
    rw [A5.slice' (by rw [params_flat_length]; omega), params_flat_length]
    rw [if_neg (by omega)]
    simp only [pure, Except.pure, Parts.lexiconIn, he, if_false]

theorem lex_read {P : Parts} {D : Darts} {db0 : DictBuilder} {header : Header} {rows : List (List PStr)}
    {matrix : Option (PStr × List PStr)} {F : Bytes} (hB : P.Built D db0 header rows matrix) (hD : D.Ok) (hs : Bool)
    (hF : At F 0 P.front) (hE : P.db.entries = [] → F = P.file) :
    DALex.read F P.lexOff hs = .ok (P.lexiconIn F hs) :=
  lex_read_front hB.toFront hD hs hF hE

/-- One of several pieces of the same length. -/
theorem At.flatMap {α : Type} {f : α → Bytes} {n : Nat} (hf : ∀ a, (f a).length = n) :
    ∀ {l : List α} {b : Bytes} {i w : Nat} {a : α}, At b i (l.flatMap f) → l[w]? = some a → At b (i + n * w) (f a)
  | [], _, _, _, _, _, h => by simp at h
  | x :: l, b, i, 0, a, hA, h => by
    simp only [List.getElem?_cons_zero, Option.some.injEq] at h
    subst h
    rw [List.flatMap_cons] at hA
    exact hA.left
  | x :: l, b, i, w + 1, a, hA, h => by
    simp only [List.getElem?_cons_succ] at h
    rw [List.flatMap_cons] at hA
    have := At.flatMap hf hA.right h
    rw [hf x] at this
    rw [show i + n * (w + 1) = i + n + n * w by rw [Nat.mul_add]; omega]
    exact this

theorem fromLeSigned_le2 {v : Int} (h1 : -32768 ≤ v) (h2 : v ≤ 32767) : fromLeSigned (leBytes 2 (v % 65536).toNat) = v := by
  obtain ⟨b, hb⟩ := writeInt_short_ok h1 h2
  have h3 := (writeInt_short_eq hb).1
  rw [← h3]
  exact (writeInt_short hb).2.2.1

theorem param_at {x : DALex} {k : Nat} {v : Int} (hk : 2 * k + 2 ≤ x.parLen)
    (hA : At x.bytes (x.parOff + 2 * k) (leBytes 2 (v % 65536).toNat)) (h1 : -32768 ≤ v) (h2 : v ≤ 32767) : x.param k = .ok v := by
  unfold DALex.param
  rw [if_pos hk, hA.slice' (by rw [leBytes_length]), fromLeSigned_le2 h1 h2]

theorem entryBytes_length : ∀ e : Entry, ((fun e : Entry => paramBytes e.params) e).length = 6 := fun e => paramBytes_length e.params

/-- The parameters of a word. -/
theorem lex_params_front {P : Parts} {D : Darts} {db0 : DictBuilder} {header : Header} {rows : List (List PStr)}
    {matrix : Option (PStr × List PStr)} (hB : P.Front D db0 header rows matrix) (hs : Bool) (w : Nat) (e : Entry)
    {F : Bytes} (hF : At F 0 P.front)
    (he : P.db.entries[w]? = some e) :
    (P.lexiconIn F hs).leftId w = .ok e.params.1 ∧ (P.lexiconIn F hs).rightId w = .ok e.params.2.1 ∧
      (P.lexiconIn F hs).cost w = .ok e.params.2.2 := by
  have hw : w < P.db.entries.length := (List.getElem?_eq_some_iff.1 he).1
  obtain ⟨p1, p2, p3⟩ := hB.params e (List.mem_of_getElem? he)
  have hW : At (P.lexiconIn F hs).bytes (P.lexiconIn F hs).parOff (P.db.entries.flatMap (fun e => paramBytes e.params)) := Parts.words_at hF
  have hpl : (P.lexiconIn F hs).parLen = 6 * P.db.entries.length := rfl
  generalize P.lexiconIn F hs = x at *
  have hA : At x.bytes (x.parOff + 6 * w) (paramBytes e.params) := At.flatMap entryBytes_length hW he
  unfold paramBytes at hA
  have A1 := hA.left.left
  have A2 := hA.left.right
  have A3 := hA.right
  simp only [List.length_append, leBytes_length] at A2 A3
  refine ⟨?_, ?_, ?_⟩
  · refine param_at (by omega) ?_ p1.1 p1.2
    rw [show 2 * (3 * w) = 6 * w by omega]
    exact A1
  · refine param_at (by omega) ?_ p2.1 p2.2
    rw [show x.parOff + 2 * (3 * w + 1) = x.parOff + 6 * w + 2 by omega]
    exact A2
  · refine param_at (by omega) ?_ p3.1 p3.2
    rw [show x.parOff + 2 * (3 * w + 2) = x.parOff + 6 * w + (2 + 2) by omega]
    exact A3

theorem lex_params_in {P : Parts} {D : Darts} {db0 : DictBuilder} {header : Header} {rows : List (List PStr)}
    {matrix : Option (PStr × List PStr)} (hB : P.Built D db0 header rows matrix) (hs : Bool) (w : Nat) (e : Entry)
    {F : Bytes} (hF : At F 0 P.front)
    (he : P.db.entries[w]? = some e) :
    (P.lexiconIn F hs).leftId w = .ok e.params.1 ∧ (P.lexiconIn F hs).rightId w = .ok e.params.2.1 ∧
      (P.lexiconIn F hs).cost w = .ok e.params.2.2 :=
  lex_params_front hB.toFront hs w e hF he

theorem lex_params {P : Parts} {D : Darts} {db0 : DictBuilder} {header : Header} {rows : List (List PStr)}
    {matrix : Option (PStr × List PStr)} (hB : P.Built D db0 header rows matrix) (hs : Bool) (w : Nat) (e : Entry)
    (he : P.db.entries[w]? = some e) :
    (P.lexicon hs).leftId w = .ok e.params.1 ∧ (P.lexicon hs).rightId w = .ok e.params.2.1 ∧
      (P.lexicon hs).cost w = .ok e.params.2.2 :=
  lex_params_in hB hs w e P.front_at he

/-- Where a word info is. -/
theorem offsetsOf_at : ∀ {infos : List Bytes} {tell w : Nat} {b x : Bytes}, infos[w]? = some x → At b tell infos.flatten →
    ∃ o, (offsetsOf tell infos)[w]? = some o ∧ At b o x ∧ tell ≤ o
  | [], _, _, _, _, h, _ => by simp at h
  | y :: ys, tell, 0, b, x, h, hA => by
    simp only [List.getElem?_cons_zero, Option.some.injEq] at h
    subst h
    rw [List.flatten_cons] at hA
    exact ⟨tell, rfl, hA.left, Nat.le_refl _⟩
  | y :: ys, tell, w + 1, b, x, h, hA => by
    simp only [List.getElem?_cons_succ] at h
    rw [List.flatten_cons] at hA
    obtain ⟨o, h1, h2, h3⟩ := offsetsOf_at h hA.right
    exact ⟨o, by simp only [offsetsOf, List.getElem?_cons_succ]; exact h1, h2, by omega⟩

/-- The word info of a word is where its offset says. -/
theorem lex_info {P : Parts} {D : Darts} {db0 : DictBuilder} {header : Header} {rows : List (List PStr)}
    {matrix : Option (PStr × List PStr)} (hB : P.Built D db0 header rows matrix) (hs : Bool) (w : Nat) (e : Entry)
    (he : P.db.entries[w]? = some e) :
    ∃ b, P.infos[w]? = some b ∧ At P.file ((P.lexicon hs).infoOffset w) b ∧ P.base ≤ (P.lexicon hs).infoOffset w := by
  have hw : w < P.db.entries.length := (List.getElem?_eq_some_iff.1 he).1
  have hne : P.db.entries ≠ [] := fun h => by rw [h] at hw; simp at hw
  have hil := hB.infosLength
  obtain ⟨b, hb⟩ : ∃ b, P.infos[w]? = some b := ⟨P.infos[w]'(by omega), List.getElem?_eq_getElem (by omega)⟩
  have hfl := P.front_length
  rw [P.params_length, if_neg hne] at hfl
  have hfile : P.file = P.front ++ (P.offs ++ List.replicate (P.base - P.front.length - P.offs.length) 0 ++ P.infos.flatten) := by
    unfold Parts.file; rw [if_neg hne]
  have hol : P.offs.length = 4 * P.infos.length := offsetsOf_bytes_length _ _
  have hge := front_ge P
  have hbase : P.base = P.front.length * 4 + P.db.entries.length := rfl
  have hAo : At P.file P.front.length P.offs :=
    ⟨P.front, List.replicate (P.base - P.front.length - P.offs.length) 0 ++ P.infos.flatten, by rw [hfile]; simp only [List.append_assoc], rfl⟩
  have hAi : At P.file P.base P.infos.flatten := by
    refine ⟨P.front ++ P.offs ++ List.replicate (P.base - P.front.length - P.offs.length) 0, [], ?_, ?_⟩
    · rw [hfile]; simp only [List.append_assoc, List.append_nil]
    · simp only [List.length_append, List.length_replicate]; omega
  obtain ⟨o, ho, hA, hob⟩ := offsetsOf_at hb hAi
  refine ⟨b, hb, ?_⟩
  have hAw := At.flatMap (f := leBytes 4) (fun a => leBytes_length 4 a) hAo ho
  have hinfo : (P.lexicon hs).infoOff = P.front.length := by
    rw [hfl]; unfold Parts.lexicon Parts.lexiconIn; rfl
  have : (P.lexicon hs).infoOffset w = o := by
    unfold DALex.infoOffset
    rw [hinfo]
    show fromLe (pySlice P.file _ _) = o
    rw [hAw.slice' (by rw [leBytes_length]), fromLe_le4]
    have := hB.offsets o (List.mem_of_getElem? ho)
    omega
  rw [this]
  exact ⟨hA, hob⟩

/-! ### Word-id table -/

theorem unpackU32_ok {ids : List Nat} {b view : Bytes} {i : Nat} (h : writeInts (ids.map Int.ofNat) = .ok b) (hA : At view i b) :
    unpackU32 view ids.length i = .ok ids := by
  induction ids generalizing b i with
  | nil =>
    unfold unpackU32
    have := hA.le
    simp only [List.length_nil]
    rw [if_pos (by omega)]
  | cons w ids ih =>
    simp only [List.map_cons] at h
    unfold writeInts at h
    obtain ⟨a, ha, h⟩ := bind_ok h
    obtain ⟨c, hc, h⟩ := bind_ok h
    cases h
    obtain ⟨h1, h2⟩ := writeInt_int_eq (v := w) ha
    have hl : a.length = 4 := by rw [h1, leBytes_length]
    have ih := ih hc hA.right
    rw [hl] at ih
    have hle := hA.left.le
    simp only [List.length_cons, unpackU32]
    rw [if_pos (by omega), ih]
    simp only [bind, Except.bind, pure, Except.pure]
    rw [hA.left.slice' (by omega), h1, fromLe_le4 (by omega)]

/-- A search in the word-id table after a search in the trie. -/
theorem lookupLoop_ok (x : DALex) (offset : Nat) (text : Bytes) {keys : List (Bytes × List Nat)} {tell : Nat} {t : Bytes}
    {kvs : List (Bytes × Nat)} (h : wordIdTable tell keys = .ok (t, kvs)) (hA : At x.widView tell t) :
    x.lookupLoop offset ((kvs.filter (fun kv => kv.1.isPrefixOf text)).map (fun kv => (kv.2, kv.1.length))) =
      .ok ((keys.filter (fun k => k.1.isPrefixOf text)).flatMap (fun k => k.2.map (fun w => (w, k.1.length + offset)))) := by
  induction keys generalizing tell t kvs with
  | nil => cases h; rfl
  | cons k keys ih =>
    obtain ⟨key, ids⟩ := k
    unfold wordIdTable at h
    obtain ⟨n, hn, h⟩ := bind_ok h
    obtain ⟨b, hb, h⟩ := bind_ok h
    obtain ⟨⟨t', kvs'⟩, ht, h⟩ := bind_ok h
    cases h
    obtain ⟨_, _, rfl⟩ := writeInt_byte hn
    simp only [Int.toNat_natCast] at hA ht ⊢
    have hA1 := hA.left
    have hA2 := hA.right
    simp only [List.length_append, ← Nat.add_assoc] at hA2
    have ih := ih ht hA2
    by_cases hp : key.isPrefixOf text = true
    · rw [List.filter_cons_of_pos (by simpa using hp), List.filter_cons_of_pos (by simpa using hp)]
      simp only [List.map_cons, List.flatMap_cons]
      unfold DALex.lookupLoop
      have hw : x.widGet tell = .ok ids := by
        unfold DALex.widGet
        have h1 : pyGet x.widView tell = .ok ids.length := by
          unfold pyGet
          rw [At.get (x := ids.length) (c := b) hA1]
        rw [h1]
        simp only [bind, Except.bind]
        exact unpackU32_ok hb (At.cons (x := ids.length) (c := b) hA1)
      rw [hw, ih]
      rfl
    · rw [List.filter_cons_of_neg (by simpa using hp), List.filter_cons_of_neg (by simpa using hp)]
      exact ih

theorem wordIdTable_keys {keys : List (Bytes × List Nat)} {tell : Nat} {t : Bytes} {kvs : List (Bytes × Nat)}
    (h : wordIdTable tell keys = .ok (t, kvs)) : kvs.map (·.1) = keys.map (·.1) := by
  induction keys generalizing tell t kvs with
  | nil => cases h; rfl
  | cons k keys ih =>
    obtain ⟨key, ids⟩ := k
    unfold wordIdTable at h
    obtain ⟨n, hn, h⟩ := bind_ok h
    obtain ⟨b, hb, h⟩ := bind_ok h
    obtain ⟨⟨t', kvs'⟩, ht, h⟩ := bind_ok h
    cases h
    simp only [List.map_cons, ih ht]

/-- The keys of a builder: sorted, not empty. -/
def KeysSorted (keys : List (Bytes × List Nat)) : Prop :=
  keys.Pairwise (fun a b => bytesLt a.1 b.1 = true) ∧ ∀ k ∈ keys, k.1 ≠ []

/-- A lookup in the lexicon of a built file. -/
theorem lex_lookup_front {P : Parts} {D : Darts} {db0 : DictBuilder} {header : Header} {rows : List (List PStr)}
    {matrix : Option (PStr × List PStr)} (hB : P.Front D db0 header rows matrix) (hD : D.Ok) (hs : Bool)
    {F : Bytes} (hF : At F 0 P.front)
    (hk : KeysSorted P.db.trieKeys) (text : Bytes) (offset : Nat) :
    (P.lexiconIn F hs).lookup D text offset =
      .ok ((P.db.trieKeys.filter (fun k => k.1.isPrefixOf (text.drop offset))).flatMap
        (fun k => k.2.map (fun w => (w, k.1.length + offset)))) := by
  have hv : (P.lexiconIn F hs).widView = P.table := by
    unfold DALex.widView
    exact (Parts.table_at hF).slice
  have hkeys := wordIdTable_keys hB.table
  have hsorted : SortedKeys P.kvs := by
    unfold SortedKeys
    have h1 : (P.kvs.map (·.1)).Pairwise (fun a b => bytesLt a b = true) := by
      rw [hkeys]
      exact List.pairwise_map.2 hk.1
    exact List.pairwise_map.1 h1
  have hne : ∀ kv ∈ P.kvs, kv.1 ≠ [] := by
    intro kv hkv
    have : kv.1 ∈ P.kvs.map (·.1) := List.mem_map_of_mem hkv
    rw [hkeys] at this
    obtain ⟨k, hk1, hk2⟩ := List.mem_map.1 this
    rw [← hk2]
    exact hk.2 k hk1
  unfold DALex.lookup
  have ht : (P.lexiconIn F hs).trie = P.arr := rfl
  rw [ht, hD.search _ _ _ hsorted hne hB.trie]
  refine lookupLoop_ok _ offset _ hB.table ?_
  rw [hv]
  exact At.whole _

theorem lex_lookup_in {P : Parts} {D : Darts} {db0 : DictBuilder} {header : Header} {rows : List (List PStr)}
    {matrix : Option (PStr × List PStr)} (hB : P.Built D db0 header rows matrix) (hD : D.Ok) (hs : Bool)
    {F : Bytes} (hF : At F 0 P.front)
    (hk : KeysSorted P.db.trieKeys) (text : Bytes) (offset : Nat) :
    (P.lexiconIn F hs).lookup D text offset =
      .ok ((P.db.trieKeys.filter (fun k => k.1.isPrefixOf (text.drop offset))).flatMap
        (fun k => k.2.map (fun w => (w, k.1.length + offset)))) :=
  lex_lookup_front hB.toFront hD hs hF hk text offset

theorem lex_lookup {P : Parts} {D : Darts} {db0 : DictBuilder} {header : Header} {rows : List (List PStr)}
    {matrix : Option (PStr × List PStr)} (hB : P.Built D db0 header rows matrix) (hD : D.Ok) (hs : Bool)
    (hk : KeysSorted P.db.trieKeys) (text : Bytes) (offset : Nat) :
    (P.lexicon hs).lookup D text offset =
      .ok ((P.db.trieKeys.filter (fun k => k.1.isPrefixOf (text.drop offset))).flatMap
        (fun k => k.2.map (fun w => (w, k.1.length + offset)))) :=
  lex_lookup_in hB hD hs P.front_at hk text offset

end Sudachi
