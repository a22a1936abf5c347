/-
What a compiled dictionary says about a row.
-/
import Verif.Lemmas.Costs
namespace Sudachi
open DictBuilder

/-- Everything about a compiled dictionary that the properties need. -/
structure Facts (D : Darts) (sys : Option SysDict) (header : Header) (rows : List (List PStr)) (matrix : Option (PStr × List PStr))
    (d : BinDict) (g : Grammar) : Prop where
  header : d.header = header
  grammar : d.grammar = some g
  matrix : MatrixSays g matrix
  size : d.lexicon.size = rows.length
  layout : d.lexicon.Layout
  small : 24 * rows.length < 2147483648
  rowsRead : ∀ w, w < rows.length → ∃ c, RowIs rows w c
  rowsOk : ∀ w c, RowIs rows w c → c.Ok
  left : ∀ w c, RowIs rows w c → d.lexicon.leftId w = pyInt c.left
  right : ∀ w c, RowIs rows w c → d.lexicon.rightId w = pyInt c.right
  cost : ∀ w c, RowIs rows w c → d.lexicon.cost w = pyInt c.cost
  infos : ∀ w c, RowIs rows w c → c.Fits → ∃ wi, getStoredInfo d.lexicon.bytes d.lexicon.hasSyn (d.lexicon.infoOffset w) = .ok wi ∧
    InfoOf sys rows (sysPos sys ++ g.posList) c wi ∧ wi.dictionaryForm = c.surface
  lookup : ∃ keys, KeysSorted keys ∧ (∀ kw ∈ keys, kw.2.Pairwise (· < ·)) ∧
    (∀ k v, Listed keys k v ↔ ∃ c, RowIs rows v c ∧ c.left ≠ [45, 49] ∧ c.headword.flatMap utf8Cp = k) ∧
    ∀ text offset, d.lexicon.lookup D text offset = .ok ((keys.filter (fun k => k.1.isPrefixOf (text.drop offset))).flatMap
      (fun k => k.2.map (fun w => (w, k.1.length + offset))))

theorem encodeUtf8_eq {s : PStr} (h : ∀ x ∈ s, encodable x = true) : encodeUtf8 s = .ok (s.flatMap utf8Cp) := by
  unfold encodeUtf8; rw [if_pos (List.all_eq_true.2 h)]

theorem compiled_facts {D : Darts} {sys : Option SysDict} {header : Header} {rows : List (List PStr)}
    {matrix : Option (PStr × List PStr)} {d : BinDict} (hD : D.Ok) (hS : SourceOk header rows matrix)
    (hC : Compiled D sys header rows matrix d) : ∃ g, Facts D sys header rows matrix d g := by
  obtain ⟨P, g, hB, rfl, g2, g3⟩ := hC.parts hS hD
  obtain ⟨r1, r2, r3, r4⟩ := rows_entries hB.rows
  have hpar : ∀ w c, RowIs rows w c → (P.lexicon true).leftId w = pyInt c.left ∧ (P.lexicon true).rightId w = pyInt c.right ∧
      (P.lexicon true).cost w = pyInt c.cost := by
    intro w c hc
    obtain ⟨_, e, p, he, hE, _⟩ := r4 w c hc
    obtain ⟨a, b, c'⟩ := lex_params hB true w e he
    exact ⟨by rw [a, hE.left], by rw [b, hE.right], by rw [c', hE.cost]⟩
  refine ⟨g, rfl, rfl, g3, r2, built_layout hB true, ?_, fun w hw => rows_read hB.rows hw, fun w c hc => (r4 w c hc).1,
    fun w c hc => (hpar w c hc).1, fun w c hc => (hpar w c hc).2.1, fun w c hc => (hpar w c hc).2.2, ?_, ?_⟩
  · by_cases h0 : P.db.entries = []
    · rw [h0] at r2; simp only [List.length_nil] at r2; omega
    · have hfl := P.front_length
      rw [P.params_length, if_neg h0] at hfl
      have hb : P.base = P.front.length * 4 + P.db.entries.length := rfl
      have : P.base ∈ offsetsOf P.base P.infos := by
        have hil := hB.infosLength
        cases hi : P.infos with
        | nil => rw [hi] at hil; exact (h0 (List.length_eq_zero_iff.1 hil.symm)).elim
        | cons x xs => unfold offsetsOf; exact List.mem_cons_self
      have := hB.offsets _ this
      omega
  · intro w c hc hf
    obtain ⟨e, p, x, y, z, he, hE, hP, hst, s1, s2, s3⟩ := info_built hB hS.pos w c hc hf
    refine ⟨e.stored x y z, hst, ?_, hE.surface⟩
    obtain ⟨row, hm, hrr⟩ := RowIs.mem hc
    have hpos := PosIs.get hP (by simp [Cols.pos]) (fun s hs => (hS.pos row hm c hrr s hs).2.1)
    rw [r1, ← g2] at hpos
    refine ⟨hE.surface, hE.headWordLength, ?_, ?_, hE.dicForm, ?_, s1, s2, s3, hE.synonyms⟩
    · show 0 ≤ e.info.posId ∧ _[e.info.posId.toNat]? = _
      rw [hE.posId]; exact hpos
    · show (if e.info.normalizedForm = [] then e.info.surface else e.info.normalizedForm) = _
      rw [hE.normalized, hE.surface]
    · show (if e.info.readingForm = [] then e.info.surface else e.info.readingForm) = _
      rw [hE.reading, hE.surface]
  · refine ⟨P.db.trieKeys, r3.sorted, r3.nodup, ?_, fun text offset => lex_lookup hB hD true r3.sorted text offset⟩
    intro k v
    rw [r3.listed]
    constructor
    · rintro ⟨e, h, he, hh, hk⟩
      have hlt : v < rows.length := by rw [← r2]; exact (List.getElem?_eq_some_iff.1 he).1
      obtain ⟨c, hc⟩ := rows_read hB.rows hlt
      obtain ⟨hok, e', p, he', hE, _⟩ := r4 v c hc
      rw [he] at he'
      cases he'
      have h1 := hE.headword
      rw [hh] at h1
      split at h1
      · cases h1
      · rename_i hl
        cases h1
        rw [encodeUtf8_eq hok.encodable] at hk
        cases hk
        exact ⟨c, hc, hl, rfl⟩
    · rintro ⟨c, hc, hl, rfl⟩
      obtain ⟨hok, e, p, he, hE, _⟩ := r4 v c hc
      have h1 := hE.headword
      rw [if_neg hl] at h1
      exact ⟨e, c.headword, he, h1, encodeUtf8_eq hok.encodable⟩

/-- The word info of a word that refers to no other. -/
theorem wordInfo_own {x : DALex} {w : Nat} {wi : WordInfo} (h : getStoredInfo x.bytes x.hasSyn (x.infoOffset w) = .ok wi)
    (hd : wi.dictionaryFormWordId < 0 ∨ wi.dictionaryFormWordId = w) (depth : Nat) : x.wordInfo (depth + 1) w = .ok wi := by
  unfold DALex.wordInfo
  rw [h]
  simp only [bind, Except.bind]
  rw [if_neg (by omega)]
  rfl

/-- The word info of a word that refers to another. -/
theorem wordInfo_other {x : DALex} {w v : Nat} {wi : WordInfo} (h : getStoredInfo x.bytes x.hasSyn (x.infoOffset w) = .ok wi)
    (hd : wi.dictionaryFormWordId = v) (hne : v ≠ w) (depth : Nat) :
    x.wordInfo (depth + 1) w = (x.wordInfo depth v).map (fun wi' => { wi with dictionaryForm := wi'.surface }) := by
  conv => lhs; unfold DALex.wordInfo
  rw [h]
  simp only [bind, Except.bind]
  rw [if_pos (by omega), hd, Int.toNat_natCast]
  cases x.wordInfo depth v <;> rfl

theorem dicForm_unique {c : Cols} {v v' : Int} (h : c.DicForm v) (h' : c.DicForm v') : v = v' := by
  rcases h with ⟨a, b⟩ | ⟨a, b⟩ <;> rcases h' with ⟨a', b'⟩ | ⟨a', b'⟩
  · rw [b, b']
  · exact (a' a).elim
  · exact (a a').elim
  · rw [b] at b'; cases b'; rfl

theorem rowIs_unique {rows : List (List PStr)} {w : Nat} {c c' : Cols} (h : RowIs rows w c) (h' : RowIs rows w c') : c = c' := by
  obtain ⟨r, h1, h2⟩ := h
  obtain ⟨r', h1', h2'⟩ := h'
  rw [h1] at h1'
  cases h1'
  unfold RowReads at h2 h2'
  rw [h2] at h2'
  injection h2' with hc
  cases c; cases c'
  simp only [Cols.list, List.cons.injEq] at hc
  obtain ⟨a0, a1, a2, a3, a4, a5, a6, a7, a8, a9, a10, a11, a12, a13, a14, a15, a16, a17, a18⟩ := hc
  subst a0 a1 a2 a3 a4 a5 a6 a7 a8 a9 a10 a11 a12 a13 a14 a15 a16 a17 a18
  rfl

/-- The stored info of a row, wherever the reading of the dictionary form ends. -/
theorem wordInfo_stored {x : DALex} {depth w : Nat} {wi info : WordInfo}
    (h : getStoredInfo x.bytes x.hasSyn (x.infoOffset w) = .ok wi) (hi : x.wordInfo depth w = .ok info) :
    info = { wi with dictionaryForm := info.dictionaryForm } := by
  cases depth with
  | zero => cases hi
  | succ depth =>
    unfold DALex.wordInfo at hi
    rw [h] at hi
    simp only [bind, Except.bind] at hi
    split at hi
    · split at hi
      · cases hi
      · cases hi; rfl
    · cases hi; rfl

theorem bytesLt_prefix {b r : Bytes} : bytesLt (b ++ r) b = false := by
  induction b with
  | nil => cases r <;> rfl
  | cons x b ih => simp only [List.cons_append, bytesLt, ih]; simp

theorem prefix_shorter {a b t : Bytes} (h : bytesLt a b = true) (ha : a.isPrefixOf t = true) (hb : b.isPrefixOf t = true) :
    a.length < b.length := by
  have ha := List.isPrefixOf_iff_prefix.1 ha
  have hb := List.isPrefixOf_iff_prefix.1 hb
  by_cases hl : b.length ≤ a.length
  · obtain ⟨r, rfl⟩ := List.prefix_of_prefix_length_le hb ha hl
    rw [bytesLt_prefix] at h
    cases h
  · omega

/-- The matches of a list of keys. -/
theorem matches_iff {keys : List (Bytes × List Nat)} (text : Bytes) (offset w e : Nat) :
    (w, e) ∈ (keys.filter (fun k => k.1.isPrefixOf (text.drop offset))).flatMap (fun k => k.2.map (fun w => (w, k.1.length + offset))) ↔
    ∃ k, Listed keys k w ∧ e = offset + k.length ∧ pySlice text offset e = k := by
  rw [List.mem_flatMap]
  constructor
  · rintro ⟨⟨k, ws⟩, hk, hm⟩
    obtain ⟨hk1, hk2⟩ := List.mem_filter.1 hk
    obtain ⟨v, hv, he⟩ := List.mem_map.1 hm
    injection he with e1 e2
    subst e1 e2
    obtain ⟨r, hr⟩ := List.isPrefixOf_iff_prefix.1 hk2
    refine ⟨k, ⟨ws, hk1, hv⟩, Nat.add_comm _ _, ?_⟩
    unfold pySlice
    rw [List.drop_take, ← hr, show k.length + offset - offset = k.length by omega, List.take_left]
  · rintro ⟨k, ⟨ws, h1, h2⟩, rfl, h4⟩
    refine ⟨(k, ws), List.mem_filter.2 ⟨h1, ?_⟩, List.mem_map.2 ⟨w, h2, by dsimp only; rw [Nat.add_comm]⟩⟩
    unfold pySlice at h4
    rw [List.drop_take, show offset + k.length - offset = k.length by omega] at h4
    apply List.isPrefixOf_iff_prefix.2
    dsimp only
    conv => lhs; rw [← h4]
    exact List.take_prefix _ _

/-- The matches are in order of length, then of id. -/
theorem matches_sorted {keys : List (Bytes × List Nat)} (hs : KeysSorted keys) (hn : ∀ kw ∈ keys, kw.2.Pairwise (· < ·))
    (text : Bytes) (offset : Nat) :
    ((keys.filter (fun k => k.1.isPrefixOf (text.drop offset))).flatMap (fun k => k.2.map (fun w => (w, k.1.length + offset)))).Pairwise
      (fun a b => a.2 < b.2 ∨ (a.2 = b.2 ∧ a.1 < b.1)) := by
  rw [List.pairwise_flatMap]
  constructor
  · intro k hk
    have := hn k (List.mem_filter.1 hk).1
    rw [List.pairwise_map]
    exact this.imp (fun h => .inr ⟨rfl, h⟩)
  · have h1 := hs.1.filter (fun k => k.1.isPrefixOf (text.drop offset))
    refine List.Pairwise.imp_of_mem ?_ h1
    intro a b ha hb hlt x hx y hy
    obtain ⟨v, _, rfl⟩ := List.mem_map.1 hx
    obtain ⟨v', _, rfl⟩ := List.mem_map.1 hy
    have := prefix_shorter hlt (List.mem_filter.1 ha).2 (List.mem_filter.1 hb).2
    left
    dsimp only
    omega

theorem ranges_writes (bs : List Bytes) (p : Nat) (r : List OutOp) :
    ∃ rs, writeRanges p (bs.map OutOp.write ++ r) = rs ++ writeRanges (p + bs.flatten.length) r ∧
      rs.Pairwise (fun a b => a.2 ≤ b.1 ∨ b.2 ≤ a.1) ∧ ∀ a ∈ rs, p ≤ a.1 ∧ a.2 ≤ p + bs.flatten.length := by
  induction bs generalizing p with
  | nil => exact ⟨[], by simp, .nil, by simp⟩
  | cons b bs ih =>
    obtain ⟨rs, h1, h2, h3⟩ := ih (p + b.length)
    refine ⟨(p, p + b.length) :: rs, ?_, ?_, ?_⟩
    · simp only [List.map_cons, List.cons_append, writeRanges, h1, List.flatten_cons, List.length_append, Nat.add_assoc]
    · refine .cons ?_ h2
      intro a ha
      have := h3 a ha
      dsimp only
      omega
    · intro a ha
      simp only [List.flatten_cons, List.length_append]
      rcases List.mem_cons.1 ha with rfl | ha
      · dsimp only; omega
      · have := h3 a ha; omega

theorem build_no_overlap {D : Darts} {db0 : DictBuilder} {header : Header} {rows : List (List PStr)} {matrix : Option (PStr × List PStr)}
    {ops : List OutOp} (h : db0.build D header rows matrix = (ops, .ok ())) : NoOverlap ops := by
  obtain ⟨P, hP, _, bs, hbs, rfl⟩ := build_calls h
  unfold NoOverlap
  obtain ⟨rs, h1, h2, h3⟩ := ranges_writes bs 0 ([.seek P.base] ++ (P.infos.map OutOp.write ++ [.seek P.front.length, .write P.offs]))
  obtain ⟨rs', h1', h2', h3'⟩ := ranges_writes P.infos P.base [.seek P.front.length, .write P.offs]
  rw [h1]
  simp only [List.cons_append, List.nil_append, writeRanges]
  rw [h1']
  simp only [writeRanges]
  rw [hbs] at h3
  have hlen : P.offs.length = 4 * P.infos.length := offsetsOf_bytes_length _ _
  have hge := front_ge P
  have hb : P.base = P.front.length * 4 + P.db.entries.length := rfl
  have hil := hP.infosLength
  refine List.pairwise_append.2 ⟨h2, List.pairwise_append.2 ⟨h2', List.pairwise_singleton _ _, ?_⟩, ?_⟩
  · intro a ha b hb'
    rw [List.mem_singleton] at hb'
    subst hb'
    have := h3' a ha
    dsimp only
    omega
  · intro a ha b hb'
    have := h3 a ha
    rcases List.mem_append.1 hb' with hb' | hb'
    · have := h3' b hb'
      omega
    · rw [List.mem_singleton] at hb'
      subst hb'
      dsimp only
      omega

theorem unitsLe_length : ∀ {b : Bytes} {us : List Nat}, unitsLe b = .ok us → b.length = 2 * us.length
  | [], us, h => by cases h; rfl
  | [_], us, h => by cases h
  | a :: b :: r, us, h => by
    unfold unitsLe at h
    obtain ⟨us', h1, h⟩ := bind_ok h
    cases h
    have := unitsLe_length h1
    simp only [List.length_cons]
    omega

theorem decodeUnits_length : ∀ {n : Nat} {us : List Nat} {s : PStr}, us.length ≤ n → decodeUnits us = .ok s → s.length ≤ us.length
  | _, [], s, _, h => by cases h; simp
  | 0, _ :: _, _, hn, _ => by simp at hn
  | n + 1, u :: us, s, hn, h => by
    unfold decodeUnits at h
    simp only [List.length_cons] at hn ⊢
    split at h
    · obtain ⟨r, h1, h⟩ := bind_ok h
      cases h
      have := decodeUnits_length (n := n) (by omega) h1
      simp only [List.length_cons]
      omega
    · cases us with
      | nil => cases h
      | cons v vs =>
        simp only at h
        split at h
        · obtain ⟨r, h1, h⟩ := bind_ok h
          cases h
          simp only [List.length_cons] at hn ⊢
          have := decodeUnits_length (n := n) (by omega) h1
          omega
        · cases h

theorem units_le (s : PStr) : units s ≤ 2 * s.length := by
  induction s with
  | nil => simp [units]
  | cons c cs ih =>
    have : (utf16Units c).length ≤ 2 := by unfold utf16Units; split <;> simp
    simp only [units, List.flatMap_cons, List.length_append, List.length_cons] at ih ⊢
    omega

/-- A string of more than 32767 units is read back shorter. -/
theorem getString_long {s : PStr} {w b : Bytes} {i : Nat} (h : writeString s = .ok w) (h1 : 32768 ≤ units s) (hA : At b i w) {s' : PStr}
    {k : Nat} (hg : getString b i = .ok (s', k)) : s' ≠ s := by
  have he : utf16Length s = units s := by
    unfold writeString at h
    obtain ⟨l, hl, h⟩ := bind_ok h
    obtain ⟨e, he, h⟩ := bind_ok h
    exact utf16Length_eq (encodeUtf16_ok he).1
  unfold writeString at h
  obtain ⟨l, hl, h⟩ := bind_ok h
  obtain ⟨e, _, h⟩ := bind_ok h
  cases h
  rw [he] at hl
  unfold writeStringLength at hl
  rw [if_neg (by omega)] at hl
  obtain ⟨x, hx, hl⟩ := bind_ok hl
  obtain ⟨y, hy, hl⟩ := bind_ok hl
  cases hl
  obtain ⟨_, hx2, rfl⟩ := writeInt_byte hx
  obtain ⟨_, _, rfl⟩ := writeInt_byte hy
  have hlt : units s < 65536 := by
    split at hx2 <;> omega
  rw [if_pos (by omega)] at hA
  have hA := hA.left
  unfold getString getStringLength at hg
  simp only [List.cons_append, List.nil_append, Int.toNat_natCast] at hA
  rw [hA.readByte] at hg
  simp only [bind, Except.bind] at hg
  rw [if_neg (by omega), hA.cons.readByte] at hg
  simp only [pure, Except.pure] at hg
  split at hg
  · cases hg
  · rename_i s'' hs
    cases hg
    unfold decodeUtf16Le at hs
    obtain ⟨us, hu, hs⟩ := bind_ok hs
    have e1 := unitsLe_length hu
    have e2 := decodeUnits_length (Nat.le_refl _) hs
    have e3 : (mRead b (i + 1 + 1) (2 * (units s / 256 % 128 * 256 + units s % 256))).1.length ≤
        2 * (units s / 256 % 128 * 256 + units s % 256) := by
      unfold mRead pySlice
      rw [List.length_drop, List.length_take]
      omega
    have e4 := units_le s
    intro heq
    subst heq
    omega

/-- A word whose surface has more than 32767 units is read back with another surface. -/
theorem stored_long {db db' : DictBuilder} {e : Entry} {w b : Bytes} {i : Nat} (h : db.wordInfoBytes e = .ok (w, db'))
    (h1 : 32768 ≤ units e.info.surface) (hA : At b i w) {hs : Bool} {wi : WordInfo} (hg : getStoredInfo b hs i = .ok wi) :
    wi.surface ≠ e.info.surface := by
  obtain ⟨s, hd, p, n, d, r, a', b', c', yb, x, y, z, db1, db2, g1, _, _, _, _, _, _, _, _, _, _, _, _, rfl⟩ :=
    DictBuilder.wordInfoBytes_ok h
  have hA := hA.left.left.left.left.left.left.left.left.left
  unfold getStoredInfo at hg
  rw [hA.seek] at hg
  obtain ⟨i0, hi0, hg⟩ := bind_ok hg
  cases hi0
  obtain ⟨⟨s', i1⟩, hs', hg⟩ := bind_ok hg
  have := getString_long g1 h1 hA hs'
  have hsurf : wi.surface = s' := by
    dsimp only at hg
    obtain ⟨⟨_, i2⟩, _, hg⟩ := bind_ok hg
    dsimp only at hg
    obtain ⟨⟨_, i3⟩, _, hg⟩ := bind_ok hg
    dsimp only at hg
    obtain ⟨⟨_, i4⟩, _, hg⟩ := bind_ok hg
    dsimp only at hg
    obtain ⟨⟨_, i5⟩, _, hg⟩ := bind_ok hg
    dsimp only at hg
    obtain ⟨⟨_, i6⟩, _, hg⟩ := bind_ok hg
    dsimp only at hg
    obtain ⟨⟨_, i7⟩, _, hg⟩ := bind_ok hg
    dsimp only at hg
    split at hg
    · obtain ⟨⟨_, i8⟩, _, hg⟩ := bind_ok hg
      cases hg
      rfl
    · cases hg
      rfl
  rw [hsurf]
  exact this

/-- The same for a compiled dictionary. -/
theorem compiled_long {D : Darts} {sys : Option SysDict} {header : Header} {rows : List (List PStr)}
    {matrix : Option (PStr × List PStr)} {d : BinDict} (hD : D.Ok) (hS : SourceOk header rows matrix)
    (hC : Compiled D sys header rows matrix d) {w : Nat} {c : Cols} (hc : RowIs rows w c) (h1 : 32768 ≤ units c.surface) {wi : WordInfo}
    (hg : getStoredInfo d.lexicon.bytes d.lexicon.hasSyn (d.lexicon.infoOffset w) = .ok wi) : wi.surface ≠ c.surface := by
  obtain ⟨P, g, hB, rfl, _⟩ := hC.parts hS hD
  obtain ⟨_, _, _, r4⟩ := rows_entries hB.rows
  obtain ⟨hok, e, p, he, hE, hP, _⟩ := r4 w c hc
  obtain ⟨b, hb, hA, _⟩ := lex_info hB true w e he
  obtain ⟨db1, db2, hS', hw⟩ := hB.infos w e b he hb
  rw [← hE.surface] at h1 ⊢
  exact stored_long hw h1 hA hg

/-- After any number of cost changes. -/
theorem history_layout {x y : DALex} (hL : x.Layout) (h : CostHistory x y) : y.Layout ∧ y.size = x.size := by
  induction h with
  | refl => exact ⟨hL, rfl⟩
  | step _ hs ih =>
    refine ⟨setCost_layout ih.1 hs, ?_⟩
    rw [(setCost_effect ih.1 hs).1]
    exact ih.2

theorem history_lookup {x y : DALex} (hL : x.Layout) (h : CostHistory x y) (D : Darts) (text : Bytes) (o : Nat) :
    y.lookup D text o = x.lookup D text o := by
  induction h with
  | refl => rfl
  | step h' hs ih => rw [setCost_lookup (history_layout hL h').1 hs, ih]

theorem history_stored {x y : DALex} (hL : x.Layout) (h : CostHistory x y) (v : Nat) (hv : v < x.size) :
    getStoredInfo y.bytes y.hasSyn (y.infoOffset v) = getStoredInfo x.bytes x.hasSyn (x.infoOffset v) := by
  induction h with
  | refl => rfl
  | step h' hs ih =>
    obtain ⟨l1, l2⟩ := history_layout hL h'
    rw [(setCost_wordInfo l1 hs v (by omega)).2, ih]

theorem history_ids {x y : DALex} (hL : x.Layout) (h : CostHistory x y) (v : Nat) :
    y.leftId v = x.leftId v ∧ y.rightId v = x.rightId v := by
  induction h with
  | refl => exact ⟨rfl, rfl⟩
  | step h' hs ih =>
    obtain ⟨l1, _⟩ := history_layout hL h'
    unfold DALex.leftId DALex.rightId at ih ⊢
    rw [setCost_param l1 hs, setCost_param l1 hs, if_neg (by omega), if_neg (by omega)]
    exact ih

theorem setCost_size {y : DALex} (hL : y.Layout) {w : Nat} {c : Int} :
    (w < y.size ∧ -32768 ≤ c ∧ c ≤ 32767 → ∃ z, y.setCost w c = .ok z) ∧
    (w < y.size ∧ ¬(-32768 ≤ c ∧ c ≤ 32767) → y.setCost w c = .error .value) ∧
    (y.size ≤ w → y.setCost w c = .error .index) := by
  have hp := hL.par
  refine ⟨fun h => setCost_accepts (by omega) h.2.1 h.2.2, fun h => ?_, fun h => ?_⟩
  · unfold DALex.setCost
    rw [if_pos (by omega)]
    have e : (2 : Int) ^ (8 * 2) = 65536 := by decide
    unfold toBytes
    simp only [if_true]
    rw [if_neg (by rw [e]; omega)]
  · unfold DALex.setCost
    rw [if_neg (by omega)]

theorem idxOf?_isSome {l : List (List PStr)} {a : List PStr} : (∃ i, l.idxOf? a = some i) ↔ a ∈ l := by
  constructor
  · rintro ⟨i, h⟩
    obtain ⟨h1, h2, _⟩ := List.idxOf?_eq_some_iff.1 h
    rw [← h2]
    exact List.getElem_mem h1
  · intro h
    cases hi : l.idxOf? a with
    | some i => exact ⟨i, rfl⟩
    | none => exact absurd h (List.idxOf?_eq_none_iff.1 hi)

theorem idxOf?_isSome' {l : List PStr} {a : PStr} : (∃ i, l.idxOf? a = some i) ↔ a ∈ l := by
  constructor
  · rintro ⟨i, h⟩
    obtain ⟨h1, h2, _⟩ := List.idxOf?_eq_some_iff.1 h
    rw [← h2]
    exact List.getElem_mem h1
  · intro h
    cases hi : l.idxOf? a with
    | some i => exact ⟨i, rfl⟩
    | none => exact absurd h (List.idxOf?_eq_none_iff.1 hi)

theorem getPosid_table {db : DictBuilder} {pos : List PStr} :
    (db.getPosid pos).2.posTable =
      if pos ∈ sysPos db.sys ∨ joinOn 44 pos ∈ db.posTable then db.posTable else db.posTable ++ [joinOn 44 pos] := by
  have base : (db.baseGetPosid pos).2.posTable = if joinOn 44 pos ∈ db.posTable then db.posTable else db.posTable ++ [joinOn 44 pos] := by
    unfold baseGetPosid
    split
    · rename_i i hi
      rw [if_pos (idxOf?_isSome'.1 ⟨i, hi⟩)]
    · rename_i hi
      rw [if_neg (List.idxOf?_eq_none_iff.1 hi)]
  unfold getPosid
  cases hs : db.sys with
  | none =>
    simp only [sysPos, List.not_mem_nil, false_or]
    exact base
  | some s =>
    dsimp only
    split
    · rename_i i hi
      have : pos ∈ sysPos (some s) := idxOf?_isSome.1 ⟨i, hi⟩
      simp only [this, true_or, if_true]
    · rename_i hi
      rw [base]
      have : pos ∉ sysPos (some s) := List.idxOf?_eq_none_iff.1 hi
      simp only [this, false_or]

theorem addRows_ownPos {sys : Option SysDict} {cs : List Cols} : ∀ {rows : List (List PStr)} {db db' : DictBuilder} {added : List (List PStr)},
    db.addRows rows = .ok db' → db.sys = sys → RowsRead rows cs → PosColumnsOk rows → db.posTable = added.map (joinOn 44) →
    (∀ p ∈ added, p ≠ [] ∧ ∀ s ∈ p, 44 ∉ s) → db'.posTable = (ownPos (sysPos sys) added (cs.map Cols.pos)).map (joinOn 44) := by
  induction cs with
  | nil =>
    intro rows db db' added h _ hr _ ht _
    have : rows = [] := List.length_eq_zero_iff.1 hr.1.symm
    subst this
    cases h
    exact ht
  | cons c cs ih =>
    intro rows db db' added h hs hr hp ht ha
    cases rows with
    | nil => cases hr.1
    | cons row rows =>
      unfold addRows at h
      obtain ⟨db1, h1, h⟩ := bind_ok h
      obtain ⟨dbp, e, hpl, hsys, hpos, _, hsame, _⟩ := addRow_ok h1
      obtain ⟨c', hr', _, _, hdb⟩ := parseLine_ok hpl
      obtain ⟨_, hrow, hrr⟩ := hr.2 0 c rfl
      cases hrow
      have : c' = c := rowIs_unique (rows := [row]) (w := 0) ⟨row, rfl, hr'⟩ ⟨row, rfl, hrr⟩
      subst this
      have hc : c'.pos ≠ [] ∧ ∀ s ∈ c'.pos, 44 ∉ s := ⟨by simp [Cols.pos], fun s hs => (hp row (by simp) c' hr' s hs).2.1⟩
      have hmem : joinOn 44 c'.pos ∈ db.posTable ↔ c'.pos ∈ added := by
        rw [ht, List.mem_map]
        constructor
        · rintro ⟨q, hq, he⟩
          have h1 := splitOn_joinOn (ha q hq).1 (ha q hq).2
          rw [he, splitOn_joinOn hc.1 hc.2] at h1
          rw [h1]
          exact hq
        · intro h
          exact ⟨_, h, rfl⟩
      rw [hdb, getPosid_table] at hpos
      have hrest : RowsRead rows cs := ⟨by have := hr.1; simpa using this, fun w c hw => by
        obtain ⟨r, h1, h2⟩ := hr.2 (w + 1) c (by simpa using hw)
        exact ⟨r, by simpa using h1, h2⟩⟩
      have hp' : PosColumnsOk rows := fun r hr => hp r (by simp [hr])
      rw [List.map_cons, ownPos]
      simp only [hmem, hs] at hpos
      split at hpos
      · rename_i hcond
        rw [if_pos hcond]
        exact ih h (by rw [hsys, hsame.sys, hs]) hrest hp' (by rw [hpos]; exact ht) ha
      · rename_i hcond
        rw [if_neg hcond]
        refine ih h (by rw [hsys, hsame.sys, hs]) hrest hp' (by rw [hpos, ht, List.map_append]; rfl) ?_
        intro p hp
        rcases List.mem_append.1 hp with hp | hp
        · exact ha p hp
        · rw [List.mem_singleton.1 hp]; exact hc

theorem ownPos_ok {known : List (List PStr)} {ps : List (List PStr)} : ∀ {added : List (List PStr)}, ∀ p ∈ ownPos known added ps, p ∈ added ∨ p ∈ ps := by
  induction ps with
  | nil => intro added p hp; exact .inl hp
  | cons q ps ih =>
    intro added p hp
    unfold ownPos at hp
    split at hp
    · rcases ih p hp with h | h
      · exact .inl h
      · exact .inr (by simp [h])
    · rcases ih p hp with h | h
      · rcases List.mem_append.1 h with h | h
        · exact .inl h
        · exact .inr (by simp [List.mem_singleton.1 h])
      · exact .inr (by simp [h])

/-- The parts of speech of a compiled dictionary. -/
theorem compiled_pos {D : Darts} {sys : Option SysDict} {header : Header} {rows : List (List PStr)}
    {matrix : Option (PStr × List PStr)} {d : BinDict} {g : Grammar} (hD : D.Ok) (hS : SourceOk header rows matrix)
    (hC : Compiled D sys header rows matrix d) (hg : d.grammar = some g) {cs : List Cols} (hr : RowsRead rows cs) :
    g.posList = ownPos (sysPos sys) [] (cs.map Cols.pos) := by
  obtain ⟨P, g', hB, rfl, g2, g3⟩ := hC.parts hS hD
  cases hg
  have := addRows_ownPos (sys := sys) (added := []) hB.rows rfl hr hS.pos rfl (by simp)
  rw [g2, this, List.map_map]
  conv => rhs; rw [← List.map_id (ownPos (sysPos sys) [] (cs.map Cols.pos))]
  apply List.map_congr_left
  intro p hp
  rcases ownPos_ok p hp with h | h
  · cases h
  · obtain ⟨c, hc, rfl⟩ := List.mem_map.1 h
    obtain ⟨w, hw⟩ := List.getElem?_of_mem hc
    obtain ⟨row, hm, hrr⟩ := RowIs.mem (hr.2 w c hw)
    exact splitOn_joinOn (by simp [Cols.pos]) (fun s hs => (hS.pos row hm c hrr s hs).2.1)

/-! Errors of `parse_line` -/

theorem pyInt_error {s : PStr} {x : Err} (h : pyInt s = .error x) : x = .value := by
  unfold pyInt at h
  split at h
  · cases h
  · cases h; rfl

theorem pyInts_error : ∀ {l : List PStr} {x : Err}, pyInts l = .error x → x = .value
  | [], _, h => by cases h
  | s :: ss, x, h => by
    unfold pyInts at h
    cases h1 : pyInt s with
    | error y => rw [h1] at h; cases h; exact pyInt_error h1
    | ok v =>
      rw [h1] at h
      cases h2 : pyInts ss with
      | error y =>
        simp only [h2, bind, Except.bind] at h
        cases h
        exact pyInts_error h2
      | ok vs => simp only [h2, bind, Except.bind, pure, Except.pure] at h; cases h

theorem bind_error {α β : Type} {m : Res α} {f : α → Res β} {x : Err} (h : (m >>= f) = .error x) :
    m = .error x ∨ ∃ a, m = .ok a ∧ f a = .error x := by
  cases m with
  | error y => cases h; exact .inl rfl
  | ok a => exact .inr ⟨a, rfl, h⟩

theorem parseCols_error {db : DictBuilder} {c : Cols} {x : Err} (henc : ∀ y ∈ c.headword, encodable y = true)
    (h : db.parseCols c.headword c.left c.right c.cost c.surface c.pos c.reading c.normalized c.dicForm c.mode c.aSplit c.bSplit
        c.structureSplit c.more = .error x) : x = .value := by
  have hchk : ∀ {s : PStr} {x : Err}, checkSplitinfo s = .error x → x = .value := by
    intro s x h
    unfold checkSplitinfo at h
    split at h
    · cases h; rfl
    · cases h
  unfold parseCols at h
  split at h
  · cases h; rfl
  rcases bind_error h with h | ⟨l, _, h⟩
  · exact pyInt_error h
  rcases bind_error h with h | ⟨r, _, h⟩
  · exact pyInt_error h
  rcases bind_error h with h | ⟨co, _, h⟩
  · exact pyInt_error h
  dsimp only at h
  split at h
  · cases h; rfl
  rcases bind_error h with h | ⟨_, _, h⟩
  · exact hchk h
  rcases bind_error h with h | ⟨_, _, h⟩
  · exact hchk h
  rcases bind_error h with h | ⟨_, _, h⟩
  · exact hchk h
  split at h
  · cases h; rfl
  rcases bind_error h with h | ⟨_, _, h⟩
  · unfold synOf at h
    split at h
    · cases h
    · unfold parseSynonyms at h
      split at h
      · cases h
      split at h
      · cases h; rfl
      · exact pyInts_error h
  rw [encodeUtf8_eq henc] at h
  rcases bind_error h with h | ⟨_, _, h⟩
  · cases h
  rcases bind_error h with h | ⟨_, _, h⟩
  · unfold dfwOf at h
    split at h
    · cases h
    · exact pyInt_error h
  · cases h

end Sudachi
