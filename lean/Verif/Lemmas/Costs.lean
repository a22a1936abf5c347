/-
Changing the costs in a loaded lexicon.
-/
import Verif.Lemmas.Splits
namespace Sudachi
open DictBuilder

/-- Two files of the same length that agree from position `j` on. -/
def AgreeFrom (j : Nat) (b b' : Bytes) : Prop := b'.length = b.length ∧ ∀ i, j ≤ i → b'[i]? = b[i]?

/-- Agreement outside of a range. -/
def AgreeBut (lo hi : Nat) (b b' : Bytes) : Prop := b'.length = b.length ∧ ∀ i, i < lo ∨ hi ≤ i → b'[i]? = b[i]?

theorem AgreeBut.from {lo hi : Nat} {b b' : Bytes} (h : AgreeBut lo hi b b') : AgreeFrom hi b b' :=
  ⟨h.1, fun i hi' => h.2 i (.inr hi')⟩

theorem pySlice_getElem? (b : Bytes) (i j k : Nat) : (pySlice b i j)[k]? = if i + k < j then b[i + k]? else none := by
  unfold pySlice
  rw [List.getElem?_drop, List.getElem?_take]

theorem pySlice_congr {b b' : Bytes} {i j : Nat} (h : ∀ k, i ≤ k → k < j → b'[k]? = b[k]?) : pySlice b' i j = pySlice b i j := by
  apply List.ext_getElem?
  intro k
  rw [pySlice_getElem?, pySlice_getElem?]
  split
  · exact h _ (by omega) (by omega)
  · rfl

theorem AgreeFrom.mRead {j : Nat} {b b' : Bytes} (h : AgreeFrom j b b') {i n : Nat} (hi : j ≤ i) : Sudachi.mRead b' i n = Sudachi.mRead b i n := by
  unfold Sudachi.mRead
  rw [pySlice_congr (fun k hk _ => h.2 k (by omega)), h.1]

theorem mRead_ge (b : Bytes) (i n : Nat) : i ≤ (mRead b i n).2 := by
  unfold mRead; dsimp only; omega

theorem AgreeFrom.readByte {j : Nat} {b b' : Bytes} (h : AgreeFrom j b b') {i : Nat} (hi : j ≤ i) : mReadByte b' i = mReadByte b i := by
  unfold mReadByte
  rw [h.2 i hi]

theorem mReadByte_ge {b : Bytes} {i x k : Nat} (h : mReadByte b i = .ok (x, k)) : i ≤ k := by
  unfold mReadByte at h
  split at h
  · cases h; omega
  · cases h

theorem bind_congr_ok {α β : Type} {a : Res α} {f g : α → Res β} (h : ∀ x, a = .ok x → f x = g x) : (a >>= f) = (a >>= g) := by
  cases a with
  | error e => rfl
  | ok x => exact h x rfl

theorem AgreeFrom.stringLength {j : Nat} {b b' : Bytes} (h : AgreeFrom j b b') {i : Nat} (hi : j ≤ i) :
    getStringLength b' i = getStringLength b i := by
  unfold getStringLength
  rw [h.readByte hi]
  apply bind_congr_ok
  rintro ⟨x, k⟩ hx
  have := mReadByte_ge hx
  dsimp only
  split
  · rfl
  · rw [h.readByte (by omega)]

theorem getStringLength_ge {b : Bytes} {i x k : Nat} (h : getStringLength b i = .ok (x, k)) : i ≤ k := by
  unfold getStringLength at h
  obtain ⟨⟨a, i1⟩, h1, h⟩ := bind_ok h
  have := mReadByte_ge h1
  dsimp only at h
  split at h
  · cases h; omega
  · obtain ⟨⟨a', i2⟩, h2, h⟩ := bind_ok h
    have := mReadByte_ge h2
    cases h
    omega

theorem AgreeFrom.string {j : Nat} {b b' : Bytes} (h : AgreeFrom j b b') {i : Nat} (hi : j ≤ i) : getString b' i = getString b i := by
  unfold getString
  rw [h.stringLength hi]
  apply bind_congr_ok
  rintro ⟨x, k⟩ hx
  have := getStringLength_ge hx
  dsimp only
  rw [h.mRead (by omega)]

theorem getString_ge {b : Bytes} {i k : Nat} {s : PStr} (h : getString b i = .ok (s, k)) : i ≤ k := by
  unfold getString at h
  obtain ⟨⟨a, i1⟩, h1, h⟩ := bind_ok h
  obtain ⟨s', _, h⟩ := bind_ok h
  cases h
  have := getStringLength_ge h1
  have := mRead_ge b i1 (2 * a)
  omega

theorem AgreeFrom.intArray {j : Nat} {b b' : Bytes} (h : AgreeFrom j b b') {i : Nat} (hi : j ≤ i) : getIntArray b' i = getIntArray b i := by
  unfold getIntArray
  rw [h.readByte hi]
  apply bind_congr_ok
  rintro ⟨x, k⟩ hx
  have := mReadByte_ge hx
  dsimp only
  rw [h.mRead (by omega)]

theorem getIntArray_ge {b : Bytes} {i k : Nat} {s : List Int} (h : getIntArray b i = .ok (s, k)) : i ≤ k := by
  unfold getIntArray at h
  obtain ⟨⟨a, i1⟩, h1, h⟩ := bind_ok h
  obtain ⟨s', _, h⟩ := bind_ok h
  cases h
  have := mReadByte_ge h1
  have := mRead_ge b i1 (4 * a)
  omega

/-- A stored word info depends only on what is after its start. -/
theorem AgreeFrom.stored {j : Nat} {b b' : Bytes} (h : AgreeFrom j b b') (hs : Bool) {i : Nat} (hi : j ≤ i) :
    getStoredInfo b' hs i = getStoredInfo b hs i := by
  unfold getStoredInfo
  unfold mSeek
  rw [h.1]
  apply bind_congr_ok
  intro i0 h0
  have h0 : i0 = i := by
    split at h0
    · injection h0 with h0; exact h0.symm
    · cases h0
  subst h0
  rw [h.string hi]
  apply bind_congr_ok
  rintro ⟨s, i1⟩ h1
  have g1 := getString_ge h1
  dsimp only
  rw [h.stringLength (by omega)]
  apply bind_congr_ok
  rintro ⟨l, i2⟩ h2
  have g2 := getStringLength_ge h2
  dsimp only
  have gm := mRead_ge b i2 2
  rw [h.mRead (i := i2) (n := 2) (by omega), h.string (i := (Sudachi.mRead b i2 2).2) (by omega)]
  apply bind_congr_ok
  rintro ⟨n, i3⟩ h3
  have g3 := getString_ge h3
  dsimp only
  have gm' := mRead_ge b i3 4
  rw [h.mRead (i := i3) (n := 4) (by omega), h.string (i := (Sudachi.mRead b i3 4).2) (by omega)]
  apply bind_congr_ok
  rintro ⟨r, i4⟩ h4
  have g4 := getString_ge h4
  dsimp only
  rw [h.intArray (by omega)]
  apply bind_congr_ok
  rintro ⟨a, i5⟩ h5
  have g5 := getIntArray_ge h5
  dsimp only
  rw [h.intArray (by omega)]
  apply bind_congr_ok
  rintro ⟨bb, i6⟩ h6
  have g6 := getIntArray_ge h6
  dsimp only
  rw [h.intArray (by omega)]
  apply bind_congr_ok
  rintro ⟨ws, i7⟩ h7
  have g7 := getIntArray_ge h7
  dsimp only
  split
  · rw [h.intArray (by omega)]
  · rfl

/-- The parts of a lexicon are in order: word-id table, word parameters, word-info offsets, and the word infos of its words
after the parameters. -/
structure DALex.Layout (x : DALex) : Prop where
  wid : x.widOff + x.widLen ≤ x.parOff
  par : x.parLen = 6 * x.size
  inside : x.parOff + x.parLen ≤ x.bytes.length
  offs : x.parOff + x.parLen ≤ x.infoOff
  infos : ∀ w, w < x.size → x.parOff + x.parLen ≤ x.infoOffset w

theorem built_layout {P : Parts} {D : Darts} {db0 : DictBuilder} {header : Header} {rows : List (List PStr)}
    {matrix : Option (PStr × List PStr)} (hB : P.Built D db0 header rows matrix) (hs : Bool) : (P.lexicon hs).Layout := by
  have hW : At P.file (P.lexicon hs).parOff (P.db.entries.flatMap (fun e => paramBytes e.params)) := Parts.words_at P.front_at
  have hle := hW.le
  rw [params_flat_length] at hle
  have e1 : (P.lexicon hs).parLen = 6 * P.db.entries.length := rfl
  have e2 : (P.lexicon hs).size = P.db.entries.length := rfl
  have e3 : (P.lexicon hs).infoOff = P.parStart + (4 + 6 * P.db.entries.length) := rfl
  have e4 : (P.lexicon hs).parOff = P.parStart + (if P.db.entries = [] then 0 else 4) := rfl
  have e5 : (P.lexicon hs).widOff + (P.lexicon hs).widLen = P.parStart := by
    show P.lexOff + 4 + P.arr.length + 4 + P.table.length = P.lexOff + 4 + P.arr.length + (4 + P.table.length)
    omega
  refine ⟨by omega, by omega, by show _ ≤ P.file.length; omega, by split at e4 <;> omega, ?_⟩
  intro w hw
  rw [e2] at hw
  obtain ⟨b, _, _, hb⟩ := lex_info hB hs w P.db.entries[w] (List.getElem?_eq_getElem hw)
  have hne : P.db.entries ≠ [] := fun h => by rw [h] at hw; simp at hw
  have hfl := P.front_length
  rw [P.params_length, if_neg hne] at hfl
  rw [if_neg hne] at e4
  have : P.base = P.front.length * 4 + P.db.entries.length := rfl
  omega

theorem DALex.setCost_ok {x y : DALex} {w : Nat} {c : Int} (h : x.setCost w c = .ok y) :
    2 * (3 * w + 2) + 2 ≤ x.parLen ∧ -32768 ≤ c ∧ c ≤ 32767 ∧
    y = { x with bytes := x.bytes.take (x.parOff + 2 * (3 * w + 2)) ++ leBytes 2 (c % 65536).toNat ++
      x.bytes.drop (x.parOff + 2 * (3 * w + 2) + 2) } := by
  unfold DALex.setCost at h
  split at h
  · rename_i hl
    split at h
    · rename_i b hb
      cases h
      unfold toBytes at hb
      simp only [if_true] at hb
      split at hb
      · rename_i hr
        cases hb
        have e : (2 : Int) ^ (8 * 2) = 65536 := by decide
        rw [e] at hr
        rw [e]
        exact ⟨hl, by omega, by omega, rfl⟩
      · cases hb
    · cases h
  · cases h

theorem setCost_accepts {x : DALex} {w : Nat} {c : Int} (hw : 2 * (3 * w + 2) + 2 ≤ x.parLen) (h1 : -32768 ≤ c) (h2 : c ≤ 32767) :
    ∃ y, x.setCost w c = .ok y := by
  unfold DALex.setCost
  rw [if_pos hw]
  have e : (2 : Int) ^ (8 * 2) = 65536 := by decide
  unfold toBytes
  simp only [if_true]
  rw [if_pos (by rw [e]; omega)]
  exact ⟨_, rfl⟩

theorem patch_at {b c : Bytes} {p : Nat} (h : p + c.length ≤ b.length) : At (b.take p ++ c ++ b.drop (p + c.length)) p c :=
  ⟨b.take p, b.drop (p + c.length), rfl, by rw [List.length_take]; omega⟩

theorem patch_agree {b c : Bytes} {p : Nat} (h : p + c.length ≤ b.length) :
    AgreeBut p (p + c.length) b (b.take p ++ c ++ b.drop (p + c.length)) := by
  constructor
  · simp only [List.length_append, List.length_take, List.length_drop]; omega
  · intro i hi
    rw [List.getElem?_append]
    split
    · rename_i hlt
      rw [List.getElem?_append]
      split
      · rw [List.getElem?_take]
        split
        · rfl
        · rename_i h1 h2; rw [List.length_take] at h1; omega
      · rename_i h1
        simp only [List.length_append, List.length_take] at hlt h1
        omega
    · rename_i hge
      simp only [List.length_append, List.length_take] at hge
      rw [List.getElem?_drop]
      congr 1
      simp only [List.length_append, List.length_take]
      omega

/-- The effect of `set_cost`. -/
theorem setCost_effect {x y : DALex} (hL : x.Layout) {w : Nat} {c : Int} (h : x.setCost w c = .ok y) :
    y = { x with bytes := y.bytes } ∧ AgreeBut (x.parOff + 2 * (3 * w + 2)) (x.parOff + 2 * (3 * w + 2) + 2) x.bytes y.bytes ∧
      At y.bytes (x.parOff + 2 * (3 * w + 2)) (leBytes 2 (c % 65536).toNat) := by
  obtain ⟨h1, h2, h3, rfl⟩ := DALex.setCost_ok h
  have hin := hL.inside
  refine ⟨rfl, ?_, ?_⟩
  · exact patch_agree (c := leBytes 2 (c % 65536).toNat) (by rw [leBytes_length]; omega)
  · have := patch_at (b := x.bytes) (c := leBytes 2 (c % 65536).toNat) (p := x.parOff + 2 * (3 * w + 2)) (by rw [leBytes_length]; omega)
    rw [leBytes_length] at this
    exact this

theorem setCost_layout {x y : DALex} (hL : x.Layout) {w : Nat} {c : Int} (h : x.setCost w c = .ok y) : y.Layout := by
  obtain ⟨h0, _⟩ := DALex.setCost_ok h
  obtain ⟨h1, h2, _⟩ := setCost_effect hL h
  have hof := hL.offs
  rw [h1]
  refine ⟨hL.wid, hL.par, by show _ ≤ y.bytes.length; rw [h2.1]; exact hL.inside, hL.offs, ?_⟩
  intro v hv
  have := hL.infos v hv
  have e : DALex.infoOffset { x with bytes := y.bytes } v = x.infoOffset v := by
    unfold DALex.infoOffset
    dsimp only
    rw [pySlice_congr (fun k hk _ => h2.2 k (.inr (by omega)))]
  rw [e]
  exact this

/-- Word ids and matches do not change. -/
theorem setCost_lookup {x y : DALex} (hL : x.Layout) {w : Nat} {c : Int} (h : x.setCost w c = .ok y) (D : Darts) (text : Bytes) (o : Nat) :
    y.lookup D text o = x.lookup D text o := by
  obtain ⟨h1, h2, _⟩ := setCost_effect hL h
  have hw := hL.wid
  have hv : y.widView = x.widView := by
    rw [h1]
    unfold DALex.widView
    dsimp only
    exact pySlice_congr (fun k _ hk => h2.2 k (.inl (by omega)))
  have hg : ∀ i, y.widGet i = x.widGet i := by
    intro i; unfold DALex.widGet; rw [hv]
  have ht : y.trie = x.trie := by rw [h1]
  have hl : ∀ ms, y.lookupLoop o ms = x.lookupLoop o ms := by
    intro ms
    induction ms with
    | nil => rfl
    | cons m ms ih =>
      obtain ⟨a, b⟩ := m
      unfold DALex.lookupLoop
      rw [hg, ih]
  unfold DALex.lookup
  rw [ht, hl]

/-- Word infos do not change. -/
theorem setCost_wordInfo {x y : DALex} (hL : x.Layout) {w : Nat} {c : Int} (h : x.setCost w c = .ok y)  (v : Nat)
    (hv : v < x.size) : y.infoOffset v = x.infoOffset v ∧
      getStoredInfo y.bytes y.hasSyn (y.infoOffset v) = getStoredInfo x.bytes x.hasSyn (x.infoOffset v) := by
  obtain ⟨h0, _⟩ := DALex.setCost_ok h
  obtain ⟨h1, h2, _⟩ := setCost_effect hL h
  have hof := hL.offs
  have hi := hL.infos v hv
  have e : y.infoOffset v = x.infoOffset v := by
    rw [h1]
    unfold DALex.infoOffset
    dsimp only
    rw [pySlice_congr (fun k hk _ => h2.2 k (.inr (by omega)))]
  refine ⟨e, ?_⟩
  rw [e]
  have hs : y.hasSyn = x.hasSyn := by rw [h1]
  rw [hs]
  exact h2.from.stored _ (by omega)

/-- Parameters other than the one set do not change. -/
theorem setCost_param {x y : DALex} (hL : x.Layout) {w : Nat} {c : Int} (h : x.setCost w c = .ok y) (k : Nat) :
    y.param k = if k = 3 * w + 2 then .ok c else x.param k := by
  obtain ⟨h0, hc1, hc2, _⟩ := DALex.setCost_ok h
  obtain ⟨h1, h2, h3⟩ := setCost_effect hL h
  split
  · rename_i hk
    subst hk
    have e1 : y.parLen = x.parLen := by rw [h1]
    have e2 : y.parOff = x.parOff := by rw [h1]
    exact param_at (by omega) (by rw [e2]; exact h3) hc1 hc2
  · rename_i hk
    rw [h1]
    unfold DALex.param
    dsimp only
    split
    · rw [pySlice_congr (fun j hj hj' => h2.2 j (by omega))]
    · rfl

end Sudachi
