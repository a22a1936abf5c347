/-
Lemmas on files that are cut off.
-/
import Verif.Lemmas.Load
namespace Sudachi

/-- The first `n` bytes are the same. -/
structure AgreeTo (n : Nat) (b c : Bytes) : Prop where
  same : b.take n = c.take n
  left : n ≤ b.length
  right : n ≤ c.length

theorem AgreeTo.symm {n : Nat} {b c : Bytes} (h : AgreeTo n b c) : AgreeTo n c b := ⟨h.same.symm, h.right, h.left⟩

theorem AgreeTo.cut {n : Nat} {c : Bytes} (h : n ≤ c.length) : AgreeTo n (c.take n) c :=
  ⟨by rw [List.take_take, Nat.min_self], by rw [List.length_take]; omega, h⟩

theorem AgreeTo.slice {n : Nat} {b c : Bytes} (h : AgreeTo n b c) {i j : Nat} (hj : j ≤ n) : pySlice b i j = pySlice c i j := by
  unfold pySlice
  have : ∀ x : Bytes, x.take j = (x.take n).take j := fun x => by rw [List.take_take, Nat.min_eq_left hj]
  rw [this b, this c, h.same]

theorem AgreeTo.get {n : Nat} {b c : Bytes} (h : AgreeTo n b c) {i : Nat} (hi : i < n) : b[i]? = c[i]? := by
  have : ∀ x : Bytes, x[i]? = (x.take n)[i]? := fun x => by rw [List.getElem?_take, if_pos hi]
  rw [this b, this c, h.same]

theorem AgreeTo.read {n : Nat} {b c : Bytes} (h : AgreeTo n b c) {i k : Nat} (hk : i + k ≤ n) : mRead b i k = mRead c i k := by
  have h1 := h.left
  have h2 := h.right
  unfold mRead
  rw [h.slice hk]
  congr 1
  omega

/-- A read that ends before `n` is the same. -/
theorem AgreeTo.read_below {n : Nat} {b c : Bytes} (h : AgreeTo n b c) {i k : Nat} (hk : (mRead b i k).2 < n) : mRead b i k = mRead c i k ∧ i + k ≤ n := by
  have h1 := h.left
  have : i + k ≤ n := by
    unfold mRead at hk
    dsimp only at hk
    omega
  exact ⟨h.read this, this⟩

theorem mRead_mono (b : Bytes) (i k : Nat) : i ≤ (mRead b i k).2 := by
  unfold mRead
  dsimp only
  omega

theorem getPosString_mono {b : Bytes} {i j : Nat} {s : PStr} (h : getPosString b i = .ok (s, j)) : i ≤ j := by
  unfold getPosString at h
  obtain ⟨⟨l, i1⟩, h1, h⟩ := bind_ok h
  obtain ⟨s', _, h⟩ := bind_ok h
  cases h
  unfold mReadByte at h1
  split at h1
  · cases h1
    have := mRead_mono b (i + 1) (2 * l)
    dsimp only at *
    omega
  · cases h1

theorem getPosString_agree {n : Nat} {b c : Bytes} (ha : AgreeTo n b c) {i j : Nat} {s : PStr} (h : getPosString b i = .ok (s, j)) (hj : j < n) :
    getPosString c i = .ok (s, j) := by
  unfold getPosString at h ⊢
  obtain ⟨⟨l, i1⟩, h1, h⟩ := bind_ok h
  obtain ⟨s', h2, h⟩ := bind_ok h
  cases h
  have hm := mRead_mono b i1 (2 * l)
  have h1' : mReadByte c i = .ok (l, i1) := by
    have : i1 = i + 1 := by
      unfold mReadByte at h1
      split at h1
      · cases h1; rfl
      · cases h1
    unfold mReadByte at h1 ⊢
    rw [← ha.get (by omega)]
    exact h1
  obtain ⟨h3, _⟩ := ha.read_below hj
  rw [h1']
  show (decodeUtf16 (mRead c i1 (2 * l)).1 >>= _) = _
  rw [← h3, h2]
  rfl

theorem getPosStrings_mono {b : Bytes} {n : Nat} : ∀ {i j : Nat} {s : List PStr}, getPosStrings b n i = .ok (s, j) → i ≤ j := by
  induction n with
  | zero => intro i j s h; cases h; exact Nat.le_refl _
  | succ n ih =>
    intro i j s h
    obtain ⟨⟨s1, i1⟩, h1, h⟩ := bind_ok h
    obtain ⟨⟨s2, i2⟩, h2, h⟩ := bind_ok h
    cases h
    exact Nat.le_trans (getPosString_mono h1) (ih h2)

theorem getPosStrings_agree {n : Nat} {b c : Bytes} (ha : AgreeTo n b c) {m : Nat} : ∀ {i j : Nat} {s : List PStr},
    getPosStrings b m i = .ok (s, j) → j < n → getPosStrings c m i = .ok (s, j) := by
  induction m with
  | zero => intro i j s h _; exact h
  | succ m ih =>
    intro i j s h hj
    obtain ⟨⟨s1, i1⟩, h1, h⟩ := bind_ok h
    obtain ⟨⟨s2, i2⟩, h2, h⟩ := bind_ok h
    cases h
    have := getPosStrings_mono h2
    show (getPosString c i >>= _) = _
    rw [getPosString_agree ha h1 (by omega)]
    show (getPosStrings c m i1 >>= _) = _
    rw [ih h2 hj]
    rfl

theorem getPosList_mono {b : Bytes} {n : Nat} : ∀ {i j : Nat} {s : List (List PStr)}, getPosList b n i = .ok (s, j) → i ≤ j := by
  induction n with
  | zero => intro i j s h; cases h; exact Nat.le_refl _
  | succ n ih =>
    intro i j s h
    obtain ⟨⟨s1, i1⟩, h1, h⟩ := bind_ok h
    obtain ⟨⟨s2, i2⟩, h2, h⟩ := bind_ok h
    cases h
    exact Nat.le_trans (getPosStrings_mono h1) (ih h2)

theorem getPosList_agree {n : Nat} {b c : Bytes} (ha : AgreeTo n b c) {m : Nat} : ∀ {i j : Nat} {s : List (List PStr)},
    getPosList b m i = .ok (s, j) → j < n → getPosList c m i = .ok (s, j) := by
  induction m with
  | zero => intro i j s h _; exact h
  | succ m ih =>
    intro i j s h hj
    obtain ⟨⟨s1, i1⟩, h1, h⟩ := bind_ok h
    obtain ⟨⟨s2, i2⟩, h2, h⟩ := bind_ok h
    cases h
    have := getPosList_mono h2
    show (getPosStrings c 6 i >>= _) = _
    rw [getPosStrings_agree ha h1 (by omega)]
    show (getPosList c m i1 >>= _) = _
    rw [ih h2 hj]
    rfl

theorem mSeek_agree {n : Nat} {b c : Bytes} (ha : AgreeTo n b c) {i j : Nat} (h : mSeek b i = .ok j) (hi : i ≤ n) : mSeek c i = .ok j := by
  unfold mSeek at h ⊢
  have := ha.right
  rw [if_pos (by omega)]
  split at h
  · exact h
  · cases h

theorem mSeek_ok {b : Bytes} {i j : Nat} (h : mSeek b i = .ok j) : j = i ∧ i ≤ b.length := by
  unfold mSeek at h
  split at h
  · cases h; exact ⟨rfl, by assumption⟩
  · cases h

theorem grammar_agree {n : Nat} {b c : Bytes} (ha : AgreeTo n b c) {o : Nat} {g : Grammar} (h : Grammar.read b o = .ok g) (hn : o + g.storageSize < n) :
    Grammar.read c o = .ok g := by
  unfold Grammar.read at h
  obtain ⟨i0, h0, h⟩ := bind_ok h
  obtain ⟨rfl, _⟩ := mSeek_ok h0
  obtain ⟨⟨posList, i2⟩, h1, h⟩ := bind_ok h
  dsimp only [getShort] at h h1
  split at h
  · cases h
  · rename_i hlr
    obtain ⟨cells, h2, h⟩ := bind_ok h
    cases h
    dsimp only at hn
    have m1 := mRead_mono b i0 2
    have m2 := getPosList_mono h1
    have m3 := mRead_mono b i2 2
    have m4 := mRead_mono b (mRead b i2 2).2 2
    obtain ⟨e4, f4⟩ := ha.read_below (i := (mRead b i2 2).2) (k := 2) (by omega)
    obtain ⟨e3, f3⟩ := ha.read_below (i := i2) (k := 2) (by omega)
    obtain ⟨e1, f1⟩ := ha.read_below (i := i0) (k := 2) (by omega)
    unfold Grammar.read
    rw [mSeek_agree ha h0 (by omega)]
    show (getPosList c (getShort c i0).1.toNat (getShort c i0).2 >>= _) = _
    unfold getShort
    rw [← e1, getPosList_agree ha h1 (by omega)]
    show (if _ then _ else _) = _
    rw [← e3, ← e4, if_neg hlr]
    have h2' : castMatrix c (mRead b (mRead b i2 2).2 2).2 (fromLeSigned (mRead b i2 2).1).toNat
        (fromLeSigned (mRead b (mRead b i2 2).2 2).1).toNat = .ok cells := by
      rw [← h2]
      unfold castMatrix
      rw [ha.slice (by omega)]
    rw [h2']
    rfl

theorem descriptionLength_agree {n : Nat} {b c : Bytes} (ha : AgreeTo n b c) {m : Nat} : ∀ {i : Nat}, i + m ≤ n →
    descriptionLength b i m = descriptionLength c i m := by
  induction m with
  | zero => intro i _; rfl
  | succ m ih =>
    intro i hi
    unfold descriptionLength
    rw [ha.get (by omega), ih (by omega)]

theorem descriptionLength_le {b : Bytes} {m : Nat} : ∀ {i l : Nat}, descriptionLength b i m = .ok l → l ≤ m := by
  induction m with
  | zero => intro i l h; cases h; exact Nat.le_refl _
  | succ m ih =>
    intro i l h
    unfold descriptionLength at h
    split at h
    · cases h
    · cases h; omega
    · obtain ⟨l', h1, h⟩ := bind_ok h
      cases h
      have := ih h1
      omega

theorem header_agree {n : Nat} {b c : Bytes} (ha : AgreeTo n b c) (hn : HEADER_SIZE ≤ n) : Header.fromBytes b 0 = Header.fromBytes c 0 := by
  have h1 := ha.left
  have h2 := ha.right
  have hs : HEADER_SIZE = 272 := rfl
  have hd : DESCRIPTION_SIZE = 256 := rfl
  unfold Header.fromBytes
  rw [if_neg (by omega), if_neg (by omega), ha.slice (by omega), ha.slice (j := 0 + 16) (by omega), descriptionLength_agree ha (by omega)]
  cases hl : descriptionLength c (0 + 16) DESCRIPTION_SIZE with
  | error e => rfl
  | ok l =>
    have := descriptionLength_le hl
    dsimp only [bind, Except.bind]
    rw [ha.slice (by omega)]

/-- The lexicon of a file. -/
theorem dalex_iff {b : Bytes} {o : Nat} {syn : Bool} {x : DALex} : DALex.read b o syn = .ok x ↔
    ∃ size widSize, o + 4 + size * 4 + 4 + widSize ≤ b.length ∧ size = fromLe (pySlice b o (o + 4)) ∧
      widSize = fromLe (pySlice b (o + 4 + size * 4) (o + 4 + size * 4 + 4)) ∧
      ∃ o2, o2 = o + 4 + size * 4 + (4 + widSize) ∧ 
      (pySlice b (mRead b o2 4).2 ((mRead b o2 4).2 + fromLe (mRead b o2 4).1 * 6)).length % 2 = 0 ∧
      x = ⟨b, pySlice b (o + 4) (o + 4 + size * 4), o + 4 + size * 4 + 4, widSize, fromLe (mRead b o2 4).1, (mRead b o2 4).2,
        (pySlice b (mRead b o2 4).2 ((mRead b o2 4).2 + fromLe (mRead b o2 4).1 * 6)).length, o2 + (4 + 6 * fromLe (mRead b o2 4).1), syn⟩ := by
  have hwl : ∀ p q, p + q ≤ b.length → (pySlice b p (p + q)).length = q := by
    intro p q h
    unfold pySlice
    rw [List.length_drop, List.length_take]
    omega
  unfold DALex.read
  constructor
  · intro h
    obtain ⟨i0, h0, h⟩ := bind_ok h
    obtain ⟨rfl, _⟩ := mSeek_ok h0
    obtain ⟨i1, h1, h⟩ := bind_ok h
    obtain ⟨rfl, _⟩ := mSeek_ok h1
    obtain ⟨i2, h2, h⟩ := bind_ok h
    obtain ⟨rfl, hle⟩ := mSeek_ok h2
    dsimp only at h
    split at h
    · cases h
    · rename_i hp
      cases h
      refine ⟨_, _, ?_, rfl, rfl, _, rfl, ?_, ?_⟩
      · dsimp only [mRead] at hle
        omega
      · dsimp only [mRead] at hp ⊢
        omega
      · have := hwl (i0 + 4 + fromLe (mRead b i0 4).1 * 4 + 4) (fromLe (mRead b (i0 + 4 + fromLe (mRead b i0 4).1 * 4) 4).1) (by omega)
        rw [this]
        rfl
  · rintro ⟨size, widSize, hle, hs, hw, o2, rfl, hp, rfl⟩
    have e0 : mSeek b o = .ok o := by unfold mSeek; rw [if_pos (by omega)]
    have e1 : mSeek b (o + 4 + size * 4) = .ok (o + 4 + size * 4) := by unfold mSeek; rw [if_pos (by omega)]
    have e2 : mSeek b (o + 4 + size * 4 + (4 + widSize)) = .ok (o + 4 + size * 4 + (4 + widSize)) := by unfold mSeek; rw [if_pos (by omega)]
    rw [e0]
    dsimp only [bind, Except.bind]
    have es : fromLe (mRead b o 4).1 = size := hs.symm
    rw [es, e1]
    dsimp only
    have ew : fromLe (mRead b (o + 4 + size * 4) 4).1 = widSize := hw.symm
    rw [ew, e2]
    dsimp only
    rw [if_neg (by omega), hwl _ _ (by omega)]
    rfl

/-- The same, of a file with the same beginning. -/
theorem dalex_agree {n : Nat} {b c : Bytes} (ha : AgreeTo n b c) {o : Nat} {syn : Bool} {x : DALex} (h : DALex.read b o syn = .ok x)
    (hn : x.widOff + x.widLen ≤ n) (hp : ∀ p, p = x.widOff + x.widLen →
      (pySlice c (mRead c p 4).2 ((mRead c p 4).2 + fromLe (mRead c p 4).1 * 6)).length % 2 = 0) :
    ∃ y, DALex.read c o syn = .ok y ∧ y.trie = x.trie ∧ y.widOff = x.widOff ∧ y.widLen = x.widLen ∧
      y.parOff = (mRead c (x.widOff + x.widLen) 4).2 ∧ y.size = fromLe (mRead c (x.widOff + x.widLen) 4).1 ∧ y.bytes = c := by
  obtain ⟨size, widSize, h1, h2, h3, o2, rfl, h4, rfl⟩ := dalex_iff.mp h
  dsimp only at hn hp ⊢
  have e2 : o + 4 + size * 4 + (4 + widSize) = o + 4 + size * 4 + 4 + widSize := by omega
  refine ⟨_, dalex_iff.mpr ⟨size, widSize, ?_, ?_, ?_, _, rfl, ?_, rfl⟩, ?_, rfl, rfl, ?_, ?_, rfl⟩
  · have := ha.right; omega
  · rw [h2, ha.slice (by omega)]
  · rw [h3, ha.slice (by omega)]
  · exact hp _ e2
  · exact (ha.slice (by omega)).symm
  · dsimp only
    rw [e2]
  · dsimp only
    rw [e2]

/-- Where the lexicon of a dictionary begins. -/
def BinDict.lexiconOffset (d : BinDict) : Nat := HEADER_SIZE + (match d.grammar with | some g => g.storageSize | none => 0)

theorem readDictionary_iff {b : Bytes} {d : BinDict} : readDictionary b = .ok d ↔ b ≠ [] ∧ Header.fromBytes b 0 = .ok d.header ∧
    isDictionary d.header.version.toNat = true ∧
    (hasGrammar d.header.version.toNat = true → ∃ g, d.grammar = some g ∧ Grammar.read b HEADER_SIZE = .ok g) ∧
    (hasGrammar d.header.version.toNat = false → d.grammar = none) ∧
    DALex.read b d.lexiconOffset (hasSynonymGroupIds d.header.version.toNat) = .ok d.lexicon := by
  unfold readDictionary
  cases b with
  | nil => simp
  | cons x b =>
    rw [if_neg (by simp)]
    constructor
    · intro h
      obtain ⟨hd, h1, h⟩ := bind_ok h
      split at h
      · cases h
      · rename_i hv
        split at h
        · rename_i hg
          obtain ⟨g, h2, h⟩ := bind_ok h
          obtain ⟨lex, h3, h⟩ := bind_ok h
          cases h
          exact ⟨by simp, h1, by simpa using hv, fun _ => ⟨g, rfl, h2⟩, fun h => absurd hg (by simp at h ⊢; exact h), h3⟩
        · rename_i hg
          obtain ⟨lex, h3, h⟩ := bind_ok h
          cases h
          exact ⟨by simp, h1, by simpa using hv, fun h => absurd h hg, fun _ => rfl, h3⟩
    · rintro ⟨_, h1, h2, h3, h4, h5⟩
      obtain ⟨hd, gr, lex⟩ := d
      dsimp only at *
      rw [h1]
      dsimp only [bind, Except.bind]
      rw [if_neg (by rw [h2]; decide)]
      cases hg : hasGrammar hd.version.toNat with
      | true =>
        obtain ⟨g, rfl, h6⟩ := h3 hg
        rw [if_pos rfl, h6]
        dsimp only
        have : DALex.read (x :: b) (HEADER_SIZE + g.storageSize) (hasSynonymGroupIds hd.version.toNat) = .ok lex := h5
        rw [this]
        rfl
      | false =>
        cases h4 hg
        rw [if_neg (by simp)]
        have : DALex.read (x :: b) HEADER_SIZE (hasSynonymGroupIds hd.version.toNat) = .ok lex := h5
        rw [this]
        rfl

/-- A dictionary file with the same beginning, as far as the word-id table. -/
theorem dictionary_agree {n : Nat} {b c : Bytes} (ha : AgreeTo n b c) {d : BinDict} (h : readDictionary b = .ok d)
    (hn : d.lexicon.widOff + d.lexicon.widLen ≤ n) (hp : ∀ p, p = d.lexicon.widOff + d.lexicon.widLen →
      (pySlice c (mRead c p 4).2 ((mRead c p 4).2 + fromLe (mRead c p 4).1 * 6)).length % 2 = 0) :
    ∃ y, readDictionary c = .ok y ∧ y.header = d.header ∧ y.grammar = d.grammar ∧ y.lexicon.trie = d.lexicon.trie ∧
      y.lexicon.widOff = d.lexicon.widOff ∧ y.lexicon.widLen = d.lexicon.widLen ∧
      y.lexicon.parOff = (mRead c (d.lexicon.widOff + d.lexicon.widLen) 4).2 ∧
      y.lexicon.size = fromLe (mRead c (d.lexicon.widOff + d.lexicon.widLen) 4).1 ∧ y.lexicon.bytes = c := by
  obtain ⟨_, h1, h2, h3, h4, h5⟩ := readDictionary_iff.mp h
  obtain ⟨y, k1, k2, k3, k4, k5, k6, k7⟩ := dalex_agree ha h5 hn hp
  have hoff : d.lexiconOffset + 8 ≤ d.lexicon.widOff + d.lexicon.widLen := by
    obtain ⟨size, widSize, _, _, _, o2, _, _, hx⟩ := dalex_iff.mp h5
    rw [hx]
    dsimp only
    omega
  have hH : HEADER_SIZE ≤ d.lexiconOffset := by unfold BinDict.lexiconOffset; omega
  have hs : HEADER_SIZE = 272 := rfl
  refine ⟨⟨d.header, d.grammar, y⟩, readDictionary_iff.mpr ⟨?_, ?_, h2, ?_, h4, k1⟩, rfl, rfl, k2, k3, k4, k5, k6, k7⟩
  · intro hc
    have := ha.right
    rw [hc] at this
    simp at this
    omega
  · rw [← header_agree ha (by omega)]
    exact h1
  · intro hg
    obtain ⟨g, g1, g2⟩ := h3 hg
    refine ⟨g, g1, grammar_agree ha g2 ?_⟩
    unfold BinDict.lexiconOffset at hoff
    rw [g1] at hoff
    dsimp only at hoff
    omega

theorem dictionary_same {n : Nat} {b c : Bytes} (ha : AgreeTo n b c) {d y : BinDict} (h : readDictionary b = .ok d) (h' : readDictionary c = .ok y)
    (hn : d.lexicon.widOff + d.lexicon.widLen ≤ n) :
    y.header = d.header ∧ y.grammar = d.grammar ∧ y.lexicon.trie = d.lexicon.trie ∧
      y.lexicon.widOff = d.lexicon.widOff ∧ y.lexicon.widLen = d.lexicon.widLen := by
  obtain ⟨_, h1, h2, h3, h4, h5⟩ := readDictionary_iff.mp h
  obtain ⟨_, k1, k2, k3, k4, k5⟩ := readDictionary_iff.mp h'
  have hoff : d.lexiconOffset + 8 ≤ d.lexicon.widOff + d.lexicon.widLen := by
    obtain ⟨size, widSize, _, _, _, o2, _, _, hx⟩ := dalex_iff.mp h5
    rw [hx]
    dsimp only
    omega
  have hH : HEADER_SIZE ≤ d.lexiconOffset := by unfold BinDict.lexiconOffset; omega
  have e1 : y.header = d.header := by
    rw [← header_agree ha (by omega), h1] at k1
    exact (Except.ok.inj k1).symm
  have e2 : y.grammar = d.grammar := by
    rw [e1] at k3 k4
    cases hg : hasGrammar d.header.version.toNat with
    | true =>
      obtain ⟨g, g1, g2⟩ := h3 hg
      obtain ⟨g', g3, g4⟩ := k3 hg
      have := grammar_agree ha g2 (by
        unfold BinDict.lexiconOffset at hoff
        rw [g1] at hoff
        dsimp only at hoff
        omega)
      rw [g4] at this
      cases this
      rw [g1, g3]
    | false => rw [h4 hg, k4 hg]
  have e3 : y.lexiconOffset = d.lexiconOffset := by unfold BinDict.lexiconOffset; rw [e2]
  rw [e1, e3] at k5
  obtain ⟨size, widSize, a1, a2, a3, o2, rfl, _, hx⟩ := dalex_iff.mp h5
  obtain ⟨size', widSize', b1, b2, b3, o2', rfl, _, hy⟩ := dalex_iff.mp k5
  rw [hx] at hn
  dsimp only at hn
  have f1 : size' = size := by rw [a2, b2, ha.slice (by omega)]
  subst f1
  have f2 : widSize' = widSize := by rw [a3, b3, ha.slice (by omega)]
  subst f2
  rw [hx, hy]
  exact ⟨e1, e2, (ha.slice (by omega)).symm, rfl, rfl⟩

theorem lookup_congr {D : Darts} {x y : DALex} (h1 : y.trie = x.trie) (h2 : y.widView = x.widView) (text : Bytes) (offset : Nat) :
    y.lookup D text offset = x.lookup D text offset := by
  have : ∀ l, y.lookupLoop offset l = x.lookupLoop offset l := by
    intro l
    induction l with
    | nil => rfl
    | cons a l ih =>
      obtain ⟨i, len⟩ := a
      show (y.widGet i >>= _) = (x.widGet i >>= _)
      unfold DALex.widGet
      rw [h2, ih]
  unfold DALex.lookup
  rw [h1, this]

end Sudachi
