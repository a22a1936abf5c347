/-
Lemmas: rows, keys and references of a source that can be built.
-/
import Verif.Lemmas.Buildable
namespace Sudachi
open DictBuilder
namespace DictBuilder

/-- The key of an entry. -/
def headKey (e : Entry) : Option Bytes := e.headword.map (·.flatMap utf8Cp)

theorem addRow_accepts (db : DictBuilder) {row : List PStr} {c : Cols} (hr : RowReads row c) (hc : c.Ok) : ∃ db', db.addRow row = .ok db' := by
  obtain ⟨db1, e, h⟩ := parseLine_accepts db hr hc
  obtain ⟨c', hr', hc', hE, _⟩ := parseLine_ok h
  unfold addRow
  rw [h]
  show ∃ db', (match e.headword with
    | some h => (encodeUtf8 h).bind fun key => .ok { db1 with trieKeys := addKey key db1.entries.length db1.trieKeys, entries := db1.entries ++ [e] }
    | none => .ok { db1 with entries := db1.entries ++ [e] }) = .ok db'
  rw [hE.headword]
  by_cases hl : c'.left = [45, 49]
  · rw [if_pos hl]
    exact ⟨_, rfl⟩
  · rw [if_neg hl]
    dsimp only
    rw [encodeUtf8_eq hc'.encodable]
    exact ⟨_, rfl⟩

theorem addRows_accepts {rows : List (List PStr)} : ∀ (db : DictBuilder) {cs : List Cols}, RowsRead rows cs → (∀ c ∈ cs, c.Ok) →
    ∃ db', db.addRows rows = .ok db' := by
  induction rows with
  | nil => intro db cs _ _; exact ⟨db, rfl⟩
  | cons row rows ih =>
    intro db cs hr hc
    cases cs with
    | nil => cases hr.1
    | cons c cs =>
      obtain ⟨_, hrow, hrr⟩ := hr.2 0 c rfl
      cases hrow
      obtain ⟨db1, h1⟩ := addRow_accepts db hrr (hc c (by simp))
      have hrest : RowsRead rows cs := ⟨by have := hr.1; simpa using this, fun w c hw => by
        obtain ⟨r, h1, h2⟩ := hr.2 (w + 1) c (by simpa using hw)
        exact ⟨r, by simpa using h1, h2⟩⟩
      obtain ⟨db2, h2⟩ := ih db1 hrest (fun x hx => hc x (by simp [hx]))
      unfold addRows
      rw [h1]
      exact ⟨db2, h2⟩

/-- What a key has after another word was added. -/
theorem addKey_mem {key : Bytes} {w : Nat} {keys : List (Bytes × List Nat)} (hs : KeysSorted keys) : ∀ kw ∈ addKey key w keys,
    (kw.1 ≠ key ∧ kw ∈ keys) ∨
    (kw.1 = key ∧ ((∃ ws, (key, ws) ∈ keys ∧ kw.2.length = ws.length + 1) ∨ (kw.2.length = 1 ∧ ∀ x ∈ keys, x.1 ≠ key))) := by
  induction keys with
  | nil =>
    intro kw hk
    rw [addKey, List.mem_singleton] at hk
    subst hk
    exact .inr ⟨rfl, .inr ⟨rfl, fun x hx => by cases hx⟩⟩
  | cons x rest ih =>
    obtain ⟨k', ws⟩ := x
    obtain ⟨hp, hn⟩ := hs
    obtain ⟨hp1, hp2⟩ := List.pairwise_cons.1 hp
    have hs' : KeysSorted rest := ⟨hp2, fun k hk => hn k (List.mem_cons_of_mem _ hk)⟩
    intro kw hk
    unfold addKey at hk
    split at hk
    · rename_i hkk
      subst hkk
      rcases List.mem_cons.1 hk with rfl | hk
      · exact .inr ⟨rfl, .inl ⟨ws, by simp, by simp⟩⟩
      · left
        refine ⟨fun he => ?_, by simp [hk]⟩
        have := hp1 kw hk
        rw [he, bytesLt_irrefl] at this
        cases this
    · rename_i hkk
      split at hk
      · rename_i hlt
        have hno : ∀ y ∈ (k', ws) :: rest, y.1 ≠ key := by
          intro y hy he
          have : bytesLt key y.1 = true := by
            rcases List.mem_cons.1 hy with rfl | hy
            · exact hlt
            · exact bytesLt_trans hlt (hp1 y hy)
          rw [he, bytesLt_irrefl] at this
          cases this
        rcases List.mem_cons.1 hk with rfl | hk
        · exact .inr ⟨rfl, .inr ⟨rfl, hno⟩⟩
        · exact .inl ⟨hno kw hk, hk⟩
      · rcases List.mem_cons.1 hk with rfl | hk
        · exact .inl ⟨fun he => hkk he.symm, by simp⟩
        · rcases ih hs' kw hk with ⟨h1, h2⟩ | ⟨h1, ⟨v, h2, h3⟩ | ⟨h2, h3⟩⟩
          · exact .inl ⟨h1, by simp [h2]⟩
          · exact .inr ⟨h1, .inl ⟨v, by simp [h2], h3⟩⟩
          · refine .inr ⟨h1, .inr ⟨h2, ?_⟩⟩
            intro y hy
            rcases List.mem_cons.1 hy with rfl | hy
            · exact fun he => hkk he.symm
            · exact h3 y hy

/-- The size of the word-id table. -/
def tableSize (keys : List (Bytes × List Nat)) : Nat := (keys.map fun kw => 1 + 4 * kw.2.length).sum

theorem addKey_size (key : Bytes) (w : Nat) (keys : List (Bytes × List Nat)) : tableSize (addKey key w keys) ≤ tableSize keys + 5 := by
  induction keys with
  | nil => exact Nat.le_refl _
  | cons x rest ih =>
    obtain ⟨k', ws⟩ := x
    unfold addKey
    split
    · simp only [tableSize, List.map_cons, List.sum_cons, List.length_append, List.length_cons, List.length_nil]
      omega
    · split
      · simp only [tableSize, List.map_cons, List.sum_cons, List.length_cons, List.length_nil]
        omega
      · simp only [tableSize, List.map_cons, List.sum_cons] at ih ⊢
        omega

/-- The number of words of a key, and the size of the table. -/
structure KeysCount (entries : List Entry) (keys : List (Bytes × List Nat)) : Prop where
  count : ∀ kw ∈ keys, kw.2.length = entries.countP (fun e => decide (headKey e = some kw.1))
  size : tableSize keys ≤ 5 * entries.length
  clean : ∀ e ∈ entries, ∀ h, e.headword = some h → Clean h
  ne : ∀ kw ∈ keys, kw.2 ≠ []

theorem addRow_count {db db' : DictBuilder} {row : List PStr} (h : db.addRow row = .ok db') (hi : KeysInv db.entries db.trieKeys)
    (hc : KeysCount db.entries db.trieKeys) : KeysCount db'.entries db'.trieKeys := by
  obtain ⟨db1, e, hp, _, _, hent, _, hk⟩ := addRow_ok h
  rw [hent]
  rcases hk with ⟨he, hk⟩ | ⟨hw, k, he, hen, hk⟩
  · rw [hk]
    refine ⟨?_, ?_, ?_, ?_⟩
    · intro kw hkw
      rw [hc.count kw hkw, List.countP_append]
      simp [headKey, he]
    · have := hc.size
      rw [List.length_append]
      omega
    · intro x hx h' hh
      rcases List.mem_append.1 hx with hx | hx
      · exact hc.clean x hx h' hh
      · rw [List.mem_singleton.1 hx, he] at hh
        cases hh
    · exact hc.ne
  · rw [hk]
    have hkey : headKey e = some k := by
      unfold headKey
      rw [he, (encodeUtf8_ok hen).2]
      rfl
    refine ⟨?_, ?_, ?_, ?_⟩
    · intro kw hkw
      rw [List.countP_append, List.countP_singleton, hkey]
      rcases addKey_mem hi.sorted kw hkw with ⟨h1, h2⟩ | ⟨h1, ⟨v, h2, h3⟩ | ⟨h2, h3⟩⟩
      · rw [hc.count kw h2, if_neg (by simpa using fun he => h1 he.symm)]
        rfl
      · rw [h3, hc.count _ h2, h1, if_pos (by simp)]
      · rw [h2, h1, if_pos (by simp)]
        have : db.entries.countP (fun e => decide (headKey e = some k)) = 0 := by
          rw [List.countP_eq_zero]
          intro x hx hxk
          have hxk : headKey x = some k := by simpa using hxk
          obtain ⟨v, hv⟩ := List.getElem?_of_mem hx
          unfold headKey at hxk
          obtain ⟨h', e1, e2⟩ := Option.map_eq_some_iff.1 hxk
          obtain ⟨ws, g1, _⟩ := (hi.listed k v).2 ⟨x, h', hv, e1, by rw [encodeUtf8_eq (hc.clean x hx h' e1), e2]⟩
          exact h3 _ g1 rfl
        omega
    · have := hc.size
      have := addKey_size k db.entries.length db.trieKeys
      rw [List.length_append]
      simp only [List.length_cons, List.length_nil]
      omega
    · intro x hx h' hh
      rcases List.mem_append.1 hx with hx | hx
      · exact hc.clean x hx h' hh
      · rw [List.mem_singleton.1 hx, he] at hh
        cases hh
        exact (encodeUtf8_ok hen).1
    · intro kw hkw h0
      rcases addKey_mem hi.sorted kw hkw with ⟨_, h2⟩ | ⟨_, ⟨v, _, h3⟩ | ⟨h2, _⟩⟩
      · exact hc.ne kw h2 h0
      · rw [h0] at h3; simp at h3
      · rw [h0] at h2; simp at h2

theorem addRows_count {rows : List (List PStr)} : ∀ {db db' : DictBuilder}, db.addRows rows = .ok db' → KeysInv db.entries db.trieKeys →
    KeysCount db.entries db.trieKeys → KeysCount db'.entries db'.trieKeys := by
  induction rows with
  | nil => intro db db' h _ hc; cases h; exact hc
  | cons row rows ih =>
    intro db db' h hi hc
    unfold addRows at h
    obtain ⟨db1, h1, h⟩ := bind_ok h
    exact ih h (addRow_keys h1 hi) (addRow_count h1 hi hc)

theorem rows_count {sys : Option SysDict} {rows : List (List PStr)} {db : DictBuilder} (h : (init sys).addRows rows = .ok db) :
    KeysCount db.entries db.trieKeys :=
  addRows_count h KeysInv.nil ⟨fun _ hx => (by cases hx), Nat.le_refl _, fun _ hx => (by cases hx), fun _ hx => (by cases hx)⟩

theorem wordIdTable_iff {keys : List (Bytes × List Nat)} : ∀ {tell : Nat}, (∃ r, wordIdTable tell keys = .ok r) ↔
    ∀ kw ∈ keys, kw.2.length ≤ 255 ∧ ∀ w ∈ kw.2, w < 2147483648 := by
  induction keys with
  | nil => intro tell; exact ⟨fun _ _ hx => (by cases hx), fun _ => ⟨_, rfl⟩⟩
  | cons x rest ih =>
    obtain ⟨key, ids⟩ := x
    intro tell
    constructor
    · rintro ⟨r, h⟩
      unfold wordIdTable at h
      obtain ⟨n, hn, h⟩ := bind_ok h
      obtain ⟨b, hb, h⟩ := bind_ok h
      obtain ⟨t, ht, h⟩ := bind_ok h
      intro kw hkw
      rcases List.mem_cons.1 hkw with rfl | hkw
      · have h1 := (writeInt_byte hn).2.1
        have h2 := writeInts_iff.1 ⟨b, hb⟩
        refine ⟨by dsimp only; omega, ?_⟩
        intro w hw
        have := h2 (Int.ofNat w) (List.mem_map_of_mem hw)
        have := this.2
        simp only [Int.ofNat_eq_natCast] at this
        omega
      · exact ih.1 ⟨t, ht⟩ kw hkw
    · intro h
      obtain ⟨h1, h2⟩ := h (key, ids) (by simp)
      dsimp only at h1 h2
      obtain ⟨b, hb⟩ := (writeInts_iff (l := ids.map Int.ofNat)).2 (by
        intro v hv
        obtain ⟨w, hw, rfl⟩ := List.mem_map.1 hv
        have := h2 w hw
        unfold FitsInt
        simp only [Int.ofNat_eq_natCast]
        omega)
      unfold wordIdTable
      rw [writeInt_byte_ok (show ids.length < 256 by omega), hb]
      obtain ⟨⟨t, kvs⟩, ht⟩ := (ih (tell := tell + [ids.length].length + b.length)).2 (fun x hx => h x (by simp [hx]))
      simp only [bind, Except.bind]
      rw [ht]
      exact ⟨_, rfl⟩

theorem wordIdTable_len {keys : List (Bytes × List Nat)} : ∀ {tell : Nat} {t : Bytes} {kvs : List (Bytes × Nat)},
    wordIdTable tell keys = .ok (t, kvs) → t.length = tableSize keys := by
  induction keys with
  | nil => intro tell t kvs h; cases h; rfl
  | cons x rest ih =>
    obtain ⟨key, ids⟩ := x
    intro tell t kvs h
    unfold wordIdTable at h
    obtain ⟨n, hn, h⟩ := bind_ok h
    obtain ⟨b, hb, h⟩ := bind_ok h
    obtain ⟨⟨t', kvs'⟩, ht, h⟩ := bind_ok h
    cases h
    have h1 := ih ht
    obtain ⟨_, _, rfl⟩ := writeInt_byte hn
    have h2 := (writeInts_ok hb).1
    rw [List.length_map] at h2
    simp only [tableSize, List.map_cons, List.sum_cons, List.length_append, List.length_cons, List.length_nil] at h1 ⊢
    omega

/-! ### References -/

theorem setUserBit_lt {v : Nat} (h : v < 2 ^ 31) : setUserBit v < 2 ^ 31 := by
  unfold setUserBit
  split
  · exact h
  · omega

theorem setUserBit_le (v : Nat) : v ≤ setUserBit v := by
  unfold setUserBit
  split <;> omega

theorem parseId_iff {db : DictBuilder} {u : PStr} (hid : isId u = true) :
    (∃ w, db.parseId u = .ok w ∧ FitsInt w) ↔ NumberResolves db.sys db.entries.length u := by
  have hlead : ∀ v : Int, pyInt (if u.head? = some 85 then u.tail else u) = .ok v → 0 ≤ v := by
    intro v hv
    cases u with
    | nil => cases hid
    | cons c cs =>
      by_cases hc : c = 85
      · subst hc
        exact pyInt_digits (isId_tail hid) (by simpa using hv)
      · rw [if_neg (by simpa using hc)] at hv
        refine pyInt_digits ?_ hv
        unfold isId at hid
        split at hid
        · rename_i heq; cases heq; exact (hc rfl).elim
        · simp only [Bool.and_eq_true, Bool.not_eq_true'] at hid
          exact hid.1
  have hnum : db.idNumber u = (pyInt (if u.head? = some 85 then u.tail else u)).bind fun v =>
      .ok (if u.head? = some 85 ∧ db.sys.isSome then (setUserBit v.toNat : Int) else v) := by
    unfold idNumber
    split
    · rename_i r
      simp only [List.head?_cons, if_true, List.tail_cons, true_and]
      rfl
    · rename_i h
      have hh : u.head? ≠ some 85 := by
        intro he
        cases u with
        | nil => cases he
        | cons c cs => injection he with he; exact h cs (by rw [he])
      simp only [hh, if_false, false_and]
      cases pyInt u <;> rfl
  unfold parseId NumberResolves
  rw [hnum]
  cases hp : pyInt (if u.head? = some 85 then u.tail else u) with
  | error x =>
    constructor
    · rintro ⟨w, h, _⟩; cases h
    · rintro ⟨v, h, _⟩; cases h
  | ok v =>
    have hv0 := hlead v hp
    obtain ⟨k, rfl⟩ := Int.eq_ofNat_of_zero_le hv0
    simp only [Except.bind, bind, Except.ok.injEq, Int.toNat_natCast]
    have h1 := setUserBit_ge k
    have h2 := setUserBit_mod k
    have h3 := setUserBit_le k
    unfold checkWordid FitsInt
    cases hsys : db.sys with
    | none =>
      simp only [Option.isSome_none, Bool.false_eq_true, and_false, if_false]
      constructor
      · rintro ⟨w, h, h4⟩
        by_cases hx : (k : Int) < 0 ∨ (k : Int) ≥ db.entries.length
        · rw [if_pos hx] at h; cases h
        · rw [if_neg hx] at h
          cases h
          exact ⟨k, rfl, by omega, by omega⟩
      · rintro ⟨v, h, h4, h5⟩
        have : v = k := by omega
        subst this
        rw [if_neg (by omega)]
        exact ⟨_, rfl, by omega, by omega⟩
    | some s =>
      simp only [Option.isSome_some, and_true]
      by_cases hu : u.head? = some 85
      · simp only [hu, if_true, true_or]
        rw [if_pos (by omega)]
        constructor
        · rintro ⟨w, h, h4⟩
          by_cases hx : (setUserBit k : Int) % 2 ^ 28 ≥ db.entries.length
          · rw [if_pos hx] at h; cases h
          · rw [if_neg hx] at h
            cases h
            exact ⟨k, rfl, by omega, by omega⟩
        · rintro ⟨v, h, h4, h5⟩
          have : v = k := by omega
          subst this
          have := setUserBit_lt h4
          rw [if_neg (by omega)]
          exact ⟨_, rfl, by omega, by omega⟩
      · simp only [hu, if_false, false_or]
        by_cases hk : 2 ^ 28 ≤ k
        · rw [if_pos (by omega)]
          constructor
          · rintro ⟨w, h, h4⟩
            by_cases hx : (k : Int) % 2 ^ 28 ≥ db.entries.length
            · rw [if_pos hx] at h; cases h
            · rw [if_neg hx] at h
              cases h
              refine ⟨k, rfl, by omega, ?_⟩
              rw [if_pos hk]
              omega
          · rintro ⟨v, h, h4, h5⟩
            have : v = k := by omega
            subst this
            rw [if_pos hk] at h5
            rw [if_neg (by omega)]
            exact ⟨_, rfl, by omega, by omega⟩
        · rw [if_neg (by omega)]
          constructor
          · rintro ⟨w, h, h4⟩
            by_cases hx : (k : Int) < 0 ∨ (k : Int) ≥ s.size
            · rw [if_pos hx] at h; cases h
            · rw [if_neg hx] at h
              cases h
              refine ⟨k, rfl, by omega, ?_⟩
              rw [if_neg hk]
              omega
          · rintro ⟨v, h, h4, h5⟩
            have : v = k := by omega
            subst this
            rw [if_neg hk] at h5
            rw [if_neg (by omega)]
            exact ⟨_, rfl, by omega, by omega⟩

end DictBuilder
end Sudachi
