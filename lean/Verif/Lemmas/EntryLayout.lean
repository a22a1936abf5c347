/-
Lemmas on the format of entries.
-/
import Verif.Spec.EntryLayout
import Verif.Lemmas.FileLayout3
namespace Sudachi

theorem mReadByte_some {b : Bytes} {i x : Nat} (h : b[i]? = some x) : mReadByte b i = .ok (x, i + 1) := by unfold mReadByte; rw [h]
theorem mReadByte_none {b : Bytes} {i : Nat} (h : b[i]? = none) : mReadByte b i = .error .value := by unfold mReadByte; rw [h]

/-! ### Lengths -/

theorem getStringLength_cases {b : Bytes} (hb : Octets b) (i : Nat) :
    (NoLength b i ∧ getStringLength b i = .error .value) ∨ (∃ n k, LengthAt b i n k ∧ k ≤ b.length ∧ getStringLength b i = .ok (n, k)) := by
  have e : getStringLength b i = (mReadByte b i).bind fun p => if p.1 < 128 then .ok (p.1, p.2) else
      (mReadByte b p.2).bind fun q => .ok (p.1 % 128 * 256 + q.1, q.2) := rfl
  rw [e]
  cases h : b[i]? with
  | none => rw [mReadByte_none h]; exact .inl ⟨.inl h, rfl⟩
  | some x =>
    have hx := octets_get hb h
    have hl := (List.getElem?_eq_some_iff.1 h).1
    rw [mReadByte_some h]
    show (_ ∧ (if x < 128 then _ else (mReadByte b (i + 1)).bind _) = _) ∨ (∃ n k, _ ∧ _ ∧ (if x < 128 then _ else (mReadByte b (i + 1)).bind _) = _)
    by_cases h1 : x < 128
    · rw [if_pos h1]
      exact .inr ⟨x, i + 1, .one x h h1, hl, rfl⟩
    · rw [if_neg h1]
      have h' : b[i]? = some (128 + (x - 128)) := by rw [h, show 128 + (x - 128) = x by omega]
      cases h2 : b[i + 1]? with
      | none => rw [mReadByte_none h2]; exact .inl ⟨.inr ⟨x - 128, h', h2⟩, rfl⟩
      | some l =>
        rw [mReadByte_some h2]
        refine .inr ⟨(x - 128) * 256 + l, i + 2, .two _ _ h' h2, (List.getElem?_eq_some_iff.1 h2).1, ?_⟩
        show Except.ok (x % 128 * 256 + l, i + 1 + 1) = _
        rw [show x % 128 = x - 128 by omega]

theorem lengthAt_unique {b : Bytes} {i n k n' k' : Nat} (h : LengthAt b i n k) (h' : LengthAt b i n' k') : n = n' ∧ k = k' := by
  cases h with
  | one _ a1 a2 =>
    cases h' with
    | one _ c1 c2 => rw [a1] at c1; cases c1; exact ⟨rfl, rfl⟩
    | two h l c1 c2 => rw [a1] at c1; cases c1; omega
  | two h l a1 a2 =>
    cases h' with
    | one _ c1 c2 => rw [a1] at c1; cases c1; omega
    | two h' l' c1 c2 =>
      rw [a1] at c1
      rw [a2] at c2
      injection c1 with c1
      injection c2 with c2
      have : h = h' := by omega
      subst this c2
      exact ⟨rfl, rfl⟩

theorem noLength_not {b : Bytes} {i n k : Nat} (h : NoLength b i) (h' : LengthAt b i n k) : False := by
  cases h' with
  | one _ c1 c2 =>
    rcases h with h | ⟨x, h, _⟩
    · rw [h] at c1; cases c1
    · rw [h] at c1
      injection c1 with c1
      omega
  | two y l c1 c2 =>
    rcases h with h | ⟨x, h, h'⟩
    · rw [h] at c1; cases c1
    · rw [h'] at c2; cases c2

/-! ### Texts -/

theorem utf16Le_unique {s s' : PStr} (h : Encodable s) (h' : Encodable s') (e : utf16Le s = utf16Le s') : s = s' := by
  have o : ∀ {t : PStr}, Encodable t → decodeUtf16Le (utf16Le t) = .ok t := by
    intro t ht
    unfold decodeUtf16Le utf16Le
    rw [unitsLe_flatMap']
    exact decodeUnits_flatMap t ht
  have := o h
  rw [e, o h'] at this
  exact (Except.ok.inj this).symm

theorem textAt_unique {b : Bytes} {i j j' : Nat} {s s' : PStr} (h : TextAt b i s j) (h' : TextAt b i s' j') : s = s' ∧ j = j' := by
  cases h with
  | mk n k a1 a2 a3 =>
    cases h' with
    | mk n' k' c1 c2 c3 =>
      obtain ⟨rfl, rfl⟩ := lengthAt_unique a1 c1
      exact ⟨utf16Le_unique a2 c2 (a3.symm.trans c3), rfl⟩

theorem getString_cases {b : Bytes} (hb : Octets b) (i : Nat) :
    (∃ e, PartFails b .text i e ∧ getString b i = .error e) ∨ (∃ s j, TextAt b i s j ∧ getString b i = .ok (s, j)) := by
  have e : getString b i = (getStringLength b i).bind fun p => (decodeUtf16Le (mRead b p.2 (2 * p.1)).1).bind fun s =>
    .ok (s, (mRead b p.2 (2 * p.1)).2) := rfl
  rw [e]
  rcases getStringLength_cases hb i with ⟨h, e1⟩ | ⟨n, k, h, hk, e1⟩
  · rw [e1]
    exact .inl ⟨.value, .noText i h, rfl⟩
  · rw [e1]
    have hs : (mRead b k (2 * n)).1 = bytesAt b k (2 * n) := pySlice_bytesAt ..
    have hp : (mRead b k (2 * n)).2 = clip b (k + 2 * n) := by
      show min (k + 2 * n) (max k b.length) = min (k + 2 * n) b.length
      rw [Nat.max_eq_right hk]
    show (∃ e, _ ∧ (decodeUtf16Le (mRead b k (2 * n)).1).bind (fun s => .ok (s, (mRead b k (2 * n)).2)) = _) ∨
      ∃ s j, _ ∧ (decodeUtf16Le (mRead b k (2 * n)).1).bind (fun s => .ok (s, (mRead b k (2 * n)).2)) = _
    rw [hs, hp]
    have ho := octets_bytesAt hb k (2 * n)
    cases hd : decodeUtf16Le (bytesAt b k (2 * n)) with
    | error x =>
      have := decodeUtf16Le_error hd
      subst this
      refine .inl ⟨.unicode, .text i n k h ?_, rfl⟩
      rintro ⟨s, hs⟩
      rw [(decodeUtf16Le_iff ho).2 hs] at hd
      cases hd
    | ok s =>
      obtain ⟨a, c⟩ := (decodeUtf16Le_iff ho).1 hd
      exact .inr ⟨s, _, .mk s n k h a c, rfl⟩

/-! ### Numbers -/

theorem fromLeSigned_32 {b : Bytes} {i : Nat} (h : i + 4 ≤ b.length) : fromLeSigned (pySlice b i (i + 4)) = signed32At b i := by
  unfold fromLeSigned signed32At
  rw [fromLe_numberAt]
  have : (pySlice b i (i + 4)).length = 4 := by
    rw [pySlice_bytesAt]
    unfold bytesAt
    rw [List.length_take, List.length_drop]
    omega
  rw [this]
  have e : (2 : Nat) ^ (8 * 4) = 4294967296 := by decide
  have e' : (2 : Int) ^ (8 * 4) = 4294967296 := by decide
  rw [e, e']
  split <;> split <;> omega

theorem unpackI32_full {b : Bytes} : ∀ {n i : Nat}, i + 4 * n ≤ b.length →
    ∃ l, unpackI32 n (bytesAt b i (4 * n)) = .ok l ∧ l.length = n ∧ ∀ k, k < n → l[k]? = some (signed32At b (i + 4 * k))
  | 0, i, _ => ⟨[], by unfold unpackI32 bytesAt; rfl, rfl, fun k hk => absurd hk (Nat.not_lt_zero _)⟩
  | n + 1, i, h => by
    obtain ⟨l, h1, h2, h3⟩ := unpackI32_full (b := b) (n := n) (i := i + 4) (by omega)
    have hl : (bytesAt b i (4 * (n + 1))).length = 4 * (n + 1) := by
      unfold bytesAt
      rw [List.length_take, List.length_drop]
      omega
    have hd : (bytesAt b i (4 * (n + 1))).drop 4 = bytesAt b (i + 4) (4 * n) := by
      unfold bytesAt
      rw [List.drop_take, List.drop_drop]
      congr 1
    have ht : (bytesAt b i (4 * (n + 1))).take 4 = pySlice b i (i + 4) := by
      rw [pySlice_bytesAt]
      unfold bytesAt
      rw [List.take_take]
      congr 1
    refine ⟨signed32At b i :: l, ?_, by rw [List.length_cons, h2], ?_⟩
    · unfold unpackI32
      rw [if_pos (by omega), hd, h1, ht, fromLeSigned_32 (by omega)]
      rfl
    · intro k hk
      cases k with
      | zero => rfl
      | succ k =>
        rw [List.getElem?_cons_succ, h3 k (by omega), show i + 4 + 4 * k = i + 4 * (k + 1) by omega]

theorem unpackI32_short : ∀ {n : Nat} {b : Bytes}, b.length < 4 * n → unpackI32 n b = .error .struct
  | 0, b, h => absurd h (Nat.not_lt_zero _)
  | n + 1, b, h => by
    unfold unpackI32
    split
    · rw [unpackI32_short (n := n) (by rw [List.length_drop]; omega)]
      rfl
    · rfl

theorem numbersAt_unique {b : Bytes} {i j j' : Nat} {l l' : List Int} (h : NumbersAt b i l j) (h' : NumbersAt b i l' j') : l = l' ∧ j = j' := by
  cases h with
  | mk a1 a2 a3 =>
    cases h' with
    | mk c1 c2 c3 =>
      rw [a1] at c1
      injection c1 with c1
      refine ⟨List.ext_getElem? fun k => ?_, by rw [c1]⟩
      by_cases hk : k < l.length
      · rw [a3 k hk, c3 k (by omega)]
      · rw [List.getElem?_eq_none (by omega), List.getElem?_eq_none (by omega)]

theorem getIntArray_cases (b : Bytes) (i : Nat) :
    (∃ e, PartFails b .numbers i e ∧ getIntArray b i = .error e) ∨ (∃ l j, NumbersAt b i l j ∧ getIntArray b i = .ok (l, j)) := by
  have e : getIntArray b i = (mReadByte b i).bind fun p => (unpackI32 p.1 (mRead b p.2 (4 * p.1)).1).bind fun l =>
    .ok (l, (mRead b p.2 (4 * p.1)).2) := rfl
  rw [e]
  cases h : b[i]? with
  | none =>
    rw [mReadByte_none h]
    exact .inl ⟨.value, .noNumbers i h, rfl⟩
  | some n =>
    have hl := (List.getElem?_eq_some_iff.1 h).1
    rw [mReadByte_some h]
    have hs : (mRead b (i + 1) (4 * n)).1 = bytesAt b (i + 1) (4 * n) := pySlice_bytesAt ..
    have hp : (mRead b (i + 1) (4 * n)).2 = clip b (i + 1 + 4 * n) := by
      show min (i + 1 + 4 * n) (max (i + 1) b.length) = min (i + 1 + 4 * n) b.length
      rw [Nat.max_eq_right hl]
    show (∃ e, _ ∧ (unpackI32 n (mRead b (i + 1) (4 * n)).1).bind (fun s => .ok (s, (mRead b (i + 1) (4 * n)).2)) = _) ∨
      ∃ s j, _ ∧ (unpackI32 n (mRead b (i + 1) (4 * n)).1).bind (fun s => .ok (s, (mRead b (i + 1) (4 * n)).2)) = _
    rw [hs, hp]
    by_cases hf : i + 1 + 4 * n ≤ b.length
    · obtain ⟨l, h1, h2, h3⟩ := unpackI32_full hf
      rw [h1]
      subst h2
      refine .inr ⟨l, _, .mk l h hf h3, ?_⟩
      show Except.ok (l, min (i + 1 + 4 * l.length) b.length) = _
      rw [Nat.min_eq_left hf]
    · rw [unpackI32_short]
      · exact .inl ⟨.struct, .numbers i n h (by omega), rfl⟩
      · unfold bytesAt
        rw [List.length_take, List.length_drop]
        omega

/-! ### Parts -/

theorem partFails_not {b : Bytes} {p : Part} {i j : Nat} {e : Err} (h : PartFails b p i e) (h' : PartAt b p i j) : False := by
  cases h with
  | noText _ h =>
    cases h' with
    | text _ _ s h' =>
      cases h' with
      | mk n k a => exact noLength_not h a
  | text _ n k h hn =>
    cases h' with
    | text _ _ s h' =>
      cases h' with
      | mk n k a1 a2 a3 =>
        obtain ⟨rfl, rfl⟩ := lengthAt_unique h a1
        exact hn ⟨_, a2, a3⟩
  | noLength _ h =>
    cases h' with
    | length _ _ n a => exact noLength_not h a
  | noNumbers _ h =>
    cases h' with
    | numbers _ _ l a =>
      cases a with
      | mk a1 => rw [h] at a1; cases a1
  | numbers _ n h hn =>
    cases h' with
    | numbers _ _ l a =>
      cases a with
      | mk a1 a2 =>
        rw [h] at a1
        cases a1
        omega

theorem partFails_unique {b : Bytes} {p : Part} {i : Nat} {e e' : Err} (h : PartFails b p i e) (h' : PartFails b p i e') : e = e' := by
  cases h with
  | noText _ h =>
    cases h' with
    | noText => rfl
    | text _ n k a => exact (noLength_not h a).elim
  | text _ n k a =>
    cases h' with
    | noText _ h => exact (noLength_not h a).elim
    | text => rfl
  | noLength => cases h'; rfl
  | noNumbers _ h =>
    cases h' with
    | noNumbers => rfl
    | numbers _ n h' => rw [h] at h'; cases h'
  | numbers _ n h =>
    cases h' with
    | noNumbers _ h' => rw [h] at h'; cases h'
    | numbers => rfl

theorem partAt_unique {b : Bytes} {p : Part} {i j j' : Nat} (h : PartAt b p i j) (h' : PartAt b p i j') : j = j' := by
  cases h with
  | text _ _ s h => cases h' with | text _ _ s' h' => exact (textAt_unique h h').2
  | length _ _ n h => cases h' with | length _ _ n' h' => exact (lengthAt_unique h h').2
  | two => cases h'; rfl
  | four => cases h'; rfl
  | numbers _ _ l h => cases h' with | numbers _ _ l' h' => exact (numbersAt_unique h h').2

/-- Something is wrong with one of the parts. -/
def PartsFail (b : Bytes) (ps : List Part) (i : Nat) (e : Err) : Prop :=
  ∃ pre p post j, ps = pre ++ p :: post ∧ PartsAt b pre i j ∧ PartFails b p j e

theorem partsFail_here {b : Bytes} {p : Part} {ps : List Part} {i : Nat} {e : Err} (h : PartFails b p i e) : PartsFail b (p :: ps) i e :=
  ⟨[], p, ps, i, rfl, .nil i, h⟩

theorem partsFail_later {b : Bytes} {p : Part} {ps : List Part} {i j : Nat} {e : Err} (h : PartAt b p i j) (h' : PartsFail b ps j e) :
    PartsFail b (p :: ps) i e := by
  obtain ⟨pre, q, post, k, rfl, h1, h2⟩ := h'
  exact ⟨p :: pre, q, post, k, rfl, .cons _ _ _ _ _ h h1, h2⟩

theorem partsFail_unique {b : Bytes} : ∀ {ps : List Part} {i : Nat} {e e' : Err}, PartsFail b ps i e → PartsFail b ps i e' → e = e'
  | ps, i, e, e', ⟨pre, p, post, j, h1, h2, h3⟩, ⟨pre', p', post', j', h1', h2', h3'⟩ => by
    subst h1
    cases h2 with
    | nil =>
      cases h2' with
      | nil =>
        injection h1' with a c
        subst a
        exact partFails_unique h3 h3'
      | cons q qs _ k _ a c =>
        injection h1' with a1 c1
        subst a1
        exact (partFails_not h3 a).elim
    | cons q qs _ k _ a c =>
      cases h2' with
      | nil =>
        injection h1' with a1 c1
        subst a1
        exact (partFails_not h3' a).elim
      | cons q' qs' _ k' _ a' c' =>
        injection h1' with a1 c1
        subst a1
        have := partAt_unique a a'
        subst this
        exact partsFail_unique (ps := qs ++ p :: post) ⟨qs, p, post, j, rfl, c, h3⟩ ⟨qs', p', post', j', c1, c', h3'⟩
  termination_by ps => ps.length
  decreasing_by subst_vars; simp_wf

theorem partsAt_not {b : Bytes} : ∀ {ps : List Part} {i k : Nat} {e : Err}, PartsFail b ps i e → PartsAt b ps i k → False
  | ps, i, k, e, ⟨pre, p, post, j, h1, h2, h3⟩, h => by
    subst h1
    cases h2 with
    | nil =>
      cases h with
      | cons _ _ _ j _ a c => exact partFails_not h3 a
    | cons q qs _ m _ a c =>
      cases h with
      | cons _ _ _ m' _ a' c' =>
        have := partAt_unique a a'
        subst this
        exact partsAt_not (ps := qs ++ p :: post) ⟨qs, p, post, j, rfl, c, h3⟩ c'
  termination_by ps => ps.length
  decreasing_by subst_vars; simp_wf

end Sudachi
