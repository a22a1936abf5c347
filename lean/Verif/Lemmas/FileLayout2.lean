/-
Lemmas on the format of dictionary files: header, grammar and lexicon.
-/
import Verif.Lemmas.FileLayout
import Verif.Lemmas.Compiled
namespace Sudachi

/-! ### The header -/

theorem descriptionLength_ok {b : Bytes} : ∀ {n i k : Nat}, descriptionLength b i n = .ok k ↔
    k ≤ n ∧ (bytesAt b i k).length = k ∧ 0 ∉ bytesAt b i k ∧ (k = n ∨ b[i + k]? = some 0)
  | 0, i, k => by
    unfold descriptionLength
    constructor
    · intro h
      cases h
      exact ⟨Nat.le_refl _, by simp [bytesAt], by simp [bytesAt], .inl rfl⟩
    · rintro ⟨h, _⟩
      rw [Nat.le_zero.1 h]
  | n + 1, i, k => by
    unfold descriptionLength
    have step : ∀ {x k}, b[i]? = some x → bytesAt b i (k + 1) = x :: bytesAt b (i + 1) k := by
      intro x k hx
      rw [← pySlice_bytesAt, ← pySlice_bytesAt, pySlice_step hx]
    split
    · rename_i h
      constructor
      · intro h'; cases h'
      · rintro ⟨_, h2, _, h4⟩
        have hl := List.getElem?_eq_none_iff.1 h
        have : k = 0 := by
          rw [← h2]
          simp only [bytesAt, List.length_take, List.length_drop]
          omega
        subst this
        rcases h4 with h4 | h4
        · cases h4
        · rw [Nat.add_zero, h] at h4
          cases h4
    · rename_i h
      constructor
      · intro h'
        cases h'
        exact ⟨Nat.zero_le _, by simp [bytesAt], by simp [bytesAt], .inr h⟩
      · rintro ⟨_, _, h3, _⟩
        cases k with
        | zero => rfl
        | succ k =>
          rw [step h] at h3
          exact absurd (List.mem_cons_self) h3
    · rename_i x hx h
      have hx0 : x ≠ 0 := fun e => hx e
      constructor
      · intro h'
        obtain ⟨l, h1, h'⟩ := bind_ok h'
        cases h'
        obtain ⟨a1, a2, a3, a4⟩ := descriptionLength_ok.1 h1
        rw [step h]
        refine ⟨by omega, by simp only [List.length_cons]; omega, ?_, ?_⟩
        · intro h0
          rcases List.mem_cons.1 h0 with h0 | h0
          · exact hx0 h0.symm
          · exact a3 h0
        · rcases a4 with a4 | a4
          · exact .inl (by omega)
          · exact .inr (by rw [show i + (l + 1) = i + 1 + l by omega]; exact a4)
      · rintro ⟨a1, a2, a3, a4⟩
        cases k with
        | zero =>
          rcases a4 with a4 | a4
          · cases a4
          · rw [Nat.add_zero, h] at a4
            injection a4 with a4
            exact absurd a4 hx0
        | succ k =>
          rw [step h] at a2 a3
          rw [descriptionLength_ok.2 ⟨by omega, by simpa using a2, fun h0 => a3 (List.mem_cons_of_mem _ h0), ?_⟩]
          · rfl
          · rcases a4 with a4 | a4
            · exact .inl (by omega)
            · exact .inr (by rw [show i + 1 + k = i + (k + 1) by omega]; exact a4)

theorem descriptionLength_error {b : Bytes} : ∀ {n i : Nat} {e : Err}, i ≤ b.length → (descriptionLength b i n = .error e ↔
    e = .index ∧ b.length < i + n ∧ 0 ∉ b.drop i)
  | 0, i, e, hi => by
    unfold descriptionLength
    constructor
    · intro h; cases h
    · rintro ⟨_, h, _⟩
      omega
  | n + 1, i, e, hi => by
    unfold descriptionLength
    split
    · rename_i h
      have hl := List.getElem?_eq_none_iff.1 h
      constructor
      · intro h'
        cases h'
        exact ⟨rfl, by omega, by rw [List.drop_eq_nil_of_le hl]; simp⟩
      · rintro ⟨rfl, _⟩
        rfl
    · rename_i h
      obtain ⟨hl, e0⟩ := List.getElem?_eq_some_iff.1 h
      constructor
      · intro h'; cases h'
      · rintro ⟨_, _, h0⟩
        rw [List.drop_eq_getElem_cons hl, e0] at h0
        exact absurd (List.mem_cons_self) h0
    · rename_i x hx h
      obtain ⟨hl, e0⟩ := List.getElem?_eq_some_iff.1 h
      have hx0 : x ≠ 0 := fun e => hx e
      have ih := descriptionLength_error (b := b) (n := n) (i := i + 1) (e := e) hl
      rw [List.drop_eq_getElem_cons hl, e0]
      constructor
      · intro h'
        rcases bind_error h' with h' | ⟨l, _, h'⟩
        · obtain ⟨a, c, d⟩ := ih.1 h'
          refine ⟨a, by omega, fun h0 => ?_⟩
          rcases List.mem_cons.1 h0 with h0 | h0
          · exact hx0 h0.symm
          · exact d h0
        · cases h'
      · rintro ⟨a, c, d⟩
        rw [ih.2 ⟨a, by omega, fun h0 => d (List.mem_cons_of_mem _ h0)⟩]
        rfl

theorem header_ok {b : Bytes} {h : Header} : Header.fromBytes b 0 = .ok h ↔ HeaderIs b h := by
  unfold Header.fromBytes HeaderIs DescriptionIs
  rw [Nat.zero_add]
  split
  · rename_i hl
    constructor
    · intro h'; cases h'
    · intro h'
      exact absurd h'.1 (by omega)
  · rename_i hl
    have e1 : fromLe (pySlice b 0 8) = numberAt b 0 8 := fromLe_numberAt b 8 0
    have e2 : fromLe (pySlice b 8 16) = numberAt b 8 8 := fromLe_numberAt b 8 8
    constructor
    · intro h'
      obtain ⟨k, h1, h'⟩ := bind_ok h'
      obtain ⟨s, h2, h'⟩ := bind_ok h'
      cases h'
      obtain ⟨a1, a2, a3, a4⟩ := descriptionLength_ok.1 h1
      rw [pySlice_bytesAt] at h2
      exact ⟨by omega, congrArg _ e1, congrArg _ e2, _, ⟨k, a1, rfl, a2, a3, a4⟩, decodeUtf8_iff.1 h2⟩
    · rintro ⟨_, c1, c2, t, ⟨k, a1, rfl, a2, a3, a4⟩, hd⟩
      have h1 : descriptionLength b 16 DESCRIPTION_SIZE = .ok k := descriptionLength_ok.2 ⟨a1, a2, a3, a4⟩
      have h2 : decodeUtf8 (pySlice b 16 (16 + k)) = .ok h.description := by rw [pySlice_bytesAt]; exact decodeUtf8_iff.2 hd
      show (descriptionLength b 16 DESCRIPTION_SIZE >>= fun len => decodeUtf8 (pySlice b 16 (16 + len)) >>= fun d => _) = _
      rw [h1]
      show (decodeUtf8 (pySlice b 16 (16 + k)) >>= fun d => _) = _
      rw [h2]
      show Except.ok (Header.mk (fromLe (pySlice b 0 8)) (fromLe (pySlice b 8 16)) h.description) = _
      rw [e1, e2, ← c1, ← c2]

theorem header_error {b : Bytes} {e : Err} : Header.fromBytes b 0 = .error e ↔ HeaderFails b e := by
  unfold Header.fromBytes
  rw [Nat.zero_add]
  split
  · rename_i hl
    constructor
    · intro h; cases h; exact .short hl
    · intro h
      cases h with
      | short => rfl
      | noEnd h => omega
      | text _ h => omega
  · rename_i hl
    have hd : ∀ {e}, 16 ≤ b.length → (descriptionLength b 16 256 = .error e ↔ e = .index ∧ b.length < 16 + 256 ∧ 0 ∉ b.drop 16) :=
      fun h => descriptionLength_error h
    constructor
    · intro h
      rcases bind_error h with h | ⟨k, h1, h⟩
      · obtain ⟨rfl, a, c⟩ := (hd (by omega)).1 h
        exact .noEnd (by omega) a c
      · rcases bind_error h with h | ⟨s, _, h⟩
        · obtain ⟨a1, a2, a3, a4⟩ := descriptionLength_ok.1 h1
          have := decodeUtf8_error _ (Nat.le_refl _) h
          subst this
          refine .text _ (by omega) ⟨k, a1, rfl, a2, a3, a4⟩ ?_
          rintro ⟨s, hs⟩
          rw [pySlice_bytesAt, decodeUtf8_iff.2 hs] at h
          cases h
        · cases h
    · intro h
      cases h with
      | short h => omega
      | noEnd h a c =>
        have h1 : descriptionLength b 16 DESCRIPTION_SIZE = .error .index := (hd (by omega)).2 ⟨rfl, a, c⟩
        show (descriptionLength b 16 DESCRIPTION_SIZE >>= fun len => _) = _
        rw [h1]
        rfl
      | text t h a c =>
        obtain ⟨k, a1, rfl, a2, a3, a4⟩ := a
        have h1 : descriptionLength b 16 DESCRIPTION_SIZE = .ok k := descriptionLength_ok.2 ⟨a1, a2, a3, a4⟩
        have h2 : decodeUtf8 (pySlice b 16 (16 + k)) = .error .unicode := by
          rw [pySlice_bytesAt]
          cases hh : decodeUtf8 (bytesAt b 16 k) with
          | ok s => exact absurd ⟨s, decodeUtf8_iff.1 hh⟩ c
          | error e => rw [decodeUtf8_error _ (Nat.le_refl _) hh]
        show (descriptionLength b 16 DESCRIPTION_SIZE >>= fun len => decodeUtf8 (pySlice b 16 (16 + len)) >>= fun d => _) = _
        rw [h1]
        show (decodeUtf8 (pySlice b 16 (16 + k)) >>= fun d => _) = _
        rw [h2]
        rfl

/-! ### Parts of speech -/

theorem getPosString_cases {b : Bytes} (hb : Octets b) (i : Nat) :
    (b.length ≤ i ∧ getPosString b i = .error .value) ∨
    (∃ m, b[i]? = some m ∧ (¬∃ s, Utf16Text (bytesAt b (i + 1) (2 * m)) s) ∧ getPosString b i = .error .unicode) ∨
    (∃ m s, b[i]? = some m ∧ Utf16Text (bytesAt b (i + 1) (2 * m)) s ∧ getPosString b i = .ok (s, clip b (i + 1 + 2 * m))) := by
  unfold getPosString mReadByte
  cases h : b[i]? with
  | none => exact .inl ⟨List.getElem?_eq_none_iff.1 h, rfl⟩
  | some m =>
    have hl := (List.getElem?_eq_some_iff.1 h).1
    have hs : (mRead b (i + 1) (2 * m)).1 = bytesAt b (i + 1) (2 * m) := pySlice_bytesAt ..
    have hp : (mRead b (i + 1) (2 * m)).2 = clip b (i + 1 + 2 * m) := by
      show min (i + 1 + 2 * m) (max (i + 1) b.length) = min (i + 1 + 2 * m) b.length
      rw [Nat.max_eq_right hl]
    have ho : Octets (bytesAt b (i + 1) (2 * m)) := by
      rw [← pySlice_bytesAt]
      exact hb.slice _ _
    right
    simp only [bind, Except.bind]
    rw [hs, hp]
    cases hd : decodeUtf16 (bytesAt b (i + 1) (2 * m)) with
    | error e =>
      refine .inl ⟨m, rfl, ?_, ?_⟩
      · rintro ⟨s, hs⟩
        rw [(decodeUtf16_iff ho).2 hs] at hd
        cases hd
      · rw [decodeUtf16_error hd]
    | ok s => exact .inr ⟨m, s, rfl, (decodeUtf16_iff ho).1 hd, rfl⟩

theorem utf16Text_unique {t : Bytes} (ht : Octets t) {s s' : PStr} (h : Utf16Text t s) (h' : Utf16Text t s') : s = s' :=
  Except.ok.inj (((decodeUtf16_iff ht).2 h).symm.trans ((decodeUtf16_iff ht).2 h'))

theorem octets_bytesAt {b : Bytes} (hb : Octets b) (i n : Nat) : Octets (bytesAt b i n) := by
  rw [← pySlice_bytesAt]
  exact hb.slice _ _

theorem getPosStrings_ok {b : Bytes} (hb : Octets b) : ∀ {n i j : Nat} {ss : List PStr},
    getPosStrings b n i = .ok (ss, j) ↔ ss.length = n ∧ StringsAt b i ss j
  | 0, i, j, ss => by
    unfold getPosStrings
    constructor
    · intro h; cases h; exact ⟨rfl, .nil _⟩
    · rintro ⟨h, h'⟩
      have := List.length_eq_zero_iff.1 h
      subst this
      cases h'
      rfl
  | n + 1, i, j, ss => by
    unfold getPosStrings
    have e : ∀ x, (getPosString b i = x) → ((do
        let (s, i1) ← getPosString b i
        let (ss, i2) ← getPosStrings b n i1
        pure (s :: ss, i2)) = x.bind fun p => (getPosStrings b n p.2).bind fun q => Except.ok (p.1 :: q.1, q.2)) := by
      intro x hx; rw [hx]; rfl
    rcases getPosString_cases hb i with ⟨h1, h2⟩ | ⟨m, h1, h2, h3⟩ | ⟨m, s, h1, h2, h3⟩
    · rw [e _ h2]
      constructor
      · intro h; cases h
      · rintro ⟨h, h'⟩
        cases h' with
        | nil => cases h
        | cons _ m _ _ _ hm => rw [List.getElem?_eq_none h1] at hm; cases hm
    · rw [e _ h3]
      constructor
      · intro h; cases h
      · rintro ⟨h, h'⟩
        cases h' with
        | nil => cases h
        | cons _ m' _ _ _ hm ht =>
          rw [h1] at hm
          cases hm
          exact absurd ⟨_, ht⟩ h2
    · rw [e _ h3]
      constructor
      · intro h
        have h : (getPosStrings b n (clip b (i + 1 + 2 * m))).bind (fun q => Except.ok (s :: q.1, q.2)) = .ok (ss, j) := h
        obtain ⟨⟨tt, k⟩, h4, h⟩ := bind_ok h
        cases h
        obtain ⟨a, c⟩ := (getPosStrings_ok hb).1 h4
        exact ⟨congrArg (· + 1) a, .cons _ m _ _ _ h1 h2 c⟩
      · rintro ⟨h, h'⟩
        cases h' with
        | nil => cases h
        | cons _ m' s' tt _ hm ht hr =>
          rw [h1] at hm
          cases hm
          have := utf16Text_unique (octets_bytesAt hb _ _) h2 ht
          subst this
          show (getPosStrings b n (clip b (i + 1 + 2 * m))).bind _ = _
          rw [(getPosStrings_ok hb).2 ⟨by simpa using h, hr⟩]
          rfl

theorem stringsFail_succ {b : Bytes} {i n : Nat} {e : Err} : StringsFail b i (n + 1) e ↔
    (b.length ≤ i ∧ e = .value) ∨ (∃ m, b[i]? = some m ∧ (¬∃ s, Utf16Text (bytesAt b (i + 1) (2 * m)) s) ∧ e = .unicode) ∨
    (∃ m s, b[i]? = some m ∧ Utf16Text (bytesAt b (i + 1) (2 * m)) s ∧ StringsFail b (clip b (i + 1 + 2 * m)) n e) := by
  constructor
  · intro h
    cases h with
    | ended ss j h1 h2 h3 =>
      cases h1 with
      | nil => exact .inl ⟨h3, rfl⟩
      | cons _ m s ss _ a1 a2 a3 => exact .inr (.inr ⟨m, s, a1, a2, .ended _ _ a3 (by simpa using h2) h3⟩)
    | text ss j m' h1 h2 h3 h4 =>
      cases h1 with
      | nil => exact .inr (.inl ⟨m', h3, h4, rfl⟩)
      | cons _ m s ss _ a1 a2 a3 => exact .inr (.inr ⟨m, s, a1, a2, .text _ _ _ a3 (by simpa using h2) h3 h4⟩)
  · rintro (⟨h, rfl⟩ | ⟨m, h1, h2, rfl⟩ | ⟨m, s, h1, h2, h3⟩)
    · exact .ended [] i (.nil _) (Nat.succ_pos _) h
    · exact .text [] i m (.nil _) (Nat.succ_pos _) h1 h2
    · cases h3 with
      | ended ss j a1 a2 a3 => exact .ended (s :: ss) j (.cons _ m _ _ _ h1 h2 a1) (Nat.succ_lt_succ a2) a3
      | text ss j m' a1 a2 a3 a4 => exact .text (s :: ss) j m' (.cons _ m _ _ _ h1 h2 a1) (Nat.succ_lt_succ a2) a3 a4

theorem getPosStrings_error {b : Bytes} (hb : Octets b) : ∀ {n i : Nat} {e : Err},
    getPosStrings b n i = .error e ↔ StringsFail b i n e
  | 0, i, e => by
    unfold getPosStrings
    constructor
    · intro h; cases h
    · intro h
      cases h with
      | ended _ _ _ h => exact absurd h (Nat.not_lt_zero _)
      | text _ _ _ _ h => exact absurd h (Nat.not_lt_zero _)
  | n + 1, i, x => by
    rw [stringsFail_succ]
    unfold getPosStrings
    have e : ∀ x, (getPosString b i = x) → ((do
        let (s, i1) ← getPosString b i
        let (ss, i2) ← getPosStrings b n i1
        pure (s :: ss, i2)) = x.bind fun p => (getPosStrings b n p.2).bind fun q => Except.ok (p.1 :: q.1, q.2)) := by
      intro x hx; rw [hx]; rfl
    rcases getPosString_cases hb i with ⟨h1, h2⟩ | ⟨m, h1, h2, h3⟩ | ⟨m, s, h1, h2, h3⟩
    · rw [e _ h2]
      constructor
      · intro h; cases h; exact .inl ⟨h1, rfl⟩
      · rintro (⟨_, rfl⟩ | ⟨m, a1, _⟩ | ⟨m, s, a1, _⟩)
        · rfl
        · rw [List.getElem?_eq_none h1] at a1; cases a1
        · rw [List.getElem?_eq_none h1] at a1; cases a1
    · rw [e _ h3]
      constructor
      · intro h; cases h; exact .inr (.inl ⟨m, h1, h2, rfl⟩)
      · rintro (⟨a, _⟩ | ⟨m', a1, _, rfl⟩ | ⟨m', s, a1, a2, _⟩)
        · rw [List.getElem?_eq_none a] at h1; cases h1
        · rfl
        · rw [h1] at a1
          cases a1
          exact absurd ⟨_, a2⟩ h2
    · rw [e _ h3]
      have ih := getPosStrings_error hb (n := n) (i := clip b (i + 1 + 2 * m)) (e := x)
      constructor
      · intro h
        have h : (getPosStrings b n (clip b (i + 1 + 2 * m)) >>= (fun q => Except.ok (s :: q.1, q.2))) = .error x := h
        rcases bind_error h with h | ⟨q, _, h⟩
        · exact .inr (.inr ⟨m, s, h1, h2, ih.1 h⟩)
        · cases h
      · rintro (⟨a, _⟩ | ⟨m', a1, a2, _⟩ | ⟨m', s', a1, _, a3⟩)
        · rw [List.getElem?_eq_none a] at h1; cases h1
        · rw [h1] at a1
          cases a1
          exact absurd ⟨_, h2⟩ a2
        · rw [h1] at a1
          cases a1
          show (getPosStrings b n (clip b (i + 1 + 2 * m))).bind _ = _
          rw [ih.2 a3]
          rfl

theorem getPosStrings_add (b : Bytes) : ∀ (m n i : Nat), getPosStrings b (m + n) i =
    (getPosStrings b m i).bind fun p => (getPosStrings b n p.2).bind fun q => Except.ok (p.1 ++ q.1, q.2)
  | 0, n, i => by
    rw [Nat.zero_add]
    show _ = (getPosStrings b n i).bind fun q => Except.ok ([] ++ q.1, q.2)
    cases getPosStrings b n i <;> rfl
  | m + 1, n, i => by
    have e : ∀ k j, getPosStrings b (k + 1) j =
        (getPosString b j).bind fun p => (getPosStrings b k p.2).bind fun q => Except.ok (p.1 :: q.1, q.2) := by
      intro k j; rfl
    rw [show m + 1 + n = m + n + 1 by omega, e, e]
    cases getPosString b i with
    | error x => rfl
    | ok p =>
      show (getPosStrings b (m + n) p.2).bind _ = (((getPosStrings b m p.2).bind _).bind _)
      rw [getPosStrings_add b m n p.2]
      cases getPosStrings b m p.2 with
      | error x => rfl
      | ok q =>
        show ((getPosStrings b n q.2).bind _).bind _ = (getPosStrings b n q.2).bind _
        cases getPosStrings b n q.2 <;> rfl

theorem getPosList_flat (b : Bytes) : ∀ (n i : Nat), getPosStrings b (6 * n) i =
    (getPosList b n i).bind fun p => Except.ok (p.1.flatten, p.2)
  | 0, i => rfl
  | n + 1, i => by
    have e : getPosList b (n + 1) i =
        (getPosStrings b 6 i).bind fun p => (getPosList b n p.2).bind fun q => Except.ok (p.1 :: q.1, q.2) := rfl
    rw [show 6 * (n + 1) = 6 + 6 * n by omega, getPosStrings_add, e]
    cases getPosStrings b 6 i with
    | error x => rfl
    | ok p =>
      show (getPosStrings b (6 * n) p.2).bind _ = ((getPosList b n p.2).bind _).bind _
      rw [getPosList_flat b n p.2]
      cases getPosList b n p.2 <;> rfl

theorem getPosList_sizes {b : Bytes} (hb : Octets b) : ∀ {n i j : Nat} {l : List (List PStr)}, getPosList b n i = .ok (l, j) →
    l.length = n ∧ ∀ p ∈ l, p.length = 6
  | 0, i, j, l, h => by cases h; exact ⟨rfl, by simp⟩
  | n + 1, i, j, l, h => by
    obtain ⟨⟨p, k⟩, h1, h⟩ := bind_ok h
    obtain ⟨⟨q, k'⟩, h2, h⟩ := bind_ok h
    cases h
    obtain ⟨a, c⟩ := getPosList_sizes hb h2
    refine ⟨congrArg (· + 1) a, fun x hx => ?_⟩
    rcases List.mem_cons.1 hx with rfl | hx
    · exact ((getPosStrings_ok hb).1 h1).1
    · exact c x hx

theorem flatten_six {α : Type} : ∀ {l l' : List (List α)}, (∀ p ∈ l, p.length = 6) → (∀ p ∈ l', p.length = 6) → l.flatten = l'.flatten → l = l'
  | [], [], _, _, _ => rfl
  | [], p :: l', _, h, e => by
    have := congrArg List.length e
    have := h p (by simp)
    simp only [List.flatten_nil, List.flatten_cons, List.length_append, List.length_nil] at *
    omega
  | p :: l, [], h, _, e => by
    have := congrArg List.length e
    have := h p (by simp)
    simp only [List.flatten_nil, List.flatten_cons, List.length_append, List.length_nil] at *
    omega
  | p :: l, q :: l', h, h', e => by
    rw [List.flatten_cons, List.flatten_cons] at e
    obtain ⟨e1, e2⟩ := List.append_inj e ((h p (by simp)).trans (h' q (by simp)).symm)
    rw [e1, flatten_six (fun x hx => h x (by simp [hx])) (fun x hx => h' x (by simp [hx])) e2]

theorem flatten_six_length {α : Type} : ∀ {l : List (List α)}, (∀ p ∈ l, p.length = 6) → l.flatten.length = 6 * l.length
  | [], _ => rfl
  | p :: l, h => by
    rw [List.flatten_cons, List.length_append, h p (by simp), flatten_six_length (fun x hx => h x (by simp [hx])), List.length_cons]
    omega

theorem getPosList_ok {b : Bytes} (hb : Octets b) {n i j : Nat} {l : List (List PStr)} : getPosList b n i = .ok (l, j) ↔
    l.length = n ∧ (∀ p ∈ l, p.length = 6) ∧ StringsAt b i l.flatten j := by
  have hf := getPosList_flat b n i
  constructor
  · intro h
    obtain ⟨a, c⟩ := getPosList_sizes hb h
    rw [h] at hf
    exact ⟨a, c, ((getPosStrings_ok hb).1 hf).2⟩
  · rintro ⟨a, c, d⟩
    rw [(getPosStrings_ok hb).2 ⟨by rw [flatten_six_length c, a], d⟩] at hf
    cases hp : getPosList b n i with
    | error e => rw [hp] at hf; cases hf
    | ok p =>
      rw [hp] at hf
      injection hf with hf
      injection hf with h1 h2
      obtain ⟨p1, p2⟩ := p
      rw [h2, flatten_six c (getPosList_sizes hb hp).2 h1]

theorem getPosList_error {b : Bytes} (hb : Octets b) {n i : Nat} {e : Err} : getPosList b n i = .error e ↔ StringsFail b i (6 * n) e := by
  rw [← getPosStrings_error hb, getPosList_flat]
  cases getPosList b n i with
  | error e' => exact ⟨fun h => (by cases h; rfl), fun h => (by cases h; rfl)⟩
  | ok p => exact ⟨fun h => (nomatch h), fun h => (nomatch h)⟩

theorem stringsAt_le {b : Bytes} : ∀ {i j : Nat} {ss : List PStr}, StringsAt b i ss j → i ≤ b.length → j ≤ b.length
  | _, _, _, .nil _, h => h
  | _, _, _, .cons _ _ _ _ _ _ _ hr, _ => stringsAt_le hr (Nat.min_le_right ..)

end Sudachi
