/-
Reading an entry.
-/
import Verif.Lemmas.EntryLayout
namespace Sudachi

theorem lengthAt_le {b : Bytes} {i n k : Nat} (h : LengthAt b i n k) : k ≤ b.length := by
  cases h with
  | one _ h => exact (List.getElem?_eq_some_iff.1 h).1
  | two _ _ _ h => exact (List.getElem?_eq_some_iff.1 h).1

theorem textAt_le {b : Bytes} {i k : Nat} {s : PStr} (h : TextAt b i s k) : k ≤ b.length := by
  cases h with
  | mk => exact clip_le ..

theorem numbersAt_le {b : Bytes} {i k : Nat} {s : List Int} (h : NumbersAt b i s k) : k ≤ b.length := by
  cases h with
  | mk _ h => exact h

/-- A text at a place that was cut to the end of the file is a text at that place. -/
theorem textAt_clip {b : Bytes} {i j : Nat} {s : PStr} : TextAt b (clip b i) s j ↔ TextAt b i s j := by
  by_cases h : i ≤ b.length
  · rw [show clip b i = i from Nat.min_eq_left h]
  · have hl : clip b i = b.length := Nat.min_eq_right (by omega)
    rw [hl]
    have no : ∀ k, b.length ≤ k → ¬TextAt b k s j := by
      intro k hk ht
      cases ht with
      | mk n m a =>
        have hn : b[k]? = none := List.getElem?_eq_none hk
        cases a with
        | one _ c => rw [hn] at c; cases c
        | two _ _ c => rw [hn] at c; cases c
    exact ⟨fun h => absurd h (no _ (Nat.le_refl _)), fun h' => absurd h' (no _ (by omega))⟩

theorem textAt_lt {b : Bytes} {i j : Nat} {s : PStr} (h : TextAt b i s j) : i < b.length := by
  cases h with
  | mk n m a =>
    cases a with
    | one _ c => exact (List.getElem?_eq_some_iff.1 c).1
    | two _ _ c => exact (List.getElem?_eq_some_iff.1 c).1

/-- The steps of reading an entry. -/
theorem getStoredInfo_steps (b : Bytes) (syn : Bool) (i : Nat) : getStoredInfo b syn i =
    (mSeek b i).bind fun i0 => (getString b i0).bind fun p1 => (getStringLength b p1.2).bind fun p2 =>
    (getString b (mRead b p2.2 2).2).bind fun p3 => (getString b (mRead b p3.2 4).2).bind fun p4 =>
    (getIntArray b p4.2).bind fun p5 => (getIntArray b p5.2).bind fun p6 => (getIntArray b p6.2).bind fun p7 =>
    (if syn then getIntArray b p7.2 else .ok ([], p7.2)).bind fun p8 =>
    .ok ⟨p1.1, p2.1, fromLe (mRead b p2.2 2).1, if p3.1.isEmpty then p1.1 else p3.1, fromLeSigned (mRead b p3.2 4).1, p1.1,
      if p4.1.isEmpty then p1.1 else p4.1, p5.1, p6.1, p7.1, p8.1⟩ := by
  cases syn <;> rfl

theorem mRead_pos {b : Bytes} {i n : Nat} (h : i ≤ b.length) : (mRead b i n).2 = clip b (i + n) := by
  show min (i + n) (max i b.length) = min (i + n) b.length
  rw [Nat.max_eq_right h]

/-- What reading an entry gives. -/
theorem getStoredInfo_outcome {b : Bytes} (hb : Octets b) (syn : Bool) (i : Nat) :
    (∃ e, EntryFails b syn i e ∧ getStoredInfo b syn i = .error e) ∨
    (∃ w k, EntryAt b syn i w ∧ PartsAt b (entryParts syn) i k ∧ getStoredInfo b syn i = .ok w) := by
  rw [getStoredInfo_steps]
  by_cases hi : b.length < i
  · exact .inl ⟨.value, .start hi, by rw [mSeek_beyond hi]; rfl⟩
  have hi : i ≤ b.length := by omega
  have fails : ∀ {e}, PartsFail b (entryParts syn) i e → EntryFails b syn i e := by
    rintro e ⟨pre, p, post, j, h1, h2, h3⟩
    exact .part pre post p j e hi h1 h2 h3
  rw [mSeek_within hi]
  show (∃ e, _ ∧ (getString b i).bind _ = _) ∨ ∃ w k, _ ∧ _ ∧ (getString b i).bind _ = _
  rcases getString_cases hb i with ⟨e, h1, r1⟩ | ⟨s1, i1, h1, r1⟩
  · exact .inl ⟨e, fails (partsFail_here h1), by rw [r1]; rfl⟩
  rw [r1]
  show (∃ e, _ ∧ (getStringLength b i1).bind _ = _) ∨ ∃ w k, _ ∧ _ ∧ (getStringLength b i1).bind _ = _
  have q1 : PartAt b .text i i1 := .text _ _ _ h1
  rcases getStringLength_cases hb i1 with ⟨h2, r2⟩ | ⟨n, i2, h2, l2, r2⟩
  · exact .inl ⟨.value, fails (partsFail_later q1 (partsFail_here (.noLength _ h2))), by rw [r2]; rfl⟩
  rw [r2]
  show (∃ e, _ ∧ (getString b (mRead b i2 2).2).bind _ = _) ∨ ∃ w k, _ ∧ _ ∧ (getString b (mRead b i2 2).2).bind _ = _
  have q2 : PartAt b .length i1 i2 := .length _ _ _ h2
  have q2' : PartAt b .two i2 (clip b (i2 + 2)) := .two _
  rw [mRead_pos l2]
  rcases getString_cases hb (clip b (i2 + 2)) with ⟨e, h3, r3⟩ | ⟨s3, i3, h3, r3⟩
  · exact .inl ⟨e, fails (partsFail_later q1 (partsFail_later q2 (partsFail_later q2' (partsFail_here h3)))), by rw [r3]; rfl⟩
  rw [r3]
  show (∃ e, _ ∧ (getString b (mRead b i3 4).2).bind _ = _) ∨ ∃ w k, _ ∧ _ ∧ (getString b (mRead b i3 4).2).bind _ = _
  have q3 : PartAt b .text (clip b (i2 + 2)) i3 := .text _ _ _ h3
  have q3' : PartAt b .four i3 (clip b (i3 + 4)) := .four _
  rw [mRead_pos (textAt_le h3)]
  have f3 : ∀ {e}, PartsFail b ([.text, .numbers, .numbers, .numbers] ++ (if syn then [.numbers] else [])) (clip b (i3 + 4)) e →
      EntryFails b syn i e := fun h =>
    fails (partsFail_later q1 (partsFail_later q2 (partsFail_later q2' (partsFail_later q3 (partsFail_later q3' h)))))
  rcases getString_cases hb (clip b (i3 + 4)) with ⟨e, h4, r4⟩ | ⟨s4, i4, h4, r4⟩
  · exact .inl ⟨e, f3 (partsFail_here h4), by rw [r4]; rfl⟩
  rw [r4]
  show (∃ e, _ ∧ (getIntArray b i4).bind _ = _) ∨ ∃ w k, _ ∧ _ ∧ (getIntArray b i4).bind _ = _
  have q4 : PartAt b .text (clip b (i3 + 4)) i4 := .text _ _ _ h4
  rcases getIntArray_cases b i4 with ⟨e, h5, r5⟩ | ⟨a5, i5, h5, r5⟩
  · exact .inl ⟨e, f3 (partsFail_later q4 (partsFail_here h5)), by rw [r5]; rfl⟩
  rw [r5]
  show (∃ e, _ ∧ (getIntArray b i5).bind _ = _) ∨ ∃ w k, _ ∧ _ ∧ (getIntArray b i5).bind _ = _
  have q5 : PartAt b .numbers i4 i5 := .numbers _ _ _ h5
  rcases getIntArray_cases b i5 with ⟨e, h6, r6⟩ | ⟨a6, i6, h6, r6⟩
  · exact .inl ⟨e, f3 (partsFail_later q4 (partsFail_later q5 (partsFail_here h6))), by rw [r6]; rfl⟩
  rw [r6]
  show (∃ e, _ ∧ (getIntArray b i6).bind _ = _) ∨ ∃ w k, _ ∧ _ ∧ (getIntArray b i6).bind _ = _
  have q6 : PartAt b .numbers i5 i6 := .numbers _ _ _ h6
  rcases getIntArray_cases b i6 with ⟨e, h7, r7⟩ | ⟨a7, i7, h7, r7⟩
  · exact .inl ⟨e, f3 (partsFail_later q4 (partsFail_later q5 (partsFail_later q6 (partsFail_here h7)))), by rw [r7]; rfl⟩
  rw [r7]
  have q7 : PartAt b .numbers i6 i7 := .numbers _ _ _ h7
  have t3 := textAt_clip.1 h3
  have t4 := textAt_clip.1 h4
  have x4 := textAt_lt t4
  have e2 : fromLe (mRead b i2 2).1 = numberAt b i2 2 := fromLe_numberAt b 2 i2
  have e3 : fromLeSigned (mRead b i3 4).1 = signed32At b i3 := fromLeSigned_32 (by omega)
  have parts : ∀ {k ps}, PartsAt b ps i7 k → PartsAt b ([.text, .length, .two, .text, .four, .text, .numbers, .numbers, .numbers] ++ ps) i k := by
    intro k ps h
    exact .cons _ _ _ _ _ q1 (.cons _ _ _ _ _ q2 (.cons _ _ _ _ _ q2' (.cons _ _ _ _ _ q3 (.cons _ _ _ _ _ q3' (.cons _ _ _ _ _ q4
      (.cons _ _ _ _ _ q5 (.cons _ _ _ _ _ q6 (.cons _ _ _ _ _ q7 h))))))))
  have emp : ∀ (s : PStr), (if s.isEmpty then s1 else s) = (if s = [] then s1 else s) := by
    intro s
    cases s <;> rfl
  cases syn with
  | false =>
    right
    refine ⟨⟨s1, n, numberAt b i2 2, if s3 = [] then s1 else s3, signed32At b i3, s1, if s4 = [] then s1 else s4, a5, a6, a7, []⟩, i7,
      ⟨i1, i2, i3, i4, i5, i6, i7, 0, s3, s4, h1, h2, rfl, t3, rfl, rfl, t4, rfl, h5, h6, h7, rfl, rfl⟩, parts (.nil _), ?_⟩
    rw [← emp s3, ← emp s4, ← e2, ← e3]
    rfl
  | true =>
    show (∃ e, _ ∧ (getIntArray b i7).bind _ = _) ∨ ∃ w k, _ ∧ _ ∧ (getIntArray b i7).bind _ = _
    rcases getIntArray_cases b i7 with ⟨e, h8, r8⟩ | ⟨a8, i8, h8, r8⟩
    · exact .inl ⟨e, f3 (partsFail_later q4 (partsFail_later q5 (partsFail_later q6 (partsFail_later q7 (partsFail_here h8))))), by rw [r8]; rfl⟩
    right
    refine ⟨⟨s1, n, numberAt b i2 2, if s3 = [] then s1 else s3, signed32At b i3, s1, if s4 = [] then s1 else s4, a5, a6, a7, a8⟩, i8,
      ⟨i1, i2, i3, i4, i5, i6, i7, i8, s3, s4, h1, h2, rfl, t3, rfl, rfl, t4, rfl, h5, h6, h7, h8, rfl⟩,
      parts (.cons _ _ _ _ _ (.numbers _ _ _ h8) (.nil _)), ?_⟩
    rw [← emp s3, ← emp s4, ← e2, ← e3, r8]
    rfl

theorem entryAt_parts {b : Bytes} {syn : Bool} {i : Nat} {w : WordInfo} (h : EntryAt b syn i w) : i ≤ b.length ∧ ∃ k, PartsAt b (entryParts syn) i k := by
  obtain ⟨i1, i2, i3, i4, i5, i6, i7, i8, norm, reading, h1, h2, _, h3, _, _, h4, _, h5, h6, h7, h8, _⟩ := h
  refine ⟨Nat.le_of_lt (textAt_lt h1), ?_⟩
  have parts : ∀ {k ps}, PartsAt b ps i7 k → PartsAt b ([.text, .length, .two, .text, .four, .text, .numbers, .numbers, .numbers] ++ ps) i k := by
    intro k ps h
    exact .cons _ _ _ _ _ (.text _ _ _ h1) (.cons _ _ _ _ _ (.length _ _ _ h2) (.cons _ _ _ _ _ (.two _) (.cons _ _ _ _ _
      (.text _ _ _ (textAt_clip.2 h3)) (.cons _ _ _ _ _ (.four _) (.cons _ _ _ _ _ (.text _ _ _ (textAt_clip.2 h4))
      (.cons _ _ _ _ _ (.numbers _ _ _ h5) (.cons _ _ _ _ _ (.numbers _ _ _ h6) (.cons _ _ _ _ _ (.numbers _ _ _ h7) h))))))))
  cases syn with
  | false => exact ⟨i7, parts (.nil _)⟩
  | true => exact ⟨i8, parts (.cons _ _ _ _ _ (.numbers _ _ _ h8) (.nil _))⟩

theorem entryAt_unique {b : Bytes} {syn : Bool} {i : Nat} {w w' : WordInfo} (h : EntryAt b syn i w) (h' : EntryAt b syn i w') : w = w' := by
  obtain ⟨i1, i2, i3, i4, i5, i6, i7, i8, norm, reading, h1, h2, p, h3, n, f, h4, r, h5, h6, h7, h8, d⟩ := h
  obtain ⟨i1', i2', i3', i4', i5', i6', i7', i8', norm', reading', h1', h2', p', h3', n', f', h4', r', h5', h6', h7', h8', d'⟩ := h'
  obtain ⟨e1, rfl⟩ := textAt_unique h1 h1'
  obtain ⟨e2, rfl⟩ := lengthAt_unique h2 h2'
  obtain ⟨rfl, rfl⟩ := textAt_unique h3 h3'
  obtain ⟨rfl, rfl⟩ := textAt_unique h4 h4'
  obtain ⟨e5, rfl⟩ := numbersAt_unique h5 h5'
  obtain ⟨e6, rfl⟩ := numbersAt_unique h6 h6'
  obtain ⟨e7, rfl⟩ := numbersAt_unique h7 h7'
  have e8 : w.synonymGroupIds = w'.synonymGroupIds := by
    cases syn with
    | false => exact h8.trans h8'.symm
    | true => exact (numbersAt_unique h8 h8').1
  cases w
  cases w'
  simp only at e1 e2 e5 e6 e7 e8 p p' n n' f f' r r' d d'
  subst e1 e2 e5 e6 e7 e8
  rw [p, p', n, n', f, f', r, r', d, d']

theorem entryFails_parts {b : Bytes} {syn : Bool} {i : Nat} {e : Err} (hi : i ≤ b.length) (h : EntryFails b syn i e) :
    PartsFail b (entryParts syn) i e := by
  cases h with
  | start h => omega
  | part pre post p j _ _ h1 h2 h3 => exact ⟨pre, p, post, j, h1, h2, h3⟩

theorem entryFails_unique {b : Bytes} {syn : Bool} {i : Nat} {e e' : Err} (h : EntryFails b syn i e) (h' : EntryFails b syn i e') : e = e' := by
  by_cases hi : i ≤ b.length
  · exact partsFail_unique (entryFails_parts hi h) (entryFails_parts hi h')
  · cases h with
    | start =>
      cases h' with
      | start => rfl
      | part _ _ _ _ _ h => omega
    | part _ _ _ _ _ h => omega

end Sudachi
