/-
C04-C09: the input text builder and the built text.
-/
import Verif.Lemmas.Text3
namespace Sudachi

/-! ## C04 -/

/-- **C04** One valid replacement, exactly: the text is spliced; positions before `b` and from `e` on keep their
original index, the first new character gets that of position `b`, every further one that of position `e`. -/
theorem C04_replace_splice (bd : Builder) (hv : bd.Valid) (b e : Nat) (s : PStr) (hbe : b < e)
    (he : e ≤ bd.modified.length) (hs : s ≠ []) :
    ∃ mb me, bd.m2o[b]? = some mb ∧ bd.m2o[e]? = some me ∧
      bd.replace b e s = .ok {
        original := bd.original
        modified := bd.modified.take b ++ s ++ bd.modified.drop e
        m2o := bd.m2o.take b ++ [mb] ++ List.replicate (s.length - 1) me ++ bd.m2o.drop e } := by
  have hl := hv.len
  refine ⟨bd.m2o[b], bd.m2o[e], List.getElem?_eq_getElem _, List.getElem?_eq_getElem _, ?_⟩
  rw [replace_eq bd b e s hl hbe he hs]
  simp only [List.append_assoc, List.cons_append, List.nil_append]

/-- **C04** After any sequence of valid replacements the map has one more entry than the text, is non-decreasing,
starts at 0 and ends at the original length; and the original text is untouched. -/
theorem C04_reachable_valid (text : PStr) (bd : Builder) (h : Reachable text bd) :
    bd.original = text ∧ ValidMap bd.m2o bd.modified.length text.length := by
  induction h with
  | init => exact ⟨rfl, Builder.Valid.init text⟩
  | step ed _ hok heq ih =>
    obtain ⟨h1, h2⟩ := ih
    obtain ⟨bd', h3, h4, h5, -⟩ := Builder.Valid.replace (by unfold Builder.Valid; rw [h1]; exact h2) hok.1 hok.2.1 hok.2.2
    rw [h3] at heq
    cases heq
    refine ⟨by rw [h5, h1], ?_⟩
    have := h4
    unfold Builder.Valid at this
    rw [h5, h1] at this
    exact this

/-- **C04** A valid replacement on a reachable builder never raises. -/
theorem C04_progress (text : PStr) (bd : Builder) (h : Reachable text bd) (ed : Edit) (hok : ed.Ok bd.modified.length) :
    ∃ bd', bd.replace ed.b ed.e ed.s = .ok bd' ∧ Reachable text bd' ∧
      bd'.modified = bd.modified.take ed.b ++ ed.s ++ bd.modified.drop ed.e := by
  obtain ⟨h1, h2⟩ := C04_reachable_valid text bd h
  obtain ⟨bd', h3, -, -, h6⟩ := Builder.Valid.replace (bd := bd) (by unfold Builder.Valid; rw [h1]; exact h2)
    hok.1 hok.2.1 hok.2.2
  exact ⟨bd', h3, .step ed h hok h3, h6⟩

/-- A deletion (empty string) that reaches the end of the text destroys the end of the map: C04 needs `s ≠ []`. -/
theorem C04_empty_replacement_breaks_map :
    (Builder.init [97, 98, 99]).replace 1 3 [] = .ok ⟨[97, 98, 99], [97], [0, 1]⟩ ∧
      ¬ ValidMap [0, 1] 1 3 := by
  refine ⟨by decide, ?_⟩
  intro h
  have := h.last
  simp at this

/-- "abc" -> replace(1,2,"xyz") -> replace(0,1,"Q"): the hypotheses of the C04 theorems are met. -/
example : Reachable [97, 98, 99] ⟨[97, 98, 99], [81, 120, 121, 122, 99], [0, 1, 2, 2, 2, 3]⟩ :=
  .step ⟨0, 1, [81]⟩ (.step (bd' := ⟨[97, 98, 99], [97, 120, 121, 122, 99], [0, 1, 2, 2, 2, 3]⟩)
    ⟨1, 2, [120, 121, 122]⟩ .init ⟨by decide, by decide, by decide⟩ (by decide))
    ⟨by decide, by decide, by decide⟩ (by decide)

/-! ## C05 -/

/-- **C05** Invalid arguments are refused before anything is changed. -/
theorem C05_invalid_refused (bd : Builder) (b e : Int) (s : PStr) :
    (b < 0 ∨ b > bd.modified.length ∨ b > e → bd.replaceM b e s = (bd, .error .index)) ∧
    (0 ≤ b ∧ b ≤ bd.modified.length ∧ b = e → bd.replaceM b e s = (bd, .error .attribute)) := by
  unfold Builder.replaceM
  constructor
  · rintro (h | h | h)
    · simp [h]
    · by_cases h0 : b < 0
      · simp [h0]
      · simp [h0, h]
    · by_cases h0 : b < 0
      · simp [h0]
      · by_cases h1 : b > bd.modified.length
        · simp [h0, h1]
        · simp [h0, h1, h]
  · rintro ⟨h1, h2, h3⟩
    rw [if_neg (by omega), if_neg (by omega), if_neg (by omega), if_pos h3]

/-- **C05** An end past the text is clipped to the text. -/
theorem C05_end_clipped (bd : Builder) (b e : Int) (s : PStr) (he : (bd.modified.length : Int) ≤ e)
    (hb : b < bd.modified.length) :
    bd.replaceM b e s = bd.replaceM b bd.modified.length s := by
  unfold Builder.replaceM
  by_cases h0 : b < 0
  · simp [h0]
  · rw [if_neg h0, if_neg h0, if_neg (by omega), if_neg (by omega), if_neg (by omega), if_neg (by omega),
      if_neg (by omega), if_neg (by omega)]
    have : min e.toNat bd.modified.length = bd.modified.length := by omega
    simp [this]

/-- **C05** On a valid builder these are the only refusals: every other call succeeds. -/
theorem C05_otherwise_succeeds (bd : Builder) (hv : bd.Valid) (b e : Int) (s : PStr) (h0 : 0 ≤ b)
    (hb : b < bd.modified.length) (hbe : b < e) (hs : s ≠ []) : ∃ bd', bd.replaceM b e s = (bd', .ok ()) := by
  obtain ⟨bd', h1, -⟩ := Builder.Valid.replace hv (b := b.toNat) (e := e.toNat) (s := s) (by omega) (by omega) hs
  rw [show ((b.toNat : Nat) : Int) = b by omega, show ((e.toNat : Nat) : Int) = e by omega] at h1
  unfold Builder.replace at h1
  split at h1
  · rename_i bd'' h; exact ⟨bd'', h⟩
  · cases h1

/-- Insertion at the very end is *not* refused, although `begin == end` after clipping; it then breaks the map
(the text grows by 2, the map by 1). -/
theorem C05_insert_at_end_breaks_map :
    (Builder.init [97]).replaceM 1 2 [120, 121] = (⟨[97], [97, 120, 121], [0, 1, 1]⟩, .ok ()) ∧
      ¬ ValidMap [0, 1, 1] 3 1 := by
  refine ⟨by decide, ?_⟩
  intro h; have := h.len; simp at this

/-- **C05** Of any builder, whatever its map: arguments that are not refused put the new text in place, and then the
call succeeds if the map has an entry for the clipped end, and raises `IndexError` -- with the text replaced and the
map as it was -- if it has none. -/
theorem C05_short_map (bd : Builder) (b e : Int) (s : PStr) (h0 : 0 ≤ b) (hb : b ≤ bd.modified.length) (hbe : b < e) :
    (min e.toNat bd.modified.length < bd.m2o.length → ∃ m, bd.replaceM b e s = (⟨bd.original,
      bd.modified.take b.toNat ++ s ++ bd.modified.drop (min e.toNat bd.modified.length), m⟩, .ok ())) ∧
    (bd.m2o.length ≤ min e.toNat bd.modified.length → bd.replaceM b e s = (⟨bd.original,
      bd.modified.take b.toNat ++ s ++ bd.modified.drop (min e.toNat bd.modified.length), bd.m2o⟩, .error .index)) := by
  have hbt : b.toNat ≤ min e.toNat bd.modified.length := by omega
  unfold Builder.replaceM
  rw [if_neg (by omega), if_neg (by omega), if_neg (by omega), if_neg (by omega)]
  generalize min e.toNat bd.modified.length = t at hbt
  dsimp only
  constructor
  · intro h
    rw [List.getElem?_eq_getElem (show b.toNat < bd.m2o.length by omega), List.getElem?_eq_getElem h]
    dsimp only
    rw [if_pos (by
      split
      · simp only [List.length_append, List.length_take, List.length_drop]; omega
      · omega)]
    exact ⟨_, rfl⟩
  · intro h
    rw [List.getElem?_eq_none h]
    cases bd.m2o[b.toNat]? <;> rfl

/-- The insertion at the end of `C05_insert_at_end_breaks_map` leaves a builder whose map is too short: the next
replacement that reaches the end of the text raises, and has changed the text. -/
example : (⟨[97], [97, 120, 121], [0, 1, 1]⟩ : Builder).replaceM 0 3 [98] =
    (⟨[97], [98], [0, 1, 1]⟩, .error .index) := (C05_short_map _ 0 3 [98] (by decide) (by decide) (by decide)).2 (by decide)
example : ∃ m, (⟨[97], [97, 120, 121], [0, 1, 1]⟩ : Builder).replaceM 0 2 [98] =
    (⟨[97], [98, 121], m⟩, .ok ()) := (C05_short_map _ 0 2 [98] (by decide) (by decide) (by decide)).1 (by decide)
example : (Builder.init [97, 98]).replaceM (-1) 1 [99] = (Builder.init [97, 98], .error .index) := by decide
example : (Builder.init [97, 98]).replaceM 1 7 [99] = (⟨[97, 98], [97, 99], [0, 1, 2]⟩, .ok ()) := by decide

/-! ## C06 -/

/-- **C06** Every byte maps to its character and to that character's original position; bytes are the encoding. -/
theorem C06_byte_of_char (bd : Builder) (hv : bd.Valid) (catOf : Nat → CatSet) (t : InputText)
    (h : bd.build catOf = .ok t) (k j c : Nat) (hk : bd.modified[k]? = some c) (hj : j < (utf8Cp c).length) :
    t.bytes[bytePos bd.modified k + j]? = (utf8Cp c)[j]? ∧
    t.getOffsetTextLength (bytePos bd.modified k + j) = .ok k ∧
    ∃ o, bd.m2o[k]? = some o ∧ t.getOriginalIndex (bytePos bd.modified k + j) = .ok o := by
  have B := built hv.len h
  have hk' : k < bd.modified.length := by
    rcases Nat.lt_or_ge k bd.modified.length with h | h
    · exact h
    · rw [List.getElem?_eq_none h] at hk; cases hk
  rw [List.getElem?_eq_getElem hk'] at hk
  cases hk
  have hj' : j < utf8ByteLength bd.modified[k] := by
    rw [← utf8Cp_length (List.all_eq_true.mp B.enc _ (List.getElem_mem hk'))]; exact hj
  rw [B.bytePos_wpos]
  have hl := hv.len
  refine ⟨B.bytes_getElem? hk' hj', ?_, bd.m2o[k], List.getElem?_eq_getElem _, ?_⟩
  · simp [InputText.getOffsetTextLength, pyGet, B.bi k j hk' hj']
  · simp [InputText.getOriginalIndex, pyGet, B.off k j hk' hj', List.getElem?_eq_getElem (show k < bd.m2o.length by omega)]

/-- **C06** The end of the text, the range of valid offsets, and that every byte is covered by a character. -/
theorem C06_ends_and_cover (bd : Builder) (hv : bd.Valid) (catOf : Nat → CatSet) (t : InputText)
    (h : bd.build catOf = .ok t) :
    t.bytes = bd.modified.flatMap utf8Cp ∧
    t.getOffsetTextLength t.bytes.length = .ok bd.modified.length ∧
    t.getOriginalIndex t.bytes.length = .ok bd.original.length ∧
    (∀ p, t.bytes.length < p → t.getOffsetTextLength p = .error .index ∧ t.getOriginalIndex p = .error .index) ∧
    (∀ p, p < t.bytes.length → ∃ k j c, bd.modified[k]? = some c ∧ j < (utf8Cp c).length ∧
      p = bytePos bd.modified k + j) := by
  have B := built hv.len h
  refine ⟨B.bytes, ?_, ?_, ?_, ?_⟩
  · simp [InputText.getOffsetTextLength, pyGet, B.biEnd]
  · simp [InputText.getOriginalIndex, pyGet, B.offEnd, hv.last]
  · intro p hp
    have h1 := B.biLen
    have h2 := B.offLen
    simp [InputText.getOffsetTextLength, InputText.getOriginalIndex, pyGet,
      List.getElem?_eq_none (show t.byteIndexes.length ≤ p by omega),
      List.getElem?_eq_none (show t.offsets.length ≤ p by omega)]
  · intro p hp
    obtain ⟨k, j, hk, hj, he, -⟩ := B.char_of_byte hp
    refine ⟨k, j, bd.modified[k], List.getElem?_eq_getElem hk, ?_, by rw [B.bytePos_wpos]; exact he⟩
    rw [utf8Cp_length (List.all_eq_true.mp B.enc _ (List.getElem_mem hk))]; exact hj

/-- **C06** The substring between two character boundaries is exactly the characters between them, and an end past
the text or before the begin is refused. -/
theorem C06_substring (bd : Builder) (hv : bd.Valid) (catOf : Nat → CatSet) (t : InputText)
    (h : bd.build catOf = .ok t) :
    (∀ a b, a ≤ b → b ≤ bd.modified.length →
      t.getSubstring (bytePos bd.modified a) (bytePos bd.modified b) = .ok ((bd.modified.take b).drop a)) ∧
    (∀ p q, q > t.bytes.length ∨ p > q → t.getSubstring p q = .error .index) := by
  have B := built hv.len h
  refine ⟨?_, ?_⟩
  · intro a b hab hb
    rw [B.bytePos_wpos, B.bytePos_wpos]
    exact B.substring hab hb
  · intro p q hpq
    unfold InputText.getSubstring
    by_cases h1 : q > t.bytes.length
    · simp [h1]
    · have h2 : p > q := by omega
      simp [h1, h2]

/-- **C06** `build` raises exactly on text that is not encodable (`UnicodeEncodeError`), or else on a character without any category
(`TypeError`). -/
theorem C06_build_outcome (bd : Builder) (hv : bd.Valid) (catOf : Nat → CatSet) :
    (¬ Encodes bd.modified → bd.build catOf = .error .unicode) ∧
    (Encodes bd.modified → MissingCats bd.modified catOf → bd.build catOf = .error .type) ∧
    (Encodes bd.modified → ¬ MissingCats bd.modified catOf → ∃ t, bd.build catOf = .ok t) := by
  have henc : bd.modified.all encodable = true ↔ Encodes bd.modified := by
    rw [List.all_eq_true]
    constructor
    · intro h c hc
      have := h c hc
      simp only [encodable, Bool.and_eq_true, decide_eq_true_eq, Bool.not_eq_true', Bool.and_eq_false_iff,
        decide_eq_false_iff_not] at this
      omega
    · intro h c hc
      have := h c hc
      simp only [encodable, Bool.and_eq_true, decide_eq_true_eq, Bool.not_eq_true', Bool.and_eq_false_iff,
        decide_eq_false_iff_not]
      omega
  have hmiss : emptyCatTypeError (bd.modified.map catOf) = true ↔ MissingCats bd.modified catOf := by
    cases hm : bd.modified with
    | nil => simp [emptyCatTypeError, MissingCats]
    | cons c cs =>
      have h1 : (cs.map catOf).any List.isEmpty = true ↔ ∃ (k c' : Nat), (c :: cs)[k + 1]? = some c' ∧ catOf c' = [] := by
        simp only [List.any_eq_true, List.mem_map, List.isEmpty_iff, List.getElem?_cons_succ]
        constructor
        · rintro ⟨_, ⟨x, hx, rfl⟩, hy⟩
          obtain ⟨k, hk⟩ := List.getElem?_of_mem hx
          exact ⟨k, x, hk, hy⟩
        · rintro ⟨k, x, hk, hy⟩
          exact ⟨_, ⟨x, List.mem_of_getElem? hk, rfl⟩, hy⟩
      unfold MissingCats
      rw [← h1]
      cases cs with
      | nil => simp [emptyCatTypeError]
      | cons d ds => simp [emptyCatTypeError, Alphabetic]
  have hl := hv.len
  have hg : bd.m2o.getLast? = some (bd.m2o[bd.modified.length]'(by omega)) := by
    have h1 : bd.m2o.length - 1 = bd.modified.length := by omega
    simp only [List.getLast?_eq_getElem?, h1]
    exact List.getElem?_eq_getElem _
  unfold Builder.build encodeUtf8
  refine ⟨?_, ?_, ?_⟩
  · intro h
    rw [if_neg (fun h1 => h (henc.mp h1))]
    rfl
  · intro h1 h2
    rw [if_pos (henc.mpr h1), fillOffsets_eq _ _ 0 (by omega), hg]
    simp [bind, Except.bind, hmiss.mpr h2]
  · intro h1 h2
    have h2 : emptyCatTypeError (bd.modified.map catOf) = false := by
      rw [← Bool.not_eq_true]
      exact fun h => h2 (hmiss.mp h)
    rw [if_pos (henc.mpr h1), fillOffsets_eq _ _ 0 (by omega), hg]
    simp [bind, Except.bind, h2, pure, Except.pure]

/-- A first character without categories is harmless, unless a letter follows; any other one is not. -/
example : ((Builder.init [65, 66]).build fun c => if c = 65 then [] else [.KANJI]).isOk = true ∧
    ((Builder.init [65, 66]).build fun c => if c = 65 then [] else [.CYRILLIC]) = .error .type ∧
    ((Builder.init [66, 65]).build fun c => if c = 65 then [] else [.KANJI]) = .error .type ∧
    ((Builder.init [0xD800, 65]).build fun c => if c = 65 then [] else [.KANJI]) = .error .unicode := by
  have hv : ∀ text : PStr, (Builder.init text).Valid := fun text => (C04_reachable_valid _ _ .init).2
  refine ⟨rfl, (C06_build_outcome _ (hv _) _).2.1 (by unfold Encodes; decide) (.inr ⟨65, 66, rfl, rfl, rfl, .inr (.inr (by decide))⟩),
    (C06_build_outcome _ (hv _) _).2.1 (by unfold Encodes; decide) (.inl ⟨0, 65, rfl, rfl⟩),
    (C06_build_outcome _ (hv _) _).1 (by unfold Encodes; decide)⟩

/-- A text with characters of 1, 2, 3 and 4 bytes, after a replacement, satisfies the hypotheses. -/
example : ∃ bd t, Reachable [65, 0x3042, 66] bd ∧ bd.Valid ∧ bd.build (fun _ => [.ALPHA]) = .ok t ∧
    t.offsets = [0, 1, 1, 2, 2, 2, 2, 2, 3] ∧ t.byteIndexes = [0, 1, 1, 2, 2, 2, 2, 3, 4] := by
  have hr : Reachable [65, 0x3042, 66] ⟨[65, 0x3042, 66], [65, 0xE9, 0x1F600, 66], [0, 1, 2, 2, 3]⟩ :=
    .step ⟨1, 2, [0xE9, 0x1F600]⟩ .init ⟨by decide, by decide, by decide⟩ (by decide)
  obtain ⟨h1, h2⟩ := C04_reachable_valid _ _ hr
  exact ⟨_, _, hr, h2, rfl, by decide, by decide⟩

/-! ## C07 -/

/-- **C07** -/
theorem C07_lengths (bd : Builder) (hv : bd.Valid) (catOf : Nat → CatSet) (t : InputText)
    (h : bd.build catOf = .ok t) :
    (∀ k n, k ≤ bd.modified.length → t.codePointsOffsetLength (bytePos bd.modified k) n =
      .ok ((((bd.modified.drop k).take n).flatMap utf8Cp).length)) ∧
    (∀ a b, a ≤ bd.modified.length → b ≤ bd.modified.length →
      t.codePointCount (bytePos bd.modified a) (bytePos bd.modified b) = .ok ((b : Int) - a)) := by
  have B := built hv.len h
  refine ⟨?_, ?_⟩
  · intro k n hk
    rw [B.bytePos_wpos, B.codePointsOffsetLength_spec hk]
    congr 1
    have hd : (bd.modified.drop k).all encodable = true := by
      rw [List.all_eq_true]
      intro x hx
      exact List.all_eq_true.mp B.enc x (List.mem_of_mem_drop hx)
    have h1 := bytePos_eq hd n
    unfold bytePos at h1
    rw [h1]
    have h2 := wpos_drop bd.modified k n
    unfold wpos at h2
    rw [h2]
    have h3 : wpos bd.modified (min (k + n) bd.modified.length) = wpos bd.modified (k + n) := by
      rcases Nat.lt_or_ge (k + n) bd.modified.length with h | h
      · rw [Nat.min_eq_left (by omega)]
      · rw [Nat.min_eq_right h]
        unfold wpos
        rw [List.take_of_length_le (by simp), List.take_of_length_le (by simp; omega)]
    rw [h3]
    rfl
  · intro a b ha hb
    rw [B.bytePos_wpos, B.bytePos_wpos]
    exact B.codePointCount_spec ha hb

example : ∃ t, (Builder.init [65, 0x3042, 0xE9, 66]).Valid ∧ (Builder.init [65, 0x3042, 0xE9, 66]).build (fun _ => [.ALPHA]) = .ok t
    ∧ t.codePointsOffsetLength 1 2 = .ok 5 ∧ t.codePointsOffsetLength 1 9 = .ok 6 :=
  ⟨_, Builder.Valid.init _, rfl, by decide, by decide⟩

/-! ## C08 -/

/-- **C08** `can_bow`, exactly; an offset past the text raises. -/
theorem C08_can_bow (bd : Builder) (hv : bd.Valid) (catOf : Nat → CatSet) (t : InputText)
    (h : bd.build catOf = .ok t) (p : Nat) :
    (p < t.bytes.length → ∃ b, t.canBow p = .ok b ∧
      (b = true ↔ ∃ k, k < bd.modified.length ∧ p = bytePos bd.modified k ∧ BowChar (bd.modified.map catOf) k)) ∧
    (t.bytes.length ≤ p → t.canBow p = .error .index) := by
  have B := built hv.len h
  refine ⟨?_, ?_⟩
  · intro hp
    obtain ⟨b, h1, h2⟩ := B.canBow_spec hp
    refine ⟨b, h1, ?_⟩
    rw [h2, ← B.cats]
    simp only [B.bytePos_wpos]
  · intro hp
    simp [InputText.canBow, pyGet, List.getElem?_eq_none hp, bind, Except.bind]

/-- **C08** `get_word_candidate_length` is the distance to the next possible word beginning, or to the end. -/
theorem C08_word_candidate_length (bd : Builder) (hv : bd.Valid) (catOf : Nat → CatSet) (t : InputText)
    (h : bd.build catOf = .ok t) (index : Nat) (hi : index < t.bytes.length) :
    ∃ q, t.wordCandidateLength index = .ok (q - index) ∧ index < q ∧ q ≤ t.bytes.length ∧
      (q < t.bytes.length → t.canBow q = .ok true) ∧ ∀ r, index < r → r < q → t.canBow r = .ok false :=
  (built hv.len h).wordCandidateLength_spec hi

/-- "ab日": no word begins at "b". -/
example : ∃ t, (Builder.init [97, 98, 0x65E5]).build (fun c => if c < 128 then [.ALPHA] else [.KANJI]) = .ok t ∧
    t.canBow 0 = .ok true ∧ t.canBow 1 = .ok false ∧ t.canBow 2 = .ok true ∧ t.canBow 3 = .ok false ∧
    t.wordCandidateLength 0 = .ok 2 ∧ t.wordCandidateLength 2 = .ok 3 :=
  ⟨_, rfl, by decide, by decide, by decide, by decide, by decide, by decide⟩

/-! ## C09 -/

/-- **C09** The continuity table counts down to the end of the greedy run that contains the byte. -/
theorem C09_continuous_length (bd : Builder) (hv : bd.Valid) (catOf : Nat → CatSet) (t : InputText)
    (h : bd.build catOf = .ok t) (p : Nat) (hp : p < t.bytes.length) :
    ∃ a b, RunStart (bd.modified.map catOf) a ∧ IsRun (bd.modified.map catOf) a b ∧
      bytePos bd.modified a ≤ p ∧ p < bytePos bd.modified b ∧
      t.charCategoryContinuousLength p = .ok (bytePos bd.modified b - p) := by
  have B := built hv.len h
  obtain ⟨a, b, h1, h2, h3, h4, h5⟩ := B.contRun hp
  rw [B.cats] at h1 h2
  exact ⟨a, b, h1, h2, by rw [B.bytePos_wpos]; exact h3, by rw [B.bytePos_wpos]; exact h4,
    by rw [B.bytePos_wpos]; exact h5⟩

/-- **C09** Common categories of a span: exact when the span stays inside the greedy run of its first character,
empty when it leaves the run. -/
theorem C09_common_categories (bd : Builder) (hv : bd.Valid) (catOf : Nat → CatSet) (t : InputText)
    (h : bd.build catOf = .ok t) (a b : Nat) (hab : a < b) (hb : b ≤ bd.modified.length) :
    ∃ i j, RunStart (bd.modified.map catOf) i ∧ IsRun (bd.modified.map catOf) i j ∧ i ≤ a ∧ a < j ∧
    ∃ r, t.charCategoryTypes (bytePos bd.modified a) (bytePos bd.modified b) = .ok r ∧
      (b ≤ j → ∀ c, c ∈ r ↔ CommonCat (bd.modified.map catOf) a b c) ∧ (j < b → r = []) := by
  have B := built hv.len h
  have := B.types_span hab hb
  rw [B.cats] at this
  simpa only [B.bytePos_wpos] using this

/-- **C09** The result is never wrong in the other direction: every reported category is common to the span. -/
theorem C09_sound (bd : Builder) (hv : bd.Valid) (catOf : Nat → CatSet) (t : InputText)
    (h : bd.build catOf = .ok t) (a b : Nat) (hab : a < b) (hb : b ≤ bd.modified.length) (r : CatSet)
    (hr : t.charCategoryTypes (bytePos bd.modified a) (bytePos bd.modified b) = .ok r) (c : Cat) (hc : c ∈ r) :
    CommonCat (bd.modified.map catOf) a b c := by
  obtain ⟨i, j, -, -, -, -, r', h1, h2, h3⟩ := C09_common_categories bd hv catOf t h a b hab hb
  rw [h1] at hr
  cases hr
  rcases Nat.lt_or_ge j b with h4 | h4
  · rw [h3 h4] at hc; cases hc
  · exact (h2 h4 c).mp hc

/-- **C09** Incompleteness: characters with categories {ALPHA}, {ALPHA,GREEK}, {GREEK}; the span of the last two
has the common category GREEK but the query answers the empty list. -/
theorem C09_incomplete_witness :
    ∃ (bd : Builder) (catOf : Nat → CatSet) (t : InputText), bd.Valid ∧ bd.build catOf = .ok t ∧
      t.charCategoryTypes (bytePos bd.modified 1) (bytePos bd.modified 3) = .ok [] ∧
      CommonCat (bd.modified.map catOf) 1 3 .GREEK := by
  refine ⟨Builder.init [1, 2, 3], fun c => if c = 1 then [.ALPHA] else if c = 2 then [.ALPHA, .GREEK] else [.GREEK],
    _, Builder.Valid.init _, rfl, by decide, ?_⟩
  intro k cs h1 h2 h3
  match k, h1, h2 with
  | 1, _, _ => cases h3; decide
  | 2, _, _ => cases h3; decide

/-- "12日本x": runs [0,2), [2,4), [4,5). -/
example : ∃ t, (Builder.init [49, 50, 0x65E5, 0x672C, 120]).build
      (fun c => if c < 64 then [.NUMERIC] else if c < 128 then [.ALPHA] else [.KANJI]) = .ok t ∧
    t.conts = [2, 1, 6, 5, 4, 3, 2, 1, 1] ∧ t.charCategoryTypes 2 8 = .ok [.KANJI] ∧ t.charCategoryTypes 0 5 = .ok [] :=
  ⟨_, rfl, by decide, by decide, by decide⟩

end Sudachi
