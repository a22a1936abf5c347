/-
Reading a text file in pieces.
-/
import Verif.Model.TextStream
import Verif.Spec.TextStream
import Verif.Lemmas.Utf8
import Verif.Props.Definitions
namespace Sudachi

/-! ### The decoder -/

/-- Bytes that the decoder can keep. -/
def Held : Bytes → Prop
  | [] => True
  | [a] => 0xC2 ≤ a ∧ a ≤ 0xF4
  | [a, b] => (0xE0 ≤ a ∧ a ≤ 0xF4) ∧ (0x80 ≤ b ∧ b ≤ 0xBF) ∧
      ¬ ((a = 0xE0 ∧ b < 0xA0) ∨ (a = 0xED ∧ 0xA0 ≤ b) ∨ (a = 0xF0 ∧ b < 0x90) ∨ (a = 0xF4 ∧ 0x90 ≤ b))
  | [a, b, c] => (0xF0 ≤ a ∧ a ≤ 0xF4) ∧ (0x80 ≤ b ∧ b ≤ 0xBF) ∧ (0x80 ≤ c ∧ c ≤ 0xBF) ∧
      ¬ ((a = 0xF0 ∧ b < 0x90) ∨ (a = 0xF4 ∧ 0x90 ≤ b))
  | _ => False

theorem utf8Cp_ne (c : Nat) : utf8Cp c ≠ [] := by
  unfold utf8Cp
  split
  · simp
  · split
    · simp
    · split <;> simp

/-- They are the beginning of a character. -/
theorem held_begins {h : Bytes} (hh : Held h) : ∃ c x, encodable c = true ∧ utf8Cp c = h ++ x ∧ x ≠ [] := by
  match h, hh with
  | [], _ => exact ⟨0, [0], by decide, by decide, by simp⟩
  | [a], ⟨h1, h2⟩ =>
    by_cases c1 : a ≤ 0xDF
    · refine ⟨(a - 0xC0) * 64, [0x80], encOk (by omega), ?_, by simp⟩
      unfold utf8Cp
      rw [if_neg (by omega), if_pos (by omega)]
      simp only [List.cons_append, List.nil_append, List.cons.injEq, and_true]
      omega
    · by_cases c2 : a ≤ 0xEF
      · by_cases c3 : a = 0xE0
        · exact ⟨0x800, [0xA0, 0x80], by decide, by rw [c3]; decide, by simp⟩
        · refine ⟨(a - 0xE0) * 4096, [0x80, 0x80], encOk (by omega), ?_, by simp⟩
          unfold utf8Cp
          rw [if_neg (by omega), if_neg (by omega), if_pos (by omega)]
          simp only [List.cons_append, List.nil_append, List.cons.injEq, and_true]
          omega
      · by_cases c3 : a = 0xF0
        · exact ⟨0x10000, [0x90, 0x80, 0x80], by decide, by rw [c3]; decide, by simp⟩
        · refine ⟨(a - 0xF0) * 262144, [0x80, 0x80, 0x80], encOk (by omega), ?_, by simp⟩
          unfold utf8Cp
          rw [if_neg (by omega), if_neg (by omega), if_neg (by omega)]
          simp only [List.cons_append, List.nil_append, List.cons.injEq, and_true]
          omega
  | [a, b], ⟨h1, h2, h3⟩ =>
    by_cases c2 : a ≤ 0xEF
    · refine ⟨(a - 0xE0) * 4096 + (b - 0x80) * 64, [0x80], encOk (by omega), ?_, by simp⟩
      unfold utf8Cp
      rw [if_neg (by omega), if_neg (by omega), if_pos (by omega)]
      simp only [List.cons_append, List.nil_append, List.cons.injEq, and_true]
      omega
    · refine ⟨(a - 0xF0) * 262144 + (b - 0x80) * 4096, [0x80, 0x80], encOk (by omega), ?_, by simp⟩
      unfold utf8Cp
      rw [if_neg (by omega), if_neg (by omega), if_neg (by omega)]
      simp only [List.cons_append, List.nil_append, List.cons.injEq, and_true]
      omega
  | [a, b, c], ⟨h1, h2, h3, h4⟩ =>
    refine ⟨(a - 0xF0) * 262144 + (b - 0x80) * 4096 + (c - 0x80) * 64, [0x80], encOk (by omega), ?_, by simp⟩
    unfold utf8Cp
    rw [if_neg (by omega), if_neg (by omega), if_neg (by omega)]
    simp only [List.cons_append, List.nil_append, List.cons.injEq, and_true]
    omega

/-- One byte: a character is complete, or one more byte is kept. -/
theorem stepByte_ok {h h' : Bytes} {x : Nat} {o : Option Nat} (hh : Held h) (hs : stepByte h x = .ok (o, h')) :
    (∃ c, o = some c ∧ h' = [] ∧ encodable c = true ∧ utf8Cp c = h ++ [x]) ∨ (o = none ∧ h' = h ++ [x] ∧ Held h') := by
  match h, hh with
  | [], _ =>
    unfold stepByte at hs
    dsimp only at hs
    split at hs
    · cases hs
      exact .inl ⟨x, rfl, rfl, encOk (by omega), by unfold utf8Cp; rw [if_pos (by assumption)]; rfl⟩
    · split at hs
      · cases hs
        rename_i h2
        exact .inr ⟨rfl, rfl, h2⟩
      · cases hs
  | [a], ⟨h1, h2⟩ =>
    unfold stepByte at hs
    dsimp only at hs
    split at hs
    · cases hs
    · rename_i hx
      have hx : 128 ≤ x ∧ x ≤ 191 := isCont_iff.1 (by simpa using hx)
      split at hs
      · cases hs
        refine .inl ⟨_, rfl, rfl, encOk (by omega), ?_⟩
        unfold utf8Cp
        rw [if_neg (by omega), if_pos (by omega)]
        simp only [List.cons_append, List.nil_append, List.cons.injEq, and_true]
        omega
      · split at hs
        · cases hs
        · cases hs
          exact .inr ⟨rfl, rfl, ⟨by omega, by omega⟩, hx, by assumption⟩
  | [a, b], ⟨h1, h2, h3⟩ =>
    unfold stepByte at hs
    dsimp only at hs
    split at hs
    · cases hs
    · rename_i hx
      have hx : 128 ≤ x ∧ x ≤ 191 := isCont_iff.1 (by simpa using hx)
      split at hs
      · cases hs
        refine .inl ⟨_, rfl, rfl, encOk (by omega), ?_⟩
        unfold utf8Cp
        rw [if_neg (by omega), if_neg (by omega), if_pos (by omega)]
        simp only [List.cons_append, List.nil_append, List.cons.injEq, and_true]
        omega
      · cases hs
        exact .inr ⟨rfl, rfl, ⟨by omega, by omega⟩, h2, hx, by omega⟩
  | [a, b, c], ⟨h1, h2, h3, h4⟩ =>
    unfold stepByte at hs
    dsimp only at hs
    split at hs
    · cases hs
    · rename_i hx
      have hx : 128 ≤ x ∧ x ≤ 191 := isCont_iff.1 (by simpa using hx)
      cases hs
      refine .inl ⟨_, rfl, rfl, encOk (by omega), ?_⟩
      unfold utf8Cp
      rw [if_neg (by omega), if_neg (by omega), if_neg (by omega)]
      simp only [List.cons_append, List.nil_append, List.cons.injEq, and_true]
      omega

theorem stepByte_error {h : Bytes} {x : Nat} {e : Err} (hs : stepByte h x = .error e) : e = .unicode := by
  unfold stepByte at hs
  repeat' split at hs
  all_goals first | (cases hs; rfl) | cases hs

theorem decodePiece_error : ∀ {b h : Bytes} {e : Err}, decodePiece h b = .error e → e = .unicode
  | [], _, _, hs => by cases hs
  | x :: xs, h, e, hs => by
    unfold decodePiece at hs
    split at hs
    · rename_i e' h1
      cases hs
      exact stepByte_error h1
    · split at hs
      · rename_i h1
        cases hs
        exact decodePiece_error h1
      · cases hs

/-- What the decoder has read. -/
theorem decodePiece_ok : ∀ {b h h' : Bytes} {t : PStr}, Held h → decodePiece h b = .ok (t, h') →
    Held h' ∧ (∀ c ∈ t, encodable c = true) ∧ h ++ b = t.flatMap utf8Cp ++ h'
  | [], h, h', t, hh, hs => by
    cases hs
    exact ⟨hh, by simp, by simp⟩
  | x :: xs, h, h', t, hh, hs => by
    unfold decodePiece at hs
    split at hs
    · cases hs
    · rename_i c h1 hst
      split at hs
      · cases hs
      · rename_i cs h2 hrec
        cases hs
        rcases stepByte_ok hh hst with ⟨c', rfl, rfl, hc, hu⟩ | ⟨rfl, rfl, hk⟩
        · obtain ⟨i1, i2, i3⟩ := decodePiece_ok (h := []) trivial hrec
          refine ⟨i1, fun d hd => ?_, ?_⟩
          · rcases List.mem_cons.1 hd with rfl | hd
            · exact hc
            · exact i2 d hd
          · rw [List.flatMap_cons, hu, List.append_assoc, ← i3]
            simp
        · obtain ⟨i1, i2, i3⟩ := decodePiece_ok hk hrec
          refine ⟨i1, i2, ?_⟩
          rw [← i3]
          simp

theorem decodePiece_cons (h : Bytes) (x : Nat) (xs : Bytes) : decodePiece h (x :: xs) =
    match stepByte h x with
    | .error e => .error e
    | .ok (c, held') =>
      match decodePiece held' xs with
      | .error e => .error e
      | .ok (cs, held'') => .ok ((match c with | some c => c :: cs | none => cs), held'') := rfl

theorem decodePiece_append : ∀ {b h : Bytes} (y : Bytes), decodePiece h (b ++ y) =
    match decodePiece h b with
    | .error e => .error e
    | .ok (t, h') =>
      match decodePiece h' y with
      | .error e => .error e
      | .ok (u, h'') => .ok (t ++ u, h'')
  | [], h, y => by
    show decodePiece h y = match decodePiece h y with
      | .error e => .error e
      | .ok (u, h'') => .ok ([] ++ u, h'')
    cases decodePiece h y <;> rfl
  | x :: xs, h, y => by
    rw [List.cons_append, decodePiece_cons h x (xs ++ y), decodePiece_cons h x xs]
    cases stepByte h x with
    | error e => rfl
    | ok p =>
      obtain ⟨c, h1⟩ := p
      dsimp only
      rw [decodePiece_append y]
      cases decodePiece h1 xs with
      | error e => rfl
      | ok q =>
        obtain ⟨t, h2⟩ := q
        dsimp only
        cases decodePiece h2 y with
        | error e => rfl
        | ok r => cases c <;> rfl

/-- A character is decoded. -/
theorem decodePiece_char {c : Nat} (hc : encodable c = true) : decodePiece [] (utf8Cp c) = .ok ([c], []) := by
  have h := encodable_iff.1 hc
  unfold utf8Cp
  split
  · simp [decodePiece, stepByte, *]
  · rename_i h1
    split
    · have e : (0xC0 + c / 64 - 0xC0) * 64 + (0x80 + c % 64 - 0x80) = c := by omega
      have s1 : stepByte [] (0xC0 + c / 64) = .ok (none, [0xC0 + c / 64]) := by
        unfold stepByte; dsimp only; rw [if_neg (by omega), if_pos (by omega)]
      have s2 : stepByte [0xC0 + c / 64] (0x80 + c % 64) = .ok (some c, []) := by
        unfold stepByte; dsimp only
        rw [if_neg (by simp [isCont]; omega), if_pos (by omega), e]
      simp only [decodePiece, s1, s2]
    · split
      · have e : (0xE0 + c / 4096 - 0xE0) * 4096 + (0x80 + c / 64 % 64 - 0x80) * 64 + (0x80 + c % 64 - 0x80) = c := by omega
        have s1 : stepByte [] (0xE0 + c / 4096) = .ok (none, [0xE0 + c / 4096]) := by
          unfold stepByte; dsimp only; rw [if_neg (by omega), if_pos (by omega)]
        have s2 : stepByte [0xE0 + c / 4096] (0x80 + c / 64 % 64) = .ok (none, [0xE0 + c / 4096, 0x80 + c / 64 % 64]) := by
          unfold stepByte; dsimp only
          rw [if_neg (by simp [isCont]; omega), if_neg (by omega), if_neg (by omega)]
        have s3 : stepByte [0xE0 + c / 4096, 0x80 + c / 64 % 64] (0x80 + c % 64) = .ok (some c, []) := by
          unfold stepByte; dsimp only
          rw [if_neg (by simp [isCont]; omega), if_pos (by omega), e]
        simp only [decodePiece, s1, s2, s3]
      · have e : (0xF0 + c / 262144 - 0xF0) * 262144 + (0x80 + c / 4096 % 64 - 0x80) * 4096 + (0x80 + c / 64 % 64 - 0x80) * 64 +
            (0x80 + c % 64 - 0x80) = c := by omega
        have s1 : stepByte [] (0xF0 + c / 262144) = .ok (none, [0xF0 + c / 262144]) := by
          unfold stepByte; dsimp only; rw [if_neg (by omega), if_pos (by omega)]
        have s2 : stepByte [0xF0 + c / 262144] (0x80 + c / 4096 % 64) = .ok (none, [0xF0 + c / 262144, 0x80 + c / 4096 % 64]) := by
          unfold stepByte; dsimp only
          rw [if_neg (by simp [isCont]; omega), if_neg (by omega), if_neg (by omega)]
        have s3 : stepByte [0xF0 + c / 262144, 0x80 + c / 4096 % 64] (0x80 + c / 64 % 64) =
            .ok (none, [0xF0 + c / 262144, 0x80 + c / 4096 % 64, 0x80 + c / 64 % 64]) := by
          unfold stepByte; dsimp only
          rw [if_neg (by simp [isCont]; omega), if_neg (by omega)]
        have s4 : stepByte [0xF0 + c / 262144, 0x80 + c / 4096 % 64, 0x80 + c / 64 % 64] (0x80 + c % 64) = .ok (some c, []) := by
          unfold stepByte; dsimp only
          rw [if_neg (by simp [isCont]; omega), e]
        simp only [decodePiece, s1, s2, s3, s4]

theorem decodePiece_text : ∀ {t : PStr}, (∀ c ∈ t, encodable c = true) → decodePiece [] (t.flatMap utf8Cp) = .ok (t, [])
  | [], _ => rfl
  | c :: cs, h => by
    rw [List.flatMap_cons, decodePiece_append, decodePiece_char (h c (by simp))]
    dsimp only
    rw [decodePiece_text fun d hd => h d (by simp [hd])]
    rfl

theorem encodeUtf8_all {t : PStr} (h : ∀ c ∈ t, encodable c = true) : encodeUtf8 t = .ok (t.flatMap utf8Cp) := by
  unfold encodeUtf8
  rw [if_pos (List.all_eq_true.2 h)]

/-- The decoder goes on exactly as long as the bytes begin a text. -/
theorem begins_iff {b : Bytes} : BeginsText b ↔ ∃ t h, decodePiece [] b = .ok (t, h) := by
  constructor
  · rintro ⟨text, rest, h⟩
    obtain ⟨h1, h2⟩ := encodeUtf8_ok h
    have := decodePiece_text h1
    rw [← h2, decodePiece_append] at this
    cases hd : decodePiece [] b with
    | error e => rw [hd] at this; cases this
    | ok p => exact ⟨p.1, p.2, rfl⟩
  · rintro ⟨t, h, hd⟩
    obtain ⟨i1, i2, i3⟩ := decodePiece_ok (h := []) trivial hd
    obtain ⟨c, x, hc, hu, _⟩ := held_begins i1
    refine ⟨t ++ [c], x, ?_⟩
    rw [encodeUtf8_all (by
      intro d hd
      rcases List.mem_append.1 hd with hd | hd
      · exact i2 d hd
      · rw [List.mem_singleton.1 hd]; exact hc)]
    rw [List.flatMap_append, List.flatMap_cons, List.flatMap_nil, List.append_nil, hu, ← List.append_assoc, ← i3]
    rfl

theorem decodePiece_held_empty {b h : Bytes} {t : PStr} (hd : decodePiece [] b = .ok (t, h)) : h = [] ↔ ∃ text, encodeUtf8 text = .ok b := by
  obtain ⟨i1, i2, i3⟩ := decodePiece_ok (h := []) trivial hd
  constructor
  · rintro rfl
    refine ⟨t, ?_⟩
    rw [encodeUtf8_all i2]
    have : b = t.flatMap utf8Cp := by simpa using i3
    rw [this]
  · rintro ⟨text, h'⟩
    obtain ⟨h1, h2⟩ := encodeUtf8_ok h'
    have := decodePiece_text h1
    rw [← h2, hd] at this
    cases this
    rfl

/-- The characters it has given out are all that are complete. -/
theorem decodePiece_whole {b h : Bytes} {t : PStr} (hd : decodePiece [] b = .ok (t, h)) : WholeChars b t := by
  obtain ⟨_, i2, i3⟩ := decodePiece_ok (h := []) trivial hd
  refine ⟨_, h, encodeUtf8_all i2, i3, ?_⟩
  intro text' t' rest' h1 h2
  obtain ⟨j1, j2⟩ := encodeUtf8_ok h1
  have hp := decodePiece_text j1
  rw [← j2] at hp
  rw [h2, decodePiece_append, hp] at hd
  dsimp only at hd
  split at hd
  · cases hd
  · cases hd
    simp

theorem WholeChars.unique {b : Bytes} {t t' : PStr} (h : WholeChars b t) (h' : WholeChars b t') : t = t' := by
  obtain ⟨x, r, e1, e2, e3⟩ := h
  obtain ⟨x', r', e1', e2', e3'⟩ := h'
  have hl : t.length = t'.length := Nat.le_antisymm (e3' _ _ _ e1 e2) (e3 _ _ _ e1' e2')
  obtain ⟨a1, rfl⟩ := encodeUtf8_ok e1
  obtain ⟨a1', rfl⟩ := encodeUtf8_ok e1'
  have key : ∀ {t t' : PStr} {r r' : Bytes}, (∀ c ∈ t, encodable c = true) → (∀ c ∈ t', encodable c = true) → t.length = t'.length →
      t.flatMap utf8Cp ++ r = t'.flatMap utf8Cp ++ r' → t = t' := by
    intro t
    induction t with
    | nil => intro t' r r' _ _ hl _; exact (List.length_eq_zero_iff.1 hl.symm).symm
    | cons c t ih =>
      intro t' r r' h1 h2 hl he
      cases t' with
      | nil => cases hl
      | cons c' t' =>
        rw [List.flatMap_cons, List.flatMap_cons, List.append_assoc, List.append_assoc] at he
        have hlen : ∀ {a b : Nat} {u v : Bytes}, encodable a = true → encodable b = true → utf8Cp a ++ u = utf8Cp b ++ v → a = b ∧ u = v := by
          intro a b u v ha hb he
          have ha' := encodable_iff.1 ha
          have hb' := encodable_iff.1 hb
          unfold utf8Cp at he
          repeat' split at he
          all_goals simp only [List.cons_append, List.nil_append, List.cons.injEq] at he
          all_goals first | (exfalso; omega) | (refine ⟨by omega, ?_⟩; simp only [he])
        obtain ⟨rfl, he'⟩ := hlen (h1 c (by simp)) (h2 c' (by simp)) he
        rw [ih (fun d hd => h1 d (by simp [hd])) (fun d hd => h2 d (by simp [hd])) (Nat.succ.inj hl) he']
  exact key a1 a1' hl (e2.symm.trans e2')

/-! ### The lines -/

theorem feedText_cons (s : LineState) (c : Nat) (cs : PStr) : feedText s (c :: cs) =
    if s.cr then
      let next := feedText (if c = 10 then ⟨[], false⟩ else if c = 13 then ⟨[], true⟩ else ⟨[c], false⟩) cs
      ((s.cur ++ [10]) :: next.1, next.2)
    else if c = 10 then
      let next := feedText ⟨[], false⟩ cs
      ((s.cur ++ [10]) :: next.1, next.2)
    else if c = 13 then feedText ⟨s.cur, true⟩ cs
    else feedText ⟨s.cur ++ [c], false⟩ cs := rfl

theorem feedText_append : ∀ (t : PStr) (s : LineState) (u : PStr),
    feedText s (t ++ u) = ((feedText s t).1 ++ (feedText (feedText s t).2 u).1, (feedText (feedText s t).2 u).2)
  | [], s, u => rfl
  | c :: cs, s, u => by
    rw [List.cons_append, feedText_cons s c (cs ++ u), feedText_cons s c cs]
    split
    · dsimp only
      rw [feedText_append cs]
      rfl
    · split
      · dsimp only
        rw [feedText_append cs]
        rfl
      · split
        · exact feedText_append cs _ u
        · exact feedText_append cs _ u

theorem linesAux_plain {c : Nat} {cur cs : PStr} (h1 : c ≠ 10) (h2 : c ≠ 13) : linesAux cur (c :: cs) = linesAux (cur ++ [c]) cs := by
  rw [linesAux]
  · rw [if_neg (by rintro (h | h) <;> contradiction)]
  · intro cs' h _
    exact h2 h

theorem linesAux_cr {c : Nat} {cur cs : PStr} (h1 : c ≠ 10) : linesAux cur (13 :: c :: cs) = (cur ++ [10]) :: linesAux [] (c :: cs) := by
  rw [linesAux]
  · rw [if_pos (.inl rfl)]
  · intro cs' _ h
    exact h1 (List.cons.inj h).1

/-- The lines of a whole text. -/
theorem feedText_lines : ∀ (t : PStr) (s : LineState),
    (feedText s t).1 ++ (feedText s t).2.last = linesAux s.cur (if s.cr then 13 :: t else t)
  | [], ⟨cur, cr⟩ => by
    cases cr with
    | true => simp [feedText, LineState.last, linesAux]
    | false => simp [feedText, LineState.last, linesAux]
  | c :: cs, ⟨cur, cr⟩ => by
    cases cr with
    | true =>
      simp only [feedText, if_true]
      rw [List.cons_append, feedText_lines cs]
      by_cases h1 : c = 10
      · subst h1
        simp [linesAux]
      · by_cases h2 : c = 13
        · subst h2
          simp only [if_neg h1, if_true]
          conv => rhs; unfold linesAux
          simp
        · simp only [if_neg h1, if_neg h2, Bool.false_eq_true, if_false]
          rw [linesAux_cr h1, linesAux_plain h1 h2]
          rfl
    | false =>
      simp only [feedText, Bool.false_eq_true, if_false]
      by_cases h1 : c = 10
      · subst h1
        simp only [if_true]
        rw [List.cons_append, feedText_lines cs]
        simp [linesAux]
      · rw [if_neg h1]
        by_cases h2 : c = 13
        · subst h2
          simp only [if_true]
          rw [feedText_lines cs]
          simp
        · rw [if_neg h2, feedText_lines cs]
          conv => rhs; rw [linesAux.eq_def]
          simp [h1, h2]

theorem feedText_plain : ∀ {t : PStr} (cur u : PStr), (∀ c ∈ t, c ≠ 10 ∧ c ≠ 13) → feedText ⟨cur, false⟩ (t ++ u) = feedText ⟨cur ++ t, false⟩ u
  | [], cur, u, _ => by simp
  | c :: cs, cur, u, h => by
    obtain ⟨h1, h2⟩ := h c (by simp)
    rw [List.cons_append]
    conv => lhs; unfold feedText
    simp only [Bool.false_eq_true, if_false, if_neg h1, if_neg h2]
    rw [feedText_plain _ u fun d hd => h d (by simp [hd])]
    simp

theorem wholeLines_feed {t : PStr} {ls : List PStr} (h : WholeLines t ls) : (feedText ⟨[], false⟩ t).1 = ls := by
  induction h with
  | none s h =>
    have := feedText_plain [] [] h
    rw [List.append_nil] at this
    rw [this]
    rfl
  | open_ s h => rw [feedText_plain [] [13] h]; rfl
  | line s nl rest ls h hn _ ih =>
    rw [List.append_assoc, feedText_plain [] _ h]
    rcases hn with rfl | rfl | ⟨rfl, h1, h2⟩
    · show (([] ++ s) ++ [10]) :: (feedText ⟨[], false⟩ rest).1 = _
      rw [ih]; rfl
    · show (([] ++ s) ++ [10]) :: (feedText ⟨[], false⟩ rest).1 = _
      rw [ih]; rfl
    · cases rest with
      | nil => exact (h1 rfl).elim
      | cons c cs =>
        have hc : c ≠ 10 := fun e => h2 ⟨cs, by rw [e]⟩
        rw [← ih]
        simp [feedText, hc]
        split <;> rfl

theorem wholeLines_exists (n : Nat) : ∀ t : PStr, t.length ≤ n → ∃ ls, WholeLines t ls := by
  induction n with
  | zero =>
    intro t h
    have : t = [] := List.length_eq_zero_iff.1 (by omega)
    subst this
    exact ⟨[], .none [] (by simp)⟩
  | succ n ih =>
    intro t h
    have hd := List.takeWhile_append_dropWhile (p := fun c => decide (c ≠ 10 ∧ c ≠ 13)) (l := t)
    have hs : ∀ c ∈ t.takeWhile (fun c => decide (c ≠ 10 ∧ c ≠ 13)), c ≠ 10 ∧ c ≠ 13 := by
      intro c hc
      have := List.all_takeWhile (p := fun c => decide (c ≠ 10 ∧ c ≠ 13)) (l := t)
      exact of_decide_eq_true (List.all_eq_true.1 this c hc)
    generalize hS : t.takeWhile (fun c => decide (c ≠ 10 ∧ c ≠ 13)) = s at hd hs
    cases hr : t.dropWhile (fun c => decide (c ≠ 10 ∧ c ≠ 13)) with
    | nil =>
      rw [hr, List.append_nil] at hd
      subst hd
      exact ⟨[], .none _ hs⟩
    | cons x r =>
      have hx : x = 10 ∨ x = 13 := by
        have h1 := List.head?_dropWhile_not (fun c => decide (c ≠ 10 ∧ c ≠ 13)) t
        rw [hr] at h1
        simp only [List.head?_cons] at h1
        simp at h1
        omega
      rw [hr] at hd
      have hlen : s.length + (r.length + 1) = t.length := by rw [← hd]; simp
      rcases hx with rfl | rfl
      · obtain ⟨ls, hl⟩ := ih r (by omega)
        refine ⟨(s ++ [10]) :: ls, ?_⟩
        rw [← hd, show s ++ 10 :: r = s ++ [10] ++ r by simp]
        exact .line s [10] r ls hs (.inl rfl) hl
      · cases r with
        | nil => exact ⟨[], by rw [← hd]; exact .open_ s hs⟩
        | cons y r =>
          simp only [List.length_cons] at hlen
          by_cases hy : y = 10
          · subst hy
            obtain ⟨ls, hl⟩ := ih r (by omega)
            refine ⟨(s ++ [10]) :: ls, ?_⟩
            rw [← hd, show s ++ 13 :: 10 :: r = s ++ [13, 10] ++ r by simp]
            exact .line s [13, 10] r ls hs (.inr (.inl rfl)) hl
          · obtain ⟨ls, hl⟩ := ih (y :: r) (by simp; omega)
            refine ⟨(s ++ [10]) :: ls, ?_⟩
            rw [← hd, show s ++ 13 :: y :: r = s ++ [13] ++ (y :: r) by simp]
            exact .line s [13] _ ls hs (.inr (.inr ⟨rfl, by simp, fun ⟨r', e⟩ => hy (List.cons.inj e).1⟩)) hl

theorem wholeLines_iff {t : PStr} {ls : List PStr} : WholeLines t ls ↔ (feedText ⟨[], false⟩ t).1 = ls := by
  refine ⟨wholeLines_feed, ?_⟩
  rintro rfl
  obtain ⟨ls, h⟩ := wholeLines_exists _ t (Nat.le_refl _)
  rw [wholeLines_feed h]
  exact h

/-! ### The pieces -/

/-- All pieces can be decoded. -/
theorem readPieces_all : ∀ {ps : List Bytes} {h h' : Bytes} {s : LineState} {t : PStr}, decodePiece h ps.flatten = .ok (t, h') →
    readPieces h s ps = if h'.isEmpty then ((feedText s t).1 ++ (feedText s t).2.last, .ok ()) else ((feedText s t).1, .error .unicode)
  | [], h, h', s, t, hd => by
    cases hd
    unfold readPieces
    split <;> rfl
  | p :: ps, h, h', s, t, hd => by
    rw [List.flatten_cons, decodePiece_append] at hd
    unfold readPieces
    cases h1 : decodePiece h p with
    | error e => rw [h1] at hd; cases hd
    | ok q =>
      obtain ⟨u, k⟩ := q
      rw [h1] at hd
      dsimp only at hd ⊢
      split at hd
      · cases hd
      · rename_i v k' h2
        cases hd
        rw [readPieces_all h2, feedText_append]
        split
        · simp
        · rfl

/-- A piece cannot be decoded. -/
theorem readPieces_bad : ∀ {done : List Bytes} {h h' : Bytes} {s : LineState} {t : PStr} {p : Bytes} {rest : List Bytes} {e : Err},
    decodePiece h done.flatten = .ok (t, h') → decodePiece h' p = .error e →
    readPieces h s (done ++ p :: rest) = ((feedText s t).1, .error e)
  | [], h, h', s, t, p, rest, e, hd, he => by
    cases hd
    show readPieces _ _ (p :: rest) = _
    unfold readPieces
    rw [he]
    rfl
  | q :: done, h, h', s, t, p, rest, e, hd, he => by
    rw [List.flatten_cons, decodePiece_append] at hd
    rw [List.cons_append]
    unfold readPieces
    cases h1 : decodePiece h q with
    | error e => rw [h1] at hd; cases hd
    | ok r =>
      obtain ⟨u, k⟩ := r
      rw [h1] at hd
      dsimp only at hd ⊢
      split at hd
      · cases hd
      · rename_i v k' h2
        cases hd
        rw [readPieces_bad h2 he, feedText_append]

theorem piecesAux_flatten {size : Nat} (hs : 0 < size) : ∀ (n : Nat) (b : Bytes), b.length ≤ n → (piecesAux size n b).flatten = b
  | 0, b, h => by
    have : b = [] := List.length_eq_zero_iff.1 (by omega)
    subst this
    rfl
  | n + 1, b, h => by
    unfold piecesAux
    cases b with
    | nil => rfl
    | cons x b =>
      rw [if_neg (by simp), List.flatten_cons, piecesAux_flatten hs n _ (by simp at h ⊢; omega), List.take_append_drop]

theorem piecesAux_take {size : Nat} (hs : 0 < size) : ∀ (n : Nat) (b : Bytes), b.length ≤ n → ∀ k,
    ((piecesAux size n b).take k).flatten = b.take (k * size)
  | 0, b, h, k => by
    have : b = [] := List.length_eq_zero_iff.1 (by omega)
    subst this
    simp [piecesAux]
  | n + 1, b, h, 0 => by simp
  | n + 1, b, h, k + 1 => by
    unfold piecesAux
    cases b with
    | nil => simp
    | cons x b =>
      rw [if_neg (by simp), List.take_succ_cons, List.flatten_cons, piecesAux_take hs n _ (by simp at h ⊢; omega), Nat.succ_mul, Nat.add_comm,
        List.take_add]

end Sudachi
