/-
C90: the lines of a file that is read in pieces.
-/
import Verif.Lemmas.TextStream
namespace Sudachi

/-- **C90** In whatever pieces a file is read: all of it can be read exactly if it is the UTF-8 of a text, and then the lines are those
of the text. -/
theorem C90_pieces (ps : List Bytes) (ls : List PStr) :
    readPieces [] ⟨[], false⟩ ps = (ls, .ok ()) ↔ ∃ text, encodeUtf8 text = .ok ps.flatten ∧ Lines text ls := by
  cases hd : decodePiece [] ps.flatten with
  | ok q =>
    obtain ⟨t, h⟩ := q
    rw [readPieces_all hd]
    have hw := decodePiece_held_empty hd
    by_cases he : h = []
    · subst he
      rw [if_pos (by rfl)]
      have ht : encodeUtf8 t = .ok ps.flatten := by
        obtain ⟨_, i2, i3⟩ := decodePiece_ok (h := []) trivial hd
        rw [encodeUtf8_all i2]
        have : ps.flatten = t.flatMap utf8Cp := by simpa using i3
        rw [this]
      have hl : (feedText ⟨[], false⟩ t).1 ++ (feedText ⟨[], false⟩ t).2.last = linesAux [] t := feedText_lines t ⟨[], false⟩
      rw [hl]
      constructor
      · intro h
        cases h
        exact ⟨t, ht, lines_iff.1 rfl⟩
      · rintro ⟨t', h1, h2⟩
        have e1 := decodeUtf8_iff.2 h1
        rw [decodeUtf8_iff.2 ht] at e1
        cases e1
        rw [lines_iff.2 h2]
    · rw [if_neg (by simpa using he)]
      refine ⟨fun h => (by cases h), ?_⟩
      rintro ⟨t', h1, _⟩
      exact (he (hw.2 ⟨t', h1⟩)).elim
  | error e =>
    constructor
    · intro h
      exfalso
      have key : ∀ (ps : List Bytes) (h : Bytes) (s : LineState) (l : List PStr), readPieces h s ps = (l, .ok ()) →
          ∃ q, decodePiece h ps.flatten = .ok q := by
        intro ps
        induction ps with
        | nil => intro h s l _; exact ⟨_, rfl⟩
        | cons p ps ih =>
          intro h s l hr
          unfold readPieces at hr
          cases h1 : decodePiece h p with
          | error e => rw [h1] at hr; cases hr
          | ok r =>
            obtain ⟨u, k⟩ := r
            rw [h1] at hr
            obtain ⟨_, hr2⟩ := Prod.mk.inj hr
            obtain ⟨⟨v, k'⟩, hq⟩ := ih k (feedText s u).2 _ (Prod.ext rfl hr2)
            exact ⟨_, by rw [List.flatten_cons, decodePiece_append, h1]; dsimp only; rw [hq]⟩
      obtain ⟨q, hq⟩ := key _ _ _ _ h
      rw [hd] at hq
      cases hq
    · rintro ⟨t, h1, _⟩
      have := begins_iff.1 ⟨t, [], by rw [List.append_nil]; exact h1⟩
      obtain ⟨_, _, this⟩ := this
      rw [hd] at this
      cases this

/-- **C90** A file that is no text, read in pieces of some size: the lines that are given out are those that are complete before the
piece that shows it, and then there is a `UnicodeDecodeError`. -/
theorem C90_broken {size : Nat} (hs : 0 < size) (b : Bytes) (ls : List PStr) (e : Err) :
    readPieces [] ⟨[], false⟩ (piecesAux size b.length b) = (ls, .error e) ↔ e = .unicode ∧ LinesUpTo size b ls := by
  have hflat := piecesAux_flatten hs b.length b (Nat.le_refl _)
  have htake := piecesAux_take hs b.length b (Nat.le_refl _)
  generalize piecesAux size b.length b = ps at hflat htake
  have hlen : b.length ≤ ps.length * size := by
    have := htake ps.length
    rw [List.take_length, hflat] at this
    have h2 := congrArg List.length this
    rw [List.length_take] at h2
    omega
  constructor
  · intro h
    cases hd : decodePiece [] b with
    | ok q =>
      obtain ⟨t, k⟩ := q
      have hd' : decodePiece [] ps.flatten = .ok (t, k) := by rw [hflat]; exact hd
      rw [readPieces_all hd'] at h
      split at h
      · cases h
      · rename_i hk
        cases h
        refine ⟨rfl, ps.length, t, ?_, .inr ⟨hlen, ?_⟩, ?_, wholeLines_iff.2 rfl⟩
        · rw [List.take_of_length_le hlen]
          exact begins_iff.2 ⟨t, k, hd⟩
        · intro ht
          have := (decodePiece_held_empty hd).2 ht
          subst this
          exact hk rfl
        · rw [List.take_of_length_le hlen]
          exact decodePiece_whole hd
    | error x =>
      have key : ∀ (n : Nat), n ≤ ps.length → (∃ k < n, ∃ t h', decodePiece [] (ps.take k).flatten = .ok (t, h') ∧
          ∃ x, decodePiece [] (ps.take (k + 1)).flatten = .error x) ∨ ∃ q, decodePiece [] (ps.take n).flatten = .ok q := by
        intro n
        induction n with
        | zero => intro _; exact .inr ⟨_, rfl⟩
        | succ n ih =>
          intro hn
          rcases ih (by omega) with ⟨k, hk, h⟩ | ⟨q, hq⟩
          · exact .inl ⟨k, by omega, h⟩
          · cases hc : decodePiece [] (ps.take (n + 1)).flatten with
            | ok q' => exact .inr ⟨q', rfl⟩
            | error x => exact .inl ⟨n, by omega, q.1, q.2, hq, x, hc⟩
      rcases key ps.length (Nat.le_refl _) with ⟨k, hk, t, h', h1, x', h2⟩ | ⟨q, hq⟩
      · have hsplit : ps = ps.take k ++ ps[k] :: ps.drop (k + 1) := by
          rw [← List.drop_eq_getElem_cons (by assumption), List.take_append_drop]
        have h3 : decodePiece h' ps[k] = .error .unicode := by
          rw [List.take_succ_eq_append_getElem hk, List.flatten_append, List.flatten_cons, List.flatten_nil, List.append_nil, decodePiece_append,
            h1] at h2
          dsimp only at h2
          cases h4 : decodePiece h' ps[k] with
          | error y => rw [decodePiece_error h4]
          | ok r => rw [h4] at h2; cases h2
        rw [hsplit, readPieces_bad h1 h3] at h
        cases h
        refine ⟨rfl, k, t, ?_, .inl ?_, ?_, wholeLines_iff.2 rfl⟩
        · rw [← htake]; exact begins_iff.2 ⟨t, h', h1⟩
        · rw [← htake, begins_iff]
          rintro ⟨_, _, h⟩
          rw [h2] at h
          cases h
        · rw [← htake]; exact decodePiece_whole h1
      · rw [List.take_length, hflat, hd] at hq
        cases hq
  · rintro ⟨rfl, n, text, hb, hstop, hwc, hwl⟩
    obtain ⟨t, k, hd⟩ := begins_iff.1 hb
    obtain rfl := hwc.unique (decodePiece_whole hd)
    rw [wholeLines_iff] at hwl
    subst hwl
    by_cases hall : b.length ≤ n * size
    · have e1 : b.take (n * size) = b := List.take_of_length_le hall
      rw [e1] at hd
      have hnt : ¬ ∃ text, encodeUtf8 text = .ok b := by
        rcases hstop with h | ⟨_, h⟩
        · intro ⟨x, hx⟩
          refine h ⟨x, [], ?_⟩
          rw [List.append_nil, List.take_of_length_le (by rw [Nat.succ_mul]; omega)]
          exact hx
        · exact h
      have hk : k ≠ [] := fun h => hnt ((decodePiece_held_empty hd).1 h)
      have hd' : decodePiece [] ps.flatten = .ok (text, k) := by rw [hflat]; exact hd
      rw [readPieces_all hd', if_neg (by simpa using hk)]
    · have hbad : ¬ BeginsText (b.take ((n + 1) * size)) := by
        rcases hstop with h | ⟨h, _⟩
        · exact h
        · exact (hall h).elim
      have hn : n < ps.length := by
        refine Classical.byContradiction fun hge => hall ?_
        exact Nat.le_trans hlen (Nat.mul_le_mul_right _ (by omega))
      have h1 : decodePiece [] (ps.take n).flatten = .ok (text, k) := by rw [htake]; exact hd
      have hsplit : ps = ps.take n ++ ps[n] :: ps.drop (n + 1) := by
        rw [← List.drop_eq_getElem_cons (by assumption), List.take_append_drop]
      have h3 : decodePiece k ps[n] = .error .unicode := by
        cases h4 : decodePiece k ps[n] with
        | error y => rw [decodePiece_error h4]
        | ok r =>
          refine (hbad (begins_iff.2 ?_)).elim
          rw [← htake, List.take_succ_eq_append_getElem hn, List.flatten_append, List.flatten_cons, List.flatten_nil, List.append_nil,
            decodePiece_append, h1]
          dsimp only
          rw [h4]
          exact ⟨_, _, rfl⟩
      conv => lhs; rw [hsplit]
      exact readPieces_bad h1 h3

/-- **C90** The lines of a text file, and how reading it ends. -/
theorem C90_file (b : Bytes) (ls : List PStr) :
    (streamLines b = (ls, .ok ()) ↔ ∃ text, encodeUtf8 text = .ok b ∧ Lines text ls) ∧
    ∀ e, streamLines b = (ls, .error e) ↔ e = .unicode ∧ LinesUpTo 8192 b ls := by
  constructor
  · have := C90_pieces (piecesAux CHUNK_SIZE b.length b) ls
    rw [piecesAux_flatten (by decide) _ _ (Nat.le_refl _)] at this
    exact this
  · exact fun e => C90_broken (by decide) b ls e

/-- **C90** So reading it line by line is reading it at once, if it is a text. -/
theorem C90_at_once (b : Bytes) (ls : List PStr) : streamLines b = (ls, .ok ()) ↔ textLines b = .ok ls := by
  rw [(C90_file b ls).1, C65_text]

/-- `ab`, a carriage return, a line feed, `c`, a carriage return at the end of the third piece of two bytes, and a byte that begins no
character: only the first line is given out. -/
example : readPieces [] ⟨[], false⟩ (piecesAux 2 8 [97, 98, 13, 10, 99, 13, 0xFF, 10]) = ([[97, 98, 10]], .error .unicode) := by decide
/-- A character in two pieces; at the end of the file a byte is missing. -/
example : readPieces [] ⟨[], false⟩ (piecesAux 2 6 [97, 0xC3, 0xA9, 10, 98, 0xE3]) = ([[97, 0xE9, 10]], .error .unicode) := by decide
/-- Two pieces of lines, then a wrong byte: all lines are given out. -/
example : LinesUpTo 2 [97, 10, 98, 10, 0xFF] [[97, 10], [98, 10]] := by
  refine (C90_broken (by decide) _ _ .unicode).1 ?_ |>.2
  decide

end Sudachi
