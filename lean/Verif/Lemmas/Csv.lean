/-
Lemmas about `csv.reader`.
-/
import Verif.Spec.Csv
import Verif.Lemmas.Definitions
namespace Sudachi

namespace CsvReader

/-- The reader on a text whose lines end with line feeds; `mid`: something of the current line has been read. -/
def scan : CsvReader → Bool → PStr → List (List PStr) × Res Unit
  | r, mid, [] =>
    if mid then
      match r.step none with
      | .error e => ([], .error e)
      | .ok r' => if r'.state = .startRecord then ([r'.fields], .ok ()) else r'.rows []
    else r.rows []
  | r, _, c :: cs =>
    match r.step (some c) with
    | .error e => ([], .error e)
    | .ok r' =>
      if c = 10 then
        match r'.step none with
        | .error e => ([], .error e)
        | .ok r'' => if r''.state = .startRecord then (r''.fields :: (scan reset false cs).1, (scan reset false cs).2) else r''.scan false cs
      else r'.scan true cs

theorem rows_nil_reset : reset.rows [] = ([], .ok ()) := by simp [rows, reset]

/-- A complete line. -/
theorem scan_line (rest : PStr) : ∀ (s : PStr) (r : CsvReader) (mid : Bool), (∀ c ∈ s, c ≠ 10 ∧ c ≠ 13) →
    r.scan mid (s ++ 10 :: rest) =
      match r.line (s ++ [10]) with
      | .error e => ([], .error e)
      | .ok r' => if r'.state = .startRecord then (r'.fields :: (scan reset false rest).1, (scan reset false rest).2) else r'.scan false rest := by
  intro s
  induction s with
  | nil =>
    intro r mid _
    show r.scan mid (10 :: rest) = match r.line [10] with | .error e => _ | .ok r' => _
    rw [scan, line]
    cases h1 : r.step (some 10) with
    | error e => rfl
    | ok r1 =>
      show (if 10 = 10 then _ else _) = match r1.line [] with | .error e => _ | .ok r' => _
      rw [if_pos rfl, line]
  | cons c s ih =>
    intro r mid hs
    show r.scan mid (c :: (s ++ 10 :: rest)) = match r.line (c :: (s ++ [10])) with | .error e => _ | .ok r' => _
    rw [scan, line]
    cases h1 : r.step (some c) with
    | error e => rfl
    | ok r1 =>
      show (if c = 10 then _ else _) = match r1.line (s ++ [10]) with | .error e => _ | .ok r' => _
      rw [if_neg (hs c (by simp)).1]
      exact ih r1 true (fun x hx => hs x (by simp [hx]))

/-- A last line without a line feed. -/
theorem scan_last : ∀ (s : PStr) (r : CsvReader) (mid : Bool), (mid = true ∨ s ≠ []) → (∀ c ∈ s, c ≠ 10 ∧ c ≠ 13) →
    r.scan mid s =
      match r.line s with
      | .error e => ([], .error e)
      | .ok r' => if r'.state = .startRecord then ([r'.fields], .ok ()) else r'.rows [] := by
  intro s
  induction s with
  | nil =>
    intro r mid h _
    have hm : mid = true := by
      rcases h with h | h
      · exact h
      · exact absurd rfl h
    rw [scan, if_pos hm, line]
  | cons c s ih =>
    intro r mid _ hs
    rw [scan, line]
    cases h1 : r.step (some c) with
    | error e => rfl
    | ok r1 =>
      show (if c = 10 then _ else _) = match r1.line s with | .error e => _ | .ok r' => _
      rw [if_neg (hs c (by simp)).1]
      exact ih r1 true (.inl rfl) (fun x hx => hs x (by simp [hx]))

/-- The reader on the lines of a text. -/
theorem rows_scan {text : PStr} {ls : List PStr} (h : Lines text ls) : ∀ r : CsvReader, r.rows ls = r.scan false ls.flatten := by
  induction h with
  | nil => intro r; rw [List.flatten_nil, scan]; rfl
  | last s h1 h2 =>
    intro r
    rw [List.flatten_cons, List.flatten_nil, List.append_nil, scan_last s r false (.inr h1) h2, rows]
    cases r.line s with
    | error e => rfl
    | ok r' => dsimp only; rw [rows_nil_reset]
  | cons s nl rest ls h1 h2 h3 ih =>
    intro r
    rw [List.flatten_cons, List.append_assoc]
    show _ = r.scan false (s ++ 10 :: ls.flatten)
    rw [scan_line _ s r false h1, rows]
    cases r.line (s ++ [10]) with
    | error e => rfl
    | ok r' => dsimp only; rw [ih, ih]

/-! ### Fields -/

/-- At the beginning of a field. -/
def Fresh (r : CsvReader) : Prop := r.field = [] ∧ (r.state = .startRecord ∨ r.state = .startField)

/-- A field has been read. -/
def Holds (r : CsvReader) (f : PStr) : Prop :=
  r.field = f ∧ (r.state = .inField ∨ r.state = .quoteInQuotedField ∨ (f = [] ∧ (r.state = .startField ∨ r.state = .startRecord)))

theorem scan_plain_rest (rest : PStr) : ∀ (g f : PStr) (fs : List PStr) (mid : Bool), (∀ c ∈ g, c ≠ 44 ∧ c ≠ 10 ∧ c ≠ 13) →
    (f ++ g).length ≤ fieldLimit →
    (⟨.inField, fs, f⟩ : CsvReader).scan mid (g ++ rest) = (⟨.inField, fs, f ++ g⟩ : CsvReader).scan (mid || !g.isEmpty) rest := by
  intro g
  induction g with
  | nil => intro f fs mid _ _; simp
  | cons c g ih =>
    intro f fs mid hg hl
    obtain ⟨h1, h2, h3⟩ := hg c (by simp)
    rw [List.length_append, List.length_cons] at hl
    have hs : (⟨.inField, fs, f⟩ : CsvReader).step (some c) = .ok ⟨.inField, fs, f ++ [c]⟩ := by
      unfold step
      have he : isEol (some c) = false := by simp [isEol, h2, h3]
      simp only [he]
      rw [if_neg (by simp), if_neg h1]
      unfold addChar
      rw [if_neg (by dsimp only; omega)]
    show scan _ mid (c :: (g ++ rest)) = _
    rw [scan, hs]
    dsimp only
    rw [if_neg h2, ih (f ++ [c]) fs true (fun x hx => hg x (by simp [hx])) (by simp only [List.length_append, List.length_cons, List.length_nil]; omega)]
    simp

theorem scan_quoted_rest (rest : PStr) : ∀ (g f : PStr) (fs : List PStr) (mid : Bool), (∀ c ∈ g, c ≠ 13) → (f ++ g).length ≤ fieldLimit →
    ∃ mid', (⟨.inQuotedField, fs, f⟩ : CsvReader).scan mid (g.flatMap (fun c => if c = 34 then [34, 34] else [c]) ++ rest) =
      (⟨.inQuotedField, fs, f ++ g⟩ : CsvReader).scan mid' rest := by
  intro g
  induction g with
  | nil => intro f fs mid _ _; exact ⟨mid, by simp⟩
  | cons c g ih =>
    intro f fs mid hg hl
    rw [List.length_append, List.length_cons] at hl
    have hadd : ∀ st, (⟨st, fs, f⟩ : CsvReader).addChar c = .ok ⟨st, fs, f ++ [c]⟩ := by
      intro st
      unfold addChar
      rw [if_neg (by dsimp only; omega)]
    have next := fun m => ih (f ++ [c]) fs m (fun x hx => hg x (by simp [hx])) (by simp only [List.length_append, List.length_cons, List.length_nil]; omega)
    simp only [List.append_assoc, List.singleton_append] at next
    rw [List.flatMap_cons]
    by_cases hq : c = 34
    · subst hq
      obtain ⟨mid', hm⟩ := next true
      refine ⟨mid', ?_⟩
      rw [if_pos rfl]
      show scan _ mid (34 :: 34 :: (g.flatMap _ ++ rest)) = _
      rw [scan]
      have h1 : (⟨.inQuotedField, fs, f⟩ : CsvReader).step (some 34) = .ok ⟨.quoteInQuotedField, fs, f⟩ := rfl
      rw [h1]
      dsimp only
      rw [if_neg (by decide), scan]
      have h2 : (⟨.quoteInQuotedField, fs, f⟩ : CsvReader).step (some 34) = .ok ⟨.inQuotedField, fs, f ++ [34]⟩ := by
        rw [← hadd]; rfl
      rw [h2]
      dsimp only
      rw [if_neg (by decide), hm]
    · rw [if_neg hq]
      show ∃ mid', scan _ mid (c :: (g.flatMap _ ++ rest)) = _
      have h1 : (⟨.inQuotedField, fs, f⟩ : CsvReader).step (some c) = .ok ⟨.inQuotedField, fs, f ++ [c]⟩ := by
        unfold step
        dsimp only
        rw [if_neg hq, hadd]
      rw [scan, h1]
      dsimp only
      by_cases hn : c = 10
      · rw [if_pos hn]
        obtain ⟨mid', hm⟩ := next false
        refine ⟨mid', ?_⟩
        have h2 : (⟨.inQuotedField, fs, f ++ [c]⟩ : CsvReader).step none = .ok ⟨.inQuotedField, fs, f ++ [c]⟩ := rfl
        rw [h2]
        dsimp only
        rw [if_neg (by decide), hm]
      · rw [if_neg hn]
        obtain ⟨mid', hm⟩ := next true
        exact ⟨mid', hm⟩

/-- A field is read as it was written. -/
theorem scan_field {f w : PStr} (h : FieldText f w) (hl : f.length ≤ fieldLimit) {r : CsvReader} (hr : r.Fresh) (mid : Bool) (rest : PStr) :
    ∃ r' mid', r.scan mid (w ++ rest) = r'.scan mid' rest ∧ r'.Holds f ∧ r'.fields = r.fields ∧ (w ≠ [] → mid' = true ∧
      (r'.state = .inField ∨ r'.state = .quoteInQuotedField)) ∧ (w = [] → r' = r ∧ mid' = mid) := by
  obtain ⟨st, fs, fd⟩ := r
  obtain ⟨hf, hst⟩ := hr
  dsimp only at hf hst
  subst hf
  cases h with
  | plain hc hq =>
    cases f with
    | nil =>
      refine ⟨⟨st, fs, []⟩, mid, rfl, ⟨rfl, .inr (.inr ⟨rfl, hst.symm⟩)⟩, rfl, fun h => absurd rfl h, fun _ => ⟨rfl, rfl⟩⟩
    | cons c g =>
      obtain ⟨h1, h2, h3⟩ := hc c (by simp)
      have h4 : c ≠ 34 := fun he => hq (by rw [he]; rfl)
      rw [List.length_cons] at hl
      have hs : ∀ st', (⟨st', fs, []⟩ : CsvReader).stepField (some c) = .ok ⟨.inField, fs, [c]⟩ := by
        intro st'
        unfold stepField
        have he : isEol (some c) = false := by simp [isEol, h2, h3]
        simp only [he]
        rw [if_neg (by simp), if_neg h4, if_neg h1]
        rfl
      have hstep : (⟨st, fs, []⟩ : CsvReader).step (some c) = .ok ⟨.inField, fs, [c]⟩ := by
        rcases hst with h | h <;> subst h
        · unfold step
          dsimp only
          rw [if_neg (by omega), hs]
        · unfold step
          exact hs _
      refine ⟨⟨.inField, fs, c :: g⟩, true, ?_, ⟨rfl, .inl rfl⟩, rfl, fun _ => ⟨rfl, .inl rfl⟩, fun h => by cases h⟩
      show scan _ mid (c :: (g ++ rest)) = _
      rw [scan, hstep]
      dsimp only
      rw [if_neg h2, scan_plain_rest rest g [c] fs true (fun x hx => hc x (by simp [hx])) (by simp only [List.length_append, List.length_cons, List.length_nil]; omega)]
      rfl
  | quoted hc =>
    have hstep : (⟨st, fs, []⟩ : CsvReader).step (some 34) = .ok ⟨.inQuotedField, fs, []⟩ := by
      rcases hst with h | h <;> subst h <;> rfl
    obtain ⟨mid', hm⟩ := scan_quoted_rest (34 :: rest) f [] fs true hc (by simpa using hl)
    refine ⟨⟨.quoteInQuotedField, fs, f⟩, true, ?_, ⟨rfl, .inr (.inl rfl)⟩, rfl, fun _ => ⟨rfl, .inr rfl⟩, fun h => by
      unfold quoted at h; cases h⟩
    show scan _ mid (34 :: (f.flatMap _ ++ [34] ++ rest)) = _
    rw [scan, hstep]
    dsimp only
    rw [if_neg (by decide), List.append_assoc]
    show scan _ true (_ ++ 34 :: rest) = _
    rw [hm, List.nil_append, scan]
    rfl

/-- After a field, a comma. -/
theorem Holds.comma {r : CsvReader} {f : PStr} (h : r.Holds f) : r.step (some 44) = .ok ⟨.startField, r.fields ++ [f], []⟩ := by
  obtain ⟨st, fs, fd⟩ := r
  obtain ⟨h1, h2⟩ := h
  dsimp only at h1 h2
  subst h1
  rcases h2 with h | h | ⟨_, h | h⟩ <;> subst h <;> rfl

/-- After the last field of a row, its end. -/
theorem Holds.eol {r : CsvReader} {f : PStr} (h : r.Holds f) (hs : r.state ≠ .startRecord) :
    r.step none = .ok ⟨.startRecord, r.fields ++ [f], []⟩ ∧ r.step (some 10) = .ok ⟨.eatCrnl, r.fields ++ [f], []⟩ := by
  obtain ⟨st, fs, fd⟩ := r
  obtain ⟨h1, h2⟩ := h
  dsimp only at h1 h2 hs
  subst h1
  rcases h2 with h | h | ⟨_, h | h⟩
  · subst h; exact ⟨rfl, rfl⟩
  · subst h; exact ⟨rfl, rfl⟩
  · subst h; exact ⟨rfl, rfl⟩
  · exact absurd h hs

/-- The fields of a row are read as they were written. -/
theorem scan_fields {row : List PStr} {w : PStr} (h : FieldsText row w) (hl : ∀ f ∈ row, f.length ≤ fieldLimit) (rest : PStr) :
    ∀ (r : CsvReader) (mid : Bool), r.Fresh → (r.state = .startRecord → w ≠ []) → (w = [] → mid = true) →
    ∃ (r' : CsvReader) (f : PStr), r.scan mid (w ++ rest) = r'.scan true rest ∧ r'.Holds f ∧ r'.state ≠ .startRecord ∧ r'.fields ++ [f] = r.fields ++ row := by
  induction h with
  | one f w hf =>
    intro r mid hr hne hmid
    obtain ⟨r', mid', h1, h2, h3, h4, h5⟩ := scan_field hf (hl f (by simp)) hr mid rest
    by_cases hw : w = []
    · obtain ⟨e1, e2⟩ := h5 hw
      subst e1 e2
      rw [hmid hw] at h1
      refine ⟨r', f, by rw [← h1, hmid hw], h2, fun h => hne h hw, rfl⟩
    · obtain ⟨e1, e2⟩ := h4 hw
      subst e1
      refine ⟨r', f, h1, h2, ?_, by rw [h3]⟩
      rcases e2 with e | e <;> rw [e] <;> decide
  | more f w fs ws hf hfs ih =>
    intro r mid hr hne _
    obtain ⟨r', mid', h1, h2, h3, _, _⟩ := scan_field hf (hl f (by simp)) hr mid (44 :: (ws ++ rest))
    obtain ⟨r2, g, k1, k2, k3, k4⟩ := ih (fun x hx => hl x (by simp [hx])) ⟨.startField, r'.fields ++ [f], []⟩ true ⟨rfl, .inr rfl⟩
      (fun h => by cases h) (fun _ => rfl)
    refine ⟨r2, g, ?_, k2, k3, by rw [k4, h3]; simp⟩
    rw [List.append_assoc]
    show r.scan mid (w ++ 44 :: (ws ++ rest)) = _
    rw [h1, scan, h2.comma]
    dsimp only
    rw [if_neg (by decide), k1]

theorem scan_csv {rows : List (List PStr)} {t : PStr} (h : CsvText rows t) (hl : ∀ row ∈ rows, ∀ f ∈ row, f.length ≤ fieldLimit) :
    reset.scan false t = (rows, .ok ()) := by
  induction h with
  | nil => rw [scan]; exact rows_nil_reset
  | last row w hw hne =>
    obtain ⟨r', f, h1, h2, h3, h4⟩ := scan_fields hw (hl row (by simp)) [] reset false ⟨rfl, .inl rfl⟩ (fun _ => hne) (fun h => absurd h hne)
    rw [List.append_nil] at h1
    rw [h1, scan, if_pos rfl, (h2.eol h3).1]
    dsimp only
    rw [if_pos rfl, h4]
    rfl
  | cons row w rows rest hw hne _ ih =>
    obtain ⟨r', f, h1, h2, h3, h4⟩ := scan_fields hw (hl row (by simp)) (10 :: rest) reset false ⟨rfl, .inl rfl⟩ (fun _ => hne) (fun h => absurd h hne)
    rw [h1, scan, (h2.eol h3).2]
    dsimp only
    rw [if_pos rfl]
    have he : (⟨.eatCrnl, r'.fields ++ [f], []⟩ : CsvReader).step none = .ok ⟨.startRecord, r'.fields ++ [f], []⟩ := rfl
    rw [he]
    dsimp only
    rw [if_pos rfl, ih (fun r hr => hl r (by simp [hr])), h4]
    rfl

end CsvReader
end Sudachi
