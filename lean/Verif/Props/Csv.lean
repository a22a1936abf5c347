/-
C73: the rows of a source file.
-/
import Verif.Lemmas.Csv
import Verif.Model.Builder
import Verif.Spec.Shipped
namespace Sudachi
open CsvReader

/-- **C73** The rows that were written as CSV text are read back, whatever kinds of line ends the file has. -/
theorem C73_line_ends {b : Bytes} {text : PStr} {ls : List PStr} {rows : List (List PStr)} (hb : encodeUtf8 text = .ok b)
    (hls : Lines text ls) (h : CsvText rows ls.flatten) (hl : ∀ row ∈ rows, ∀ f ∈ row, f.length ≤ 131072) :
    textLines b = .ok ls ∧ csvRows ls = (rows, .ok ()) := by
  refine ⟨?_, ?_⟩
  · unfold textLines
    rw [decodeUtf8_encode hb]
    show Except.ok (linesAux [] text) = _
    rw [lines_iff.mpr hls]
  · show CsvReader.reset.rows ls = _
    rw [rows_scan hls]
    exact scan_csv h hl

theorem lines_flatten {text : PStr} {ls : List PStr} (h : Lines text ls) : 13 ∉ text → ls.flatten = text := by
  induction h with
  | nil => intro _; rfl
  | last s _ _ => intro _; simp
  | cons s nl rest ls _ h2 _ ih =>
    intro hn
    have h13 : nl = [10] := by
      rcases h2 with h | h | ⟨h, _⟩
      · exact h
      · subst h; exact absurd (by simp) hn
      · subst h; exact absurd (by simp) hn
    subst h13
    rw [List.flatten_cons, ih (fun hm => hn (by simp [hm]))]

/-- **C73** A file of rows written as CSV is read back as these rows. -/
theorem C73_round_trip {text : PStr} {b : Bytes} {rows : List (List PStr)} (hb : encodeUtf8 text = .ok b) (h : CsvText rows text)
    (hcr : 13 ∉ text) (hl : ∀ row ∈ rows, ∀ f ∈ row, f.length ≤ 131072) :
    ∃ ls, textLines b = .ok ls ∧ csvRows ls = (rows, .ok ()) := by
  have hls : Lines text (linesAux [] text) := lines_iff.mp rfl
  refine ⟨_, C73_line_ends hb hls ?_ hl⟩
  rw [lines_flatten hls hcr]
  exact h

theorem quoted_no_cr {f : PStr} (h : ∀ c ∈ f, c ≠ 13) : 13 ∉ quoted f := by
  unfold quoted
  intro hm
  simp only [List.cons_append, List.mem_cons, List.mem_append, List.mem_flatMap, List.not_mem_nil, or_false] at hm
  rcases hm with hm | ⟨c, hc, hm⟩ | hm
  · cases hm
  · split at hm
    · simp at hm
    · exact h c hc (List.mem_singleton.mp hm).symm
  · cases hm

/-- **C73** Every table without empty rows can be written, if no field has a carriage return. -/
theorem C73_can_write (rows : List (List PStr)) (hr : ∀ row ∈ rows, row ≠ [] ∧ ∀ f ∈ row, 13 ∉ f) :
    ∃ text, CsvText rows text ∧ 13 ∉ text := by
  have one : ∀ row : List PStr, row ≠ [] → (∀ f ∈ row, 13 ∉ f) → ∃ w, FieldsText row w ∧ w ≠ [] ∧ 13 ∉ w := by
    intro row
    induction row with
    | nil => intro h; exact absurd rfl h
    | cons f fs ih =>
      intro _ hf
      have hc : ∀ c ∈ f, c ≠ 13 := fun c hc he => hf f (by simp) (he ▸ hc)
      cases fs with
      | nil => exact ⟨quoted f, .one _ _ (.quoted f hc), by unfold quoted; simp, quoted_no_cr hc⟩
      | cons g gs =>
        obtain ⟨ws, h1, _, h3⟩ := ih (by simp) (fun x hx => hf x (by simp [hx]))
        refine ⟨quoted f ++ 44 :: ws, .more _ _ _ _ (.quoted f hc) h1, by simp, ?_⟩
        simp only [List.mem_append, List.mem_cons, not_or]
        exact ⟨quoted_no_cr hc, by decide, h3⟩
  induction rows with
  | nil => exact ⟨[], .nil, by simp⟩
  | cons row rows ih =>
    obtain ⟨rest, h1, h2⟩ := ih (fun r h => hr r (by simp [h]))
    obtain ⟨w, k1, k2, k3⟩ := one row (hr row (by simp)).1 (hr row (by simp)).2
    refine ⟨w ++ 10 :: rest, .cons _ _ _ _ k1 k2 h1, ?_⟩
    simp only [List.mem_append, List.mem_cons, not_or]
    exact ⟨k3, by decide, h2⟩

/-- **C73** A text says one table only. -/
theorem C73_unique {text : PStr} {rows rows' : List (List PStr)} (h : CsvText rows text) (h' : CsvText rows' text)
    (hl : ∀ row ∈ rows, ∀ f ∈ row, f.length ≤ 131072) (hl' : ∀ row ∈ rows', ∀ f ∈ row, f.length ≤ 131072) : rows = rows' := by
  have := (scan_csv h hl).symm.trans (scan_csv h' hl')
  exact congrArg Prod.fst this

/-- The reader on rows that each end with a line break, and then something else. -/
theorem scan_rows {rows : List (List PStr)} {ts : List PStr} (hlen : ts.length = rows.length)
    (h : ∀ (i : Nat) (row : List PStr) (w : PStr), rows[i]? = some row → ts[i]? = some w → FieldsText row w ∧ w ≠ [])
    (hl : ∀ row ∈ rows, ∀ f ∈ row, f.length ≤ fieldLimit) (rest : PStr) :
    reset.scan false ((ts.map (· ++ [10])).flatten ++ rest) = (rows ++ (reset.scan false rest).1, (reset.scan false rest).2) := by
  induction rows generalizing ts with
  | nil =>
    have : ts = [] := List.length_eq_zero_iff.mp hlen
    subst this
    rfl
  | cons row rows ih =>
    cases ts with
    | nil => cases hlen
    | cons w ts =>
      obtain ⟨hw, hne⟩ := h 0 row w rfl rfl
      have ih' := ih (ts := ts) (by simpa using hlen) (fun i r t hr ht => h (i + 1) r t hr ht) (fun r hr => hl r (by simp [hr]))
      obtain ⟨r', f, h1, h2, h3, h4⟩ := scan_fields hw (hl row (by simp)) (10 :: ((ts.map (· ++ [10])).flatten ++ rest)) reset false
        ⟨rfl, .inl rfl⟩ (fun _ => hne) (fun h => absurd h hne)
      rw [List.map_cons, List.flatten_cons, List.append_assoc, List.append_assoc]
      show reset.scan false (w ++ 10 :: ((ts.map (· ++ [10])).flatten ++ rest)) = _
      rw [h1, scan, (h2.eol h3).2]
      dsimp only
      rw [if_pos rfl]
      have he : (⟨.eatCrnl, r'.fields ++ [f], []⟩ : CsvReader).step none = .ok ⟨.startRecord, r'.fields ++ [f], []⟩ := rfl
      rw [he]
      dsimp only
      rw [if_pos rfl, ih', h4]
      rfl

/-- **C73** A blank line between rows is an empty row. -/
theorem C73_blank_line {rows : List (List PStr)} {ts : List PStr} {rest : PStr} {ls ls' : List PStr} (hlen : ts.length = rows.length)
    (h : ∀ (i : Nat) (row : List PStr) (w : PStr), rows[i]? = some row → ts[i]? = some w → FieldsText row w ∧ w ≠ [])
    (hl : ∀ row ∈ rows, ∀ f ∈ row, f.length ≤ 131072) (hcr : 13 ∉ (ts.map (· ++ [10])).flatten ++ 10 :: rest)
    (hls : Lines ((ts.map (· ++ [10])).flatten ++ 10 :: rest) ls) (hls' : Lines rest ls') :
    csvRows ls = (rows ++ [] :: (csvRows ls').1, (csvRows ls').2) := by
  show CsvReader.reset.rows ls = (rows ++ [] :: (CsvReader.reset.rows ls').1, (CsvReader.reset.rows ls').2)
  have hcr' : 13 ∉ rest := fun hm => hcr (by simp [hm])
  rw [rows_scan hls, rows_scan hls', lines_flatten hls hcr, lines_flatten hls' hcr', scan_rows hlen h hl]
  have : reset.scan false (10 :: rest) = ([] :: (reset.scan false rest).1, (reset.scan false rest).2) := by
    conv => lhs; unfold scan
    rfl
  rw [this]

/-- **C73** The builder refuses a source with an empty row (or stops before it). -/
theorem C73_blank_refused {rows : List (List PStr)} (h : [] ∈ rows) (db : DictBuilder) : ∃ e, db.addRows rows = .error e := by
  induction rows generalizing db with
  | nil => cases h
  | cons row rows ih =>
    rw [DictBuilder.addRows]
    cases hr : db.addRow row with
    | error e => exact ⟨e, rfl⟩
    | ok db' =>
      rcases List.mem_cons.mp h with he | he
      · subst he
        unfold DictBuilder.addRow DictBuilder.parseLine at hr
        cases hr
      · exact ih he db'

/-- **C73** A quote that is not closed swallows the rest of the file: everything behind it is one field, commas and line
breaks included. -/
theorem C73_open_quote (f : PStr) (hcr : 13 ∉ f) (hl : f.length ≤ 131072) {ls : List PStr}
    (hls : Lines (34 :: f.flatMap (fun c => if c = 34 then [34, 34] else [c])) ls) : csvRows ls = ([[f]], .ok ()) := by
  have hc : ∀ c ∈ f, c ≠ 13 := fun c hc he => hcr (he ▸ hc)
  have hn : 13 ∉ 34 :: f.flatMap (fun c => if c = 34 then [34, 34] else [c]) := fun hm => quoted_no_cr hc (by unfold quoted; simp at hm ⊢; simp [hm])
  show CsvReader.reset.rows ls = _
  rw [rows_scan hls, lines_flatten hls hn]
  obtain ⟨mid', hm⟩ := scan_quoted_rest [] f [] [] true hc (by rw [List.nil_append]; exact hl)
  rw [List.append_nil, List.nil_append] at hm
  rw [scan]
  have hstep : reset.step (some 34) = .ok ⟨.inQuotedField, [], []⟩ := rfl
  rw [hstep]
  dsimp only
  rw [if_neg (by decide), hm, scan]
  cases mid' with
  | false => rw [if_neg (by simp), CsvReader.rows, if_pos (.inr rfl)]; rfl
  | true =>
    rw [if_pos rfl]
    have : (⟨.inQuotedField, [], f⟩ : CsvReader).step none = .ok ⟨.inQuotedField, [], f⟩ := rfl
    rw [this]
    dsimp only
    rw [if_neg (by decide), CsvReader.rows, if_pos (.inr rfl)]
    rfl

/-- **C73** A field of more than 131072 characters is refused. -/
theorem C73_too_long {f w rest : PStr} (hf : FieldText f w) (hl : 131072 < f.length) (hcr : 13 ∉ w ++ rest) {ls : List PStr}
    (hls : Lines (w ++ rest) ls) : csvRows ls = ([], .error .exception) := by
  show CsvReader.reset.rows ls = _
  rw [rows_scan hls, lines_flatten hls hcr]
  have hsplit : f = f.take 131072 ++ f.drop 131072 := (List.take_append_drop _ _).symm
  have htl : (f.take 131072).length = 131072 := by rw [List.length_take]; omega
  cases hd : f.drop 131072 with
  | nil => have := congrArg List.length hd; rw [List.length_drop] at this; simp at this; omega
  | cons c g =>
    rw [hd] at hsplit
    have hfull : ∀ st, (⟨st, [], f.take 131072⟩ : CsvReader).addChar c = .error .exception := by
      intro st
      unfold addChar
      rw [if_pos (by dsimp only; rw [htl]; decide)]
    have hfull' : ∀ st, (⟨st, [], f.take 131072⟩ : CsvReader).addChar 34 = .error .exception := by
      intro st
      unfold addChar
      rw [if_pos (by dsimp only; rw [htl]; decide)]
    cases hf with
    | plain hc hq =>
      rw [show f ++ rest = f.take 131072 ++ (c :: g ++ rest) by rw [← List.append_assoc, ← hsplit]]
      have hne : f.take 131072 ≠ [] := fun h => by rw [h] at htl; cases htl
      have hq' : FieldText (f.take 131072) (f.take 131072) := .plain _ (fun x hx => hc x (List.mem_of_mem_take hx)) (by
        rw [List.head?_take]; simpa using hq)
      obtain ⟨r', mid', h1, h2, h3, h4, _⟩ := scan_field hq' (by rw [htl]; decide) (r := reset) ⟨rfl, .inl rfl⟩ false (c :: g ++ rest)
      obtain ⟨h5, h6⟩ := h4 hne
      rw [h1]
      obtain ⟨st, fs, fd⟩ := r'
      have e1 : fd = f.take 131072 := h2.1
      have e2 : fs = [] := h3
      subst e1 e2
      show scan _ _ (c :: (g ++ rest)) = _
      have hcm : c ∈ f := by rw [hsplit]; simp
      obtain ⟨n1, n2, n3⟩ := hc c hcm
      have he : isEol (some c) = false := by simp [isEol, n2, n3]
      have hs : (⟨st, [], f.take 131072⟩ : CsvReader).step (some c) = .error .exception := by
        rcases h6 with h | h
        · dsimp only at h
          subst h
          unfold step
          simp only [he]
          rw [if_neg (by simp), if_neg n1, hfull]
        · dsimp only at h
          subst h
          unfold step
          simp only [he]
          rw [if_neg (by simp)]
          by_cases h34 : c = 34
          · rw [if_pos h34, hfull']
          · rw [if_neg h34, if_neg n1, hfull]
      rw [scan, hs]
    | quoted hc =>
      obtain ⟨mid', hm⟩ := scan_quoted_rest ((c :: g).flatMap (fun c => if c = 34 then [34, 34] else [c]) ++ [34] ++ rest) (f.take 131072) [] [] true
        (fun x hx => hc x (List.mem_of_mem_take hx)) (by rw [List.nil_append, htl]; decide)
      have e : quoted f ++ rest = 34 :: ((f.take 131072).flatMap (fun c => if c = 34 then [34, 34] else [c]) ++
          ((c :: g).flatMap (fun c => if c = 34 then [34, 34] else [c]) ++ [34] ++ rest)) := by
        unfold quoted
        conv => lhs; rw [hsplit]
        rw [List.flatMap_append]
        simp only [List.cons_append, List.append_assoc]
      rw [e, scan]
      have hstep : reset.step (some 34) = .ok ⟨.inQuotedField, [], []⟩ := rfl
      rw [hstep]
      dsimp only
      rw [if_neg (by decide), hm, List.nil_append, List.flatMap_cons]
      by_cases h34 : c = 34
      · subst h34
        rw [if_pos rfl]
        show scan _ _ (34 :: 34 :: _) = _
        rw [scan]
        have h1 : (⟨.inQuotedField, [], f.take 131072⟩ : CsvReader).step (some 34) = .ok ⟨.quoteInQuotedField, [], f.take 131072⟩ := rfl
        rw [h1]
        dsimp only
        rw [if_neg (by decide), scan]
        have h2 : (⟨.quoteInQuotedField, [], f.take 131072⟩ : CsvReader).step (some 34) = .error .exception := by
          rw [← hfull .inQuotedField]; rfl
        rw [h2]
      · rw [if_neg h34]
        show scan _ _ (c :: _) = _
        have h1 : (⟨.inQuotedField, [], f.take 131072⟩ : CsvReader).step (some c) = .error .exception := by
          unfold step
          dsimp only
          rw [if_neg h34, hfull]
        rw [scan, h1]

/-- Two rows with quotes, a comma and a line break in fields: `a,"b,""c"` newline `d",` and `"",x"y`. -/
example : CsvText [[[97], [98, 44, 34, 99, 10, 100], []], [[], [120, 34, 121]]]
    ([97, 44, 34, 98, 44, 34, 34, 99, 10, 100, 34, 44] ++ 10 :: [34, 34, 44, 120, 34, 121]) :=
  .cons _ _ _ _
    (.more [97] [97] _ _ (.plain _ (by decide) (by decide))
      (.more [98, 44, 34, 99, 10, 100] _ _ [] (.quoted _ (by decide)) (.one [] [] (.plain _ (by decide) (by decide)))))
    (by decide)
    (.last _ _ (.more [] _ _ [120, 34, 121] (.quoted _ (by decide)) (.one _ _ (.plain _ (by decide) (by decide)))) (by decide))
example : csvRows (linesAux [] ([97, 44, 34, 98, 44, 34, 34, 99, 10, 100, 34, 44] ++ 10 :: [34, 34, 44, 120, 34, 121])) =
    ([[[97], [98, 44, 34, 99, 10, 100], []], [[], [120, 34, 121]]], .ok ()) := by decide
/-- A forgotten quote: the second line becomes part of the field. -/
example : csvRows (linesAux [] (pstr! "\"a,b\nc,d\n")) = ([[pstr! "a,b\nc,d\n"]], .ok ()) := by decide
example : csvRows (linesAux [] (pstr! "a,b\n\nc,d\n")) = ([[[97], [98]], [], [[99], [100]]], .ok ()) := by decide

/-- The states in which no quote is open. -/
def Unquoted (r : CsvReader) : Prop := r.state = .startRecord ∨ r.state = .startField ∨ r.state = .inField

/-- The line break of an unquoted text, and what follows it. -/
theorem line_break (s : PStr) (hs : ∀ c ∈ s, c ≠ 34 ∧ c ≠ 10 ∧ c ≠ 13) : ∀ r : CsvReader, Unquoted r →
    (∃ q : CsvReader, q.state = .eatCrnl ∧ ∀ (b : Nat) (rest : PStr), b = 10 ∨ b = 13 → r.line (s ++ b :: rest) = q.line rest) ∨
    ∀ rest, r.line (s ++ rest) = .error .exception := by
  induction s with
  | nil =>
    rintro ⟨st, fs, f⟩ h
    left
    rcases h with h | h | h <;> (dsimp only at h; subst h)
    · exact ⟨⟨.eatCrnl, fs, f⟩, rfl, fun b rest hb => by rcases hb with rfl | rfl <;> rfl⟩
    · exact ⟨⟨.eatCrnl, fs ++ [f], []⟩, rfl, fun b rest hb => by rcases hb with rfl | rfl <;> rfl⟩
    · exact ⟨⟨.eatCrnl, fs ++ [f], []⟩, rfl, fun b rest hb => by rcases hb with rfl | rfl <;> rfl⟩
  | cons c s ih =>
    intro r h
    obtain ⟨h1, h2, h3⟩ := hs c List.mem_cons_self
    have ih' := ih (fun x hx => hs x (List.mem_cons_of_mem _ hx))
    have key : r.step (some c) = .error .exception ∨ ∃ r', Unquoted r' ∧ r.step (some c) = .ok r' := by
      have hadd : ∀ q : CsvReader, q.state = .inField → q.addChar c = .error .exception ∨ ∃ r', Unquoted r' ∧ q.addChar c = .ok r' := by
        intro q hq
        unfold addChar
        split
        · exact .inl rfl
        · exact .inr ⟨{ q with field := q.field ++ [c] }, .inr (.inr hq), rfl⟩
      have hfield : ∀ q : CsvReader, q.state = .startField → q.stepField (some c) = .error .exception ∨
          ∃ r', Unquoted r' ∧ q.stepField (some c) = .ok r' := by
        intro q hq
        unfold stepField isEol
        dsimp only
        rw [if_neg (by simp [h2, h3]), if_neg h1]
        split
        · exact .inr ⟨q.saveField, .inr (.inl hq), rfl⟩
        · exact hadd _ rfl
      unfold step
      rcases h with h | h | h <;> (rw [h]; dsimp only)
      · rw [if_neg (by omega)]
        exact hfield _ rfl
      · exact hfield _ h
      · unfold isEol
        rw [if_neg (by simp [h2, h3])]
        split
        · exact .inr ⟨_, .inr (.inl rfl), rfl⟩
        · exact hadd _ h
    rcases key with hk | ⟨r', hr', hk⟩
    · right
      intro rest
      rw [List.cons_append, line, hk]
      rfl
    · rcases ih' r' hr' with ⟨q, hq, hl⟩ | hl
      · exact .inl ⟨q, hq, fun b rest hb => by rw [List.cons_append, line, hk]; exact hl b rest hb⟩
      · exact .inr fun rest => by rw [List.cons_append, line, hk]; exact hl rest

/-- **C73** The reader itself (whatever gives it its lines) takes any carriage returns and line feeds at the end of a line for one
line feed, and refuses a line that goes on after one.  Here for lines without quotes; in a quoted field both are text. -/
theorem C73_carriage_return (s brk : PStr) (hs : ∀ c ∈ s, c ≠ 34 ∧ c ≠ 10 ∧ c ≠ 13) (hb : brk ≠ []) (hbrk : ∀ c ∈ brk, c = 10 ∨ c = 13)
    (ls : List PStr) :
    csvRows ((s ++ brk) :: ls) = csvRows ((s ++ [10]) :: ls) ∧
    ∀ c rest, c ≠ 10 → c ≠ 13 → csvRows ((s ++ brk ++ c :: rest) :: ls) = ([], .error .exception) := by
  have heat : ∀ (bs : PStr) (q : CsvReader), (∀ c ∈ bs, c = 10 ∨ c = 13) → q.state = .eatCrnl → q.line bs = q.line [] ∧
      ∀ c rest, c ≠ 10 → c ≠ 13 → q.line (bs ++ c :: rest) = .error .exception := by
    intro bs
    induction bs with
    | nil =>
      intro q _ hq
      refine ⟨rfl, fun c rest h1 h2 => ?_⟩
      rw [List.nil_append, line]
      unfold step
      rw [hq]
      dsimp only
      rw [if_neg (by omega)]
      rfl
    | cons b bs ih =>
      intro q hbs hq
      have hstep : q.step (some b) = .ok q := by
        unfold step
        rw [hq]
        dsimp only
        rw [if_pos (hbs b List.mem_cons_self)]
      obtain ⟨i1, i2⟩ := ih q (fun x hx => hbs x (List.mem_cons_of_mem _ hx)) hq
      refine ⟨?_, fun c rest h1 h2 => ?_⟩
      · show (q.step (some b) >>= fun r' => r'.line bs) = _
        rw [hstep]; exact i1
      · rw [List.cons_append, line, hstep]; exact i2 c rest h1 h2
  obtain ⟨b, bs, rfl⟩ := List.exists_cons_of_ne_nil hb
  unfold csvRows
  rcases line_break s hs reset (.inl rfl) with ⟨q, hq, hl⟩ | hl
  · obtain ⟨e1, e2⟩ := heat bs q (fun x hx => hbrk x (List.mem_cons_of_mem _ hx)) hq
    constructor
    · rw [rows, rows, hl b bs (hbrk b List.mem_cons_self), hl 10 [] (.inl rfl), e1]
    · intro c rest h1 h2
      rw [rows, List.append_assoc, List.cons_append, hl b _ (hbrk b List.mem_cons_self), e2 c rest h1 h2]
  · constructor
    · rw [rows, rows, hl, hl]
    · intro c rest _ _
      rw [rows, List.append_assoc, hl]

example : csvRows [pstr! "a,b\r\n", pstr! "\r", pstr! "c"] = ([[[97], [98]], [], [[99]]], .ok ()) := by decide
example : csvRows [pstr! "a,b\rc"] = ([], .error .exception) := by decide

end Sudachi
