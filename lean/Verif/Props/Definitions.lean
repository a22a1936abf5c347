/-
C65, C66, C67: the definition files.
-/
import Verif.Lemmas.Utf8
import Verif.Lemmas.Definitions2
import Verif.Lemmas.Compiled
import Verif.Props.Category
import Verif.Props.InputPlugins
namespace Sudachi

/-! ### C65: char.def -/

/-- **C65** Which characters separate columns and are stripped: Python's white space, and no others. -/
theorem C65_white_space (c : Nat) : isSpace c = true ↔ c ∈ whiteSpaces := by
  unfold isSpace whiteSpaces
  simp only [Bool.or_eq_true, Bool.and_eq_true, decide_eq_true_eq, List.cons_append, List.nil_append, List.mem_cons, List.not_mem_nil,
    or_false]
  omega

/-- **C65** A line of char.def adds a range of code points with their categories exactly when it says so: it is not indented,
its first column is `0xA` or `0xA..0xB` with `A ≤ B`, and the names of the categories follow, up to the end of the line or to
a comment. -/
theorem C65_line_gives {line : PStr} {r : CRange} :
    charDefLine line = .ok (some r) ↔ ∃ last, GivesCategories line r.low last r.cats ∧ r.high = last + 1 := by
  by_cases hskip : Blank line ∨ IsComment line ∨ Indented line
  · rw [charDefLine_skip hskip]
    constructor
    · intro h; cases h
    · rintro ⟨last, ⟨col, tail, h1, h2, ⟨x, hx⟩, -⟩, -⟩
      exfalso
      rcases hskip with h | ⟨y, hy⟩ | h
      · have := (Columns.nil line h).split
        rw [h1.split] at this; cases this
      · have hs := h1.split
        rw [hy] at hs
        have hw : splitWsAux [] (35 :: y) = splitWsAux [35] y := by
          rw [splitWsAux, if_neg (by decide)]; rfl
        have hhead : ∀ (y cur : PStr) (a : PStr) (as : List PStr), splitWsAux (35 :: cur) y = a :: as → ∃ t, a = 35 :: t := by
          intro y
          induction y with
          | nil =>
            intro cur a as h
            rw [splitWsAux, if_neg (by simp)] at h
            exact ⟨cur, (List.cons.inj h).1.symm⟩
          | cons c cs ih =>
            intro cur a as h
            rw [splitWsAux] at h
            split at h
            · rw [if_neg (by simp)] at h
              exact ⟨cur, (List.cons.inj h).1.symm⟩
            · exact ih (cur ++ [c]) a as h
        unfold splitWs at hs
        rw [hw] at hs
        obtain ⟨t, ht⟩ := hhead y [] _ _ hs
        rw [hx] at ht
        exact absurd (List.cons.inj ht).1 (by decide)
      · exact h2 h
  · simp only [not_or] at hskip
    obtain ⟨hb, hc, hi⟩ := hskip
    rw [charDefLine_columns hb hc hi]
    constructor
    · intro h
      split at h
      · cases h
      · rename_i hlen
        split at h
        · cases h
        · rename_i col cols hs
          split at h
          · cases h
          · rename_i hx
            have hx : col.take 2 = [48, 120] := Classical.not_not.mp hx
            obtain ⟨x, rfl⟩ := take_two.mp hx
            cases hr : charDefRange (48 :: 120 :: x) with
            | error e => rw [hr] at h; cases h
            | ok p =>
              obtain ⟨low, high⟩ := p
              rw [hr] at h
              dsimp only [bind, Except.bind] at h
              cases hcats : charDefCats cols with
              | error e => rw [hcats] at h; cases h
              | ok cats =>
                rw [hcats] at h
                have h : (⟨low, high, cats⟩ : CRange) = r := Option.some.inj (Except.ok.inj h)
                subst h
                obtain ⟨last, h1, h2, h3⟩ := charDefRange_iff.mp hr
                have hcol := columns_iff.mpr hs
                obtain ⟨tail, h4, h5⟩ := (charDefCats_iff (fun c hc => hcol.words c (by simp [hc]))).mp hcats
                refine ⟨last, ⟨_, tail, h4 ▸ hcol, hi, ⟨x, rfl⟩, h1, h2, ?_, h5⟩, h3⟩
                rw [hs] at hlen
                cases cats with
                | cons _ _ => exact Or.inl (by simp)
                | nil =>
                  refine Or.inr ?_
                  rintro rfl
                  rw [h4] at hlen
                  exact hlen (by simp)
    · rintro ⟨last, ⟨col, tail, h1, h2, ⟨x, rfl⟩, h4, h5, h6, h7⟩, h8⟩
      rw [h1.split]
      rw [if_neg (by
        rcases h6 with h6 | h6
        · have := List.length_pos_iff.mpr h6
          simp only [List.length_cons, List.length_append, List.length_map]; omega
        · have := List.length_pos_iff.mpr h6
          simp only [List.length_cons, List.length_append, List.length_map]; omega)]
      dsimp only
      rw [if_neg (fun hn => hn (take_two.mpr ⟨x, rfl⟩)), charDefRange_iff.mpr ⟨last, h4, h5, h8⟩,
        (charDefCats_iff (fun c hc => h1.words c (List.mem_cons_of_mem _ hc))).mpr ⟨tail, rfl, h7⟩]
      rfl

/-- **C65** A line adds nothing exactly when it is blank, or a comment, or indented, or its first column does not begin with
`0x` and there are more columns. -/
theorem C65_line_nothing {line : PStr} : charDefLine line = .ok none ↔ SaysNothing line := by
  by_cases hskip : Blank line ∨ IsComment line ∨ Indented line
  · rw [charDefLine_skip hskip]
    refine ⟨fun _ => ?_, fun _ => rfl⟩
    rcases hskip with h | h | h
    · exact Or.inl h
    · exact Or.inr (Or.inl h)
    · exact Or.inr (Or.inr (Or.inl h))
  · have hskip' := hskip
    simp only [not_or] at hskip
    obtain ⟨hb, hc, hi⟩ := hskip
    rw [charDefLine_columns hb hc hi]
    constructor
    · intro h
      split at h
      · cases h
      · rename_i hlen
        split at h
        · cases h
        · rename_i col cols hs
          cases cols with
          | nil => rw [hs] at hlen; exact absurd hlen (by simp)
          | cons c cols =>
            refine Or.inr (Or.inr (Or.inr ⟨col, c, cols, columns_iff.mpr hs, ?_⟩))
            split at h
            · rename_i hx
              exact fun hr => hx (take_two.mpr hr)
            · exfalso
              cases hr : charDefRange col with
              | error e => rw [hr] at h; cases h
              | ok p =>
                rw [hr] at h
                dsimp only [bind, Except.bind] at h
                cases hcats : charDefCats (c :: cols) with
                | error e => rw [hcats] at h; cases h
                | ok cats => rw [hcats] at h; cases h
    · rintro (h | h | h | ⟨col, c, cols, h1, h2⟩)
      · exact absurd h hb
      · exact absurd h hc
      · exact absurd h hi
      · rw [h1.split, if_neg (by simp)]
        dsimp only
        rw [if_pos (fun hx => h2 (take_two.mp hx))]

/-- **C65** All other lines are refused: with `ValueError` or `AttributeError`. -/
theorem C65_line_refused {line : PStr} (h1 : ¬ SaysNothing line)
    (h2 : ¬ ∃ low last cats, GivesCategories line low last cats) :
    charDefLine line = .error .attribute ∨ charDefLine line = .error .value := by
  cases h : charDefLine line with
  | ok o =>
    cases o with
    | none => exact absurd (C65_line_nothing.mp h) h1
    | some r => obtain ⟨last, hg, -⟩ := C65_line_gives.mp h; exact absurd ⟨_, _, _, hg⟩ h2
  | error e =>
    have hskip : ¬ (Blank line ∨ IsComment line ∨ Indented line) := by
      rintro (h | h | h)
      · exact h1 (Or.inl h)
      · exact h1 (Or.inr (Or.inl h))
      · exact h1 (Or.inr (Or.inr (Or.inl h)))
    simp only [not_or] at hskip
    obtain ⟨hb, hc, hi⟩ := hskip
    rw [charDefLine_columns hb hc hi] at h
    split at h
    · cases h; exact Or.inl rfl
    · split at h
      · cases h; exact Or.inl rfl
      · split at h
        · cases h
        · rename_i col cols hs _
          cases hr : charDefRange col with
          | error e' =>
            rw [hr] at h; cases h
            rcases charDefRange_error hr with rfl | rfl
            · exact Or.inl rfl
            · exact Or.inr rfl
          | ok p =>
            rw [hr] at h
            dsimp only [bind, Except.bind] at h
            cases hcats : charDefCats cols with
            | error e' => rw [hcats] at h; cases h; rw [charDefCats_error hcats]; exact Or.inl rfl
            | ok cats => rw [hcats] at h; cases h

/-- A line with one column that is not a comment. -/
theorem C65_single_column_refused {line col : PStr} (h : Columns line [col]) (hi : ¬ Indented line) (hc : ¬ IsComment line) :
    charDefLine line = .error .attribute := by
  have hb : ¬ Blank line := fun hb => by
    have := (Columns.nil line hb).split
    rw [h.split] at this; cases this
  rw [charDefLine_columns hb hc hi, h.split]
  rfl

theorem charDefLines_ok : ∀ {lines : List PStr} {ranges : List CRange}, charDefLines lines = .ok ranges →
    (∀ line ∈ lines, SaysNothing line ∨ ∃ low last cats, GivesCategories line low last cats) ∧
    ∀ r, r ∈ ranges ↔ ∃ line ∈ lines, charDefLine line = .ok (some r)
  | [], ranges, h => by
    rw [charDefLines] at h; cases h
    exact ⟨fun _ h => (by cases h), fun r => ⟨fun h => (by cases h), fun ⟨_, h, _⟩ => (by cases h)⟩⟩
  | line :: lines, ranges, h => by
    rw [charDefLines] at h
    cases hl : charDefLine line with
    | error e => rw [hl] at h; cases h
    | ok o =>
      rw [hl] at h
      dsimp only [bind, Except.bind] at h
      cases hr : charDefLines lines with
      | error e => rw [hr] at h; cases h
      | ok rs =>
        rw [hr] at h
        dsimp only at h
        obtain ⟨i1, i2⟩ := charDefLines_ok hr
        cases o with
        | none =>
          have h : rs = ranges := Except.ok.inj h
          subst h
          refine ⟨?_, ?_⟩
          · intro l hm
            rcases List.mem_cons.mp hm with rfl | hm
            · exact Or.inl (C65_line_nothing.mp hl)
            · exact i1 l hm
          · intro r
            rw [i2 r]
            constructor
            · rintro ⟨l, h1, h2⟩; exact ⟨l, by simp [h1], h2⟩
            · rintro ⟨l, h1, h2⟩
              rcases List.mem_cons.mp h1 with rfl | h1
              · rw [hl] at h2; cases h2
              · exact ⟨l, h1, h2⟩
        | some r0 =>
          have h : r0 :: rs = ranges := Except.ok.inj h
          subst h
          refine ⟨?_, ?_⟩
          · intro l hm
            rcases List.mem_cons.mp hm with rfl | hm
            · obtain ⟨last, hg, -⟩ := C65_line_gives.mp hl; exact Or.inr ⟨_, _, _, hg⟩
            · exact i1 l hm
          · intro r
            rw [List.mem_cons, i2 r]
            constructor
            · rintro (rfl | ⟨l, h1, h2⟩)
              · exact ⟨line, by simp, hl⟩
              · exact ⟨l, by simp [h1], h2⟩
            · rintro ⟨l, h1, h2⟩
              rcases List.mem_cons.mp h1 with rfl | h1
              · rw [hl] at h2; exact Or.inl (Option.some.inj (Except.ok.inj h2)).symm
              · exact Or.inr ⟨l, h1, h2⟩

theorem charDefLines_succeeds : ∀ {lines : List PStr},
    (∀ line ∈ lines, SaysNothing line ∨ ∃ low last cats, GivesCategories line low last cats) →
    ∃ ranges, charDefLines lines = .ok ranges
  | [], _ => ⟨[], rfl⟩
  | line :: lines, h => by
    obtain ⟨rs, hr⟩ := charDefLines_succeeds (lines := lines) (fun l hl => h l (by simp [hl]))
    rw [charDefLines, hr]
    rcases h line (by simp) with h1 | ⟨low, last, cats, hg⟩
    · rw [C65_line_nothing.mpr h1]; exact ⟨rs, rfl⟩
    · rw [(C65_line_gives (r := ⟨low, last + 1, cats⟩)).mpr ⟨last, hg, rfl⟩]; exact ⟨_, rfl⟩

/-- **C65** The file is accepted exactly when all its lines are, and at least one gives categories. -/
theorem C65_accepted (pick : SweepState → Nat) (lines : List PStr) :
    (∃ rs, readCharDef pick lines = .ok rs) ↔
      (∀ line ∈ lines, SaysNothing line ∨ ∃ low last cats, GivesCategories line low last cats) ∧
      ∃ line ∈ lines, ∃ low last cats, GivesCategories line low last cats := by
  constructor
  · rintro ⟨rs, h⟩
    unfold readCharDef at h
    cases hr : charDefLines lines with
    | error e => rw [hr] at h; cases h
    | ok ranges =>
      rw [hr] at h
      have h : compile pick ranges = .ok rs := h
      obtain ⟨i1, i2⟩ := charDefLines_ok hr
      refine ⟨i1, ?_⟩
      cases ranges with
      | nil => rw [C10_empty_definition_raises] at h; cases h
      | cons r rest =>
        obtain ⟨line, h1, h2⟩ := (i2 r).mp (by simp)
        obtain ⟨last, hg, -⟩ := C65_line_gives.mp h2
        exact ⟨line, h1, _, _, _, hg⟩
  · rintro ⟨h1, line, h2, low, last, cats, hg⟩
    obtain ⟨ranges, hr⟩ := charDefLines_succeeds h1
    obtain ⟨-, i2⟩ := charDefLines_ok hr
    have hmem := (i2 ⟨low, last + 1, cats⟩).mpr ⟨line, h2, C65_line_gives.mpr ⟨last, hg, rfl⟩⟩
    obtain ⟨rs, h3, -⟩ := C10_categories pick ranges (List.ne_nil_of_mem hmem) (by
      intro r hm
      obtain ⟨l, _, h4⟩ := (i2 r).mp hm
      obtain ⟨last', ⟨_, _, _, _, _, _, hle, _⟩, hh⟩ := C65_line_gives.mp h4
      omega)
    exact ⟨rs, by unfold readCharDef; rw [hr]; exact h3⟩

/-- **C65** After reading char.def a code point has the categories of all lines that give it any, and `DEFAULT` if no line
does. -/
theorem C65_categories (pick : SweepState → Nat) (lines : List PStr) (rs : List CRange) (h : readCharDef pick lines = .ok rs)
    (cp : Nat) :
    ((¬ ∃ line ∈ lines, ∃ low last cats, GivesCategories line low last cats ∧ low ≤ cp ∧ cp ≤ last) →
      getCategoryTypes rs cp = [.DEFAULT]) ∧
    ((∃ line ∈ lines, ∃ low last cats, GivesCategories line low last cats ∧ low ≤ cp ∧ cp ≤ last) → ∀ c,
      c ∈ getCategoryTypes rs cp ↔
        ∃ line ∈ lines, ∃ low last cats, GivesCategories line low last cats ∧ low ≤ cp ∧ cp ≤ last ∧ c ∈ cats) := by
  unfold readCharDef at h
  cases hr : charDefLines lines with
  | error e => rw [hr] at h; cases h
  | ok ranges =>
    rw [hr] at h
    have h : compile pick ranges = .ok rs := h
    obtain ⟨-, i2⟩ := charDefLines_ok hr
    have hlt : ∀ r ∈ ranges, r.low < r.high := by
      intro r hm
      obtain ⟨l, _, h4⟩ := (i2 r).mp hm
      obtain ⟨last', ⟨_, _, _, _, _, _, hle, _⟩, hh⟩ := C65_line_gives.mp h4
      omega
    have hne : ranges ≠ [] := by
      rintro rfl; rw [C10_empty_definition_raises] at h; cases h
    obtain ⟨rs', e1, a1⟩ := C10_categories pick ranges hne hlt
    rw [h] at e1; cases e1
    have hall : ∀ (P : Cat → Prop), (∃ r ∈ ranges, r.low ≤ cp ∧ cp < r.high ∧ ∃ c ∈ r.cats, P c) ↔
        ∃ line ∈ lines, ∃ low last cats, GivesCategories line low last cats ∧ low ≤ cp ∧ cp ≤ last ∧ ∃ c ∈ cats, P c := by
      intro P
      constructor
      · rintro ⟨r, h1, h2, h3, h4⟩
        obtain ⟨l, hl, h5⟩ := (i2 r).mp h1
        obtain ⟨last, hg, hh⟩ := C65_line_gives.mp h5
        exact ⟨l, hl, _, last, _, hg, h2, by omega, h4⟩
      · rintro ⟨l, hl, low, last, cats, hg, h1, h2, h3⟩
        exact ⟨⟨low, last + 1, cats⟩, (i2 _).mpr ⟨l, hl, C65_line_gives.mpr ⟨last, hg, rfl⟩⟩, h1, Nat.lt_succ_of_le h2, h3⟩
    have hcov : (∃ r ∈ ranges, r.low ≤ cp ∧ cp < r.high) ↔
        ∃ line ∈ lines, ∃ low last cats, GivesCategories line low last cats ∧ low ≤ cp ∧ cp ≤ last := by
      constructor
      · rintro ⟨r, h1, h2, h3⟩
        obtain ⟨l, hl, h5⟩ := (i2 r).mp h1
        obtain ⟨last, hg, hh⟩ := C65_line_gives.mp h5
        exact ⟨l, hl, _, last, _, hg, h2, by omega⟩
      · rintro ⟨l, hl, low, last, cats, hg, h1, h2⟩
        exact ⟨⟨low, last + 1, cats⟩, (i2 _).mpr ⟨l, hl, C65_line_gives.mpr ⟨last, hg, rfl⟩⟩, h1, Nat.lt_succ_of_le h2⟩
    refine ⟨fun hn => (a1 cp).1 (fun hc => hn (hcov.mp hc)), fun hc c => ?_⟩
    rw [(a1 cp).2 (hcov.mpr hc) c]
    have := hall (· = c)
    simp only [exists_eq_right] at this
    exact this

/-- **C65** The lines are those of the text of the file: ended by a line feed, a carriage return or both, the last one maybe
by the end of the file. -/
theorem C65_lines {b : Bytes} {text : PStr} {ls : List PStr} (hb : encodeUtf8 text = .ok b) :
    textLines b = .ok ls ↔ Lines text ls := by
  unfold textLines
  rw [decodeUtf8_encode hb]
  show Except.ok (linesAux [] text) = .ok ls ↔ _
  rw [← lines_iff]
  exact ⟨Except.ok.inj, fun h => by rw [h]⟩

/-- **C65** A file is read as lines exactly when it is the UTF-8 of some text, and they are the lines of that text. -/
theorem C65_text {b : Bytes} {ls : List PStr} : textLines b = .ok ls ↔ ∃ text, encodeUtf8 text = .ok b ∧ Lines text ls := by
  constructor
  · intro h
    have h' := h
    unfold textLines at h'
    obtain ⟨text, h1, _⟩ := bind_ok h'
    exact ⟨text, decodeUtf8_iff.mp h1, (C65_lines (decodeUtf8_iff.mp h1)).mp h⟩
  · rintro ⟨text, h1, h2⟩
    exact (C65_lines h1).mpr h2

/-- Two bytes that would spell a slash in an overlong way, and a lone surrogate, are not text. -/
example : textLines [0xC0, 0xAF] = .error .unicode := by decide
example : textLines [0xE0, 0x80, 0xAF] = .error .unicode := by decide
example : textLines [0xED, 0xA0, 0x80] = .error .unicode := by decide
example : textLines [0xE3, 0x81, 0x82, 13, 10, 97] = .ok [[0x3042, 10], [97]] := by decide

/-- **C65** Round trip: ranges written to a file, one per line, are read back in order, if every one has a category. -/
theorem C65_round_trip (ranges : List CRange) (hr : ∀ r ∈ ranges, r.low < r.high ∧ r.cats ≠ []) :
    ∃ b ls, encodeUtf8 (ranges.flatMap rangeLine) = .ok b ∧ textLines b = .ok ls ∧ charDefLines ls = .ok ranges := by
  have hch : ∀ c ∈ ranges.flatMap rangeLine, encodable c = true := by
    intro c hc
    obtain ⟨r, -, h⟩ := List.mem_flatMap.mp hc
    exact (rangeLine_chars h).1
  refine ⟨_, ranges.map rangeLine, encodeUtf8_eq hch, (C65_lines (encodeUtf8_eq hch)).mpr (rangeLines_lines ranges), ?_⟩
  clear hch
  induction ranges with
  | nil => rfl
  | cons r rs ih =>
    rw [List.map_cons, charDefLines, ih (fun x hx => hr x (by simp [hx])),
      C65_line_gives.mpr ⟨r.high - 1, rangeLine_gives (hr r (by simp)).1 (hr r (by simp)).2, by have := (hr r (by simp)).1; omega⟩]
    rfl

example : rangeLine ⟨0x30A1, 0x30A2, [.KATAKANA, .NOOOVBOW]⟩ = codes "0x30A1..0x30A1 KATAKANA NOOOVBOW\n" := by decide +kernel

/-- The line `0x30..0x39 NUMERIC # digits` gives the digits the category NUMERIC. -/
theorem sample_gives : GivesCategories (codes "0x30..0x39 NUMERIC # digits\n") 0x30 0x39 [.NUMERIC] := by
  have : charDefLine (codes "0x30..0x39 NUMERIC # digits\n") = .ok (some ⟨0x30, 0x3A, [.NUMERIC]⟩) := by decide
  obtain ⟨last, h, e⟩ := C65_line_gives.mp this
  have : last = 0x39 := by simp at e; omega
  subst this
  exact h

example : SaysNothing (codes "NUMERIC 1 1 0\n") := C65_line_nothing.mp (by decide)
example : charDefLine (codes "0x39..0x30 NUMERIC\n") = .error .attribute := by decide
example : charDefLine (codes "0x3G NUMERIC\n") = .error .value := by decide
example : charDefLine (codes "0x30 NUMERAL\n") = .error .attribute := by decide
example : charDefLine (codes "NUMERIC\n") = .error .attribute := by decide
example (pick : SweepState → Nat) : ∃ rs, readCharDef pick
    [codes "# comment\n", codes "0x30..0x39 NUMERIC # digits\n", codes "0x33 USER1\n"] = .ok rs :=
  (C65_accepted pick _).mpr ⟨by
    intro line hl
    simp only [List.mem_cons, List.not_mem_nil, or_false] at hl
    rcases hl with rfl | rfl | rfl
    · exact Or.inl (Or.inr (Or.inl ⟨_, rfl⟩))
    · exact Or.inr ⟨_, _, _, sample_gives⟩
    · refine Or.inr ?_
      obtain ⟨last, h, -⟩ := (C65_line_gives (line := codes "0x33 USER1\n") (r := ⟨0x33, 0x34, [.USER1]⟩)).mp (by decide)
      exact ⟨_, _, _, h⟩, _, by simp, _, _, _, sample_gives⟩

/-- A line with a definition that is indented, or whose number begins with `0X`, is not refused: it is ignored, and the code
point keeps the category `DEFAULT`. -/
theorem C65_ignored_definitions (pick : SweepState → Nat) (rs : List CRange)
    (h : readCharDef pick [codes "0x30..0x39 NUMERIC # digits\n", codes " 0x41 ALPHA\n", codes "0X42 ALPHA\n"] = .ok rs) :
    getCategoryTypes rs 0x41 = [.DEFAULT] ∧ getCategoryTypes rs 0x42 = [.DEFAULT] := by
  have hn : ∀ cp, 0x40 ≤ cp → getCategoryTypes rs cp = [.DEFAULT] := by
    intro cp hcp
    refine (C65_categories pick _ rs h cp).1 ?_
    rintro ⟨line, hl, low, last, cats, hg, h1, h2⟩
    have hg' := (C65_line_gives (r := ⟨low, last + 1, cats⟩)).mpr ⟨last, hg, rfl⟩
    simp only [List.mem_cons, List.not_mem_nil, or_false] at hl
    rcases hl with rfl | rfl | rfl
    · have e : charDefLine (codes "0x30..0x39 NUMERIC # digits\n") = .ok (some ⟨0x30, 0x3A, [.NUMERIC]⟩) := by decide
      rw [e] at hg'
      have := congrArg CRange.high (Option.some.inj (Except.ok.inj hg'))
      simp at this; omega
    · have e : charDefLine (codes " 0x41 ALPHA\n") = .ok none := by decide
      rw [e] at hg'; cases hg'
    · have e : charDefLine (codes "0X42 ALPHA\n") = .ok none := by decide
      rw [e] at hg'; cases hg'
  exact ⟨hn _ (by decide), hn _ (by decide)⟩

/-! ### C66: the files of the MeCab plugin -/

theorem mecabSetUp_ok {others : PStr → Option Attr} {g : Grammar} {charDef unkDef : List PStr} {p : OovPlugin}
    (h : mecabSetUp others g charDef unkDef = .ok p) :
    ∃ cats oovs, readProperties others [] charDef = .ok cats ∧ readUnk others g cats unkDef = .ok oovs ∧
      p = .mecab (members cats) (members oovs) := by
  unfold mecabSetUp at h
  cases h1 : readProperties others [] charDef with
  | error e => rw [h1] at h; cases h
  | ok cats =>
    rw [h1] at h
    dsimp only [bind, Except.bind] at h
    cases h2 : readUnk others g cats unkDef with
    | error e => rw [h2] at h; cases h
    | ok oovs => rw [h2] at h; exact ⟨cats, oovs, rfl, h2, (Except.ok.inj h).symm⟩

/-- **C66** After `set_up` a category is made up exactly as the line of char.def about it says. -/
theorem C66_categories (others : PStr → Option Attr) (ho : OnlyOthers others) (g : Grammar) (charDef unkDef : List PStr)
    (cats : List (Cat × CategoryInfo)) (oovs : List (Cat × OovEntry))
    (h : mecabSetUp others g charDef unkDef = .ok (.mecab cats oovs)) (c : Cat) (info : CategoryInfo) :
    dictGet cats c = some info ↔ ∃ line ∈ charDef, PropertyOf line c info := by
  obtain ⟨cs, os, h1, h2, e⟩ := mecabSetUp_ok h
  cases e
  obtain ⟨i1, -⟩ := readProperties_ok ho h1
  rw [dictGet_members, i1 c info]
  simp [dictGet]

/-- **C66** The entries for unknown words are those of the lines of unk.def, in order, and the categories of all of them are
known. -/
theorem C66_entries (others : PStr → Option Attr) (ho : OnlyOthers others) (g : Grammar) (charDef unkDef : List PStr)
    (cats : List (Cat × CategoryInfo)) (oovs : List (Cat × OovEntry))
    (h : mecabSetUp others g charDef unkDef = .ok (.mecab cats oovs)) :
    UnkEntries g.posList unkDef oovs ∧ ∀ c e, (c, e) ∈ oovs → ∃ line ∈ charDef, ∃ info, PropertyOf line c info := by
  obtain ⟨cs, os, h1, h2, e⟩ := mecabSetUp_ok h
  cases e
  obtain ⟨i1, i2, -⟩ := readUnk_ok ho h2
  refine ⟨i1, ?_⟩
  intro c e hm
  have := i2 c e hm
  cases hd : dictGet cs (.member c) with
  | none => exact absurd hd this
  | some info =>
    obtain ⟨j1, -⟩ := readProperties_ok ho h1
    rcases (j1 c info).mp hd with hh | ⟨line, hl, hp⟩
    · cases hh
    · exact ⟨line, hl, info, hp⟩

/-- **C66** If no line names another attribute of the class `CategoryType`, the files are accepted exactly when every line of
char.def is about one category, or not about categories, no two are about the same one, and every line of unk.def is blank or
an entry for one of these categories. -/
theorem C66_accepted (others : PStr → Option Attr) (ho : OnlyOthers others) (g : Grammar) (charDef unkDef : List PStr)
    (hc : ∀ line ∈ charDef, ∀ col cols, Columns line (col :: cols) → others col = none)
    (hu : ∀ line ∈ unkDef, ∀ col cols, CommaColumns line (col :: cols) → others col = none) :
    (∃ p, mecabSetUp others g charDef unkDef = .ok p) ↔
      (∀ line ∈ charDef, NotProperty line ∨ ∃ c info, PropertyOf line c info) ∧
      charDef.Pairwise (fun l l' => ∀ c i i', ¬ (PropertyOf l c i ∧ PropertyOf l' c i')) ∧
      ∀ line ∈ unkDef, Blank line ∨
        ∃ c e, UnkEntry g.posList line c e ∧ ∃ l ∈ charDef, ∃ info, PropertyOf l c info := by
  constructor
  · rintro ⟨p, h⟩
    obtain ⟨cs, os, h1, h2, e⟩ := mecabSetUp_ok h
    obtain ⟨i1, i2, i3, i4⟩ := readProperties_ok ho h1
    obtain ⟨-, -, j⟩ := readUnk_ok ho h2
    refine ⟨?_, i3, ?_⟩
    · intro line hl
      rcases i4 line hl with h | h | ⟨col, cols, h3, h4⟩
      · exact Or.inl h
      · exact Or.inr h
      · exact absurd (hc line hl col cols h3) h4
    · intro line hl
      rcases j line hl with h | ⟨c, e, h3, h4⟩ | ⟨col, cols, h3, h4⟩
      · exact Or.inl h
      · refine Or.inr ⟨c, e, h3, ?_⟩
        cases hd : dictGet cs (.member c) with
        | none => exact absurd hd h4
        | some info =>
          rcases (i1 c info).mp hd with hh | ⟨l, hl', hp⟩
          · cases hh
          · exact ⟨l, hl', info, hp⟩
      · exact absurd (hu line hl col cols h3) h4
  · rintro ⟨h1, h2, h3⟩
    obtain ⟨cs, hcs⟩ := readProperties_succeeds ho (defined := []) h1 (fun _ _ _ _ _ => rfl) h2
    obtain ⟨i1, -⟩ := readProperties_ok ho hcs
    obtain ⟨os, hos⟩ := readUnk_succeeds ho (g := g) (defined := cs) (lines := unkDef) (by
      intro line hl
      rcases h3 line hl with h | ⟨c, e, h4, l, hl', info, hp⟩
      · exact Or.inl h
      · refine Or.inr ⟨c, e, h4, ?_⟩
        rw [(i1 c info).mpr (Or.inr ⟨l, hl', hp⟩)]
        simp)
    exact ⟨_, by unfold mecabSetUp; rw [hcs]; dsimp only [bind, Except.bind]; rw [hos]; rfl⟩

/-- **C66** Otherwise they are refused with `ValueError`. -/
theorem C66_refused (others : PStr → Option Attr) (g : Grammar) (charDef unkDef : List PStr)
    (hc : ∀ line ∈ charDef, ∀ col cols, Columns line (col :: cols) → others col = none)
    (hu : ∀ line ∈ unkDef, ∀ col cols, CommaColumns line (col :: cols) → others col = none) {e : Err}
    (h : mecabSetUp others g charDef unkDef = .error e) : e = .value := by
  unfold mecabSetUp at h
  cases h1 : readProperties others [] charDef with
  | error e' => rw [h1] at h; cases h; exact readProperties_error hc h1
  | ok cats =>
    rw [h1] at h
    dsimp only [bind, Except.bind] at h
    cases h2 : readUnk others g cats unkDef with
    | error e' => rw [h2] at h; cases h; exact readUnk_error hu h2
    | ok oovs => rw [h2] at h; cases h

/-- A grammar with two parts of speech. -/
def sampleGrammar : Grammar :=
  ⟨[[codes "n", codes "*", codes "*", codes "*", codes "*", codes "*"], [codes "v", codes "*", codes "*", codes "*", codes "*", codes "*"]],
    1, 1, [0, 0], 2⟩

/-- Two categories and two entries; the second has a part of speech the grammar does not know. -/
theorem sample_mecab : mecabSetUp (fun _ => none) sampleGrammar
    [codes "# comment\n", codes "DEFAULT 0 1 0 # mandatory\n", codes "  KANJI 1 0 2\n", codes "0x41 ALPHA\n"]
    [codes "DEFAULT,5,6,-7,v,*,*,*,*,*\n", codes "\n", codes "KANJI,8,8,9,x,*,*,*,*,*\n"] =
    .ok (.mecab [(.DEFAULT, ⟨false, true, 0⟩), (.KANJI, ⟨true, false, 2⟩)] [(.DEFAULT, ⟨5, 6, -7, 1⟩), (.KANJI, ⟨8, 8, 9, -1⟩)]) := by
  decide +kernel

example : mecabSetUp (fun _ => none) sampleGrammar [codes "DEFAULT 0 1 0\n", codes "DEFAULT 0 1 0\n"] [] = .error .value := by
  decide +kernel
example : mecabSetUp (fun _ => none) sampleGrammar [codes "DEFAULT 0 1 0\n"] [codes "KANJI,8,8,9,v,*,*,*,*,*\n"] = .error .value := by
  decide +kernel
example : mecabSetUp (fun _ => none) sampleGrammar [codes "DEFAULT 0 1\n"] [] = .error .value := by decide +kernel

/-- A part of speech of unk.def that the grammar does not have is not refused: the entry gets the number −1, which stands for
the last part of speech when it is looked up. -/
theorem C66_unknown_pos_accepted :
    ∃ line, UnkEntry sampleGrammar.posList line .KANJI ⟨8, 8, 9, -1⟩ ∧
      (∃ p, mecabSetUp (fun _ => none) sampleGrammar [codes "KANJI 0 1 0\n"] [line] = .ok p) ∧
      sampleGrammar.posString (-1) = .ok [codes "v", codes "*", codes "*", codes "*", codes "*", codes "*"] := by
  refine ⟨codes "KANJI,8,8,9,x,*,*,*,*,*\n", ?_, ⟨_, rfl⟩, by decide⟩
  have : unkLine (fun _ => none) sampleGrammar [(.member .KANJI, ⟨true, true, 0⟩)] (codes "KANJI,8,8,9,x,*,*,*,*,*\n") =
      .ok (some (.member .KANJI, ⟨8, 8, 9, -1⟩)) := by decide +kernel
  exact ((unkLine_member (by intro _ _ h; cases h)).mp this).1

/-- A line whose first column names another attribute of the class (as `get`) is not refused. -/
theorem C66_attribute_accepted (others : PStr → Option Attr) (h : others (codes "get") = some (.other 0)) :
    mecabSetUp others sampleGrammar [codes "get 0 1 0\n"] [codes "get,1,1,1,v,*,*,*,*,*\n"] = .ok (.mecab [] []) := by
  have h1 : getAttr others (codes "get") = some (.other 0) := by
    unfold getAttr
    rw [show Cat.get (codes "get") = none by decide]
    exact h
  have h2 : propertyLine others [] (codes "get 0 1 0\n") = .ok (some (.other 0, ⟨false, true, 0⟩)) := by
    unfold propertyLine
    rw [if_neg (by decide), show splitWs (strip (codes "get 0 1 0\n")) = [codes "get", codes "0", codes "1", codes "0"] by decide]
    dsimp only
    rw [h1]
    rfl
  have h3 : unkLine others sampleGrammar [(.other 0, ⟨false, true, 0⟩)] (codes "get,1,1,1,v,*,*,*,*,*\n") =
      .ok (some (.other 0, ⟨1, 1, 1, 1⟩)) := by
    unfold unkLine
    rw [if_neg (by decide), show splitOn 44 (strip (codes "get,1,1,1,v,*,*,*,*,*\n")) =
      [codes "get", codes "1", codes "1", codes "1", codes "v", codes "*", codes "*", codes "*", codes "*", codes "*"] by decide]
    dsimp only
    rw [h1]
    rfl
  unfold mecabSetUp
  simp only [readProperties, readUnk, h2, bind, Except.bind, List.nil_append, h3]
  rfl

/-! ### C67: rewrite.def -/

theorem rewriteSkip_iff {line : PStr} : ((strip line).isEmpty = true ∨ (strip line).head? = some 35) ↔
    ∀ cols, ¬ RewriteSays line cols := by
  by_cases hb : Blank line
  · refine ⟨fun _ cols h => ?_, fun _ => Or.inl (by rw [strip_nil_iff.mpr hb]; rfl)⟩
    obtain ⟨h1, c, cs, rfl, -⟩ := h
    have := (Columns.nil line hb).split
    rw [h1.split] at this; cases this
  · cases hs : splitWs line with
    | nil => exact absurd (splitWs_nil_iff.mp hs) hb
    | cons col cols =>
      have hcol := columns_iff.mpr hs
      rw [(strip_head hcol).1]
      constructor
      · rintro (h | h) cols' h'
        · rw [List.isEmpty_iff] at h; exact hb (strip_nil_iff.mp h)
        · obtain ⟨h1, c, cs, rfl, h2⟩ := h'
          have := h1.split
          rw [hs] at this
          rw [← (List.cons.inj this).1] at h2
          exact h2 h
      · intro h
        refine Or.inr (Classical.not_not.mp fun hn => ?_)
        exact h _ ⟨hcol, col, cols, rfl, hn⟩

theorem mem_rewriteCols : ∀ {lines : List PStr} {cols : List PStr},
    cols ∈ rewriteCols lines ↔ ∃ line ∈ lines, RewriteSays line cols
  | [], cols => by simp [rewriteCols]
  | line :: lines, cols => by
    rw [rewriteCols]
    split
    · rename_i h
      rw [mem_rewriteCols]
      have hn := rewriteSkip_iff.mp h
      constructor
      · rintro ⟨l, h1, h2⟩; exact ⟨l, by simp [h1], h2⟩
      · rintro ⟨l, h1, h2⟩
        rcases List.mem_cons.mp h1 with rfl | h1
        · exact absurd h2 (hn cols)
        · exact ⟨l, h1, h2⟩
    · rename_i h
      rw [List.mem_cons, mem_rewriteCols, splitWs_strip]
      constructor
      · rintro (rfl | ⟨l, h1, h2⟩)
        · refine ⟨line, by simp, ?_⟩
          obtain ⟨cols, hc⟩ : ∃ cols, RewriteSays line cols := by
            apply Classical.byContradiction
            intro hn
            exact h (rewriteSkip_iff.mpr (fun cols hc => hn ⟨cols, hc⟩))
          rw [hc.1.split]; exact hc
        · exact ⟨l, by simp [h1], h2⟩
      · rintro ⟨l, h1, h2⟩
        rcases List.mem_cons.mp h1 with rfl | h1
        · exact Or.inl h2.1.split.symm
        · exact Or.inr ⟨l, h1, h2⟩

/-- **C67** With a rewrite.def that is accepted the text is normalised as its lines say: the longest key is replaced, and
characters on lines of their own are not normalised. -/
theorem C67_normalises (lines : List PStr) (tb : RewriteTable) (htb : readRewriteDef lines = .ok tb)
    (lower nfkc : PStr → PStr) (hlow : ∀ c, lower [c] ≠ []) (hnf : ∀ s, s ≠ [] → nfkc s ≠ []) (bd : Builder) (hv : bd.Valid) :
    ∃ bd', defaultRewrite tb lower nfkc bd = .ok bd' ∧ bd'.Valid ∧ bd'.original = bd.original ∧
      Normalised (fun k v => ∃ line ∈ lines, RewriteSays line [k, v]) (fun s => ∃ line ∈ lines, RewriteSays line [s])
        lower nfkc bd.modified bd'.modified := by
  obtain ⟨bd', h1, h2, h3, h4⟩ := C12_default_rewrite (rewriteCols lines) (by
    intro cols hc s hs
    obtain ⟨line, -, h, -⟩ := mem_rewriteCols.mp hc
    exact (h.words s hs).1) tb htb lower nfkc hlow hnf bd hv
  refine ⟨bd', h1, h2, h3, ?_⟩
  have e1 : (fun k v => [k, v] ∈ rewriteCols lines) = fun k v => ∃ line ∈ lines, RewriteSays line [k, v] := by
    funext k v; exact propext mem_rewriteCols
  have e2 : (fun s => [s] ∈ rewriteCols lines) = fun s => ∃ line ∈ lines, RewriteSays line [s] := by
    funext s; exact propext mem_rewriteCols
  rw [e1, e2] at h4
  exact h4

theorem readRewriteLines_iff : ∀ (rest lines : List (List PStr)) (tb : RewriteTable), TableOk lines tb →
    (∀ cols ∈ rest, ∀ s ∈ cols, s ≠ []) →
    ((∃ tb', readRewriteLines tb rest = .ok tb') ↔
      (∀ cols ∈ rest, (∃ c, cols = [[c]]) ∨ ∃ k v, cols = [k, v]) ∧
      (∀ k v v', [k, v] ∈ lines → [k, v'] ∉ rest) ∧
      rest.Pairwise (fun a b => ∀ k v v', ¬ (a = [k, v] ∧ b = [k, v'])))
  | [], lines, tb, _, _ => by
    refine ⟨fun _ => ⟨by simp, by simp, List.Pairwise.nil⟩, fun _ => ⟨tb, rfl⟩⟩
  | cols :: rest, lines, tb, ht, hne => by
    have hne' : ∀ cols ∈ rest, ∀ s ∈ cols, s ≠ [] := fun c hc => hne c (by simp [hc])
    rw [readRewriteLines]
    by_cases hbad : (∃ c, cols = [[c]]) ∨ ∃ k v, cols = [k, v]
    · by_cases hdup : ∃ k v v', cols = [k, v] ∧ [k, v'] ∈ lines
      · obtain ⟨k, v, v', rfl, hm⟩ := hdup
        have : readRewriteLine tb [k, v] = .error .runtime := by
          unfold readRewriteLine
          dsimp only
          rw [(ht.map k v').mpr hm]
        rw [this]
        refine ⟨fun ⟨_, h⟩ => (by cases h), fun ⟨_, h, _⟩ => absurd (by simp) (h k v' v hm)⟩
      · obtain ⟨tb1, h1⟩ : ∃ tb1, readRewriteLine tb cols = .ok tb1 := by
          rcases hbad with ⟨c, rfl⟩ | ⟨k, v, rfl⟩
          · exact ⟨_, rfl⟩
          · unfold readRewriteLine
            dsimp only
            cases hd : dictGet tb.replaceMap k with
            | some v' => exact absurd ⟨k, v, v', rfl, (ht.map k v').mp hd⟩ hdup
            | none =>
              cases k with
              | nil => exact absurd rfl (hne _ (List.mem_cons_self ..) [] (List.mem_cons_self ..))
              | cons c cs => exact ⟨_, rfl⟩
        rw [h1]
        have ht1 := readRewriteLine_ok ht h1
        have ih := readRewriteLines_iff rest _ tb1 ht1 hne'
        show (∃ tb', readRewriteLines tb1 rest = .ok tb') ↔ _
        rw [ih, List.pairwise_cons]
        constructor
        · rintro ⟨a1, a2, a3⟩
          refine ⟨?_, ?_, ?_, a3⟩
          · intro c hc
            rcases List.mem_cons.mp hc with rfl | hc
            · exact hbad
            · exact a1 c hc
          · intro k v v' hm hm'
            rcases List.mem_cons.mp hm' with hm' | hm'
            · exact hdup ⟨k, v', v, hm'.symm, hm⟩
            · exact a2 k v v' (by simp [hm]) hm'
          · rintro b hb k v v' ⟨rfl, rfl⟩
            exact a2 k v v' (by simp) hb
        · rintro ⟨a1, a2, a3, a4⟩
          refine ⟨fun c hc => a1 c (by simp [hc]), ?_, a4⟩
          intro k v v' hm hm'
          rcases List.mem_append.mp hm with hm | hm
          · exact a2 k v v' hm (by simp [hm'])
          · exact a3 _ hm' k v v' ⟨(List.mem_singleton.mp hm).symm, rfl⟩
    · have : ∃ e, readRewriteLine tb cols = .error e := by
        unfold readRewriteLine
        split
        · rename_i key
          rw [if_pos]
          · exact ⟨_, rfl⟩
          · intro hl
            refine hbad (Or.inl ?_)
            match key, hl with
            | [c], _ => exact ⟨c, rfl⟩
        · rename_i k v; exact absurd (Or.inr ⟨k, v, rfl⟩) hbad
        · exact ⟨_, rfl⟩
      obtain ⟨e, he⟩ := this
      rw [he]
      exact ⟨fun ⟨_, h⟩ => (by cases h), fun ⟨h, _⟩ => absurd (h cols (by simp)) hbad⟩

theorem rewriteCols_pairwise : ∀ (lines : List PStr),
    (rewriteCols lines).Pairwise (fun a b => ∀ k v v', ¬ (a = [k, v] ∧ b = [k, v'])) ↔
      lines.Pairwise (fun l l' => ∀ k v v', ¬ (RewriteSays l [k, v] ∧ RewriteSays l' [k, v']))
  | [] => by simp [rewriteCols]
  | line :: lines => by
    have ih := rewriteCols_pairwise lines
    rw [rewriteCols, List.pairwise_cons]
    split
    · rename_i h
      rw [ih]
      exact ⟨fun hh => ⟨fun l' _ k v v' hx => rewriteSkip_iff.mp h _ hx.1, hh⟩, fun hh => hh.2⟩
    · rename_i h
      obtain ⟨cols, hc⟩ : ∃ cols, RewriteSays line cols := by
        apply Classical.byContradiction
        intro hn
        exact h (rewriteSkip_iff.mpr (fun cols hc => hn ⟨cols, hc⟩))
      rw [List.pairwise_cons, ih, splitWs_strip, hc.1.split]
      constructor
      · rintro ⟨a1, a2⟩
        refine ⟨?_, a2⟩
        rintro l' hl' k v v' ⟨h1, h2⟩
        have : cols = [k, v] := by rw [← hc.1.split, h1.1.split]
        exact a1 [k, v'] (mem_rewriteCols.mpr ⟨l', hl', h2⟩) k v v' ⟨this, rfl⟩
      · rintro ⟨a1, a2⟩
        refine ⟨?_, a2⟩
        rintro b hb k v v' ⟨rfl, rfl⟩
        obtain ⟨l', hl', h2⟩ := mem_rewriteCols.mp hb
        exact a1 l' hl' k v v' ⟨hc, h2⟩

/-- **C67** rewrite.def is accepted exactly when every line is, and no key is defined twice. -/
theorem C67_accepted (lines : List PStr) :
    (∃ tb, readRewriteDef lines = .ok tb) ↔
      (∀ line ∈ lines, RewriteLine line) ∧
      lines.Pairwise (fun l l' => ∀ k v v', ¬ (RewriteSays l [k, v] ∧ RewriteSays l' [k, v'])) := by
  unfold readRewriteDef
  rw [readRewriteLines_iff (rewriteCols lines) [] .empty TableOk.empty (by
    intro cols hc s hs
    obtain ⟨line, -, h, -⟩ := mem_rewriteCols.mp hc
    exact (h.words s hs).1), rewriteCols_pairwise]
  constructor
  · rintro ⟨h1, -, h3⟩
    refine ⟨fun line hl => ?_, h3⟩
    by_cases hn : ∀ cols, ¬ RewriteSays line cols
    · exact Or.inl hn
    · obtain ⟨cols, hc⟩ := Classical.not_forall.mp hn
      have hc := Classical.not_not.mp hc
      rcases h1 cols (mem_rewriteCols.mpr ⟨line, hl, hc⟩) with ⟨c, rfl⟩ | ⟨k, v, rfl⟩
      · exact Or.inr (Or.inl ⟨c, hc⟩)
      · exact Or.inr (Or.inr ⟨k, v, hc⟩)
  · rintro ⟨h1, h3⟩
    refine ⟨fun cols hc => ?_, by simp, h3⟩
    obtain ⟨line, hl, h⟩ := mem_rewriteCols.mp hc
    rcases h1 line hl with hn | ⟨c, hc'⟩ | ⟨k, v, hc'⟩
    · exact absurd h (hn cols)
    · exact Or.inl ⟨c, by rw [← h.1.split, hc'.1.split]⟩
    · exact Or.inr ⟨k, v, by rw [← h.1.split, hc'.1.split]⟩

theorem readRewriteLines_error : ∀ {rest : List (List PStr)} {tb : RewriteTable} {e : Err},
    (∀ cols ∈ rest, ∀ s ∈ cols, s ≠ []) → readRewriteLines tb rest = .error e → e = .runtime
  | [], _, _, _, h => by rw [readRewriteLines] at h; cases h
  | cols :: rest, tb, e, hne, h => by
    rw [readRewriteLines] at h
    cases h1 : readRewriteLine tb cols with
    | ok tb1 => rw [h1] at h; exact readRewriteLines_error (fun c hc => hne c (by simp [hc])) h
    | error e' =>
      rw [h1] at h
      cases h
      unfold readRewriteLine at h1
      split at h1
      · split at h1
        · cases h1; rfl
        · cases h1
      · split at h1
        · cases h1; rfl
        · split at h1
          · exact absurd rfl (hne _ (List.mem_cons_self ..) [] (List.mem_cons_self ..))
          · cases h1
      · cases h1; rfl

/-- **C67** Otherwise it is refused with `RuntimeError`. -/
theorem C67_refused {lines : List PStr} {e : Err} (h : readRewriteDef lines = .error e) : e = .runtime :=
  readRewriteLines_error (by
    intro cols hc s hs
    obtain ⟨line, -, h, -⟩ := mem_rewriteCols.mp hc
    exact (h.words s hs).1) h

example : readRewriteDef [codes "# ignore\n", codes "K\n", codes "  ab  XYZ \n", codes "\n", codes "a\tq"] =
    .ok ⟨[codes "K"], [(97, 2)], [(codes "a", codes "q"), (codes "ab", codes "XYZ")]⟩ := by decide +kernel
example : readRewriteDef [codes "KK\n"] = .error .runtime := by decide +kernel
example : readRewriteDef [codes "a b\n", codes "a c\n"] = .error .runtime := by decide +kernel

end Sudachi
