/-
C65: the exceptions of char.def.
-/
import Verif.Props.Definitions
import Verif.Lemmas.CharDefFault
import Verif.Spec.Shipped
namespace Sudachi

/-- **C65** Which exception a line of char.def raises, exactly: `ValueError` if the first column has no numbers, and
`AttributeError` for all other faults. -/
theorem C65_line_raises {line : PStr} {e : Err} : charDefLine line = .error e ↔ CharDefFault line e := by
  constructor
  · intro h
    have hskip : ¬ (Blank line ∨ IsComment line ∨ Indented line) := fun hs => by rw [charDefLine_skip hs] at h; cases h
    simp only [not_or] at hskip
    obtain ⟨hb, hc, hi⟩ := hskip
    rw [charDefLine_columns hb hc hi] at h
    have hcol := splitWs_columns line
    match hs : splitWs line, hcol with
    | [], hcol => exact absurd hcol.blank hb
    | [col], hcol =>
      rw [hs] at h; cases h
      exact .column line col hcol hi hc
    | col :: c :: cols, hcol =>
      rw [hs, if_neg (by simp)] at h
      dsimp only at h
      split at h
      · cases h
      · rename_i hx
        obtain ⟨x, rfl⟩ := take_two.mp (Classical.not_not.mp hx)
        by_cases hbd : ∃ low last, Bounds (48 :: 120 :: x) low last
        · obtain ⟨low, last, hbd⟩ := hbd
          rw [charDefRange_bounds hbd] at h
          split at h
          · cases h; exact .range line x c cols low last hcol hi hbd (by omega)
          · dsimp only [bind, Except.bind] at h
            cases hr : charDefCats (c :: cols) with
            | ok cats => rw [hr] at h; cases h
            | error e' =>
              rw [hr] at h; cases h
              rw [charDefCats_error hr]
              obtain ⟨pre, name, post, h1, h2, h3, h4⟩ :=
                (charDefCats_unknown (fun c hc => hcol.words c (List.mem_cons_of_mem _ hc))).mp ⟨_, hr⟩
              exact .category line x name pre post low last (h1 ▸ hcol) hi hbd h2 h3 h4
        · rw [charDefRange_noBounds hbd] at h; cases h
          exact .number line x c cols hcol hi hbd
  · intro h
    cases h with
    | column col h1 hi hc => exact C65_single_column_refused h1 hi hc
    | number x c cols h1 hi hbd =>
      obtain ⟨hb, hc⟩ := hexLine_not h1 hi
      rw [charDefLine_columns hb hc hi, h1.split, if_neg (by simp)]
      dsimp only
      rw [if_neg (fun hn => hn (take_two.mpr ⟨x, rfl⟩)), charDefRange_noBounds hbd]
      rfl
    | range x c cols low last h1 hi hbd hlt =>
      obtain ⟨hb, hc⟩ := hexLine_not h1 hi
      rw [charDefLine_columns hb hc hi, h1.split, if_neg (by simp)]
      dsimp only
      rw [if_neg (fun hn => hn (take_two.mpr ⟨x, rfl⟩)), charDefRange_bounds hbd, if_pos (by omega)]
      rfl
    | category x name pre post low last h1 hi hbd h2 h3 h4 =>
      obtain ⟨hb, hc⟩ := hexLine_not h1 hi
      rw [charDefLine_columns hb hc hi, h1.split, if_neg (by simp only [List.length_cons, List.length_append]; omega)]
      dsimp only
      rw [if_neg (fun hn => hn (take_two.mpr ⟨x, rfl⟩)), charDefRange_bounds hbd]
      split
      · rfl
      · obtain ⟨e, he⟩ := (charDefCats_unknown (cols := pre ++ name :: post)
          (fun c hc => h1.words c (List.mem_cons_of_mem _ hc))).mpr ⟨pre, name, post, rfl, h2, h3, h4⟩
        rw [he, charDefCats_error he]
        rfl

private theorem charDefLines_error : ∀ {lines : List PStr} {e : Err}, charDefLines lines = .error e ↔
    ∃ pre line post, lines = pre ++ line :: post ∧
      (∀ l ∈ pre, SaysNothing l ∨ ∃ low last cats, GivesCategories l low last cats) ∧ charDefLine line = .error e
  | [], e => by
    constructor
    · intro h; rw [charDefLines] at h; cases h
    · rintro ⟨pre, line, post, h, -⟩; simp at h
  | l0 :: lines, e => by
    have ih := charDefLines_error (lines := lines) (e := e)
    cases hl : charDefLine l0 with
    | error e' =>
      have hrw : charDefLines (l0 :: lines) = .error e' := by rw [charDefLines, hl]; rfl
      rw [hrw]
      constructor
      · intro h; cases h
        exact ⟨[], l0, lines, rfl, fun _ h => (by cases h), hl⟩
      · rintro ⟨pre, line, post, h, h1, h2⟩
        cases pre with
        | nil => cases h; rw [hl] at h2; cases h2; rfl
        | cons p ps =>
          cases h
          rcases h1 l0 (by simp) with h3 | ⟨low, last, cats, h3⟩
          · rw [C65_line_nothing.mpr h3] at hl; cases hl
          · rw [(C65_line_gives (r := ⟨low, last + 1, cats⟩)).mpr ⟨last, h3, rfl⟩] at hl; cases hl
    | ok o =>
      have hok : SaysNothing l0 ∨ ∃ low last cats, GivesCategories l0 low last cats := by
        cases o with
        | none => exact Or.inl (C65_line_nothing.mp hl)
        | some r => obtain ⟨last, hg, -⟩ := C65_line_gives.mp hl; exact Or.inr ⟨_, _, _, hg⟩
      have hrw : charDefLines (l0 :: lines) = .error e ↔ charDefLines lines = .error e := by
        rw [charDefLines, hl]
        cases hr : charDefLines lines with
        | error e' => exact Iff.rfl
        | ok rs =>
          cases o with
          | none => exact ⟨fun h => (by cases h), fun h => (by cases h)⟩
          | some r => exact ⟨fun h => (by cases h), fun h => (by cases h)⟩
      rw [hrw, ih]
      constructor
      · rintro ⟨pre, line, post, h, h1, h2⟩
        refine ⟨l0 :: pre, line, post, by rw [h]; rfl, fun l hm => ?_, h2⟩
        rcases List.mem_cons.mp hm with rfl | hm
        · exact hok
        · exact h1 l hm
      · rintro ⟨pre, line, post, h, h1, h2⟩
        cases pre with
        | nil => cases h; rw [hl] at h2; cases h2
        | cons p ps => cases h; exact ⟨ps, line, post, rfl, fun l hm => h1 l (by simp [hm]), h2⟩

/-- **C65** Which exception the file raises, exactly: that of the first line with a fault; and `IndexError` if there is
none and no line gives categories. -/
theorem C65_raises (pick : SweepState → Nat) (lines : List PStr) (e : Err) :
    readCharDef pick lines = .error e ↔
      (∃ pre line post, lines = pre ++ line :: post ∧
        (∀ l ∈ pre, SaysNothing l ∨ ∃ low last cats, GivesCategories l low last cats) ∧ CharDefFault line e) ∨
      ((∀ l ∈ lines, SaysNothing l) ∧ e = .index) := by
  simp only [← C65_line_raises]
  rw [← charDefLines_error]
  cases hr : charDefLines lines with
  | error e' =>
    have hno : ¬ ∀ l ∈ lines, SaysNothing l := by
      intro h
      obtain ⟨rs, h1⟩ := charDefLines_succeeds (lines := lines) (fun l hl => Or.inl (h l hl))
      rw [hr] at h1; cases h1
    unfold readCharDef
    rw [hr]
    exact ⟨fun h => Or.inl h, fun h => h.elim id (fun h => absurd h.1 hno)⟩
  | ok ranges =>
    obtain ⟨i1, i2⟩ := charDefLines_ok hr
    cases ranges with
    | nil =>
      have h0 : readCharDef pick lines = .error .index := by
        unfold readCharDef; rw [hr]; exact C10_empty_definition_raises pick
      rw [h0]
      constructor
      · intro h; cases h
        refine Or.inr ⟨fun l hl => ?_, rfl⟩
        rcases i1 l hl with h | ⟨low, last, cats, hg⟩
        · exact h
        · have := (i2 ⟨low, last + 1, cats⟩).mpr ⟨l, hl, C65_line_gives.mpr ⟨last, hg, rfl⟩⟩
          cases this
      · rintro (h | ⟨-, rfl⟩)
        · cases h
        · rfl
    | cons r rest =>
      obtain ⟨l, hl, h2⟩ := (i2 r).mp (by simp)
      obtain ⟨last, hg, -⟩ := C65_line_gives.mp h2
      obtain ⟨rs, h3⟩ := (C65_accepted pick lines).mpr ⟨i1, l, hl, _, _, _, hg⟩
      rw [h3]
      constructor
      · intro h; cases h
      · rintro (h | ⟨h, -⟩)
        · cases h
        · rw [C65_line_nothing.mpr (h l hl)] at h2; cases h2

/-! `0xG KANJI`, `0x30..0x29 NUMERIC`, `0x30 FOO` and `0x30`: the four faults. -/
example : CharDefFault (pstr! "0xG KANJI") .value := C65_line_raises.mp (by decide)
example : CharDefFault (pstr! "0x30..0x29 NUMERIC") .attribute := C65_line_raises.mp (by decide)
example : CharDefFault (pstr! "0x30..-0x5 NUMERIC") .attribute := C65_line_raises.mp (by decide)
example : CharDefFault (pstr! "0x30 NUMERIC FOO") .attribute := C65_line_raises.mp (by decide)
example : CharDefFault (pstr! "0x30") .attribute := C65_line_raises.mp (by decide)
/-- The number is looked at before the names: a line with both faults raises `ValueError`. -/
example : CharDefFault (pstr! "0xG FOO") .value := C65_line_raises.mp (by decide)
/-- The first line with a fault counts. -/
example : readCharDef (fun _ => 0) [pstr! "0x30 NUMERIC", pstr! "0xG KANJI", pstr! "0x31 FOO"] = .error .value :=
  (C65_raises _ _ _).mpr (Or.inl ⟨[pstr! "0x30 NUMERIC"], _, [pstr! "0x31 FOO"], rfl, fun l hl => by
    rw [List.mem_singleton.mp hl]
    exact Or.inr ⟨0x30, 0x30, [.NUMERIC], by
      obtain ⟨last, h, h'⟩ := (C65_line_gives (line := pstr! "0x30 NUMERIC") (r := ⟨0x30, 0x31, [.NUMERIC]⟩)).mp (by decide)
      have : last = 0x30 := by dsimp only at h'; omega
      exact this ▸ h⟩, C65_line_raises.mp (by decide)⟩)
example : readCharDef (fun _ => 0) [pstr! "# none", pstr! "DEFAULT 0 1 0"] = .error .index :=
  (C65_raises _ _ _).mpr (Or.inr ⟨fun l hl => C65_line_nothing.mp (by
    rcases List.mem_cons.mp hl with rfl | hl
    · decide
    · rw [List.mem_singleton.mp hl]; decide), rfl⟩)

end Sudachi
