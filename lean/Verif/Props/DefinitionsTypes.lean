import Verif.Props.Definitions

/-!
# C65, C66: white space around numbers, and attributes of the class of categories that cannot be keys
-/

namespace Sudachi

/-- The white space that may stand around a number for `int`: what C's `isspace` takes, and the other white space of Unicode, but not
the separators U+001C to U+001F. -/
def numberSpaces : List Nat :=
  [0x09, 0x0A, 0x0B, 0x0C, 0x0D, 0x20] ++
  [0x85, 0xA0, 0x1680, 0x2000, 0x2001, 0x2002, 0x2003, 0x2004, 0x2005, 0x2006, 0x2007, 0x2008, 0x2009, 0x200A, 0x2028, 0x2029, 0x202F,
    0x205F, 0x3000]

/-- **C65** Which characters may stand around a number in a definition. -/
theorem C65_number_space (c : Nat) : isIntSpace c = true ↔ c ∈ numberSpaces := by
  unfold isIntSpace isSpace numberSpaces
  simp only [Bool.or_eq_true, Bool.and_eq_true, Bool.not_eq_true', Bool.and_eq_false_iff, decide_eq_true_eq, decide_eq_false_iff_not,
    List.cons_append, List.nil_append, List.mem_cons, List.not_mem_nil, or_false]
  omega

theorem readProperties_append {others : PStr → Option Attr} : ∀ {pre post : List PStr} {defined cs : List (Attr × CategoryInfo)},
    readProperties others defined pre = .ok cs → readProperties others defined (pre ++ post) = readProperties others cs post
  | [], _, _, _, h => by rw [readProperties] at h; cases h; rfl
  | line :: pre, post, defined, cs, h => by
    rw [readProperties] at h
    rw [List.cons_append, readProperties]
    cases hl : propertyLine others defined line with
    | error e => rw [hl] at h; cases h
    | ok o =>
      rw [hl] at h
      cases o with
      | none => exact readProperties_append (pre := pre) h
      | some p => exact readProperties_append (pre := pre) h

theorem readUnk_stops {others : PStr → Option Attr} {g : Grammar} {defined : List (Attr × CategoryInfo)} {line : PStr} {e : Err}
    (hl : unkLine others g defined line = .error e) : ∀ {pre post : List PStr} {es : List (Attr × OovEntry)},
    readUnk others g defined pre = .ok es → readUnk others g defined (pre ++ line :: post) = .error e
  | [], _, _, _ => by rw [List.nil_append, readUnk, hl]; rfl
  | l :: pre, post, es, h => by
    rw [readUnk] at h
    rw [List.cons_append, readUnk]
    obtain ⟨r, h1, h⟩ := bind_ok h
    obtain ⟨rs, h2, h⟩ := bind_ok h
    rw [h1]
    dsimp only [bind, Except.bind]
    rw [readUnk_stops hl h2]

theorem getAttr_unhashable {others : PStr → Option Attr} {name : PStr} (hn : ∀ c, name ≠ codes (catName c))
    (hu : others name = some .unhashable) : getAttr others name = some .unhashable := by
  unfold getAttr
  cases h : Cat.get name with
  | none => exact hu
  | some c => exact absurd (catGet_iff.mp h) (hn c)

/-- **C66** A line of char.def that names an attribute of the class which cannot be the key of a dictionary: `TypeError`, not the
`ValueError` of other names. -/
theorem C66_not_a_key (others : PStr → Option Attr) (g : Grammar) (pre post unkDef : List PStr) (line name : PStr)
    (cols : List PStr) (hpre : ∃ p, mecabSetUp others g pre [] = .ok p) (hc : Columns line (name :: cols)) (h3 : 3 ≤ cols.length)
    (hp : ¬ NotProperty line) (hn : ∀ c, name ≠ codes (catName c)) (hu : others name = some .unhashable) :
    mecabSetUp others g (pre ++ line :: post) unkDef = .error .type := by
  obtain ⟨p, hpre⟩ := hpre
  unfold mecabSetUp at hpre ⊢
  obtain ⟨cs, h1, _⟩ := bind_ok hpre
  rw [readProperties_append h1, readProperties]
  have hl : propertyLine others cs line = .error .type := by
    have hno : propertyLine others cs line ≠ .ok none := fun h => hp (propertyLine_none.mp h)
    unfold propertyLine at hno ⊢
    split
    · rename_i hskip; rw [if_pos hskip] at hno; exact absurd rfl hno
    · rw [splitWs_strip, hc.split]
      match cols, h3 with
      | a :: b :: c :: rest, _ =>
        dsimp only
        rw [getAttr_unhashable hn hu]
  rw [hl]
  rfl

/-- **C66** Likewise for a line of unk.def. -/
theorem C66_entry_not_a_key (others : PStr → Option Attr) (g : Grammar) (charDef pre post : List PStr) (line name : PStr)
    (cols : List PStr) (hpre : ∃ p, mecabSetUp others g charDef pre = .ok p) (hc : CommaColumns line (name :: cols)) (h9 : 9 ≤ cols.length)
    (hn : ∀ c, name ≠ codes (catName c)) (hu : others name = some .unhashable) :
    mecabSetUp others g charDef (pre ++ line :: post) = .error .type := by
  obtain ⟨p, hpre⟩ := hpre
  unfold mecabSetUp at hpre ⊢
  obtain ⟨cs, h1, hpre⟩ := bind_ok hpre
  obtain ⟨es, h2, _⟩ := bind_ok hpre
  rw [h1]
  dsimp only [bind, Except.bind]
  have hl : unkLine others g cs line = .error .type := by
    have hs := commaColumns_iff.mp hc
    unfold unkLine
    rw [if_neg, hs]
    · match cols, h9 with
      | _ :: _ :: _ :: _ :: _ :: _ :: _ :: _ :: _ :: rest, _ =>
        dsimp only
        rw [getAttr_unhashable hn hu]
    · rw [List.isEmpty_iff]
      intro h
      rw [h] at hs
      cases hs
      exact absurd h9 (by simp)
  rw [readUnk_stops hl h2]

/-- `__dict__` is such an attribute of a class. -/
example (others : PStr → Option Attr) (hu : others (codes "__dict__") = some .unhashable) :
    mecabSetUp others sampleGrammar [codes "DEFAULT 0 1 0\n", codes "__dict__ 0 1 0\n"] [] = .error .type := by
  refine C66_not_a_key others sampleGrammar [codes "DEFAULT 0 1 0\n"] [] [] (codes "__dict__ 0 1 0\n") (codes "__dict__")
    [codes "0", codes "1", codes "0"] ⟨.mecab [(.DEFAULT, ⟨false, true, 0⟩)] [], ?_⟩ (columns_iff.mpr (by decide +kernel)) (by decide) ?_ ?_ hu
  · unfold mecabSetUp
    have : readProperties others [] [codes "DEFAULT 0 1 0\n"] = .ok [(.member .DEFAULT, ⟨false, true, 0⟩)] := by rfl
    rw [this]
    rfl
  · intro h
    rcases h (codes "__dict__") [codes "0", codes "1", codes "0"] (columns_iff.mpr (by decide +kernel)) with ⟨r, h⟩ | ⟨r, h⟩
    · exact absurd h (by simp [codes])
    · exact absurd h (by simp [codes])
  · intro c h
    cases c <;> exact absurd h (by decide)

example (others : PStr → Option Attr) (hu : others (codes "__dict__") = some .unhashable) :
    mecabSetUp others sampleGrammar [codes "DEFAULT 0 1 0\n"] [codes "__dict__,1,1,1,v,*,*,*,*,*\n"] = .error .type := by
  refine C66_entry_not_a_key others sampleGrammar _ [] [] _ (codes "__dict__")
    [codes "1", codes "1", codes "1", codes "v", codes "*", codes "*", codes "*", codes "*", codes "*"]
    ⟨.mecab [(.DEFAULT, ⟨false, true, 0⟩)] [], ?_⟩ (commaColumns_iff.mpr (by decide +kernel)) (by decide) ?_ hu
  · unfold mecabSetUp
    have : readProperties others [] [codes "DEFAULT 0 1 0\n"] = .ok [(.member .DEFAULT, ⟨false, true, 0⟩)] := by rfl
    rw [this]
    rfl
  · intro c h
    cases c <;> exact absurd h (by decide)

end Sudachi
