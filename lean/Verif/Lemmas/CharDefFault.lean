/-
Lemmas for C65: which exception a line of char.def raises.
-/
import Verif.Lemmas.Definitions
import Verif.Spec.CharDefFault
namespace Sudachi

theorem charDefRange_bounds {col : PStr} {low last : Int} (h : Bounds col low last) :
    charDefRange col = if low ≥ last + 1 then .error .attribute else .ok (low.toNat, (last + 1).toNat) := by
  unfold charDefRange
  cases h with
  | single _ _ h =>
    rw [splitDots_plain col h.noDot]
    simp only [pyIntHex_iff.mpr h]
    rfl
  | range a b rest _ _ ha hb hr =>
    have h1 : splitDots (a ++ 46 :: 46 :: b ++ rest) = a :: splitDots (b ++ rest) := by
      rw [← splitDots_append a (b ++ rest) ha.noDot]; simp
    have h2 : ∃ rs, splitDots (b ++ rest) = b :: rs := by
      rcases hr with rfl | ⟨u, rfl⟩
      · exact ⟨[], by rw [List.append_nil]; exact splitDots_plain b hb.noDot⟩
      · exact ⟨_, splitDots_append b u hb.noDot⟩
    obtain ⟨rs, h2⟩ := h2
    rw [h1, h2]
    simp only [pyIntHex_iff.mpr ha, pyIntHex_iff.mpr hb]
    rfl

theorem charDefRange_noBounds {col : PStr} (h : ¬ ∃ low last, Bounds col low last) : charDefRange col = .error .value := by
  unfold charDefRange
  cases hd : splitDots col with
  | nil => exact absurd hd (splitDots_ne col)
  | cons r0 rs =>
    obtain ⟨i1, i2⟩ := splitDots_split _ _ r0 rs (Nat.le_refl _) hd
    dsimp only
    cases h0 : pyIntHex r0 with
    | error e => rw [pyIntHex_error h0]; rfl
    | ok l =>
      cases rs with
      | nil => exact absurd ⟨l, l, i1 rfl ▸ .single r0 l (pyIntHex_iff.mp h0)⟩ h
      | cons r1 rs' =>
        obtain ⟨t, ht, ht'⟩ := i2 r1 rs' rfl
        dsimp only [bind, Except.bind]
        cases h1 : pyIntHex r1 with
        | error e => rw [pyIntHex_error h1]; rfl
        | ok m =>
          refine absurd ⟨l, m, ?_⟩ h
          obtain ⟨j1, j2⟩ := splitDots_split _ t r1 rs' (Nat.le_refl _) ht'
          rw [ht]
          cases rs' with
          | nil =>
            have := Bounds.range r0 r1 [] l m (pyIntHex_iff.mp h0) (pyIntHex_iff.mp h1) (Or.inl rfl)
            rw [j1 rfl]
            simpa using this
          | cons r2 rs'' =>
            obtain ⟨u, hu, -⟩ := j2 r2 rs'' rfl
            have := Bounds.range r0 r1 (46 :: 46 :: u) l m (pyIntHex_iff.mp h0) (pyIntHex_iff.mp h1) (Or.inr ⟨u, rfl⟩)
            rw [hu]
            simpa using this

theorem head_comment {w : PStr} : w.head? = some 35 ↔ IsComment w := by
  cases w with
  | nil => exact ⟨fun h => (by cases h), fun ⟨_, h⟩ => (by cases h)⟩
  | cons c cs =>
    constructor
    · intro h; cases h; exact ⟨cs, rfl⟩
    · rintro ⟨r, h⟩; cases h; rfl

theorem charDefCats_unknown : ∀ {cols : List PStr}, (∀ c ∈ cols, IsWord c) →
    ((∃ e, charDefCats cols = .error e) ↔ ∃ pre name post, cols = pre ++ name :: post ∧ (∀ w ∈ pre, ¬ IsComment w) ∧
      ¬ IsComment name ∧ ∀ k, name ≠ codes (catName k))
  | [], _ => by
    constructor
    · rintro ⟨e, h⟩; rw [charDefCats] at h; cases h
    · rintro ⟨pre, name, post, h, -⟩; simp at h
  | col :: cols, hw => by
    have ih := charDefCats_unknown (cols := cols) (fun c hc => hw c (by simp [hc]))
    have hne : col ≠ [] := (hw col (by simp)).1
    rw [charDefCats]
    by_cases hc : IsComment col
    · rw [if_pos (Or.inl (head_comment.mpr hc))]
      constructor
      · rintro ⟨e, h⟩; cases h
      · rintro ⟨pre, name, post, h, h1, h2, -⟩
        cases pre with
        | nil => cases h; exact absurd hc h2
        | cons p ps => cases h; exact absurd hc (h1 _ (by simp))
    · rw [if_neg (fun h => h.elim (fun h => hc (head_comment.mp h)) hne)]
      cases hg : Cat.get col with
      | none =>
        refine ⟨fun _ => ⟨[], col, cols, rfl, fun _ h => (by cases h), hc, fun k hk => ?_⟩, fun _ => ⟨_, rfl⟩⟩
        rw [catGet_iff.mpr hk] at hg; cases hg
      | some k0 =>
        have hk0 := catGet_iff.mp hg
        dsimp only
        constructor
        · rintro ⟨e, h⟩
          cases hr : charDefCats cols with
          | ok x => rw [hr] at h; cases h
          | error e' =>
            obtain ⟨pre, name, post, h1, h2, h3⟩ := ih.mp ⟨e', hr⟩
            refine ⟨col :: pre, name, post, by rw [h1]; rfl, fun w hm => ?_, h3⟩
            rcases List.mem_cons.mp hm with rfl | hm
            · exact hc
            · exact h2 w hm
        · rintro ⟨pre, name, post, h, h1, h2, h3⟩
          cases pre with
          | nil => cases h; exact absurd hk0 (h3 k0)
          | cons p ps =>
            cases h
            obtain ⟨e, he⟩ := ih.mpr ⟨ps, name, post, rfl, fun w hm => h1 w (by simp [hm]), h2, h3⟩
            exact ⟨e, by rw [he]; rfl⟩

/-- A line whose first column begins with `0x` is not blank and no comment. -/
theorem hexLine_not {line x : PStr} {cols : List PStr} (h : Columns line ((48 :: 120 :: x) :: cols)) (hi : ¬ Indented line) :
    ¬ Blank line ∧ ¬ IsComment line := by
  constructor
  · intro hb
    have := (Columns.nil line hb).split
    rw [h.split] at this; cases this
  · rintro ⟨r, rfl⟩
    generalize hl : 35 :: r = line at h hi
    have hw : ∀ {w t : PStr}, Blank w → 35 :: r = w ++ (48 :: t) → False := by
      intro w t hb e
      cases w with
      | nil => exact absurd (List.cons.inj e).1 (by decide)
      | cons a as =>
        have := hb a (by simp)
        rw [← (List.cons.inj e).1] at this
        exact absurd this (by decide)
    cases h with
    | last w _ hb _ => exact hw hb hl
    | cons w _ s rest _ hb _ _ _ => exact hw (t := 120 :: (x ++ s :: rest)) hb (by rw [hl]; simp)

end Sudachi
