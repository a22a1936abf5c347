import Verif.Lemmas.Ties5
import Verif.Spec.SetOrder

/-!
# The order of the categories of a character: lemmas
-/

namespace Sudachi

variable {f g : Nat → CatSet}

theorem SameSets.symm (h : SameSets f g) : SameSets g f := fun ch c => (h ch c).symm

theorem SameSets.common (h : SameSets f g) {m : PStr} {i j : Nat} {c : Cat} : CommonCat (m.map f) i j c ↔ CommonCat (m.map g) i j c := by
  unfold CommonCat
  constructor <;> intro hc k cs h1 h2 h3 <;> rw [List.getElem?_map] at h3
  · cases hk : m[k]? with
    | none => rw [hk] at h3; cases h3
    | some ch =>
      rw [hk] at h3
      cases h3
      exact (h ch c).1 (hc k _ h1 h2 (by rw [List.getElem?_map, hk]; rfl))
  · cases hk : m[k]? with
    | none => rw [hk] at h3; cases h3
    | some ch =>
      rw [hk] at h3
      cases h3
      exact (h ch c).2 (hc k _ h1 h2 (by rw [List.getElem?_map, hk]; rfl))

theorem SameSets.isRun (h : SameSets f g) {m : PStr} {i j : Nat} (hr : IsRun (m.map f) i j) : IsRun (m.map g) i j := by
  obtain ⟨h1, h2, h3, h4⟩ := hr
  rw [List.length_map] at h2 h4
  refine ⟨h1, by rw [List.length_map]; exact h2, h3.imp_right fun ⟨c, hc⟩ => ⟨c, h.common.1 hc⟩, ?_⟩
  rw [List.length_map]
  exact h4.imp_right fun hn ⟨c, hc⟩ => hn ⟨c, h.common.2 hc⟩

theorem SameSets.runStart (h : SameSets f g) {m : PStr} {i : Nat} (hr : RunStart (m.map f) i) : RunStart (m.map g) i := by
  induction hr with
  | zero => exact .zero
  | next _ hrun ih => exact .next ih (h.isRun hrun)

theorem SameSets.bowChar (h : SameSets f g) {m : PStr} {k : Nat} (hb : BowChar (m.map f) k) : BowChar (m.map g) k := by
  rcases hb with hb | ⟨cur, prev, h1, h2, h3⟩
  · exact .inl hb
  · rw [List.getElem?_map, Option.map_eq_some_iff] at h1 h2
    obtain ⟨a, ha, rfl⟩ := h1
    obtain ⟨b, hb, rfl⟩ := h2
    refine .inr ⟨g a, g b, by rw [List.getElem?_map, ha]; rfl, by rw [List.getElem?_map, hb]; rfl, ?_⟩
    rcases h3 with h3 | h3
    · left
      intro hal
      apply h3
      unfold Alphabetic at hal ⊢
      rw [h a, h a, h a]
      exact hal
    · right
      intro c hc hc'
      exact h3 c ((h a c).2 hc) ((h b c).2 hc')

theorem SameSets.mecabMakes (h : SameSets f g) {m : PStr} {k : Nat} {other : Prop} {categories : List (Cat × CategoryInfo)}
    {oovList : List (Cat × OovEntry)} {ty : Cat} {o : OovEntry} {x : NodeData}
    (hx : MecabMakes m f k other categories oovList ty o x) : MecabMakes m g k other categories oovList ty o x := by
  obtain ⟨a, b, ci, j, h1, h2, h3⟩ := hx
  exact ⟨a, b, ci, j, h.runStart h1, h.isRun h2, h3⟩

theorem SameSets.makes (h : SameSets f g) {m : PStr} {k : Nat} {other : Prop} {p : OovPlugin} {x : NodeData}
    (hx : p.Makes m f k other x) : p.Makes m g k other x := by
  cases p with
  | mecab categories oovList =>
    obtain ⟨a, b, ch, ty, ci, o, j, h1, h2, h3, h4, h5, h6, h7⟩ := hx
    exact ⟨a, b, ch, ty, ci, o, j, h.runStart h1, h.isRun h2, h3, h4, h5, (h ch ty).1 h6, h7⟩
  | simple o =>
    obtain ⟨h1, j, h2, h3, h4, h5, h6⟩ := hx
    exact ⟨h1, j, h2, h3, h4.imp_right h.bowChar, fun i a b hb => h5 i a b (h.symm.bowChar hb), h6⟩

theorem SameSets.makes_iff (h : SameSets f g) {m : PStr} {k : Nat} {other : Prop} {p : OovPlugin} {x : NodeData} :
    p.Makes m f k other x ↔ p.Makes m g k other x := ⟨h.makes, h.symm.makes⟩

theorem SameSets.madeBy (h : SameSets f g) {m : PStr} {k : Nat} {x : NodeData} : ∀ {ps : List OovPlugin} {other : Prop},
    MadeBy m f k other ps x ↔ MadeBy m g k other ps x
  | [], _ => Iff.rfl
  | p :: ps, other => by
    unfold MadeBy
    have : (other ∨ ∃ y, p.Makes m f k other y) = (other ∨ ∃ y, p.Makes m g k other y) := by
      simp only [h.makes_iff]
    rw [h.makes_iff, this, h.madeBy (ps := ps)]

theorem SameSets.unknownAt (h : SameSets f g) {m : PStr} {k : Nat} {x : NodeData} {ps : List OovPlugin} {other : Prop} :
    UnknownAt m f ps other k x ↔ UnknownAt m g ps other k x := by
  unfold UnknownAt
  simp only [h.madeBy, h.makes_iff, h _ Cat.NOOOVBOW]

/-! ### The category that makes a word -/

/-- Made at the same rank but for the place of the category. -/
theorem SameSets.makesBy (h : SameSets f g) {m : PStr} {k : Nat} {other : Prop} {p : OovPlugin} {r : Nat × Nat} {x : NodeData}
    (hx : p.MakesBy m f k other r x) : ∃ c, p.MakesBy m g k other (c, r.2) x := by
  cases p with
  | mecab categories oovList =>
    obtain ⟨ch, ty, o, h1, h2, h3, h4⟩ := hx
    obtain ⟨c, hc⟩ := List.mem_iff_getElem?.1 ((h ch ty).1 (List.mem_of_getElem? h2))
    exact ⟨c, ch, ty, o, h1, hc, h3, h.mecabMakes h4⟩
  | simple o =>
    obtain ⟨rfl, h1⟩ := hx
    exact ⟨0, rfl, h.makes h1⟩

theorem SameSets.madeAt (h : SameSets f g) {m : PStr} {k : Nat} {r : Nat × Nat} {x : NodeData} :
    ∀ {ps : List OovPlugin} {other : Prop} {i : Nat}, MadeAt m f k other ps i r x → ∃ c, MadeAt m g k other ps i (c, r.2) x
  | [], _, _, hx => hx.elim
  | _ :: _, _, 0, hx => h.makesBy hx
  | p :: ps, other, i + 1, hx => by
    obtain ⟨c, hc⟩ := h.madeAt (ps := ps) (i := i) hx
    have : (other ∨ ∃ y, p.Makes m f k other y) = (other ∨ ∃ y, p.Makes m g k other y) := by
      simp only [h.makes_iff]
    rw [this] at hc
    exact ⟨c, hc⟩

/-- Two words, each first in one order: they are made by one MeCab provider because of two categories. -/
theorem makesBy_two (h : SameSets f g) {m : PStr} {k : Nat} {other : Prop} {p : OovPlugin} {r r' : Nat × Nat} {x x' : NodeData}
    (hne : x ≠ x') (hend : x.end_ = x'.end_) (hx : p.MakesBy m f k other r x) (hx' : p.MakesBy m g k other r' x')
    (hmin : ∀ s, p.MakesBy m f k other s x' → r.1 < s.1 ∨ (r.1 = s.1 ∧ r.2 ≤ s.2))
    (hmin' : ∀ s, p.MakesBy m g k other s x → r'.1 < s.1 ∨ (r'.1 = s.1 ∧ r'.2 ≤ s.2)) :
    ∃ ch ty ty' o o' categories oovList, m[k]? = some ch ∧ ty ∈ f ch ∧ ty' ∈ f ch ∧ ty ≠ ty' ∧
      p = OovPlugin.mecab categories oovList ∧ (ty, o) ∈ oovList ∧ (ty', o') ∈ oovList ∧
      MecabMakes m f k other categories oovList ty o x ∧ MecabMakes m f k other categories oovList ty' o' x' := by
  cases p with
  | mecab categories oovList =>
    obtain ⟨ch, ty, o, h1, h2, h3, h4⟩ := id hx
    obtain ⟨ch', ty', o', g1, g2, g3, g4⟩ := id hx'
    rw [h1] at g1
    cases g1
    refine ⟨ch, ty, ty', o, o', categories, oovList, h1, List.mem_of_getElem? h2, (h ch ty').2 (List.mem_of_getElem? g2), ?_, rfl,
      List.mem_of_getElem? h3, List.mem_of_getElem? g3, h4, h.symm.mecabMakes g4⟩
    rintro rfl
    have a := hmin (r.1, r'.2) ⟨ch, ty, o', h1, h2, g3, h.symm.mecabMakes g4⟩
    have b := hmin' (r'.1, r.2) ⟨ch, ty, o, h1, g2, h3, h.mecabMakes h4⟩
    dsimp only at a b
    have e : r.2 = r'.2 := by omega
    refine hne (OovPlugin.MakesBy.unique (r := r) hx ⟨ch, ty, o', h1, h2, ?_, h.symm.mecabMakes g4⟩ hend)
    rw [e]; exact g3
  | simple o =>
    obtain ⟨rfl, hx⟩ := hx
    obtain ⟨rfl, hx'⟩ := hx'
    exact absurd (OovPlugin.MakesBy.unique (p := .simple o) (r := (0, 0)) ⟨rfl, hx⟩ ⟨rfl, h.symm.makes hx'⟩ hend) hne

theorem madeAt_two (h : SameSets f g) {m : PStr} {k : Nat} {r r' : Nat × Nat} {x x' : NodeData} (hne : x ≠ x') (hend : x.end_ = x'.end_) :
    ∀ {ps : List OovPlugin} {other : Prop} {i : Nat}, MadeAt m f k other ps i r x → MadeAt m g k other ps i r' x' →
    (∀ s, MadeAt m f k other ps i s x' → r.1 < s.1 ∨ (r.1 = s.1 ∧ r.2 ≤ s.2)) →
    (∀ s, MadeAt m g k other ps i s x → r'.1 < s.1 ∨ (r'.1 = s.1 ∧ r'.2 ≤ s.2)) →
    ∃ ch ty ty' o o' categories oovList other, m[k]? = some ch ∧ ty ∈ f ch ∧ ty' ∈ f ch ∧ ty ≠ ty' ∧
      OovPlugin.mecab categories oovList ∈ ps ∧ (ty, o) ∈ oovList ∧ (ty', o') ∈ oovList ∧
      MecabMakes m f k other categories oovList ty o x ∧ MecabMakes m f k other categories oovList ty' o' x'
  | [], _, _, hx, _, _, _ => hx.elim
  | p :: ps, other, 0, hx, hx', h1, h2 => by
    obtain ⟨ch, ty, ty', o, o', categories, oovList, g1, g2, g3, g4, rfl, g6⟩ := makesBy_two h hne hend hx hx' h1 h2
    exact ⟨ch, ty, ty', o, o', categories, oovList, other, g1, g2, g3, g4, List.mem_cons_self, g6⟩
  | p :: ps, other, i + 1, hx, hx', h1, h2 => by
    have : (other ∨ ∃ y, p.Makes m g k other y) = (other ∨ ∃ y, p.Makes m f k other y) := by
      simp only [h.makes_iff]
    unfold MadeAt at hx hx' h1 h2
    rw [this] at hx' h2
    obtain ⟨ch, ty, ty', o, o', categories, oovList, oth, g1, g2, g3, g4, g5, g6⟩ := madeAt_two h hne hend hx hx' h1 h2
    exact ⟨ch, ty, ty', o, o', categories, oovList, oth, g1, g2, g3, g4, List.mem_cons_of_mem _ g5, g6⟩

theorem unknownBy_split {catOf : Nat → CatSet} {m : PStr} {k : Nat} {ps : List OovPlugin} {other : Prop} {ch : Nat} (hch : m[k]? = some ch) :
    (Cat.NOOOVBOW ∉ catOf ch ∧ (∃ y, MadeBy m catOf k other ps y) ∧
      ∀ i r x, UnknownBy m catOf ps other k i r x ↔ MadeAt m catOf k other ps i r x) ∨
    ((Cat.NOOOVBOW ∈ catOf ch ∨ ∀ y, ¬ MadeBy m catOf k other ps y) ∧
      ∀ i r x, UnknownBy m catOf ps other k i r x ↔ ¬ other ∧ i = 0 ∧ ∃ p, ps.getLast? = some p ∧ p.MakesBy m catOf k False r x) := by
  by_cases hc : Cat.NOOOVBOW ∉ catOf ch ∧ ∃ y, MadeBy m catOf k other ps y
  · refine .inl ⟨hc.1, hc.2, fun i r x => ⟨?_, fun h => ⟨ch, hch, .inl ⟨hc.1, h⟩⟩⟩⟩
    rintro ⟨ch', hch', ⟨_, h⟩ | ⟨_, h1 | h1, _⟩⟩
    · exact h
    · rw [hch] at hch'; cases hch'; exact absurd h1 hc.1
    · obtain ⟨y, hy⟩ := hc.2; exact absurd hy (h1 y)
  · have hn : Cat.NOOOVBOW ∈ catOf ch ∨ ∀ y, ¬ MadeBy m catOf k other ps y := by
      by_cases h1 : Cat.NOOOVBOW ∈ catOf ch
      · exact .inl h1
      · exact .inr fun y hy => hc ⟨h1, y, hy⟩
    refine .inr ⟨hn, fun i r x => ⟨?_, ?_⟩⟩
    · rintro ⟨ch', hch', ⟨h1, h⟩ | ⟨h1, _, h2, h3⟩⟩
      · rw [hch] at hch'
        cases hch'
        rcases hn with hn | hn
        · exact absurd hn h1
        · exact absurd (madeBy_iff.2 ⟨i, r, h⟩) (hn x)
      · exact ⟨h1, h2, h3⟩
    · rintro ⟨h1, h2, h3⟩
      exact ⟨ch, hch, .inr ⟨h1, hn, h2, h3⟩⟩

theorem unknownBefore_two (h : SameSets f g) {m : PStr} {k : Nat} {ps : List OovPlugin} {other : Prop} {x x' : NodeData}
    (hne : x ≠ x') (hend : x.end_ = x'.end_) (hx : UnknownBefore m f ps other k x x') (hx' : UnknownBefore m g ps other k x' x) :
    OfTwoCategories m f ps k x x' := by
  obtain ⟨i, r, h1, h2⟩ := hx
  obtain ⟨i', r', h3, h4⟩ := hx'
  obtain ⟨ch, hch, _⟩ := id h1
  have hb : x.begin_ = bytePos m k := (unknownAt_iff.2 ⟨i, r, h1⟩).entry.2.1
  have hb' : x'.begin_ = bytePos m k := (unknownAt_iff.2 ⟨i', r', h3⟩).entry.2.1
  refine ⟨hne, hb, hb', hend, ?_⟩
  rcases unknownBy_split (catOf := f) (ps := ps) (other := other) hch with ⟨a1, ⟨y, a2⟩, a3⟩ | ⟨a1, a3⟩
  · rcases unknownBy_split (catOf := g) (ps := ps) (other := other) hch with ⟨b1, b2, b3⟩ | ⟨b1, b3⟩
    · simp only [a3] at h1 h2
      simp only [b3] at h3 h4
      obtain ⟨c, hc⟩ := h.symm.madeAt h3
      obtain ⟨c', hc'⟩ := h.madeAt h1
      have u := h2 _ _ hc
      have v := h4 _ _ hc'
      unfold RankLe at u v
      have hi : i = i' := by omega
      subst hi
      refine madeAt_two h hne hend h1 h3 (fun s hs => ?_) (fun s hs => ?_)
      · have := h2 _ _ hs
        unfold RankLe at this
        omega
      · have := h4 _ _ hs
        unfold RankLe at this
        omega
    · exfalso
      rcases b1 with b1 | b1
      · exact a1 ((h ch _).2 b1)
      · exact b1 y (h.madeBy.1 a2)
  · rcases unknownBy_split (catOf := g) (ps := ps) (other := other) hch with ⟨b1, ⟨y, b2⟩, b3⟩ | ⟨b1, b3⟩
    · exfalso
      rcases a1 with a1 | a1
      · exact b1 ((h ch _).1 a1)
      · exact a1 y (h.madeBy.2 b2)
    · simp only [a3] at h1 h2
      simp only [b3] at h3 h4
      obtain ⟨no, rfl, p, hp, h1⟩ := h1
      obtain ⟨_, rfl, p', hp', h3⟩ := h3
      rw [hp] at hp'
      cases hp'
      obtain ⟨ch, ty, ty', o, o', categories, oovList, g1, g2, g3, g4, rfl, g6⟩ := makesBy_two h hne hend h1 h3
        (fun s hs => by
          have := h2 0 s ⟨no, rfl, p, hp, hs⟩
          unfold RankLe at this
          omega)
        (fun s hs => by
          have := h4 0 s ⟨no, rfl, p, hp, hs⟩
          unfold RankLe at this
          omega)
      exact ⟨ch, ty, ty', o, o', categories, oovList, False, g1, g2, g3, g4, List.mem_of_getLast? hp, g6⟩

/-! ### Texts and candidates -/

/-- The texts of one input under two orders. -/
structure SameText (t t' : InputText) : Prop where
  modified : t'.modified = t.modified
  bytes : t'.bytes = t.bytes
  canBow : ∀ i, t'.canBow i = .ok true ↔ t.canBow i = .ok true

theorem SameSets.text (h : SameSets f g) {bd : Builder} {t t' : InputText} (B : Built bd f t) (B' : Built bd g t') : SameText t t' := by
  refine ⟨by rw [B.modif, B'.modif], by rw [B.bytes, B'.bytes], fun i => ⟨fun hi => ?_, fun hi => ?_⟩⟩
  · obtain ⟨k, hk, rfl, hb⟩ := B'.bow_char hi
    rw [B'.cats] at hb
    exact canBow_of B hk (by rw [B.cats]; exact h.symm.bowChar hb)
  · obtain ⟨k, hk, rfl, hb⟩ := B.bow_char hi
    rw [B.cats] at hb
    exact canBow_of B' hk (by rw [B'.cats]; exact h.bowChar hb)

namespace Sources
variable {S : Sources}

theorem word_same {auto : Nat → Nat → Int} {t t' : InputText} (h : SameText t t') (x : NodeData) : S.Word auto t' x ↔ S.Word auto t x := by
  unfold Word
  simp only [h.bytes, h.canBow]

theorem candidate_same (h : SameSets f g) {auto : Nat → Nat → Int} {t t' : InputText} (ht : SameText t t') {ps : List OovPlugin} (x : NodeData) :
    S.Candidate auto g ps t' x ↔ S.Candidate auto f ps t x := by
  unfold Candidate
  have hb : ∀ k, BowChar (t.modified.map g) k ↔ BowChar (t.modified.map f) k := fun k => ⟨h.symm.bowChar, h.bowChar⟩
  simp only [word_same ht, ht.modified, hb, h.unknownAt]

theorem before_two (h : SameSets f g) {auto : Nat → Nat → Int} {t t' : InputText} (ht : SameText t t') {ps : List OovPlugin} {x x' : NodeData}
    (hne : x ≠ x') (hend : x.end_ = x'.end_) (hx : S.Before auto f ps t x x') (hx' : S.Before auto g ps t' x' x) :
    ∃ k, OfTwoCategories t.modified f ps k x x' := by
  rcases hx with hx | ⟨hb, hx⟩
  · rcases hx' with hy | ⟨hb, _⟩ <;> omega
  rcases hx' with hy | ⟨_, hy⟩
  · omega
  rcases hx with ⟨x1, x2⟩ | ⟨x1, x2, k, x3, x4, x5⟩ <;> rcases hy with ⟨y1, y2⟩ | ⟨y1, y2, k', y3, y4, y5⟩
  · rcases x2 with x2 | x2
    · rw [x2] at y1; cases y1
    rcases y2 with y2 | y2
    · rw [y2] at x1; cases x1
    · exact (x2.asymm y2).elim
  · rw [x1] at y2; cases y2
  · rw [y1] at x2; cases x2
  · rw [ht.modified] at y3 y4 y5
    have hk : k = k' := bytePos_inj (Nat.le_of_lt x3) (Nat.le_of_lt y3) (by omega)
    subst hk
    simp only [word_same ht] at y5
    exact ⟨k, unknownBefore_two h hne hend x5 y5⟩

/-- Two results, each preferred in its order. -/
theorem preferred_two (h : SameSets f g) {auto : Nat → Nat → Int} {t t' : InputText} (ht : SameText t t') {ps : List OovPlugin}
    {p p' : List NodeData} (hp : Preferred (S.Before auto f ps t) p p') (hp' : Preferred (S.Before auto g ps t') p' p) :
    ∃ q q' x x' s k, p = q ++ x :: s ∧ p' = q' ++ x' :: s ∧ OfTwoCategories t.modified f ps k x x' := by
  obtain ⟨q, q', x, x', s, rfl, rfl, hne, hend, hbef⟩ := hp
  obtain ⟨r, r', y, y', u, h1, h2, hne', _, hbef'⟩ := hp'
  obtain ⟨rfl, rfl⟩ := last_difference h2 h1 hne (Ne.symm hne')
  obtain ⟨k, hk⟩ := before_two h ht hne hend hbef hbef'
  exact ⟨q, q', _, _, s, k, rfl, rfl, hk⟩

end Sources
end Sudachi
