import Verif.Lemmas.Ties4

/-!
# The order decides between any two segmentations: lemmas
-/

namespace Sudachi

theorem utf8Cp_pos (c : Nat) : 0 < (utf8Cp c).length := by
  unfold utf8Cp
  split
  · simp
  split
  · simp
  split <;> simp

theorem bytePos_succ {m : PStr} {k : Nat} (hk : k < m.length) : bytePos m k < bytePos m (k + 1) := by
  unfold bytePos
  rw [List.take_succ_eq_append_getElem hk, List.flatMap_append, List.length_append]
  have := utf8Cp_pos m[k]
  simp only [List.flatMap_cons, List.flatMap_nil, List.append_nil]
  omega

theorem bytePos_strict {m : PStr} {k j : Nat} (h : k < j) (hj : j ≤ m.length) : bytePos m k < bytePos m j := by
  induction j with
  | zero => omega
  | succ j ih =>
    have h1 := bytePos_succ (m := m) (k := j) (by omega)
    rcases Nat.lt_or_eq_of_le (Nat.le_of_lt_succ h) with h2 | h2
    · exact Nat.lt_trans (ih h2 (by omega)) h1
    · rw [h2]; exact h1

theorem bytePos_inj {m : PStr} {k j : Nat} (hk : k ≤ m.length) (hj : j ≤ m.length) (h : bytePos m k = bytePos m j) : k = j := by
  rcases Nat.lt_trichotomy k j with h1 | h1 | h1
  · have := bytePos_strict h1 hj; omega
  · exact h1
  · have := bytePos_strict h1 hk; omega

variable {catOf : Nat → CatSet}

/-- A provider makes at most one word of a length at a rank. -/
theorem OovPlugin.MakesBy.unique {m : PStr} {k : Nat} {other : Prop} {p : OovPlugin} {r : Nat × Nat} {x y : NodeData}
    (hx : p.MakesBy m catOf k other r x) (hy : p.MakesBy m catOf k other r y) (hend : x.end_ = y.end_) : x = y := by
  have key : ∀ {j j' : Nat} {o : OovEntry}, j ≤ m.length → j' ≤ m.length → (unknownWord m k j o).end_ = (unknownWord m k j' o).end_ →
      unknownWord m k j o = unknownWord m k j' o := by
    intro j j' o h1 h2 h3
    rw [bytePos_inj h1 h2 h3]
  cases p with
  | mecab categories oovList =>
    obtain ⟨ch, ty, o, a1, a2, a3, a, b, ci, j, _, hr, _, _, _, _, rfl, hj⟩ := hx
    obtain ⟨ch', ty', o', b1, b2, b3, a', b', ci', j', _, hr', _, _, _, _, rfl, hj'⟩ := hy
    rw [a3] at b3
    cases b3
    have h1 : b ≤ m.length := by simpa using hr.le
    have h2 : b' ≤ m.length := by simpa using hr'.le
    refine key ?_ ?_ hend
    · rcases hj with ⟨_, rfl⟩ | ⟨_, _, _, rfl, _⟩
      · exact h1
      · exact Nat.min_le_right _ _
    · rcases hj' with ⟨_, rfl⟩ | ⟨_, _, _, rfl, _⟩
      · exact h2
      · exact Nat.min_le_right _ _
  | simple o =>
    obtain ⟨_, _, j, _, h1, _, _, rfl⟩ := hx
    obtain ⟨_, _, j', _, h2, _, _, rfl⟩ := hy
    exact key h1 h2 hend

theorem MadeAt.unique {m : PStr} {k : Nat} {r : Nat × Nat} {x y : NodeData} (hend : x.end_ = y.end_) :
    ∀ {ps : List OovPlugin} {other : Prop} {i : Nat}, MadeAt m catOf k other ps i r x → MadeAt m catOf k other ps i r y → x = y
  | [], _, _, h, _ => h.elim
  | _ :: _, _, 0, h, h' => OovPlugin.MakesBy.unique h h' hend
  | _ :: ps, _, i + 1, h, h' => MadeAt.unique (ps := ps) (i := i) hend h h'

theorem UnknownBy.unique {m : PStr} {k : Nat} {ps : List OovPlugin} {other : Prop} {i : Nat} {r : Nat × Nat} {x y : NodeData}
    (hx : UnknownBy m catOf ps other k i r x) (hy : UnknownBy m catOf ps other k i r y) (hend : x.end_ = y.end_) : x = y := by
  obtain ⟨ch, hch, hx⟩ := hx
  obtain ⟨ch', hch', hy⟩ := hy
  rw [hch] at hch'
  cases hch'
  rcases hx with ⟨a1, a2⟩ | ⟨a1, a2, _, p, a3, a4⟩ <;> rcases hy with ⟨b1, b2⟩ | ⟨b1, b2, _, q, b3, b4⟩
  · exact MadeAt.unique hend a2 b2
  · rcases b2 with b2 | b2
    · exact absurd b2 a1
    · exact absurd (madeBy_iff.2 ⟨i, r, a2⟩) (b2 x)
  · rcases a2 with a2 | a2
    · exact absurd a2 b1
    · exact absurd (madeBy_iff.2 ⟨i, r, b2⟩) (a2 y)
  · rw [a3] at b3
    cases b3
    exact a4.unique b4 hend

theorem UnknownBefore.antisymm {m : PStr} {k : Nat} {ps : List OovPlugin} {other : Prop} {x y : NodeData}
    (hx : UnknownBefore m catOf ps other k x y) (hy : UnknownBefore m catOf ps other k y x) (hend : x.end_ = y.end_) : x = y := by
  obtain ⟨i, r, h1, h2⟩ := hx
  obtain ⟨i', r', h3, h4⟩ := hy
  have h5 := h2 _ _ h3
  have h6 := h4 _ _ h1
  unfold RankLe at h5 h6
  have hi : i = i' := by omega
  have h7 : r.1 = r'.1 := by omega
  have h8 : r.2 = r'.2 := by omega
  obtain ⟨r1, r2⟩ := r
  obtain ⟨r1', r2'⟩ := r'
  dsimp only at h7 h8
  subst hi h7 h8
  exact h1.unique h3 hend

theorem WordBefore.asymm {x y : NodeData} (hx : WordBefore x y) (hy : WordBefore y x) : False := by
  obtain ⟨d, w, d', w', h1, h2, h3, h4, h5⟩ := hx
  obtain ⟨e', v', e, v, g1, g2, g3, g4, g5⟩ := hy
  rw [h1] at g2
  rw [h2] at g1
  simp only [combinedId] at g1 g2
  omega

/-- Two words with the same end cannot each come before the other. -/
theorem Sources.Before.asymm {S : Sources} {auto : Nat → Nat → Int} {providers : List OovPlugin} {t : InputText} {x y : NodeData}
    (hx : S.Before auto catOf providers t x y) (hy : S.Before auto catOf providers t y x) (hne : x ≠ y) (hend : x.end_ = y.end_) :
    False := by
  rcases hx with hx | ⟨hb, hx⟩
  · rcases hy with hy | ⟨hb, _⟩ <;> omega
  rcases hy with hy | ⟨_, hy⟩
  · omega
  rcases hx with ⟨x1, x2⟩ | ⟨x1, x2, k, x3, x4, x5⟩ <;> rcases hy with ⟨y1, y2⟩ | ⟨y1, y2, k', y3, y4, y5⟩
  · rcases x2 with x2 | x2
    · rw [x2] at y1; cases y1
    rcases y2 with y2 | y2
    · rw [y2] at x1; cases x1
    · exact x2.asymm y2
  · rw [x1] at y2; cases y2
  · rw [y1] at x2; cases x2
  · have hk : k = k' := bytePos_inj (Nat.le_of_lt x3) (Nat.le_of_lt y3) (by omega)
    subst hk
    exact hne (x5.antisymm y5 hend)

/-- The last difference of two lists is at one place. -/
theorem last_difference {α : Type} {q q' r r' : List α} {x x' y y' : α} {s u : List α} (h1 : q ++ x :: s = r ++ y :: u)
    (h2 : q' ++ x' :: s = r' ++ y' :: u) (hne : x ≠ x') (hne' : y ≠ y') : x = y ∧ x' = y' := by
  have hlen : s.length = u.length := by
    rcases Nat.lt_trichotomy s.length u.length with h | h | h
    · exfalso
      have e1 := congrArg (fun l => l.reverse[s.length]?) h1
      have e2 := congrArg (fun l => l.reverse[s.length]?) h2
      simp only [List.reverse_append, List.reverse_cons, List.append_assoc, List.singleton_append] at e1 e2
      rw [List.getElem?_append_right (by simp), List.getElem?_append_left (by simpa using h)] at e1 e2
      simp only [List.length_reverse, Nat.sub_self, List.getElem?_cons_zero] at e1 e2
      exact hne (Option.some.inj (e1.trans e2.symm))
    · exact h
    · exfalso
      have e1 := congrArg (fun l => l.reverse[u.length]?) h1
      have e2 := congrArg (fun l => l.reverse[u.length]?) h2
      simp only [List.reverse_append, List.reverse_cons, List.append_assoc, List.singleton_append] at e1 e2
      rw [List.getElem?_append_left (by simpa using h), List.getElem?_append_right (by simp)] at e1 e2
      simp only [List.length_reverse, Nat.sub_self, List.getElem?_cons_zero] at e1 e2
      exact hne' (Option.some.inj (e1.symm.trans e2))
  have g1 := List.append_inj' h1 (by simp [hlen])
  have g2 := List.append_inj' h2 (by simp [hlen])
  exact ⟨(List.cons.inj g1.2).1, (List.cons.inj g2.2).1⟩

theorem Preferred.asymm {before : NodeData → NodeData → Prop} (hb : ∀ x y, x ≠ y → x.end_ = y.end_ → before x y → before y x → False)
    {p p' : List NodeData} (h : Preferred before p p') (h' : Preferred before p' p) : False := by
  obtain ⟨q, q', x, x', s, rfl, rfl, hne, hend, hbef⟩ := h
  obtain ⟨r, r', y, y', u, h1, h2, hne', _, hbef'⟩ := h'
  obtain ⟨rfl, rfl⟩ := last_difference h2 h1 hne (Ne.symm hne')
  exact hb _ _ hne hend hbef hbef'

end Sudachi
