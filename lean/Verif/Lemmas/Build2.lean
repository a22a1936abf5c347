import Verif.Lemmas.Build
namespace Sudachi
open Lattice

variable {bd : Builder} {catOf : Nat → CatSet} {t : InputText}

/-- Position `i` is the sentence begin or the end of a candidate. -/
def Lattice.Ends (L : Lattice) (i : Nat) : Prop := i = 0 ∨ ∃ d, L.Cand d ∧ d.end_ = i

theorem hasPreviousNode_iff {conn : Conn} {C : NodeData → Prop} {L : Lattice} (hch : AllChain conn C L)
    (hbos : L.endLists[0]? = some [bosNode]) {i : Nat} (hi : i < L.endLists.length) :
    ∃ b, L.hasPreviousNode i = .ok b ∧ (b = true ↔ L.Ends i) := by
  unfold Lattice.hasPreviousNode
  rw [pyGet, List.getElem?_eq_getElem hi]
  refine ⟨!(L.endLists[i]).isEmpty, rfl, ?_⟩
  by_cases h0 : i = 0
  · subst h0
    rw [List.getElem?_eq_getElem hi] at hbos
    injection hbos with hbos
    rw [hbos]
    simp [Lattice.Ends]
  · constructor
    · intro h
      cases hl : L.endLists[i] with
      | nil => simp [hl] at h
      | cons x xs =>
        refine .inr ⟨x.data, ⟨i, _, x, by omega, List.getElem?_eq_getElem hi, by simp [hl], rfl⟩, ?_⟩
        have := hch i _ x (List.getElem?_eq_getElem hi) (by simp [hl])
        cases x with
        | bos d => obtain ⟨h, _⟩ := this; omega
        | lone d _ => exact this.1
        | link d _ _ => exact this.1
    · rintro (h | ⟨d, ⟨e, ns, x, he, hns, hx, rfl⟩, rfl⟩)
      · omega
      · have : x.data.end_ = e := by
          have := hch e ns x hns hx
          cases x with
          | bos d => obtain ⟨h, _⟩ := this; omega
          | lone d _ => exact this.1
          | link d _ _ => exact this.1
        subst this
        rw [List.getElem?_eq_getElem hi] at hns
        injection hns with hns
        rw [hns]
        cases ns with
        | nil => simp at hx
        | cons => simp

/-- Exactly which candidates the lattice holds after the loop. -/
theorem buildLoop_cands (B : Built bd catOf t) {conn : Conn} {lex : Lex} (hlex : lex.Ok) {plugins : List OovPlugin}
    {L L1 : Lattice} (hL : L.Clean)
    (h : buildLoop conn lex plugins t (List.range' 0 t.bytes.length) (L.resize t.bytes.length) = (L1, .ok ())) :
    (∀ d, L1.Cand d → t.canBow d.begin_ = .ok true ∧ L1.Ends d.begin_ ∧
      ∃ ds, posNodes lex plugins t d.begin_ = .ok ds ∧ d ∈ ds) ∧
    (∀ i, t.canBow i = .ok true → L1.Ends i → ∃ ds, posNodes lex plugins t i = .ok ds ∧ ∀ d ∈ ds, L1.Cand d) := by
  obtain ⟨r1, r2, r3, r4, r5, _⟩ := resize_frame L t.bytes.length hL.room hL.size
  have hc := hL.resize t.bytes.length
  have key := buildLoop_induct (conn := conn) (lex := lex) (plugins := plugins) (t := t)
    (fun i L1 => AllChain conn (fun _ => True) L1 ∧ L1.endLists[0]? = some [bosNode] ∧ t.bytes.length < L1.endLists.length ∧
      (∀ d, L1.Cand d → d.begin_ < i ∧ d.begin_ < d.end_ ∧ t.canBow d.begin_ = .ok true ∧ L1.Ends d.begin_ ∧
        ∃ ds, posNodes lex plugins t d.begin_ = .ok ds ∧ d ∈ ds) ∧
      (∀ j, j < i → t.canBow j = .ok true → L1.Ends j → ∃ ds, posNodes lex plugins t j = .ok ds ∧ ∀ d ∈ ds, L1.Cand d))
    ?_ ?_ t.bytes.length 0 _ _ h ?_
  · obtain ⟨_, _, _, k1, k2⟩ := key
    refine ⟨fun d hd => (k1 d hd).2.2, fun i hb he => k2 i ?_ hb he⟩
    obtain ⟨k, hk, rfl, _⟩ := B.bow_char hb
    have := wpos_lt B.enc hk (Nat.le_refl _)
    rw [Nat.zero_add, B.blen]
    exact this
  · rintro i La ds Lb ⟨a1, a2, a3, a4, a5⟩ hbow hprev hpos hins
    have hnew := posNodes_inserted B hlex hbow hpos
    have hcand := insertAll_cand hins (fun d hd => by have := (hnew d hd).2.1; omega)
    have hi : i < t.bytes.length := by
      obtain ⟨k, hk, rfl, _⟩ := B.bow_char hbow
      rw [B.blen]; exact wpos_lt B.enc hk (Nat.le_refl _)
    have hendi : La.Ends i := by
      obtain ⟨b, hb1, hb2⟩ := hasPreviousNode_iff a1 a2 (show i < La.endLists.length by omega)
      rw [hprev] at hb1
      cases hb1
      exact hb2.mp rfl
    have ends_up : ∀ j, La.Ends j → Lb.Ends j := by
      rintro j (h | ⟨d, hd, he⟩)
      · exact .inl h
      · exact .inr ⟨d, (hcand d).mpr (.inl hd), he⟩
    have ends_down : ∀ j, j ≤ i → Lb.Ends j → La.Ends j := by
      rintro j hj (h | ⟨d, hd, he⟩)
      · exact .inl h
      · rcases (hcand d).mp hd with hd | hd
        · exact .inr ⟨d, hd, he⟩
        · have := (hnew d hd).2.1; omega
    refine ⟨a1.insertAll (fun d hd => ⟨by have := hnew d hd; omega, trivial⟩) hins, ?_, ?_, ?_, ?_⟩
    · have : ∀ {ds : List NodeData} {La Lb : Lattice}, (∀ d ∈ ds, 0 < d.end_) → La.endLists[0]? = some [bosNode] →
          insertAll conn La ds = (Lb, .ok ()) → Lb.endLists[0]? = some [bosNode] := by
        intro ds
        induction ds with
        | nil => intro La Lb _ h hi; simp only [insertAll, Prod.mk.injEq] at hi; rw [← hi.1]; exact h
        | cons d ds ih =>
          intro La Lb hd h hi
          simp only [insertAll] at hi
          split at hi
          · rename_i L2 h2
            refine ih (fun x hx => hd x (by simp [hx])) ?_ hi
            have h0 := hd d (by simp)
            unfold Lattice.insert at h2
            repeat' split at h2
            all_goals
              injection h2 with h2 h2'
              subst h2
              first
                | (have h0' : d.end_ ≠ 0 := by omega
                   simp [Lattice.append, h, h0']; done)
                | cases h2'
          · simp at hi
      exact this (fun d hd => by have := (hnew d hd).2.1; omega) a2 hins
    · rw [(insertAll_frame hins).2.2.2]; exact a3
    · intro d hd
      rcases (hcand d).mp hd with hd | hd
      · obtain ⟨b1, b2, b3, b4, b5⟩ := a4 d hd
        exact ⟨by omega, b2, b3, ends_up _ b4, b5⟩
      · obtain ⟨b1, b2, b3, _⟩ := hnew d hd
        rw [b1]
        exact ⟨by omega, b2, hbow, ends_up _ hendi, ds, hpos, hd⟩
    · intro j hj hbj hej
      by_cases hji : j = i
      · subst hji
        exact ⟨ds, hpos, fun d hd => (hcand d).mpr (.inr hd)⟩
      · obtain ⟨ds', h1, h2⟩ := a5 j (by omega) hbj (ends_down j (by omega) hej)
        exact ⟨ds', h1, fun d hd => (hcand d).mpr (.inl (h2 d hd))⟩
  · rintro i La ⟨a1, a2, a3, a4, a5⟩ hskip
    refine ⟨a1, a2, a3, fun d hd => ?_, ?_⟩
    · obtain ⟨b1, b2⟩ := a4 d hd
      exact ⟨by omega, b2⟩
    · intro j hj hbj hej
      by_cases hji : j = i
      · subst hji
        exfalso
        have hi : j < t.bytes.length := by
          obtain ⟨k, hk, rfl, _⟩ := B.bow_char hbj
          rw [B.blen]; exact wpos_lt B.enc hk (Nat.le_refl _)
        obtain ⟨b, hb1, hb2⟩ := hasPreviousNode_iff a1 a2 (show j < La.endLists.length by omega)
        rw [hb2.mpr hej] at hb1
        simp [skipPos, hbj, hb1, bind, Except.bind, pure, Except.pure] at hskip
      · exact a5 j (by omega) hbj hej
  · refine ⟨hc.allChain conn _, hc.bos, r1, fun d hd => ?_, fun j hj => by omega⟩
    obtain ⟨e, ns, x, he, hns, hx, _⟩ := hd
    rw [hc.empty e ns he hns] at hx
    simp at hx

theorem wordNodes_complete {lex : Lex} {i : Nat} {ws : List (Nat × Nat)} : ∀ {ds : List NodeData},
    wordNodes lex t i ws = .ok ds → ∀ w e, (w, e) ∈ ws → skipEnd t e = .ok false →
      ∃ d ∈ ds, wordNode lex i w e = .ok d := by
  induction ws with
  | nil => intro ds h w e hm; simp at hm
  | cons we rest ih =>
    obtain ⟨w0, e0⟩ := we
    intro ds h w e hm hs
    simp only [wordNodes] at h
    split at h
    · cases h
    · rename_i hsk
      rcases List.mem_cons.mp hm with hm | hm
      · cases hm; rw [hsk] at hs; cases hs
      · exact ih h w e hm hs
    · rename_i hs0
      split at h
      · cases h
      rename_i d0 hd0
      split at h
      · cases h
      rename_i ds' hds'
      cases h
      rcases List.mem_cons.mp hm with hm | hm
      · cases hm; exact ⟨d0, by simp, hd0⟩
      · obtain ⟨d, h1, h2⟩ := ih hds' w e hm hs
        exact ⟨d, by simp [h1], h2⟩

/-- The parts of what is inserted at a position. -/
theorem posNodes_parts {lex : Lex} {plugins : List OovPlugin} {i : Nat} {ds : List NodeData}
    (h : posNodes lex plugins t i = .ok ds) :
    ∃ ws a b c, lex.lookup t.bytes i = .ok ws ∧ wordNodes lex t i ws = .ok a ∧
      oovPartNodes plugins t i (!a.isEmpty) = .ok b ∧ defaultNodes plugins t i (!a.isEmpty || !b.isEmpty) = .ok c ∧
      ds = a ++ (b ++ c) := by
  unfold posNodes at h
  split at h
  · cases h
  rename_i ws hws
  split at h
  · cases h
  rename_i a ha
  split at h
  · cases h
  rename_i b hb
  split at h
  · cases h
  rename_i c hc
  split at h
  · cases h
  cases h
  exact ⟨ws, a, b, c, hws, ha, hb, hc, rfl⟩

end Sudachi
