import Verif.Model.Category
namespace Sudachi

theorem exists_mem_cons' {α : Type} {p : α → Prop} {a : α} {l : List α} :
    (∃ x, x ∈ a :: l ∧ p x) ↔ p a ∨ ∃ x, x ∈ l ∧ p x := by
  simp

theorem mem_toSet {l : List Cat} {c : Cat} : c ∈ toSet l ↔ c ∈ l := by
  unfold toSet; exact List.mem_eraseDups

/-- Some range of `L` contains `cp`. -/
def Covered (L : List CRange) (cp : Nat) : Prop := ∃ r ∈ L, r.low ≤ cp ∧ cp < r.high
/-- Some range of `L` contains `cp` and has category `c`. -/
def Answer (L : List CRange) (cp : Nat) (c : Cat) : Prop := ∃ r ∈ L, r.low ≤ cp ∧ cp < r.high ∧ c ∈ r.cats

/-- Non-overlapping and ascending. -/
def Sorted (L : List CRange) : Prop := (∀ r ∈ L, r.low ≤ r.high) ∧ L.Pairwise (fun a b => a.high ≤ b.low)

/-! ### Priority queue -/

theorem exists_min (q : List CRange) (hq : q ≠ []) : ∃ i, ∃ hi : i < q.length, ∀ x ∈ q, q[i].high ≤ x.high := by
  induction q with
  | nil => exact absurd rfl hq
  | cons a q ih =>
    by_cases h : q = []
    · subst h; exact ⟨0, by simp, by simp⟩
    · obtain ⟨i, hi, hx⟩ := ih h
      by_cases hc : a.high ≤ q[i].high
      · refine ⟨0, by simp, ?_⟩
        intro x hx'
        rcases List.mem_cons.mp hx' with rfl | h1
        · simp
        · have := hx x h1; simp; omega
      · refine ⟨i + 1, by simpa using hi, ?_⟩
        intro x hx'
        rcases List.mem_cons.mp hx' with rfl | h1
        · simp; omega
        · simpa using hx x h1

theorem perm_eraseIdx {α : Type} (l : List α) : ∀ (i : Nat) (hi : i < l.length), l.Perm (l[i] :: l.eraseIdx i) := by
  induction l with
  | nil => intro i hi; simp at hi
  | cons a l ih =>
    intro i hi
    cases i with
    | zero => simp
    | succ i =>
      have := ih i (by simpa using hi)
      simp only [List.getElem_cons_succ, List.eraseIdx_cons_succ]
      exact (this.cons a).trans (List.Perm.swap _ _ _)

theorem popMin_spec (pick : Nat) (q : List CRange) :
    (popMin pick q = none ↔ q = []) ∧
    ∀ r rest, popMin pick q = some (r, rest) → q.Perm (r :: rest) ∧ ∀ x ∈ q, r.high ≤ x.high := by
  have hokv : ∀ i, isMinIdx q i = true ↔ ∃ hi : i < q.length, ∀ x ∈ q, q[i].high ≤ x.high := by
    intro i
    unfold isMinIdx
    rcases Nat.lt_or_ge i q.length with h | h
    · simp [List.getElem?_eq_getElem h, h]
    · simp [List.getElem?_eq_none h]; omega
  have hi : q ≠ [] → isMinIdx q (minIdx pick q) = true := by
    intro hq
    unfold minIdx
    split
    · assumption
    · obtain ⟨m, hm, hx⟩ := exists_min q hq
      have hex : ∃ x ∈ List.range q.length, isMinIdx q x = true := ⟨m, by simpa using hm, (hokv m).mpr ⟨hm, hx⟩⟩
      have h1 := List.findIdx_lt_length_of_exists hex
      have h2 := List.findIdx_getElem (w := h1)
      simpa using h2
  unfold popMin
  generalize minIdx pick q = i at hi
  refine ⟨?_, ?_⟩
  · constructor
    · intro h
      by_cases hq : q = []
      · exact hq
      · obtain ⟨h1, -⟩ := (hokv i).mp (hi hq)
        rw [List.getElem?_eq_getElem h1] at h
        cases h
    · intro h; subst h; simp
  · intro r rest h
    have hq : q ≠ [] := by intro h'; subst h'; simp at h
    obtain ⟨h1, h2⟩ := (hokv i).mp (hi hq)
    rw [List.getElem?_eq_getElem h1] at h
    simp only [Option.some.injEq, Prod.mk.injEq] at h
    obtain ⟨rfl, rfl⟩ := h
    exact ⟨perm_eraseIdx q i h1, h2⟩

theorem removeCats_spec : ∀ (cats states rest : List Cat), states.Perm (cats ++ rest) →
    ∃ r, removeCats states cats = .ok r ∧ r.Perm rest := by
  intro cats
  induction cats with
  | nil => intro states rest h; exact ⟨states, rfl, h⟩
  | cons c cs ih =>
    intro states rest h
    have hm : c ∈ states := h.mem_iff.mpr (by simp)
    rw [removeCats, if_pos hm]
    apply ih
    have h2 := h.erase c
    simpa using h2

/-! ### The sweep -/

/-- Invariant of the `while True` loop; `R` is the list of definitions. -/
structure SweepInv (R : List CRange) (s : SweepState) : Prop where
  parts : ∀ r, r ∈ s.left ∨ r ∈ s.right → r ∈ R
  gone : ∀ r ∈ R, r ∈ s.left ∨ r ∈ s.right ∨ r.high ≤ s.pivot
  rsorted : s.right.Pairwise (fun a b => a.low ≤ b.low)
  leftLow : ∀ r ∈ s.left, r.low ≤ s.pivot ∧ s.pivot ≤ r.high
  rightLow : ∀ r ∈ s.right, s.pivot ≤ r.low
  states : s.states.Perm (s.left.flatMap CRange.cats)
  outSorted : Sorted s.out
  outHigh : ∀ r ∈ s.out, r.high ≤ s.pivot
  outCov : ∀ cp, cp < s.pivot → (Covered s.out cp ↔ Covered R cp)
  outAns : ∀ cp c, cp < s.pivot → (Answer s.out cp c ↔ Answer R cp c)

/-- Emitting `[pivot, x)` with the current states keeps the output part of the invariant. -/
theorem SweepInv.emit {R : List CRange} {s : SweepState} (I : SweepInv R s) (hne : s.left ≠ []) (x : Nat)
    (hx : s.pivot ≤ x) (hl : ∀ r ∈ s.left, x ≤ r.high) (hr : ∀ r ∈ s.right, x ≤ r.low) :
    let out := s.out ++ [⟨s.pivot, x, toSet s.states⟩]
    Sorted out ∧ (∀ r ∈ out, r.high ≤ x) ∧ (∀ cp, cp < x → (Covered out cp ↔ Covered R cp)) ∧
      (∀ cp c, cp < x → (Answer out cp c ↔ Answer R cp c)) := by
  intro out
  have hmem : ∀ r ∈ R, ∀ cp, s.pivot ≤ cp → cp < x → r.low ≤ cp → cp < r.high → r ∈ s.left := by
    intro r hr' cp h1 h2 h3 h4
    rcases I.gone r hr' with h | h | h
    · exact h
    · have := hr r h; omega
    · omega
  have hst : ∀ c, c ∈ toSet s.states ↔ ∃ r ∈ s.left, c ∈ r.cats := by
    intro c
    rw [mem_toSet, I.states.mem_iff, List.mem_flatMap]
  refine ⟨⟨?_, ?_⟩, ?_, ?_, ?_⟩
  · intro r hr'
    rcases List.mem_append.mp hr' with h | h
    · exact I.outSorted.1 r h
    · simp at h; subst h; exact hx
  · rw [List.pairwise_append]
    refine ⟨I.outSorted.2, by simp, ?_⟩
    intro a ha b hb
    simp at hb; subst hb
    exact I.outHigh a ha
  · intro r hr'
    rcases List.mem_append.mp hr' with h | h
    · have := I.outHigh r h; omega
    · simp at h; subst h; simp
  · intro cp hcp
    by_cases hp : cp < s.pivot
    · rw [← I.outCov cp hp]
      constructor
      · rintro ⟨r, h1, h2, h3⟩
        rcases List.mem_append.mp h1 with h | h
        · exact ⟨r, h, h2, h3⟩
        · simp at h; subst h; simp at h2; omega
      · rintro ⟨r, h1, h2, h3⟩
        exact ⟨r, List.mem_append_left _ h1, h2, h3⟩
    · constructor
      · intro _
        obtain ⟨r, hr'⟩ := List.exists_mem_of_ne_nil _ hne
        have h1 := I.leftLow r hr'
        have h2 := hl r hr'
        exact ⟨r, I.parts r (Or.inl hr'), by omega, by omega⟩
      · intro _
        exact ⟨_, List.mem_append_right _ (by simp; rfl), by simp; omega, by simp; omega⟩
  · intro cp c hcp
    by_cases hp : cp < s.pivot
    · rw [← I.outAns cp c hp]
      constructor
      · rintro ⟨r, h1, h2, h3⟩
        rcases List.mem_append.mp h1 with h | h
        · exact ⟨r, h, h2, h3⟩
        · simp at h; subst h; simp at h2; omega
      · rintro ⟨r, h1, h2, h3⟩
        exact ⟨r, List.mem_append_left _ h1, h2, h3⟩
    · constructor
      · rintro ⟨r, h1, h2, h3, h4⟩
        rcases List.mem_append.mp h1 with h | h
        · have := I.outHigh r h; omega
        · simp at h; subst h
          obtain ⟨r', hr1, hr2⟩ := (hst c).mp h4
          have h5 := I.leftLow r' hr1
          have h6 := hl r' hr1
          exact ⟨r', I.parts r' (Or.inl hr1), by omega, by omega, hr2⟩
      · rintro ⟨r, h1, h2, h3, h4⟩
        have := hmem r h1 cp (by omega) hcp h2 h3
        exact ⟨_, List.mem_append_right _ (by simp; rfl), by simp; omega, by simp; omega, (hst c).mpr ⟨r, this, h4⟩⟩

/-- Measure of the loop. -/
def SweepState.measure (s : SweepState) : Nat := 2 * s.right.length + s.left.length

theorem sweepEmitLeft_inv {R : List CRange} {s : SweepState} (I : SweepInv R s) {left : CRange}
    {rest : List CRange} (hperm : s.left.Perm (left :: rest)) (hmin : ∀ x ∈ s.left, left.high ≤ x.high)
    (hr : ∀ r ∈ s.right, left.high ≤ r.low) :
    ∃ s', sweepEmitLeft s left rest = .ok (some s') ∧ SweepInv R s' ∧ s'.measure + 1 = s.measure := by
  have hin : left ∈ s.left := hperm.mem_iff.mpr (by simp)
  have hp := I.leftLow left hin
  obtain ⟨st, h1, h2⟩ := removeCats_spec left.cats s.states (rest.flatMap CRange.cats)
    (I.states.trans (by simpa using hperm.flatMap_right CRange.cats))
  obtain ⟨e1, e2, e3, e4⟩ := I.emit (by intro h; rw [h] at hin; simp at hin) left.high hp.2 hmin hr
  refine ⟨_, by rw [sweepEmitLeft, h1]; rfl, ?_, ?_⟩
  · refine ⟨?_, ?_, I.rsorted, ?_, hr, h2, e1, e2, e3, e4⟩
    · intro r hr'
      rcases hr' with h | h
      · exact I.parts r (Or.inl (hperm.mem_iff.mpr (List.mem_cons_of_mem _ h)))
      · exact I.parts r (Or.inr h)
    · intro r hr'
      rcases I.gone r hr' with h | h | h
      · rcases List.mem_cons.mp (hperm.mem_iff.mp h) with rfl | h
        · exact Or.inr (Or.inr (Nat.le_refl _))
        · exact Or.inl h
      · exact Or.inr (Or.inl h)
      · exact Or.inr (Or.inr (by simp only; omega))
    · intro r hr'
      have h3 : r ∈ s.left := hperm.mem_iff.mpr (List.mem_cons_of_mem _ hr')
      have h4 := I.leftLow r h3
      exact ⟨by simp only; omega, hmin r h3⟩
  · have := hperm.length_eq
    simp [SweepState.measure] at this ⊢
    omega

theorem sweepStep_inv (pick : SweepState → Nat) {R : List CRange} (hR : ∀ r ∈ R, r.low < r.high) {s : SweepState}
    (I : SweepInv R s) :
    (sweepStep pick s = .ok none ∧ s.left = [] ∧ s.right = []) ∨
    ∃ s', sweepStep pick s = .ok (some s') ∧ SweepInv R s' ∧ s'.measure + 1 = s.measure := by
  obtain ⟨p1, p2⟩ := popMin_spec (pick s) s.left
  unfold sweepStep
  cases hpop : popMin (pick s) s.left with
  | none =>
    have hl := p1.mp hpop
    cases hrt : s.right with
    | nil => left; exact ⟨rfl, hl, rfl⟩
    | cons right rest =>
      right
      have hsr := I.rsorted
      rw [hrt, List.pairwise_cons] at hsr
      have hrl := I.rightLow right (by rw [hrt]; simp)
      have hrR := I.parts right (Or.inr (by rw [hrt]; simp))
      have hgap : ∀ r ∈ R, ∀ cp, s.pivot ≤ cp → cp < right.low → ¬ (r.low ≤ cp ∧ cp < r.high) := by
        rintro r hr cp h1 h2 ⟨h3, h4⟩
        rcases I.gone r hr with h | h | h
        · rw [hl] at h; simp at h
        · rw [hrt] at h
          rcases List.mem_cons.mp h with rfl | h
          · omega
          · have := hsr.1 r h; omega
        · omega
      refine ⟨_, rfl, ?_, by simp [SweepState.measure, hl, hrt]; omega⟩
      refine ⟨?_, ?_, hsr.2, ?_, ?_, ?_, I.outSorted, ?_, ?_, ?_⟩
      · intro r hr
        rcases hr with h | h
        · simp at h; subst h; exact hrR
        · exact I.parts r (Or.inr (by rw [hrt]; exact List.mem_cons_of_mem _ h))
      · intro r hr
        rcases I.gone r hr with h | h | h
        · rw [hl] at h; simp at h
        · rw [hrt] at h
          rcases List.mem_cons.mp h with rfl | h
          · left; simp
          · right; left; exact h
        · right; right; simp only; omega
      · intro r hr
        simp at hr; subst hr
        have := hR r hrR
        exact ⟨Nat.le_refl _, by simp only; omega⟩
      · intro r hr; exact hsr.1 r hr
      · have := I.states
        rw [hl] at this
        simp at this
        simp [this]
      · intro r hr; have := I.outHigh r hr; simp only; omega
      · intro cp hcp
        by_cases h : cp < s.pivot
        · exact I.outCov cp h
        · constructor
          · rintro ⟨r, h1, h2, h3⟩; have := I.outHigh r h1; omega
          · rintro ⟨r, h1, h2, h3⟩; exact absurd ⟨h2, h3⟩ (hgap r h1 cp (by omega) hcp)
      · intro cp c hcp
        by_cases h : cp < s.pivot
        · exact I.outAns cp c h
        · constructor
          · rintro ⟨r, h1, h2, h3, _⟩; have := I.outHigh r h1; omega
          · rintro ⟨r, h1, h2, h3, _⟩; exact absurd ⟨h2, h3⟩ (hgap r h1 cp (by omega) hcp)
  | some p =>
    obtain ⟨left, leftRest⟩ := p
    obtain ⟨hperm, hmin⟩ := p2 left leftRest hpop
    right
    have hin : left ∈ s.left := hperm.mem_iff.mpr (by simp)
    cases hrt : s.right with
    | nil => exact sweepEmitLeft_inv I hperm hmin (by rw [hrt]; simp)
    | cons right rest =>
      have hsr := I.rsorted
      rw [hrt, List.pairwise_cons] at hsr
      have hall : ∀ r ∈ s.right, right.low ≤ r.low := by
        intro r hr
        rw [hrt] at hr
        rcases List.mem_cons.mp hr with rfl | h
        · exact Nat.le_refl _
        · exact hsr.1 r h
      simp only []
      by_cases hc : left.high ≤ right.low
      · rw [if_pos hc]
        exact sweepEmitLeft_inv I hperm hmin (fun r hr => by have := hall r hr; omega)
      · rw [if_neg hc]
        have hrR := I.parts right (Or.inr (by rw [hrt]; simp))
        have hrl := I.rightLow right (by rw [hrt]; simp)
        obtain ⟨e1, e2, e3, e4⟩ := I.emit (by intro h; rw [h] at hin; simp at hin) right.low hrl
          (fun r hr => by have := hmin r hr; omega) hall
        have hml : ∀ r, r ∈ leftRest ++ [right, left] ↔ r = right ∨ r ∈ s.left := by
          intro r
          rw [hperm.mem_iff]
          simp only [List.mem_append, List.mem_cons, List.not_mem_nil, or_false]
          constructor
          · rintro (h | h | h)
            · exact Or.inr (Or.inr h)
            · exact Or.inl h
            · exact Or.inr (Or.inl h)
          · rintro (h | h | h)
            · exact Or.inr (Or.inl h)
            · exact Or.inr (Or.inr h)
            · exact Or.inl h
        refine ⟨_, rfl, ?_, ?_⟩
        · refine ⟨?_, ?_, hsr.2, ?_, fun r hr => hsr.1 r hr, ?_, e1, e2, e3, e4⟩
          · intro r hr
            rcases hr with h | h
            · rcases (hml r).mp h with rfl | h
              · exact hrR
              · exact I.parts r (Or.inl h)
            · exact I.parts r (Or.inr (by rw [hrt]; exact List.mem_cons_of_mem _ h))
          · intro r hr
            rcases I.gone r hr with h | h | h
            · exact Or.inl ((hml r).mpr (Or.inr h))
            · rw [hrt] at h
              rcases List.mem_cons.mp h with rfl | h
              · exact Or.inl ((hml r).mpr (Or.inl rfl))
              · exact Or.inr (Or.inl h)
            · exact Or.inr (Or.inr (by simp only; omega))
          · intro r hr
            rcases (hml r).mp hr with rfl | h
            · have := hR r hrR; exact ⟨Nat.le_refl _, by simp only; omega⟩
            · have h1 := I.leftLow r h
              have h2 := hmin r h
              exact ⟨by simp only; omega, by simp only; omega⟩
          · have h1 : (leftRest ++ [right, left]).Perm (s.left ++ [right]) := by
              have h2 : (leftRest ++ [right, left]).Perm (left :: leftRest ++ [right]) := by
                refine (List.perm_append_comm).trans ?_
                simp only [List.cons_append, List.nil_append]
                refine (List.Perm.swap left right leftRest).trans ?_
                exact List.Perm.cons left (by simpa using (List.perm_append_comm (l₁ := [right]) (l₂ := leftRest)))
              exact h2.trans (hperm.symm.append_right _)
            have h3 := h1.flatMap_right CRange.cats
            refine List.Perm.trans ?_ h3.symm
            simp only [List.flatMap_append, List.flatMap_cons, List.flatMap_nil, List.append_nil]
            exact I.states.append_right _
        · have := hperm.length_eq
          simp [SweepState.measure, hrt] at this ⊢
          omega

theorem sweep_spec (pick : SweepState → Nat) {R : List CRange} (hR : ∀ r ∈ R, r.low < r.high) :
    ∀ fuel (s : SweepState), SweepInv R s → s.measure < fuel →
      ∃ out, sweep pick fuel s = .ok out ∧ Sorted out ∧ (∀ cp, Covered out cp ↔ Covered R cp) ∧
        ∀ cp c, Answer out cp c ↔ Answer R cp c := by
  intro fuel
  induction fuel with
  | zero => intro s _ h; omega
  | succ fuel ih =>
    intro s I hm
    rw [sweep]
    rcases sweepStep_inv pick hR I with ⟨h1, h2, h3⟩ | ⟨s', h1, h2, h3⟩
    · rw [h1]
      have hall : ∀ r ∈ R, r.high ≤ s.pivot := by
        intro r hr
        rcases I.gone r hr with h | h | h
        · rw [h2] at h; simp at h
        · rw [h3] at h; simp at h
        · exact h
      refine ⟨s.out, rfl, I.outSorted, ?_, ?_⟩
      · intro cp
        by_cases h : cp < s.pivot
        · exact I.outCov cp h
        · constructor
          · rintro ⟨r, a, b, c⟩; have := I.outHigh r a; omega
          · rintro ⟨r, a, b, c⟩; have := hall r a; omega
      · intro cp c
        by_cases h : cp < s.pivot
        · exact I.outAns cp c h
        · constructor
          · rintro ⟨r, a, b, c, _⟩; have := I.outHigh r a; omega
          · rintro ⟨r, a, b, c, _⟩; have := hall r a; omega
    · rw [h1]
      exact ih s' h2 (by omega)

/-! ### Merging -/

theorem setEq_iff {a b : CatSet} : setEq a b = true ↔ ∀ c, c ∈ a ↔ c ∈ b := by
  simp only [setEq, Bool.and_eq_true, List.all_eq_true, decide_eq_true_eq]
  constructor
  · rintro ⟨h1, h2⟩ c; exact ⟨h1 c, h2 c⟩
  · intro h; exact ⟨fun c hc => (h c).mp hc, fun c hc => (h c).mpr hc⟩

theorem mergeRanges_spec : ∀ (rest : List CRange) (cur : CRange), Sorted (cur :: rest) →
    Sorted (mergeRanges cur rest) ∧ (∀ r ∈ mergeRanges cur rest, cur.low ≤ r.low) ∧
    (∀ cp, Covered (mergeRanges cur rest) cp ↔ Covered (cur :: rest) cp) ∧
    (∀ cp c, Answer (mergeRanges cur rest) cp c ↔ Answer (cur :: rest) cp c) := by
  intro rest
  induction rest with
  | nil => intro cur h; exact ⟨h, by simp [mergeRanges], fun _ => Iff.rfl, fun _ _ => Iff.rfl⟩
  | cons r rest ih =>
    intro cur h
    obtain ⟨h1, h2⟩ := h
    rw [List.pairwise_cons, List.pairwise_cons] at h2
    obtain ⟨h3, h4, h5⟩ := h2
    have hcl := h1 cur (by simp)
    have hrl := h1 r (by simp)
    rw [mergeRanges]
    by_cases hc : r.low = cur.high ∧ setEq r.cats cur.cats = true
    · rw [if_pos hc]
      obtain ⟨hc1, hc2⟩ := hc
      rw [setEq_iff] at hc2
      have hs : Sorted (⟨cur.low, r.high, cur.cats⟩ :: rest) := by
        refine ⟨?_, ?_⟩
        · intro x hx
          rcases List.mem_cons.mp hx with rfl | hx
          · simp; omega
          · exact h1 x (by simp [hx])
        · rw [List.pairwise_cons]; exact ⟨fun x hx => h4 x hx, h5⟩
      obtain ⟨i1, i2, i3, i4⟩ := ih _ hs
      refine ⟨i1, i2, ?_, ?_⟩
      · intro cp
        rw [i3]
        constructor
        · rintro ⟨x, hx, a, b⟩
          rcases List.mem_cons.mp hx with rfl | hx
          · simp at a b
            by_cases hcp : cp < cur.high
            · exact ⟨cur, by simp, a, hcp⟩
            · exact ⟨r, by simp, by omega, b⟩
          · exact ⟨x, by simp [hx], a, b⟩
        · rintro ⟨x, hx, a, b⟩
          rcases List.mem_cons.mp hx with rfl | hx
          · exact ⟨_, List.mem_cons_self, by simpa using a, by simp; omega⟩
          · rcases List.mem_cons.mp hx with rfl | hx
            · exact ⟨_, List.mem_cons_self, by simp; omega, by simpa using b⟩
            · exact ⟨x, by simp [hx], a, b⟩
      · intro cp c
        rw [i4]
        constructor
        · rintro ⟨x, hx, a, b, d⟩
          rcases List.mem_cons.mp hx with rfl | hx
          · simp at a b d
            by_cases hcp : cp < cur.high
            · exact ⟨cur, by simp, a, hcp, d⟩
            · exact ⟨r, by simp, by omega, b, (hc2 c).mpr d⟩
          · exact ⟨x, by simp [hx], a, b, d⟩
        · rintro ⟨x, hx, a, b, d⟩
          rcases List.mem_cons.mp hx with rfl | hx
          · exact ⟨_, List.mem_cons_self, by simpa using a, by simp; omega, d⟩
          · rcases List.mem_cons.mp hx with rfl | hx
            · exact ⟨_, List.mem_cons_self, by simp; omega, by simpa using b, (hc2 c).mp d⟩
            · exact ⟨x, by simp [hx], a, b, d⟩
    · rw [if_neg hc]
      have hs : Sorted (r :: rest) := ⟨fun x hx => h1 x (List.mem_cons_of_mem _ hx), by
        rw [List.pairwise_cons]; exact ⟨h4, h5⟩⟩
      obtain ⟨i1, i2, i3, i4⟩ := ih r hs
      have hcr := h3 r (by simp)
      refine ⟨⟨?_, ?_⟩, ?_, ?_, ?_⟩
      · intro x hx
        rcases List.mem_cons.mp hx with rfl | hx
        · exact hcl
        · exact i1.1 x hx
      · rw [List.pairwise_cons]
        exact ⟨fun x hx => by have := i2 x hx; omega, i1.2⟩
      · intro x hx
        rcases List.mem_cons.mp hx with rfl | hx
        · exact Nat.le_refl _
        · have := i2 x hx; omega
      · intro cp
        have := i3 cp
        unfold Covered at this ⊢
        rw [exists_mem_cons', exists_mem_cons' (a := cur), this]
      · intro cp c
        have := i4 cp c
        unfold Answer at this ⊢
        rw [exists_mem_cons', exists_mem_cons' (a := cur), this]

/-! ### Binary search -/

theorem searchLoop_none {rs : List CRange} {cp : Nat} (h : ¬ Covered rs cp) : ∀ fuel b e pivot,
    searchLoop rs cp fuel b e pivot = none := by
  intro fuel
  induction fuel with
  | zero => intros; rfl
  | succ fuel ih =>
    intro b e pivot
    rw [searchLoop]
    cases hr : rs[pivot]? with
    | none => rfl
    | some r =>
      have hnc : r.contains cp = false := by
        rw [CRange.contains, Bool.eq_false_iff]
        intro hc
        simp only [Bool.and_eq_true, decide_eq_true_eq] at hc
        exact h ⟨r, List.mem_of_getElem? hr, hc.1, hc.2⟩
      simp only [hnc]
      simp only [Bool.false_eq_true, if_false]
      simp only [ih, ite_self]

theorem searchLoop_some {rs : List CRange} {cp k : Nat} (hs : Sorted rs) (hk : k < rs.length)
    (hc : rs[k].low ≤ cp ∧ cp < rs[k].high) : ∀ fuel b e, b ≤ k → k < e → e ≤ rs.length → e - b < fuel →
    searchLoop rs cp fuel b e ((b + e) / 2) = some rs[k].cats := by
  intro fuel
  induction fuel with
  | zero => intros; omega
  | succ fuel ih =>
    intro b e hb hke he hf
    have hp : (b + e) / 2 < rs.length := by omega
    rw [searchLoop, List.getElem?_eq_getElem hp]
    simp only []
    have hpw := List.pairwise_iff_getElem.mp hs.2
    by_cases hcon : rs[(b + e) / 2].contains cp = true
    · rw [if_pos hcon]
      simp only [CRange.contains, Bool.and_eq_true, decide_eq_true_eq] at hcon
      rcases Nat.lt_trichotomy ((b + e) / 2) k with h | h | h
      · have := hpw _ _ hp hk h; omega
      · simp only [h]
      · have := hpw _ _ hk hp h; omega
    · rw [if_neg hcon]
      simp only [CRange.contains, Bool.and_eq_true, decide_eq_true_eq] at hcon
      by_cases hlow : rs[(b + e) / 2].lower cp = true
      · simp only [hlow, if_true]
        simp only [CRange.lower, decide_eq_true_eq] at hlow
        have hkp : (b + e) / 2 < k := by
          rcases Nat.lt_trichotomy ((b + e) / 2) k with h | h | h
          · exact h
          · simp only [h] at hlow; omega
          · have := hpw _ _ hk hp h
            have := hs.1 _ (List.getElem_mem hp); omega
        rw [if_neg (by omega)]
        exact ih _ _ (by omega) hke he (by omega)
      · simp only [hlow, if_false, Bool.false_eq_true]
        simp only [CRange.lower, decide_eq_true_eq] at hlow
        have hkp : k < (b + e) / 2 := by
          rcases Nat.lt_trichotomy ((b + e) / 2) k with h | h | h
          · have := hpw _ _ hp hk h
            have := hs.1 _ (List.getElem_mem hp); omega
          · simp only [h] at hcon hlow; omega
          · exact h
        rw [if_neg (by omega)]
        exact ih _ _ hb hkp (by omega) (by omega)

theorem getCategoryTypes_spec {rs : List CRange} (hs : Sorted rs) (cp : Nat) :
    (¬ Covered rs cp → getCategoryTypes rs cp = [.DEFAULT]) ∧
    (Covered rs cp → ∀ c, c ∈ getCategoryTypes rs cp ↔ Answer rs cp c) := by
  constructor
  · intro h
    rw [getCategoryTypes, searchLoop_none h]
  · rintro ⟨r, h1, h2, h3⟩ c
    obtain ⟨k, hk, rfl⟩ := List.getElem_of_mem h1
    have := searchLoop_some hs hk ⟨h2, h3⟩ (rs.length + 1) 0 rs.length (by omega) hk (Nat.le_refl _) (by omega)
    rw [getCategoryTypes, this]
    simp only []
    constructor
    · intro hc; exact ⟨_, h1, h2, h3, hc⟩
    · rintro ⟨r', g1, g2, g3, g4⟩
      obtain ⟨k', hk', rfl⟩ := List.getElem_of_mem g1
      have hpw := List.pairwise_iff_getElem.mp hs.2
      rcases Nat.lt_trichotomy k k' with h | h | h
      · have := hpw _ _ hk hk' h; omega
      · subst h; exact g4
      · have := hpw _ _ hk' hk h; omega

/-! ### Sorting -/

theorem insertBy_perm {α : Type} (key : α → Nat) (x : α) (l : List α) : (insertBy key x l).Perm (x :: l) := by
  induction l with
  | nil => exact List.Perm.refl _
  | cons y ys ih =>
    rw [insertBy]
    split
    · exact List.Perm.refl _
    · exact (ih.cons y).trans (List.Perm.swap _ _ _)

theorem sortBy_perm {α : Type} (key : α → Nat) (l : List α) : (sortBy key l).Perm l := by
  induction l with
  | nil => exact List.Perm.refl _
  | cons x l ih => exact (insertBy_perm key x _).trans (ih.cons x)

theorem insertBy_sorted {α : Type} (key : α → Nat) (x : α) (l : List α)
    (h : l.Pairwise (fun a b => key a ≤ key b)) : (insertBy key x l).Pairwise (fun a b => key a ≤ key b) := by
  induction l with
  | nil => simp [insertBy]
  | cons y ys ih =>
    rw [List.pairwise_cons] at h
    rw [insertBy]
    split
    · rename_i hxy
      rw [List.pairwise_cons, List.pairwise_cons]
      refine ⟨?_, h⟩
      intro z hz
      rcases List.mem_cons.mp hz with rfl | hz
      · exact hxy
      · have := h.1 z hz; omega
    · rw [List.pairwise_cons]
      refine ⟨?_, ih h.2⟩
      intro z hz
      rcases List.mem_cons.mp ((insertBy_perm key x ys).mem_iff.mp hz) with rfl | hz
      · omega
      · exact h.1 z hz

theorem sortBy_sorted {α : Type} (key : α → Nat) (l : List α) :
    (sortBy key l).Pairwise (fun a b => key a ≤ key b) := by
  induction l with
  | nil => simp [sortBy]
  | cons x l ih => exact insertBy_sorted key x _ ih

theorem sortRanges_perm (l : List CRange) : (sortRanges l).Perm l :=
  (sortBy_perm _ _).trans (sortBy_perm _ _)

theorem sortRanges_sorted (l : List CRange) : (sortRanges l).Pairwise (fun a b => a.low ≤ b.low) :=
  sortBy_sorted _ _

end Sudachi
