/-
C10, C11: character categories from char.def.
-/
import Verif.Lemmas.Category
namespace Sudachi

/-- **C10** For every non-empty list of definition ranges (as `read_character_definition` admits them:
`low < high`), whatever ties the priority queue breaks: compilation succeeds, a code point outside all ranges has
exactly the category DEFAULT, and any other has exactly the union of the categories of the ranges containing it. -/
theorem C10_categories (pick : SweepState → Nat) (ranges : List CRange) (hne : ranges ≠ [])
    (hr : ∀ r ∈ ranges, r.low < r.high) :
    ∃ rs, compile pick ranges = .ok rs ∧ ∀ cp,
      ((¬ ∃ r ∈ ranges, r.low ≤ cp ∧ cp < r.high) → getCategoryTypes rs cp = [.DEFAULT]) ∧
      ((∃ r ∈ ranges, r.low ≤ cp ∧ cp < r.high) → ∀ c, c ∈ getCategoryTypes rs cp ↔
        ∃ r ∈ ranges, r.low ≤ cp ∧ cp < r.high ∧ c ∈ r.cats) := by
  have hperm := sortRanges_perm ranges
  obtain ⟨out, h1, h2, h3, h4⟩ := sweep_spec pick hr (2 * ranges.length + 1) ⟨[], [], sortRanges ranges, [], 0⟩
    { parts := by intro r h; rcases h with h | h; · simp at h
                  · exact hperm.mem_iff.mp h
      gone := fun r h => Or.inr (Or.inl (hperm.mem_iff.mpr h))
      rsorted := sortRanges_sorted ranges
      leftLow := by simp
      rightLow := by simp
      states := by simp
      outSorted := ⟨by simp, by simp⟩
      outHigh := by simp
      outCov := by simp
      outAns := by simp }
    (by simp [SweepState.measure, hperm.length_eq])
  unfold compile
  rw [h1]
  cases out with
  | nil =>
    exfalso
    obtain ⟨r, hr'⟩ := List.exists_mem_of_ne_nil _ hne
    obtain ⟨x, hx, -⟩ := (h3 r.low).mpr ⟨r, hr', Nat.le_refl _, hr r hr'⟩
    simp at hx
  | cons o os =>
    obtain ⟨m1, -, m3, m4⟩ := mergeRanges_spec os o h2
    refine ⟨_, rfl, ?_⟩
    intro cp
    obtain ⟨g1, g2⟩ := getCategoryTypes_spec m1 cp
    rw [m3, h3] at g1 g2
    refine ⟨g1, ?_⟩
    intro hc c
    rw [g2 hc c, m4, h4]
    rfl

/-- An empty char.def (no range line) raises `IndexError` (charactercategory.py:96). -/
theorem C10_empty_definition_raises (pick : SweepState → Nat) : compile pick [] = .error .index := by
  simp [compile, sweep, sweepStep, sortRanges, sortBy, popMin]

/-- **C11** Two definition files with the same lines in different order give every code point the same set of
categories. -/
theorem C11_order_irrelevant (pick pick' : SweepState → Nat) (l l' : List CRange) (hp : l.Perm l')
    (hr : ∀ r ∈ l, r.low < r.high) (rs rs' : List CRange) (h : compile pick l = .ok rs)
    (h' : compile pick' l' = .ok rs') (cp : Nat) (c : Cat) :
    c ∈ getCategoryTypes rs cp ↔ c ∈ getCategoryTypes rs' cp := by
  have hne : l ≠ [] := by
    intro e; subst e
    rw [C10_empty_definition_raises] at h; cases h
  have hne' : l' ≠ [] := by
    intro e; subst e
    rw [C10_empty_definition_raises] at h'; cases h'
  obtain ⟨_, e1, a1⟩ := C10_categories pick l hne hr
  obtain ⟨_, e2, a2⟩ := C10_categories pick' l' hne' (fun r hr' => hr r (hp.mem_iff.mpr hr'))
  rw [h] at e1; rw [h'] at e2
  cases e1; cases e2
  have hiff : (∃ r ∈ l', r.low ≤ cp ∧ cp < r.high) ↔ (∃ r ∈ l, r.low ≤ cp ∧ cp < r.high) := by
    constructor <;> rintro ⟨r, h1, h2⟩
    · exact ⟨r, hp.mem_iff.mpr h1, h2⟩
    · exact ⟨r, hp.mem_iff.mp h1, h2⟩
  by_cases hc : ∃ r ∈ l, r.low ≤ cp ∧ cp < r.high
  · rw [(a1 cp).2 hc c, (a2 cp).2 (hiff.mpr hc) c]
    constructor <;> rintro ⟨r, h1, h2⟩
    · exact ⟨r, hp.mem_iff.mp h1, h2⟩
    · exact ⟨r, hp.mem_iff.mpr h1, h2⟩
  · rw [(a1 cp).1 hc, (a2 cp).1 (fun x => hc (hiff.mp x))]

/-- Overlapping, nested and duplicate ranges. -/
example :
    let l : List CRange := [⟨10, 20, [.ALPHA]⟩, ⟨12, 15, [.NUMERIC, .ALPHA]⟩, ⟨15, 30, [.KANJI]⟩, ⟨10, 20, [.ALPHA]⟩]
    l ≠ [] ∧ (∀ r ∈ l, r.low < r.high) ∧
    compile (fun _ => 0) l = .ok [⟨10, 12, [.ALPHA]⟩, ⟨12, 15, [.ALPHA, .NUMERIC]⟩, ⟨15, 15, [.ALPHA]⟩, ⟨15, 20, [.ALPHA, .KANJI]⟩,
      ⟨20, 30, [.KANJI]⟩] := by
  refine ⟨by decide, by decide, by decide +kernel⟩

end Sudachi
