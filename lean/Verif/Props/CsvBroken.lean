/-
C73: a table whose lines end with an exception.
-/
import Verif.Spec.CsvBroken
import Verif.Model.TextStream
namespace Sudachi
open CsvReader

/-- Between two lines the reader is at the beginning of a record, or in a quoted field. -/
def CsvReader.Between (r : CsvReader) : Prop := r = reset ∨ r.state = .inQuotedField

theorem step_end {r r' : CsvReader} (h : r.step none = .ok r') : r'.state = .startRecord ∨ r'.state = .inQuotedField := by
  obtain ⟨st, fs, f⟩ := r
  unfold CsvReader.step at h
  cases st <;> dsimp only at h <;> cases h <;> simp [afterRecord]

theorem line_end : ∀ (l : PStr) {r r' : CsvReader}, r.line l = .ok r' → r'.state = .startRecord ∨ r'.state = .inQuotedField
  | [], r, r', h => step_end h
  | c :: cs, r, r', h => by
    rw [CsvReader.line] at h
    cases hs : r.step (some c) with
    | error x => rw [hs] at h; cases h
    | ok q => rw [hs] at h; exact line_end cs h

/-- Lines with an error in them; or without, and then what follows is read in some state. -/
theorem rowsBefore_cases (e : Err) : ∀ (ls : List PStr) (r : CsvReader), r.Between →
    (∃ rows x, r.rowsBefore e ls = (rows, .error x) ∧ ∀ more, r.rows (ls ++ more) = (rows, .error x)) ∨
    ∃ (rows : List (List PStr)) (r' : CsvReader), r.rowsBefore e ls = (rows, .error e) ∧ r'.Between ∧
      ∀ more, r.rows (ls ++ more) = (rows ++ (r'.rows more).1, (r'.rows more).2)
  | [], r, hr => .inr ⟨[], r, rfl, hr, fun _ => rfl⟩
  | l :: ls, r, hr => by
    have h2 : ∀ more, r.rows (l :: ls ++ more) = match r.line l with
        | .error e => ([], .error e)
        | .ok r' => if r'.state = .startRecord then (r'.fields :: (reset.rows (ls ++ more)).1, (reset.rows (ls ++ more)).2)
            else r'.rows (ls ++ more) := by
      intro more
      rw [List.cons_append, CsvReader.rows]
      cases r.line l <;> rfl
    have h1 : r.rowsBefore e (l :: ls) = match r.line l with
        | .error e => ([], .error e)
        | .ok r' => if r'.state = .startRecord then (r'.fields :: (reset.rowsBefore e ls).1, (reset.rowsBefore e ls).2)
            else r'.rowsBefore e ls := by
      rw [CsvReader.rowsBefore]
      cases r.line l <;> rfl
    rw [h1]
    simp only [h2]
    cases hl : r.line l with
    | error x => exact .inl ⟨_, _, rfl, fun _ => rfl⟩
    | ok q =>
      dsimp only
      by_cases hq : q.state = .startRecord
      · simp only [if_pos hq]
        rcases rowsBefore_cases e ls reset (.inl rfl) with ⟨rows, x, k1, k2⟩ | ⟨rows, r', k1, k2, k3⟩
        · refine .inl ⟨q.fields :: rows, x, ?_, fun more => ?_⟩
          · rw [k1]
          · rw [k2]
        · refine .inr ⟨q.fields :: rows, r', ?_, k2, fun more => ?_⟩
          · rw [k1]
          · rw [k3]; rfl
      · simp only [if_neg hq]
        exact rowsBefore_cases e ls q (.inr ((line_end l hl).resolve_left hq))

/-- **C73** The table of a file that cannot be read to its end: the rows are those that are certain with the lines that can be read; what
comes then is the error in these lines, if there is one, or the exception of the file. -/
theorem C73_broken (ls : List PStr) (e : Err) (rows : List (List PStr)) (r : Res Unit) : csvStream (ls, .error e) = (rows, r) ↔
    Settled ls rows ∧ (((csvRows ls).2 = r ∧ r ≠ .ok ()) ∨ (csvRows ls).2 = .ok () ∧ r = .error e) := by
  have only : ∀ {a b : List (List PStr)}, Settled ls a → Settled ls b → a = b := fun {a b} ha hb =>
    (hb.2 a ha.1).eq_of_length_le (ha.2 b hb.1).length_le
  have conv : ∀ {a : List (List PStr)} {x : Res Unit}, csvStream (ls, .error e) = (a, x) → Settled ls a →
      (((csvRows ls).2 = x ∧ x ≠ .ok ()) ∨ (csvRows ls).2 = .ok () ∧ x = .error e) →
      (csvStream (ls, .error e) = (rows, r) ↔
        Settled ls rows ∧ (((csvRows ls).2 = r ∧ r ≠ .ok ()) ∨ (csvRows ls).2 = .ok () ∧ r = .error e)) := by
    intro a x h hs hx
    constructor
    · intro h'
      rw [h] at h'
      cases h'
      exact ⟨hs, hx⟩
    · rintro ⟨h1, h2⟩
      rw [h, only hs h1]
      congr 1
      rcases hx with ⟨hx, hx'⟩ | ⟨hx, rfl⟩ <;> rcases h2 with ⟨h2, h2'⟩ | ⟨h2, rfl⟩
      · exact hx.symm.trans h2
      · exact absurd (hx.symm.trans h2) hx'
      · exact absurd (h2.symm.trans hx) h2'
      · rfl
  rcases rowsBefore_cases e ls reset (.inl rfl) with ⟨a, x, k1, k2⟩ | ⟨a, q, k1, k2, k3⟩
  · refine conv k1 ⟨fun more => ?_, fun rows' h => ?_⟩ (.inl ⟨?_, by simp⟩)
    · unfold csvRows; rw [k2]; exact List.prefix_rfl
    · have := h []
      unfold csvRows at this
      rw [k2] at this
      exact this
    · have := k2 []
      rw [List.append_nil] at this
      unfold csvRows; rw [this]
  · refine conv k1 ⟨fun more => ?_, fun rows' h => ?_⟩ (.inr ⟨?_, rfl⟩)
    · unfold csvRows; rw [k3]; exact List.prefix_append _ _
    · unfold csvRows at h
      simp only [k3] at h
      have h0 := h []
      rcases k2 with rfl | hq
      · have : (reset.rows []).1 = [] := by decide
        rw [this, List.append_nil] at h0
        exact h0
      · obtain ⟨st, fs, f⟩ := q
        dsimp only at hq
        subst hq
        have e0 : ((⟨.inQuotedField, fs, f⟩ : CsvReader).rows []).1 = [fs ++ [f]] := by
          rw [CsvReader.rows]; simp [CsvReader.saveField]
        have h1 := h [[65, 34]]
        rw [e0] at h0
        have e1 : ((⟨.inQuotedField, fs, f⟩ : CsvReader).rows [[65, 34]]).1 = [] ∨
            ((⟨.inQuotedField, fs, f⟩ : CsvReader).rows [[65, 34]]).1 = [fs ++ [f ++ [65]]] := by
          rw [CsvReader.rows]
          by_cases hf : f.length ≥ fieldLimit
          · left
            have : (⟨.inQuotedField, fs, f⟩ : CsvReader).line [65, 34] = .error .exception := by
              rw [CsvReader.line]
              simp only [CsvReader.step, CsvReader.addChar]
              rw [if_neg (by decide), if_pos hf]
              rfl
            rw [this]
          · right
            have : (⟨.inQuotedField, fs, f⟩ : CsvReader).line [65, 34] = .ok ⟨.startRecord, fs ++ [f ++ [65]], []⟩ := by
              rw [CsvReader.line]
              simp only [CsvReader.step, CsvReader.addChar]
              rw [if_neg (by decide), if_neg hf]
              rfl
            rw [this]
            rfl
        rcases e1 with e1 | e1
        · rw [e1, List.append_nil] at h1; exact h1
        · rw [e1] at h1
          rcases List.prefix_concat_iff.mp h0 with h0 | h0
          · rcases List.prefix_concat_iff.mp h1 with h1 | h1
            · rw [h0] at h1
              simp at h1
            · exact h1
          · exact h0
    · have := k3 []
      rw [List.append_nil] at this
      unfold csvRows; rw [this]
      show (q.rows []).2 = _
      rw [CsvReader.rows]
      split <;> rfl

/-- `a,b`, then `c,"d` and a line that goes on in the quotes: only the first row is certain. -/
example : csvStream ([[97, 44, 98, 10], [99, 44, 34, 100, 10], [101, 10]], .error .unicode) = ([[[97], [98]]], .error .unicode) := by decide
/-- A wrong line before the end. -/
example : csvStream ([[97, 44, 98, 10], [99, 13, 100, 10], [101, 10]], .error .unicode) = ([[[97], [98]]], .error .exception) := by decide

end Sudachi
