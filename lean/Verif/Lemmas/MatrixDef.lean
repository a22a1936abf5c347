import Verif.Lemmas.Buildable
import Verif.Lemmas.Compiled
import Verif.Lemmas.Matrix
import Verif.Spec.MatrixDef

namespace Sudachi

theorem writeInt_short_overflow {v : Int} (h : ¬ FitsShort v) : writeInt v .short = .error .overflow := by
  simp only [writeInt, toBytes, if_true]
  rw [if_neg]
  have h2 : (2 : Int) ^ (8 * 2) = 65536 := by decide
  rw [h2]
  unfold FitsShort at h
  omega

theorem pyInts_two_iff {ws : List PStr} {n p : Int} :
    pyInts ws = .ok [n, p] ↔ ∃ a b, ws = [a, b] ∧ pyInt a = .ok n ∧ pyInt b = .ok p := by
  constructor
  · intro h
    match ws with
    | [] => cases h
    | [a] =>
      have := pyInts_length h
      cases this
    | [a, b] =>
      unfold pyInts at h
      obtain ⟨x, hx, h⟩ := bind_ok h
      obtain ⟨xs, hxs, h⟩ := bind_ok h
      unfold pyInts at hxs
      obtain ⟨y, hy, hxs⟩ := bind_ok hxs
      obtain ⟨ys, hys, hxs⟩ := bind_ok hxs
      cases hys
      cases hxs
      cases h
      exact ⟨a, b, rfl, hx, hy⟩
    | _ :: _ :: _ :: _ =>
      have := pyInts_length h
      simp at this
  · rintro ⟨a, b, rfl, h1, h2⟩
    simp only [pyInts, h1, h2, bind, Except.bind, pure, Except.pure]

theorem pyInts_three_iff {ws : List PStr} {l r c : Int} :
    pyInts ws = .ok [l, r, c] ↔ ∃ a b d, ws = [a, b, d] ∧ pyInt a = .ok l ∧ pyInt b = .ok r ∧ pyInt d = .ok c := by
  constructor
  · exact pyInts_three
  · rintro ⟨a, b, d, rfl, h1, h2, h3⟩
    simp only [pyInts, h1, h2, h3, bind, Except.bind, pure, Except.pure]

theorem matrixLines_silent {n : Int} {m : Stream} {line : PStr} {lines : List PStr} (h : MatrixSilent line) :
    matrixLines n m (line :: lines) = matrixLines n m lines := by
  rw [matrixLines]
  by_cases h1 : (strip line).isEmpty ∨ (strip line).head? = some 35
  · rw [if_pos h1]
  · rw [if_neg h1]
    rcases h with h | h | h
    · exact absurd (.inl (by rw [h]; rfl)) h1
    · exact absurd (.inr h) h1
    · rw [if_pos h]

theorem matrixLines_speaks {n : Int} {m : Stream} {line : PStr} {lines : List PStr} (h : ¬ MatrixSilent line) :
    matrixLines n m (line :: lines) = (do
      let vs ← pyInts (splitWs (strip line))
      match vs with
      | [l, r, cost] => do
        let m1 ← m.seek (2 * (l + n * r))
        let b ← writeInt cost .short
        let m2 ← (m1.write b).seek m.pos
        matrixLines n m2 lines
      | _ => .error .value) := by
  rw [matrixLines]
  rw [if_neg, if_neg]
  · rfl
  · exact fun k => h (.inr (.inr k))
  · rintro (k | k)
    · exact h (.inl (List.isEmpty_iff.mp k))
    · exact h (.inr (.inl k))

theorem matrixLines_entry {n : Int} {m : Stream} {line : PStr} {lines : List PStr} {l r cost : Int} (h : ¬ MatrixSilent line)
    (he : MatrixLine line l r cost) : matrixLines n m (line :: lines) = (do
        let m1 ← m.seek (2 * (l + n * r))
        let b ← writeInt cost .short
        let m2 ← (m1.write b).seek m.pos
        matrixLines n m2 lines) := by
  rw [matrixLines_speaks h, pyInts_three_iff.mpr he]
  rfl

/-- Lines that fit are written, wherever the others lead. -/
theorem matrixLines_fits {n : Int} : ∀ {pre : List PStr} {lines : List PStr} {m : Stream}, (∀ x ∈ pre, MatrixFits n x) →
    ∃ m', matrixLines n m (pre ++ lines) = matrixLines n m' lines
  | [], _, m, _ => ⟨m, rfl⟩
  | line :: pre, lines, m, h => by
    have hpre : ∀ x ∈ pre, MatrixFits n x := fun x hx => h x (List.mem_cons_of_mem _ hx)
    by_cases hs : MatrixSilent line
    · rw [List.cons_append, matrixLines_silent hs]
      exact matrixLines_fits hpre
    · rcases h line List.mem_cons_self with k | ⟨l, r, cost, he, h0, hc⟩
      · exact absurd k hs
      · rw [List.cons_append, matrixLines_entry hs he]
        obtain ⟨b, hb⟩ := writeInt_short_iff.mpr hc
        unfold Stream.seek
        rw [if_neg (by omega), hb]
        simp only [bind, Except.bind]
        rw [if_neg (by omega)]
        exact matrixLines_fits hpre

end Sudachi
