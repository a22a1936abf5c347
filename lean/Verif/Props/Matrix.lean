import Verif.Lemmas.Matrix
import Verif.Lemmas.MatrixDef
import Verif.Props.Grammar

/-!
# C38 for matrices of any shape
-/

namespace Sudachi

/-- **C38, any shape** For a matrix of `n` left and `p` right ids whose lines are in range and whose last cell is listed, every cell
of the loaded grammar is determined: the pair `l r` can be read iff `r < n` and `l < p`, and its cost is then that of the cell
whose place in column order (`l' + n * r'`) is the place of `l r` in row order (`r * p + l`). -/
theorem C38_any_shape (n p : Nat) (header : PStr) (lines : List PStr) (sizes cells posb : Bytes) (table : List (List PStr))
    (hh : pyInts (splitWs (strip header)) = .ok [(n : Int), (p : Int)]) (hm : convertMatrix header lines = .ok (sizes, cells))
    (hr : ∀ e ∈ lines.filterMap matrixEntry, (0 ≤ e.1 ∧ e.1 < n) ∧ 0 ≤ e.2.1 ∧ e.2.1 < p)
    (hlast : ∃ e ∈ lines.filterMap matrixEntry, e.1 = (n : Int) - 1 ∧ e.2.1 = (p : Int) - 1)
    (hp : convertPosTable (table.map (joinOn 44)) = .ok posb) (hok : ∀ p ∈ table, PosOk p) (pre rest : Bytes) :
    ∃ g, Grammar.read (pre ++ (posb ++ sizes ++ cells) ++ rest) pre.length = .ok g ∧ g.posList = table ∧
      g.storageSize = (posb ++ sizes ++ cells).length ∧
      ∀ l r : Nat,
        (∀ l' r' : Nat, r < n → l < p → l' < n → l' + n * r' = r * p + l →
          g.getConnectCost l r = .ok (lastCost (lines.filterMap matrixEntry) l' r')) ∧
        (¬ (r < n ∧ l < p) → g.getConnectCost l r = .error .index) := by
  obtain ⟨a, c, ha, hc', rfl, hl, hc⟩ := convertMatrix_rect hh hm hr hlast
  refine ⟨_, grammar_rt hp hok ha hc' (At.mid _ _ _) hl, rfl, ?_, ?_⟩
  · have h1 := (writeInt_short ha).1
    have h2 := (writeInt_short hc').1
    simp only [List.length_append, hl, h1, h2]
  · intro l r
    constructor
    · intro l' r' hr' hl' hl'' heq
      have hidx : r * p + l + 1 ≤ n * p := by
        have : (r + 1) * p ≤ n * p := Nat.mul_le_mul_right p hr'
        rw [Nat.add_mul] at this
        omega
      have hmul : 2 * n * p = 2 * (n * p) := Nat.mul_assoc _ _ _
      have hr'' : r' < p := by
        rcases Nat.lt_or_ge r' p with h | h
        · exact h
        · have : n * p ≤ n * r' := Nat.mul_le_mul_left n h
          omega
      unfold Grammar.getConnectCost Grammar.cell Grammar.viewIndex
      dsimp only
      rw [if_neg (by omega), if_pos (by omega), if_neg (by omega), if_pos (by omega)]
      simp only [bind, Except.bind, Int.toNat_natCast, pyGet]
      rw [shorts_get _ _ (by omega), ← heq, hc l' r' hl'' hr'']
    · intro hne
      unfold Grammar.getConnectCost Grammar.cell Grammar.viewIndex
      dsimp only
      rw [if_neg (by omega)]
      by_cases h1 : r < n
      · rw [if_pos (by omega)]
        simp only [bind, Except.bind]
        rw [if_neg (by omega), if_neg (by omega)]
      · rw [if_neg (by omega)]
        rfl

/-- **C38, any shape** There is exactly one such cell, and it is a cell of the matrix. -/
theorem C38_source_unique (n p l r : Nat) (hr : r < n) (hl : l < p) :
    ∃ l' r', (l' < n ∧ r' < p ∧ l' + n * r' = r * p + l) ∧ ∀ l2 r2, l2 < n → l2 + n * r2 = r * p + l → l2 = l' ∧ r2 = r' := by
  have hidx : r * p + l < n * p := by
    have : (r + 1) * p ≤ n * p := Nat.mul_le_mul_right p hr
    rw [Nat.add_mul] at this
    omega
  refine ⟨(r * p + l) % n, (r * p + l) / n, ⟨Nat.mod_lt _ (by omega), Nat.div_lt_of_lt_mul hidx, Nat.mod_add_div _ _⟩, ?_⟩
  intro l2 r2 h1 h2
  rw [← h2, Nat.add_mul_mod_self_left, Nat.mod_eq_of_lt h1, Nat.add_mul_div_left _ _ (by omega), Nat.div_eq_of_lt h1]
  omega

/-- **C38, any shape** Of a matrix that is not square, only the cells with right id 0 are read from their own place. -/
theorem C38_own_place (n p l r : Nat) (hne : n ≠ p) : l + n * r = r * p + l ↔ r = 0 := by
  constructor
  · intro h
    rcases Nat.eq_zero_or_pos r with h0 | h0
    · exact h0
    · rw [Nat.mul_comm r p] at h
      exact absurd (Nat.eq_of_mul_eq_mul_right h0 (by omega)) hne
  · rintro rfl
    simp

/-- The matrix `2 3` of `C38_violated_non_square_value`: the pair `0 1` is read from the place of `1 1`. -/
example : ∃ sizes cells, convertMatrix [50, 32, 51]
      [[48, 32, 48, 32, 48], [48, 32, 49, 32, 49], [48, 32, 50, 32, 50], [49, 32, 48, 32, 49, 48], [49, 32, 49, 32, 49, 49],
       [49, 32, 50, 32, 49, 50]] = .ok (sizes, cells) ∧ pyInts (splitWs (strip [50, 32, 51])) = .ok [((2 : Nat) : Int), ((3 : Nat) : Int)] ∧
    1 + 2 * 1 = 1 * 3 + 0 ∧ (1, 2, 12) ∈ [[48, 32, 49, 32, 49], [49, 32, 50, 32, 49, 50]].filterMap matrixEntry :=
  ⟨_, _, rfl, by decide +kernel, by decide, by decide +kernel⟩

/-- **C38**: what becomes of a matrix file.  The first line must be two numbers of 16 bits; each line after it must be passed over or be
three numbers, with a place in the file and a cost of 16 bits.  The first line that is not so is refused: with an `OverflowError` if a
number has more than 16 bits, with a `ValueError` otherwise. -/
theorem C38_refused (header : PStr) (lines : List PStr) :
    ((¬ ∃ n p, MatrixHeader header n p) → convertMatrix header lines = .error .value) ∧
    ∀ n p, MatrixHeader header n p →
      (¬ (FitsShort n ∧ FitsShort p) → convertMatrix header lines = .error .overflow) ∧
      (FitsShort n ∧ FitsShort p →
        ((∀ x ∈ lines, MatrixFits n x) → ∃ sizes cells, convertMatrix header lines = .ok (sizes, cells)) ∧
        ∀ pre line rest, lines = pre ++ line :: rest → (∀ x ∈ pre, MatrixFits n x) → ¬ MatrixSilent line →
          ((¬ ∃ l r cost, MatrixLine line l r cost) → convertMatrix header lines = .error .value) ∧
          ∀ l r cost, MatrixLine line l r cost →
            (l + n * r < 0 → convertMatrix header lines = .error .value) ∧
            (0 ≤ l + n * r → ¬ FitsShort cost → convertMatrix header lines = .error .overflow)) := by
  have hblank : ∀ n p, MatrixHeader header n p → (strip header).isEmpty = false := by
    rintro n p ⟨a, b, hab, _⟩
    cases h : (strip header).isEmpty with
    | false => rfl
    | true =>
      rw [List.isEmpty_iff.mp h] at hab
      cases hab
  have hstart : ∀ n p, MatrixHeader header n p → convertMatrix header lines = (do
      let a ← writeInt n .short
      let b ← writeInt p .short
      let m ← matrixLines n .empty lines
      pure (a ++ b, m.read)) := by
    intro n p h
    unfold convertMatrix
    rw [if_neg (by rw [hblank n p h]; simp), pyInts_two_iff.mpr h]
    rfl
  refine ⟨fun h => ?_, fun n p h => ⟨fun hf => ?_, fun hf => ?_⟩⟩
  · unfold convertMatrix
    split
    · rfl
    · cases hv : pyInts (splitWs (strip header)) with
      | error e => rw [pyInts_error hv]; rfl
      | ok vs =>
        simp only [bind, Except.bind]
        split
        · rename_i n p
          exact absurd ⟨n, p, pyInts_two_iff.mp hv⟩ h
        · rfl
  · rw [hstart n p h]
    by_cases h1 : FitsShort n
    · obtain ⟨a, ha⟩ := writeInt_short_iff.mpr h1
      rw [ha, writeInt_short_overflow (fun k => hf ⟨h1, k⟩)]
      rfl
    · rw [writeInt_short_overflow h1]
      rfl
  · obtain ⟨a, ha⟩ := writeInt_short_iff.mpr hf.1
    obtain ⟨b, hb⟩ := writeInt_short_iff.mpr hf.2
    have hgo : convertMatrix header lines = (matrixLines n .empty lines >>= fun m => pure (a ++ b, m.read)) := by
      rw [hstart n p h, ha, hb]
      rfl
    refine ⟨fun hl => ?_, ?_⟩
    · obtain ⟨m', hm⟩ := matrixLines_fits (m := .empty) (lines := []) hl
      rw [List.append_nil, matrixLines] at hm
      exact ⟨_, _, by rw [hgo, hm]; rfl⟩
    · rintro pre line rest rfl hpre hs
      obtain ⟨m', hm⟩ := matrixLines_fits (m := .empty) (lines := line :: rest) hpre
      rw [hgo, hm]
      refine ⟨fun hn => ?_, fun l r cost he => ⟨fun h0 => ?_, fun h0 hc => ?_⟩⟩
      · rw [matrixLines_speaks hs]
        cases hv : pyInts (splitWs (strip line)) with
        | error e => rw [pyInts_error hv]; rfl
        | ok vs =>
          simp only [bind, Except.bind]
          split
          · rename_i heq
            split at heq
            · rename_i l r cost
              exact absurd ⟨l, r, cost, pyInts_three_iff.mp hv⟩ hn
            · cases heq
              rfl
          · rename_i heq
            split at heq
            · rename_i l r cost
              exact absurd ⟨l, r, cost, pyInts_three_iff.mp hv⟩ hn
            · cases heq
      · rw [matrixLines_entry hs he]
        unfold Stream.seek
        rw [if_pos (by omega)]
        rfl
      · rw [matrixLines_entry hs he]
        unfold Stream.seek
        rw [if_neg (by omega), writeInt_short_overflow hc]
        rfl

/-- `1 1` with the lines `0 0 5` and `0 0 40000`; a blank first line. -/
example : convertMatrix [49, 32, 49] [[48, 32, 48, 32, 53], [48, 32, 48, 32, 52, 48, 48, 48, 48]] = .error .overflow ∧
    convertMatrix [32, 10] [] = .error .value ∧ MatrixHeader [49, 32, 49] 1 1 ∧ MatrixFits 1 [48, 32, 48, 32, 53] :=
  ⟨by decide +kernel, by decide +kernel, ⟨[49], [49], by decide +kernel, by decide +kernel, by decide +kernel⟩,
    .inr ⟨0, 0, 5, ⟨[48], [48], [53], by decide +kernel, by decide +kernel, by decide +kernel, by decide +kernel⟩, by decide,
      by unfold FitsShort; decide⟩⟩

end Sudachi
