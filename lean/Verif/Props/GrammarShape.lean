import Verif.Spec.GrammarShape
import Verif.Props.Grammar

/-!
# C38: which sizes of a matrix a loaded grammar takes
-/

namespace Sudachi

theorem matrixBytes_iff {start size : Nat} {l r : Int} {n : Nat} :
    MatrixBytes start size l r n ↔ n = viewLength (start + size) start (start + 2 * l * r) := by
  unfold MatrixBytes viewLength
  rw [Int.mul_assoc]
  generalize l * r = p
  split <;> omega

theorem grammar_shape {table : List (List PStr)} {posb a c b : Bytes} {i : Nat} {l r : Int}
    (hp : convertPosTable (table.map (joinOn 44)) = .ok posb) (hok : ∀ p ∈ table, PosOk p) (ha : writeInt l .short = .ok a)
    (hc : writeInt r .short = .ok c) (hA : At b i (posb ++ (a ++ c))) :
    Grammar.read b i = if l * r ≠ 0 ∧ (l < 0 ∨ r < 0) then
        let n := viewLength b.length (i + posb.length + 4) (((i + posb.length + 4 : Nat) : Int) + 2 * l * r)
        .error (if n = 0 ∨ n % 2 = 1 then .type else .value)
      else (castMatrix b (i + posb.length + 4) l.toNat r.toNat).bind fun cells =>
        .ok ⟨table, l.toNat, r.toNat, cells, posb.length + 4 + 2 * l.toNat * r.toNat⟩ := by
  obtain ⟨n, q, hn, hq, rfl⟩ := convertPosTable_ok hp
  rw [List.length_map] at hn
  obtain ⟨n1, _, n3, _⟩ := writeInt_short hn
  obtain ⟨a1, _, a3, _⟩ := writeInt_short ha
  obtain ⟨c1, _, c3, _⟩ := writeInt_short hc
  have A2 := hA.right
  have A3 := A2.right
  have A2 := A2.left
  have hA := hA.left
  have A4 := hA.right
  have hA := hA.left
  simp only [List.length_append, n1, a1, c1] at A2 A3 A4
  have e0 := getPosList_rt hq hok A4
  have g1 : getShort b i = ((table.length : Int), i + 2) := by unfold getShort; rw [hA.mRead' (n := 2) n1.symm, n3]
  have g2 : getShort b (i + 2 + q.length) = (l, i + (2 + q.length + 2)) := by
    unfold getShort
    rw [Nat.add_assoc, A2.mRead' (n := 2) a1.symm, a3, Nat.add_assoc]
  rw [Nat.add_assoc i (2 + q.length) 2] at A3
  have g3 : getShort b (i + (2 + q.length + 2)) = (r, i + (2 + q.length) + 4) := by
    unfold getShort
    rw [A3.mRead' (n := 2) c1.symm, c3]
    simp only [Nat.add_assoc]
  conv => lhs; unfold Grammar.read
  rw [hA.seek]
  simp only [bind, Except.bind, g1, Int.toNat_natCast, e0, g2, g3, List.length_append, n1]
  by_cases h : l * r ≠ 0 ∧ (l < 0 ∨ r < 0)
  · rw [if_pos h, if_pos h]
  · rw [if_neg h, if_neg h]
    cases castMatrix b (i + (2 + q.length) + 4) l.toNat r.toNat with
    | error e => rfl
    | ok cells =>
      simp only [pure, Except.pure]
      rw [show i + (2 + q.length) + 4 - i = 2 + q.length + 4 by omega]

/-- **C38** What becomes of a file whose table of parts of speech is written as the builder does and whose matrix has the sizes `l` and
`r`: with a size of zero the grammar has no cells, also if the other one is negative; with positive sizes it has the cells that
follow, or it is a `TypeError` if the file ends before; with negative sizes it is a `TypeError` if the bytes that are taken for the
matrix are none or odd, and a `ValueError` if not. -/
theorem C38_shape (table : List (List PStr)) (posb a c pre rest : Bytes) (l r : Int)
    (hp : convertPosTable (table.map (joinOn 44)) = .ok posb) (hok : ∀ p ∈ table, PosOk p) (ha : writeInt l .short = .ok a)
    (hc : writeInt r .short = .ok c) :
    (l * r = 0 → Grammar.read (pre ++ (posb ++ (a ++ c)) ++ rest) pre.length = .ok ⟨table, l.toNat, r.toNat, [], posb.length + 4⟩) ∧
    (0 < l → 0 < r → 2 * (l * r) ≤ rest.length → ∃ cells, (cells.length : Int) = 2 * (l * r) ∧ cells <+: rest ∧
      Grammar.read (pre ++ (posb ++ (a ++ c)) ++ rest) pre.length = .ok ⟨table, l.toNat, r.toNat, shorts cells, posb.length + 4 + cells.length⟩) ∧
    (0 < l → 0 < r → rest.length < 2 * (l * r) → Grammar.read (pre ++ (posb ++ (a ++ c)) ++ rest) pre.length = .error .type) ∧
    (l * r ≠ 0 → (l < 0 ∨ r < 0) → ∀ n, MatrixBytes (pre.length + posb.length + 4) rest.length l r n →
      Grammar.read (pre ++ (posb ++ (a ++ c)) ++ rest) pre.length = .error (if n = 0 ∨ n % 2 = 1 then .type else .value)) := by
  obtain ⟨a1, _⟩ := writeInt_short ha
  obtain ⟨c1, _⟩ := writeInt_short hc
  have hg := grammar_shape (b := pre ++ (posb ++ (a ++ c)) ++ rest) hp hok ha hc (At.mid pre _ rest)
  have hlen : (pre ++ (posb ++ (a ++ c)) ++ rest).length = pre.length + posb.length + 4 + rest.length := by
    simp only [List.length_append, a1, c1]
    omega
  have hslice : ∀ k, pySlice (pre ++ (posb ++ (a ++ c)) ++ rest) (pre.length + posb.length + 4) (pre.length + posb.length + 4 + k) = rest.take k := by
    intro k
    unfold pySlice
    have h1 : (pre ++ (posb ++ (a ++ c))).length = pre.length + posb.length + 4 := by
      simp only [List.length_append, a1, c1]
      omega
    rw [← h1, List.take_length_add_append, List.drop_left]
  have htake : 0 < l → 0 < r → (2 * l.toNat * r.toNat : Nat) = 2 * (l * r) := by
    intro hl hr
    rw [Int.natCast_mul, Int.natCast_mul, Int.toNat_of_nonneg (by omega), Int.toNat_of_nonneg (by omega), Int.mul_assoc]
    rfl
  have hnz : 0 < l → 0 < r → l.toNat * r.toNat ≠ 0 := by
    intro hl hr h
    rcases Nat.mul_eq_zero.1 h with h | h <;> omega
  refine ⟨fun h => ?_, fun hl hr h => ?_, fun hl hr h => ?_, fun h0 hneg n hn => ?_⟩
  · rw [hg, if_neg (fun hh => hh.1 h)]
    have hz : l.toNat * r.toNat = 0 := by
      rcases Int.mul_eq_zero.1 h with rfl | rfl <;> simp
    unfold castMatrix
    rw [if_pos hz, Nat.mul_assoc, hz]
    rfl
  · have e := htake hl hr
    have hk : 2 * l.toNat * r.toNat ≤ rest.length := by omega
    refine ⟨rest.take (2 * l.toNat * r.toNat), ?_, List.take_prefix _ _, ?_⟩
    · rw [List.length_take, Nat.min_eq_left hk, e]
    · rw [hg, if_neg (by omega)]
      unfold castMatrix
      rw [if_neg (hnz hl hr), hslice, List.length_take, Nat.min_eq_left hk, if_pos rfl]
      rfl
  · have e := htake hl hr
    rw [hg, if_neg (by omega)]
    unfold castMatrix
    rw [if_neg (hnz hl hr), hslice, List.length_take, if_neg (by omega)]
    rfl
  · rw [hg, if_pos ⟨h0, hneg⟩, hlen, ← matrixBytes_iff.mp hn]

/-- Sizes −1 × −1 with a cell after them: `ValueError`; −1 × 1: `TypeError`; 0 × −1: accepted. -/
example : Grammar.read [0, 0, 255, 255, 255, 255, 7, 0] 0 = .error .value ∧ Grammar.read [0, 0, 255, 255, 1, 0, 7, 0] 0 = .error .type ∧
    Grammar.read [0, 0, 0, 0, 255, 255, 7, 0] 0 = .ok ⟨[], 0, 0, [], 6⟩ := by
  have hp : convertPosTable (([] : List (List PStr)).map (joinOn 44)) = .ok [0, 0] := rfl
  have hm : writeInt (-1) .short = .ok [255, 255] := by decide
  have h1 : writeInt 1 .short = .ok [1, 0] := by decide
  have h0 : writeInt 0 .short = .ok [0, 0] := by decide
  have hok : ∀ p ∈ ([] : List (List PStr)), PosOk p := fun _ h => (by cases h)
  exact ⟨(C38_shape [] _ _ _ [] [7, 0] _ _ hp hok hm hm).2.2.2 (by decide) (by decide) 2 (.inl (by decide)),
    (C38_shape [] _ _ _ [] [7, 0] _ _ hp hok hm h1).2.2.2 (by decide) (by decide) 0 (.inr (.inl (by decide))),
    (C38_shape [] _ _ _ [] [7, 0] _ _ hp hok h0 hm).1 (by decide)⟩

end Sudachi
