/-
Properties of the grammar part of a dictionary file: C37, C38.
-/
import Verif.Lemmas.Load
import Verif.Lemmas.Header2
namespace Sudachi

/-- **C37** A written part-of-speech table is read back identically, wherever it is in a file, if every part of speech
has six components, each of fewer than 128 UTF-16 units, without comma and without byte-order mark at its start. -/
theorem C37_round_trip (table : List (List PStr)) (posb : Bytes) (hp : convertPosTable (table.map (joinOn 44)) = .ok posb)
    (hok : ∀ p ∈ table, p.length = 6 ∧ ∀ s ∈ p, units s < 128 ∧ 44 ∉ s ∧ s.head? ≠ some 0xFEFF ∧ s.head? ≠ some 0xFFFE)
    (pre rest : Bytes) (g : Grammar) (hg : Grammar.read (pre ++ posb ++ rest) pre.length = .ok g) : g.posList = table := by
  have hok' : ∀ p ∈ table, PosOk p := fun p hp' => by
    obtain ⟨h1, h2⟩ := hok p hp'
    exact ⟨h1, fun s hs => Nat.le_of_lt_succ (h2 s hs).1, fun s hs => (h2 s hs).2.1, fun s hs => (h2 s hs).2.2⟩
  obtain ⟨n, q, hn, hq, rfl⟩ := convertPosTable_ok hp
  rw [List.length_map] at hn
  obtain ⟨n1, _, n3, _⟩ := writeInt_short hn
  have hA : At (pre ++ (n ++ q) ++ rest) pre.length (n ++ q) := At.mid _ _ _
  have A4 := hA.right
  have hA := hA.left
  rw [n1] at A4
  have e0 := getPosList_rt hq hok' A4
  unfold Grammar.read at hg
  obtain ⟨i0, hi, hg⟩ := bind_ok hg
  rw [hA.seek] at hi
  cases hi
  have g1 : getShort (pre ++ (n ++ q) ++ rest) pre.length = ((table.length : Int), pre.length + 2) := by
    unfold getShort; rw [hA.mRead' (n := 2) n1.symm, n3]
  simp only [g1, Int.toNat_natCast] at hg
  obtain ⟨⟨pl, i2⟩, h2, hg⟩ := bind_ok hg
  rw [e0] at h2
  cases h2
  dsimp only at hg
  split at hg
  · cases hg
  · obtain ⟨cells, _, hg⟩ := bind_ok hg
    cases hg
    rfl

/-- **C37** With an empty matrix after it, as a user dictionary has it, the table can always be read. -/
theorem C37_reads (table : List (List PStr)) (posb : Bytes) (hp : convertPosTable (table.map (joinOn 44)) = .ok posb)
    (hok : ∀ p ∈ table, p.length = 6 ∧ ∀ s ∈ p, units s < 128 ∧ 44 ∉ s ∧ s.head? ≠ some 0xFEFF ∧ s.head? ≠ some 0xFFFE)
    (pre rest : Bytes) :
    Grammar.read (pre ++ (posb ++ [0, 0, 0, 0]) ++ rest) pre.length = .ok ⟨table, 0, 0, [], posb.length + 4⟩ := by
  have hok' : ∀ p ∈ table, PosOk p := fun p hp' => by
    obtain ⟨h1, h2⟩ := hok p hp'
    exact ⟨h1, fun s hs => Nat.le_of_lt_succ (h2 s hs).1, fun s hs => (h2 s hs).2.1, fun s hs => (h2 s hs).2.2⟩
  have hz : writeInt ((0 : Nat) : Int) .short = .ok [0, 0] := by decide
  have hA : At (pre ++ (posb ++ [0, 0, 0, 0]) ++ rest) pre.length (posb ++ ([0, 0] ++ [0, 0]) ++ []) := by
    rw [List.append_nil]; exact At.mid _ _ _
  exact grammar_rt hp hok' hz hz hA rfl

/-- A part of speech of six components. -/
def pos6 (s : PStr) : List PStr := [s, [0x2A], [0x2A], [0x2A], [0x2A], [0x2A]]

/-- **C37** A component of 128 units: a different table is read, or the file cannot be read. -/
theorem C37_violated_long_component :
    (∃ posb g, units (List.replicate 128 0x41) = 128 ∧ convertPosTable [joinOn 44 (pos6 (List.replicate 128 0x41))] = .ok posb ∧
      Grammar.read (posb ++ [0, 0, 0, 0]) 0 = .ok g ∧
      g.posList = [[0x4180 :: List.replicate 127 0x4100, [], [0x2A], [0x2A], [0x2A], [0x2A]]]) ∧
    (∃ posb, units (List.replicate 130 0x3042) = 130 ∧ convertPosTable [joinOn 44 (pos6 (List.replicate 130 0x3042))] = .ok posb ∧
      Grammar.read (posb ++ [0, 0, 0, 0]) 0 = .error .unicode) :=
  ⟨⟨(convertPosTable [joinOn 44 (pos6 (List.replicate 128 0x41))]).toOption.getD [],
    ⟨[[0x4180 :: List.replicate 127 0x4100, [], [0x2A], [0x2A], [0x2A], [0x2A]]], 10753, 0, [], 276⟩,
    by decide +kernel, by decide +kernel, by decide +kernel, by decide +kernel⟩,
   ⟨(convertPosTable [joinOn 44 (pos6 (List.replicate 130 0x3042))]).toOption.getD [],
    by decide +kernel, by decide +kernel, by decide +kernel⟩⟩

/-- **C37** A component with a comma becomes two: a different table is read. -/
theorem C37_violated_comma :
    ∃ posb g, convertPosTable [joinOn 44 (pos6 [0x41, 44, 0x42])] = .ok posb ∧
      Grammar.read (posb ++ [0, 0, 0, 0]) 0 = .ok g ∧ g.posList = [[[0x41], [0x42], [0x2A], [0x2A], [0x2A], [0x2A]]] :=
  ⟨(convertPosTable [joinOn 44 (pos6 [0x41, 44, 0x42])]).toOption.getD [],
    ⟨[[[0x41], [0x42], [0x2A], [0x2A], [0x2A], [0x2A]]], 10753, 0, [], 24⟩, by decide +kernel, by decide +kernel, by decide +kernel⟩

/-- **C37** A byte-order mark at the start of a component is dropped. -/
theorem C37_violated_bom :
    ∃ posb g, convertPosTable [joinOn 44 (pos6 [0xFEFF, 0x41])] = .ok posb ∧
      Grammar.read (posb ++ [0, 0, 0, 0]) 0 = .ok g ∧ g.posList = [pos6 [0x41]] :=
  ⟨(convertPosTable [joinOn 44 (pos6 [0xFEFF, 0x41])]).toOption.getD [], ⟨[pos6 [0x41]], 0, 0, [], 26⟩,
    by decide +kernel, by decide +kernel, by decide +kernel⟩

/-- A table with a surrogate pair and a component of 127 units meets the conditions of C37. -/
example : ∃ posb g, convertPosTable ([pos6 [0x20BB7, 0x8A5E], pos6 (List.replicate 127 0x41)].map (joinOn 44)) = .ok posb ∧
    (∀ p ∈ [pos6 [0x20BB7, 0x8A5E], pos6 (List.replicate 127 0x41)], p.length = 6 ∧
      ∀ s ∈ p, units s < 128 ∧ 44 ∉ s ∧ s.head? ≠ some 0xFEFF ∧ s.head? ≠ some 0xFFFE) ∧
    Grammar.read (posb ++ [0, 0, 0, 0]) 0 = .ok g ∧ g.posList = [pos6 [0x20BB7, 0x8A5E], pos6 (List.replicate 127 0x41)] :=
  ⟨(convertPosTable ([pos6 [0x20BB7, 0x8A5E], pos6 (List.replicate 127 0x41)].map (joinOn 44))).toOption.getD [],
    ⟨[pos6 [0x20BB7, 0x8A5E], pos6 (List.replicate 127 0x41)], 0, 0, [], 298⟩, by decide +kernel, by decide +kernel, by decide +kernel,
    by decide +kernel⟩

theorem convertMatrix_ok {header : PStr} {lines : List PStr} {sizes cells : Bytes} (h : convertMatrix header lines = .ok (sizes, cells)) :
    ∃ l r a b m, pyInts (splitWs (strip header)) = .ok [l, r] ∧ writeInt l .short = .ok a ∧ writeInt r .short = .ok b ∧
      matrixLines l .empty lines = .ok m ∧ sizes = a ++ b ∧ cells = m.read := by
  unfold convertMatrix at h
  split at h
  · cases h
  · obtain ⟨vs, hvs, h⟩ := bind_ok h
    split at h
    · rename_i l r
      obtain ⟨a, ha, h⟩ := bind_ok h
      obtain ⟨b, hb, h⟩ := bind_ok h
      obtain ⟨m, hm, h⟩ := bind_ok h
      cases h
      exact ⟨l, r, a, b, m, hvs, ha, hb, hm, rfl, rfl⟩
    · cases h

/-- The cells written for a square matrix whose last cell is listed. -/
theorem convertMatrix_square {n : Nat} {header : PStr} {lines : List PStr} {sizes cells : Bytes}
    (hh : pyInts (splitWs (strip header)) = .ok [(n : Int), (n : Int)]) (hm : convertMatrix header lines = .ok (sizes, cells))
    (hr : ∀ e ∈ lines.filterMap matrixEntry, (0 ≤ e.1 ∧ e.1 < n) ∧ 0 ≤ e.2.1 ∧ e.2.1 < n)
    (hlast : ∃ e ∈ lines.filterMap matrixEntry, e.1 = (n : Int) - 1 ∧ e.2.1 = (n : Int) - 1) :
    ∃ a, writeInt n .short = .ok a ∧ sizes = a ++ a ∧ cells.length = 2 * n * n ∧
      ∀ l r : Nat, l < n → r < n → cellAt cells (l + n * r) = lastCost (lines.filterMap matrixEntry) l r := by
  obtain ⟨l, r, a, b, m, h1, h2, h3, h4, rfl, rfl⟩ := convertMatrix_ok hm
  rw [hh] at h1
  cases h1
  rw [h2] at h3
  cases h3
  obtain ⟨i1, i2, _, i4, i5⟩ := matrixLines_ok h4 rfl hr (by simp [Stream.empty])
  have hread : m.read = m.data := by unfold Stream.read; rw [i1]; rfl
  obtain ⟨e, he, e1, e2⟩ := hlast
  have h6 := i5 e he
  have h7 := hr e he
  rw [e1, e2] at h6
  have hn : 0 < n := by omega
  have hnn : ((n : Int) - 1).toNat = n - 1 := by omega
  rw [hnn] at h6
  have hsq : (n - 1) + n * (n - 1) + 1 = n * n := by
    obtain ⟨k, rfl⟩ : ∃ k, n = k + 1 := ⟨n - 1, by omega⟩
    rw [Nat.add_sub_cancel, Nat.mul_add]
    omega
  have hmul : 2 * n * n = 2 * (n * n) := Nat.mul_assoc _ _ _
  rw [hread]
  refine ⟨a, h2, rfl, by omega, ?_⟩
  intro l r hl hr'
  rw [i4 l r hl hr']
  split
  · rfl
  · rename_i hex
    rw [lastCost_none _ _ _ hex]
    rfl

/-- **C38** For a square matrix whose lines are in range and whose last cell is listed, the loaded grammar gives to
every pair the cost of the last line for that pair, or 0 if there is none. -/
theorem C38_round_trip (n : Nat) (header : PStr) (lines : List PStr) (sizes cells posb : Bytes) (table : List (List PStr))
    (hh : pyInts (splitWs (strip header)) = .ok [(n : Int), (n : Int)]) (hm : convertMatrix header lines = .ok (sizes, cells))
    (hr : ∀ e ∈ lines.filterMap matrixEntry, (0 ≤ e.1 ∧ e.1 < n) ∧ 0 ≤ e.2.1 ∧ e.2.1 < n)
    (hlast : ∃ e ∈ lines.filterMap matrixEntry, e.1 = (n : Int) - 1 ∧ e.2.1 = (n : Int) - 1)
    (hp : convertPosTable (table.map (joinOn 44)) = .ok posb) (hok : ∀ p ∈ table, PosOk p) (pre rest : Bytes) :
    ∃ g, Grammar.read (pre ++ (posb ++ sizes ++ cells) ++ rest) pre.length = .ok g ∧ g.posList = table ∧
      g.storageSize = (posb ++ sizes ++ cells).length ∧
      ∀ l r : Nat, l < n → r < n → g.getConnectCost l r = .ok (lastCost (lines.filterMap matrixEntry) l r) := by
  obtain ⟨a, ha, rfl, hl, hc⟩ := convertMatrix_square hh hm hr hlast
  refine ⟨_, grammar_rt hp hok ha ha (At.mid _ _ _) hl, rfl, ?_, ?_⟩
  · have := (writeInt_short ha).1
    simp only [List.length_append, hl, this]
  · intro l r hl' hr'
    unfold Grammar.getConnectCost Grammar.cell Grammar.viewIndex
    dsimp only
    rw [if_neg (by omega), if_pos (by omega), if_neg (by omega), if_pos (by omega)]
    simp only [bind, Except.bind, Int.toNat_natCast, pyGet]
    have hidx : r * n + l + 1 ≤ n * n := by
      have : (r + 1) * n ≤ n * n := Nat.mul_le_mul_right n hr'
      rw [Nat.add_mul] at this
      omega
    have hmul : 2 * n * n = 2 * (n * n) := Nat.mul_assoc _ _ _
    rw [shorts_get _ _ (by omega)]
    rw [show r * n + l = l + n * r by rw [Nat.mul_comm]; omega, hc l r hl' hr']

/-- A 2 × 2 matrix with a comment, a cell given twice and a cell not given. -/
example : ∃ sizes cells, convertMatrix [50, 32, 50, 10]
      [[35, 120], [48, 32, 49, 32, 53], [48, 32, 49, 32, 45, 55], [], [49, 32, 49, 32, 57]] = .ok (sizes, cells) ∧
    pyInts (splitWs (strip [50, 32, 50, 10])) = .ok [2, 2] ∧
    [[35, 120], [48, 32, 49, 32, 53], [48, 32, 49, 32, 45, 55], [], [49, 32, 49, 32, 57]].filterMap matrixEntry =
      [(0, 1, 5), (0, 1, -7), (1, 1, 9)] ∧
    lastCost [(0, 1, 5), (0, 1, -7), (1, 1, 9)] 0 1 = -7 ∧ lastCost [(0, 1, 5), (0, 1, -7), (1, 1, 9)] 1 0 = 0 ∧
    shorts cells = [0, 0, -7, 9] :=
  ⟨_, _, rfl, by decide +kernel, by decide +kernel, by decide +kernel, by decide +kernel, by decide +kernel⟩

/-- **C38** A matrix that is not square always has a cell that cannot be read. -/
theorem C38_violated_non_square (g : Grammar) (hl : 0 < g.left) (hr : 0 < g.right) (hne : g.left ≠ g.right) :
    ∃ l r : Nat, l < g.left ∧ r < g.right ∧ g.getConnectCost l r = .error .index := by
  by_cases h : g.left < g.right
  · refine ⟨0, g.right - 1, hl, by omega, ?_⟩
    unfold Grammar.getConnectCost Grammar.cell Grammar.viewIndex
    rw [if_neg (by omega), if_neg (by omega)]
    rfl
  · refine ⟨g.left - 1, 0, by omega, hr, ?_⟩
    unfold Grammar.getConnectCost Grammar.cell Grammar.viewIndex
    rw [if_neg (by omega), if_pos (by omega)]
    simp only [bind, Except.bind]
    rw [if_neg (by omega), if_neg (by omega)]

/-- **C38** Other cells of such a matrix are exchanged: of `2 3` with all cells given (cell `l r` has cost `10 l + r`), the
cell `0 1` is read as 11. -/
theorem C38_violated_non_square_value :
    ∃ sizes cells g, convertMatrix [50, 32, 51]
        [[48, 32, 48, 32, 48], [48, 32, 49, 32, 49], [48, 32, 50, 32, 50], [49, 32, 48, 32, 49, 48], [49, 32, 49, 32, 49, 49],
         [49, 32, 50, 32, 49, 50]] = .ok (sizes, cells) ∧
      lastCost ([[48, 32, 48, 32, 48], [48, 32, 49, 32, 49], [48, 32, 50, 32, 50], [49, 32, 48, 32, 49, 48], [49, 32, 49, 32, 49, 49],
         [49, 32, 50, 32, 49, 50]].filterMap matrixEntry) 0 1 = 1 ∧
      Grammar.read ([0, 0] ++ sizes ++ cells) 0 = .ok g ∧ g.getConnectCost 0 1 = .ok 11 :=
  ⟨_, _, ⟨[], 2, 3, [0, 10, 1, 11, 2, 12], 18⟩, rfl, by decide +kernel, by decide +kernel, by decide +kernel⟩

/-- **C38** If the last cell is not listed the table is too short, and the reader takes the missing cells from what follows:
here the number 7 of the next section becomes the cost of `0 0`, and the next section is looked for two bytes too late. -/
theorem C38_violated_last_cell_missing :
    ∃ sizes cells g, convertMatrix [49, 32, 49] [] = .ok (sizes, cells) ∧
      Grammar.read ([0, 0] ++ sizes ++ cells ++ [7, 0, 0, 0]) 0 = .ok g ∧ g.getConnectCost 0 0 = .ok 7 ∧
      g.storageSize = ([0, 0] ++ sizes ++ cells).length + 2 :=
  ⟨_, _, ⟨[], 1, 1, [7], 8⟩, rfl, by decide +kernel, by decide +kernel, by decide +kernel⟩

/-- **C38** A line with more than three words, or with something else than numbers, is refused. -/
theorem C38_bad_line_refused (lsize : Int) (m : Stream) (line : PStr) (lines : List PStr) (h0 : strip line ≠ [])
    (h1 : (strip line).head? ≠ some 35) (h3 : 3 ≤ (splitWs (strip line)).length) (hbad : matrixEntry line = none) :
    matrixLines lsize m (line :: lines) = .error .value := by
  unfold matrixEntry at hbad
  rw [if_neg (by simp [h0, h1])] at hbad
  unfold matrixLines
  rw [if_neg (by simp [h0, h1]), if_neg (by omega)]
  cases hv : pyInts (splitWs (strip line)) with
  | error x =>
    have : x = .value := by
      clear hbad h3
      generalize splitWs (strip line) = ws at hv
      induction ws with
      | nil => cases hv
      | cons w ws ih =>
        unfold pyInts at hv
        cases hw : pyInt w with
        | error y =>
          rw [hw] at hv
          cases hv
          unfold pyInt at hw
          split at hw
          · cases hw
          · cases hw; rfl
        | ok v =>
          rw [hw] at hv
          cases hs : pyInts ws with
          | error y => rw [hs] at hv; cases hv; exact ih hs
          | ok vs => rw [hs] at hv; cases hv
    subst this
    rfl
  | ok vs =>
    simp only [bind, Except.bind]
    split
    · rename_i l r c
      obtain ⟨a, b, d, hw, e1, e2, e3⟩ := pyInts_three hv
      rw [hw] at hbad
      simp only [e1, e2, e3] at hbad
      cases hbad
    · rfl

end Sudachi
