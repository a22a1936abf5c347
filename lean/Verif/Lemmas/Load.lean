/-
Lemmas on reading back what was written: word infos, grammar and matrix, parameters, word-id table.
-/
import Verif.Lemmas.Build3
import Verif.Spec.DictFile
namespace Sudachi

theorem units_nil : units [] = 0 := rfl

theorem own_form (x s : PStr) :
    (if (if x = s then [] else x : PStr).isEmpty = true then s else (if x = s then [] else x : PStr)) = if x = [] then s else x := by
  by_cases hn : x = s
  · rw [if_pos hn]
    simp only [List.isEmpty_nil, if_true, hn, ite_self]
  · rw [if_neg hn]
    by_cases h0 : x = []
    · simp [h0]
    · rw [if_neg h0, if_neg (by simpa using h0)]

/-- A written word info is read back. -/
theorem stored_rt {db db' : DictBuilder} {e : Entry} {w b : Bytes} {i : Nat} (h : db.wordInfoBytes e = .ok (w, db')) (hf : e.Fits)
    (hA : At b i w) :
    ∃ x y z db1 db2, db.parseSplitinfo e.aSplit = .ok (x, db1) ∧ db1.parseSplitinfo e.bSplit = .ok (y, db2) ∧
      db2.parseSplitinfo e.cSplit = .ok (z, db') ∧ getStoredInfo b true i = .ok (e.stored x y z) := by
  obtain ⟨s, hd, p, n, d, r, a', b', c', yb, x, y, z, db1, db2, h1, h2, h3, h4, h5, h6, h7, h8, h9, h10, h11, h12, h13, rfl⟩ :=
    DictBuilder.wordInfoBytes_ok h
  refine ⟨x, y, z, db1, db2, h7, h9, h11, ?_⟩
  have A9 := hA.right
  have hA := hA.left
  have A8 := hA.right
  have hA := hA.left
  have A7 := hA.right
  have hA := hA.left
  have A6 := hA.right
  have hA := hA.left
  have A5 := hA.right
  have hA := hA.left
  have A4 := hA.right
  have hA := hA.left
  have A3 := hA.right
  have hA := hA.left
  have A2 := hA.right
  have hA := hA.left
  have A1 := hA.right
  have hA := hA.left
  simp only [List.length_append, ← Nat.add_assoc] at A1 A2 A3 A4 A5 A6 A7 A8 A9
  obtain ⟨p1, _, p3, p4, p5⟩ := writeInt_short h3
  obtain ⟨d1, _, d3, _⟩ := writeInt_int h5
  have n1 : units (if e.info.normalizedForm = e.info.surface then [] else e.info.normalizedForm) ≤ 32767 := by
    split
    · simp [units]
    · exact hf.normalized
  have r1 : units (if e.info.readingForm = e.info.surface then [] else e.info.readingForm) ≤ 32767 := by
    split
    · simp [units]
    · exact hf.reading
  have e1 := getString_rt h1 hf.surface hA
  have e2 := getStringLength_rt h2 hf.headWord A1
  have e3 := A2.mRead' (n := 2) p1.symm
  have e4 := getString_rt h4 n1 A3
  have e5 := A4.mRead' (n := 4) d1.symm
  have e6 := getString_rt h6 r1 A5
  have e7 := getIntArray_rt h8 A6
  have e8 := getIntArray_rt h10 A7
  have e9 := getIntArray_rt h12 A8
  have e10 := getIntArray_rt h13 A9
  rw [p1] at e4
  rw [p1] at A3
  rw [p1] at e5
  rw [p1] at A4
  rw [p1, d1] at e6 e7 e8 e9 e10
  rw [p1, d1] at A5 A6 A7 A8 A9
  unfold getStoredInfo
  rw [hA.seek]
  simp only [bind, Except.bind]
  rw [e1]
  simp only []
  rw [e2]
  simp only [e3]
  rw [e4]
  simp only [e5]
  rw [e6]
  simp only []
  rw [e7]
  simp only []
  rw [e8]
  simp only []
  rw [e9]
  simp only [if_true]
  rw [e10]
  simp only [pure, Except.pure, Entry.stored, d3]
  have q1 : ((fromLe p : Nat) : Int) = e.info.posId := fromLe_writeInt_short hf.pos h3
  rw [q1]
  rw [own_form, own_form]

/-! ### Grammar -/

theorem convertPosTable_ok {table : List PStr} {w : Bytes} (h : convertPosTable table = .ok w) :
    ∃ n b, writeInt table.length .short = .ok n ∧ writePosList table = .ok b ∧ w = n ++ b := by
  unfold convertPosTable at h
  obtain ⟨n, hn, h⟩ := bind_ok h
  obtain ⟨b, hb, h⟩ := bind_ok h
  cases h
  exact ⟨n, b, hn, hb, rfl⟩

/-- The part of a grammar after its part-of-speech table. -/
theorem grammar_rt {table : List (List PStr)} {posb a c cells b : Bytes} {i l r : Nat}
    (hp : convertPosTable (table.map (joinOn 44)) = .ok posb) (hok : ∀ p ∈ table, PosOk p) (ha : writeInt l .short = .ok a)
    (hc : writeInt r .short = .ok c) (hA : At b i (posb ++ (a ++ c) ++ cells)) (hl : cells.length = 2 * l * r) :
    Grammar.read b i = .ok ⟨table, l, r, shorts cells, posb.length + 4 + 2 * l * r⟩ := by
  obtain ⟨n, q, hn, hq, rfl⟩ := convertPosTable_ok hp
  rw [List.length_map] at hn
  obtain ⟨n1, _, n3, _⟩ := writeInt_short hn
  obtain ⟨a1, _, a3, _⟩ := writeInt_short ha
  obtain ⟨c1, _, c3, _⟩ := writeInt_short hc
  have A1 := hA.right
  have hA := hA.left
  have A2 := hA.right
  have A3 := A2.right
  have A2 := A2.left
  have hA := hA.left
  have A4 := hA.right
  have hA := hA.left
  simp only [List.length_append, n1, a1, c1] at A1 A2 A3 A4
  have e0 := getPosList_rt hq hok A4
  have g1 : getShort b i = ((table.length : Int), i + 2) := by unfold getShort; rw [hA.mRead' (n := 2) n1.symm, n3]
  have g2 : getShort b (i + 2 + q.length) = ((l : Int), i + (2 + q.length + 2)) := by
    unfold getShort
    rw [Nat.add_assoc, A2.mRead' (n := 2) a1.symm, a3, Nat.add_assoc]
  rw [Nat.add_assoc i (2 + q.length) 2] at A3
  have g3 : getShort b (i + (2 + q.length + 2)) = ((r : Int), i + (2 + q.length + (2 + 2))) := by
    unfold getShort
    rw [A3.mRead' (n := 2) c1.symm, c3]
    simp only [Nat.add_assoc]
  unfold Grammar.read
  rw [hA.seek]
  simp only [bind, Except.bind, g1, Int.toNat_natCast, e0, g2, g3]
  rw [if_neg (by omega)]
  have hcm : castMatrix b (i + (2 + q.length + (2 + 2))) l r = .ok (shorts cells) := by
    unfold castMatrix
    have hs := A1.slice' (j := i + (2 + q.length + (2 + 2)) + 2 * l * r) (by rw [hl])
    by_cases h0 : l * r = 0
    · rw [if_pos h0]
      have : cells = [] := List.length_eq_zero_iff.1 (by rw [hl, Nat.mul_assoc, h0])
      rw [this]; rfl
    · rw [if_neg h0, hs, if_pos hl]
  rw [hcm]
  simp only [pure, Except.pure, List.length_append, n1]
  rw [show i + (2 + q.length + (2 + 2)) - i = 2 + q.length + 4 by omega]

/-! ### Matrix -/

/-- The 16-bit cell number `k` of bytes; missing bytes count as zero. -/
def cellAt (b : Bytes) (k : Nat) : Int := fromLeSigned [(b[2 * k]?).getD 0, (b[2 * k + 1]?).getD 0]

theorem shorts_get : ∀ (b : Bytes) (k : Nat), 2 * k + 1 < b.length → (shorts b)[k]? = some (cellAt b k)
  | [], k, h => by simp at h
  | [_], k, h => by simp at h
  | x :: y :: r, 0, _ => rfl
  | x :: y :: r, k + 1, h => by
    simp only [List.length_cons] at h
    have := shorts_get r k (by omega)
    simp only [shorts, List.getElem?_cons_succ, this, cellAt]
    rw [show 2 * (k + 1) = 2 * k + 1 + 1 by omega]
    simp only [List.getElem?_cons_succ]

theorem shorts_length : ∀ (b : Bytes), (shorts b).length = b.length / 2
  | [] => rfl
  | [_] => by simp [shorts]
  | x :: y :: r => by simp only [shorts, List.length_cons, shorts_length r]; omega

/-- Writing one cell. -/
theorem cellAt_write {m : Stream} {b : Bytes} (j k : Nat) (hp : m.pos = 2 * j) (hb : b.length = 2) :
    cellAt (m.write b).data k = if k = j then fromLeSigned b else cellAt m.data k := by
  have hne : b ≠ [] := fun e => by simp [e] at hb
  have key : ∀ x, ((m.write b).data[x]?).getD 0 = if 2 * j ≤ x ∧ x < 2 * j + 2 then (b[x - 2 * j]?).getD 0 else (m.data[x]?).getD 0 := by
    intro x
    rw [Stream.write_get, if_neg hne, hp, hb]
    by_cases h1 : x < 2 * j
    · have h3 : ¬ (2 * j ≤ x ∧ x < 2 * j + 2) := by omega
      rw [if_pos h1, if_neg h3]
      by_cases h2 : x < m.data.length
      · rw [if_pos h2]
      · rw [if_neg h2, List.getElem?_eq_none (by omega)]
        rfl
    · rw [if_neg h1]
      by_cases h2 : x < 2 * j + 2
      · rw [if_pos h2, if_pos ⟨by omega, h2⟩]
      · rw [if_neg h2, if_neg (by omega)]
  unfold cellAt
  rw [key, key]
  by_cases h : k = j
  · subst h
    rw [if_pos rfl, if_pos ⟨by omega, by omega⟩, if_pos ⟨by omega, by omega⟩]
    rw [show 2 * k - 2 * k = 0 by omega, show 2 * k + 1 - 2 * k = 1 by omega]
    match b, hb with
    | [x, y], _ => rfl
  · rw [if_neg h, if_neg (by omega), if_neg (by omega)]

theorem pyInts_three {ws : List PStr} {l r c : Int} (h : pyInts ws = .ok [l, r, c]) :
    ∃ a b d, ws = [a, b, d] ∧ pyInt a = .ok l ∧ pyInt b = .ok r ∧ pyInt d = .ok c := by
  match ws with
  | [] => cases h
  | [a] =>
    unfold pyInts at h
    obtain ⟨_, _, h⟩ := bind_ok h
    obtain ⟨_, h2, h⟩ := bind_ok h
    cases h2; cases h
  | [a, b] =>
    unfold pyInts at h
    obtain ⟨_, _, h⟩ := bind_ok h
    obtain ⟨_, h2, h⟩ := bind_ok h
    unfold pyInts at h2
    obtain ⟨_, _, h2⟩ := bind_ok h2
    obtain ⟨_, h3, h2⟩ := bind_ok h2
    cases h3; cases h2; cases h
  | [a, b, d] =>
    unfold pyInts at h
    obtain ⟨_, e1, h⟩ := bind_ok h
    obtain ⟨_, h2, h⟩ := bind_ok h
    unfold pyInts at h2
    obtain ⟨_, e2, h2⟩ := bind_ok h2
    obtain ⟨_, h3, h2⟩ := bind_ok h2
    unfold pyInts at h3
    obtain ⟨_, e3, h3⟩ := bind_ok h3
    obtain ⟨_, h4, h3⟩ := bind_ok h3
    cases h4; cases h3; cases h2; cases h
    exact ⟨a, b, d, rfl, e1, e2, e3⟩
  | a :: b :: d :: f :: ws =>
    unfold pyInts at h
    obtain ⟨_, _, h⟩ := bind_ok h
    obtain ⟨_, h2, h⟩ := bind_ok h
    unfold pyInts at h2
    obtain ⟨_, _, h2⟩ := bind_ok h2
    obtain ⟨_, h3, h2⟩ := bind_ok h2
    unfold pyInts at h3
    obtain ⟨_, _, h3⟩ := bind_ok h3
    obtain ⟨_, h4, h3⟩ := bind_ok h3
    unfold pyInts at h4
    obtain ⟨_, _, h4⟩ := bind_ok h4
    obtain ⟨_, h5, h4⟩ := bind_ok h4
    cases h4; cases h3; cases h2; cases h

theorem lastCost_cons (e : Int × Int × Int) (es : List (Int × Int × Int)) (l r : Int)
    (h : ∃ x ∈ es, x.1 = l ∧ x.2.1 = r) : lastCost (e :: es) l r = lastCost es l r := by
  obtain ⟨x, hx, h1, h2⟩ := h
  unfold lastCost
  have hne : es.filter (fun e => decide (e.1 = l) && decide (e.2.1 = r)) ≠ [] := by
    intro h0
    have : x ∈ es.filter (fun e => decide (e.1 = l) && decide (e.2.1 = r)) := List.mem_filter.2 ⟨hx, by simp [h1, h2]⟩
    rw [h0] at this; simp at this
  have : ((e :: es).filter (fun e => decide (e.1 = l) && decide (e.2.1 = r))).getLast? =
      (es.filter (fun e => decide (e.1 = l) && decide (e.2.1 = r))).getLast? := by
    rw [List.filter_cons]
    split
    · rw [List.getLast?_cons]
      cases hh : (es.filter (fun e => decide (e.1 = l) && decide (e.2.1 = r))).getLast? with
      | none => exact absurd (List.getLast?_eq_none_iff.1 hh) hne
      | some y => rfl
    · rfl
  rw [this]

theorem lastCost_none (es : List (Int × Int × Int)) (l r : Int) (h : ¬ ∃ x ∈ es, x.1 = l ∧ x.2.1 = r) : lastCost es l r = 0 := by
  unfold lastCost
  have : es.filter (fun e => decide (e.1 = l) && decide (e.2.1 = r)) = [] := by
    rw [List.filter_eq_nil_iff]
    intro a ha hc
    simp only [Bool.and_eq_true, decide_eq_true_eq] at hc
    exact h ⟨a, ha, hc⟩
  rw [this]; rfl

/-- The cells after the lines of a definition whose entries are in range. -/
theorem matrixLines_ok {n : Nat} : ∀ {lines : List PStr} {m m' : Stream}, matrixLines n m lines = .ok m' → m.pos = 0 →
    (∀ e ∈ lines.filterMap matrixEntry, (0 ≤ e.1 ∧ e.1 < n) ∧ 0 ≤ e.2.1 ∧ e.2.1 < n) → m.data.length ≤ 2 * n * n →
    m'.pos = 0 ∧ m'.data.length ≤ 2 * n * n ∧ m.data.length ≤ m'.data.length ∧
    (∀ l r : Nat, l < n → r < n → cellAt m'.data (l + n * r) =
      if ∃ x ∈ lines.filterMap matrixEntry, x.1 = (l : Int) ∧ x.2.1 = (r : Int) then lastCost (lines.filterMap matrixEntry) l r
      else cellAt m.data (l + n * r)) ∧
    (∀ e ∈ lines.filterMap matrixEntry, 2 * (e.1.toNat + n * e.2.1.toNat) + 2 ≤ m'.data.length) := by
  intro lines
  induction lines with
  | nil =>
    intro m m' h hp _ hl
    cases h
    exact ⟨hp, hl, Nat.le_refl _, by simp, by simp⟩
  | cons line lines ih =>
    intro m m' h hp hr hl
    unfold matrixLines at h
    by_cases hc : (strip line).isEmpty ∨ (strip line).head? = some 35
    · rw [if_pos hc] at h
      have he : matrixEntry line = none := by
        unfold matrixEntry
        rw [if_pos]
        rcases hc with hc | hc
        · left; simpa using hc
        · right; exact hc
      rw [List.filterMap_cons_none he] at hr ⊢
      exact ih h hp hr hl
    · rw [if_neg hc] at h
      by_cases h3 : (splitWs (strip line)).length < 3
      · rw [if_pos h3] at h
        have he : matrixEntry line = none := by
          unfold matrixEntry
          split
          · rfl
          · split
            · rename_i h4; rw [h4] at h3; simp at h3
            · rfl
        rw [List.filterMap_cons_none he] at hr ⊢
        exact ih h hp hr hl
      · rw [if_neg h3] at h
        obtain ⟨vs, hvs, h⟩ := bind_ok h
        split at h
        · rename_i l r cost
          obtain ⟨m1, hm1, h⟩ := bind_ok h
          obtain ⟨b, hb, h⟩ := bind_ok h
          obtain ⟨m2, hm2, hrest⟩ := bind_ok h
          obtain ⟨a', b', c', hw, e1, e2, e3⟩ := pyInts_three hvs
          have he : matrixEntry line = some (l, r, cost) := by
            unfold matrixEntry
            rw [if_neg (by intro hx; apply hc; rcases hx with hx | hx; · left; simp [hx]
                           · right; exact hx)]
            rw [hw]
            simp only [e1, e2, e3]
          rw [List.filterMap_cons_some he] at hr ⊢
          obtain ⟨⟨l0, l1⟩, r0, r1⟩ := hr (l, r, cost) (by simp)
          dsimp only at l0 l1 r0 r1
          obtain ⟨l', rfl⟩ := Int.eq_ofNat_of_zero_le l0
          obtain ⟨r', rfl⟩ := Int.eq_ofNat_of_zero_le r0
          have l1' : l' < n := by omega
          have r1' : r' < n := by omega
          have hnr : (n : Int) * (r' : Int) = ((n * r' : Nat) : Int) := by push_cast; rfl
          have hidx : l' + n * r' + 1 ≤ n * n := by
            have : n * (r' + 1) ≤ n * n := Nat.mul_le_mul_left n r1'
            rw [Nat.mul_add] at this
            omega
          unfold Stream.seek at hm1
          rw [hnr] at hm1
          rw [if_neg (by omega)] at hm1
          injection hm1 with hm1
          have hp1 : m1.pos = 2 * (l' + n * r') := by rw [← hm1]; dsimp only; omega
          have hd1 : m1.data = m.data := by rw [← hm1]
          unfold Stream.seek at hm2
          rw [hp] at hm2
          rw [if_neg (by omega)] at hm2
          injection hm2 with hm2
          have hp2 : m2.pos = 0 := by rw [← hm2]; rfl
          have hd2 : m2.data = (m1.write b).data := by rw [← hm2]
          obtain ⟨b1, _, b3, _⟩ := writeInt_short hb
          have hlen : m2.data.length = max m.data.length (2 * (l' + n * r') + 2) := by
            rw [hd2, Stream.write_length, if_neg (by intro e; simp [e] at b1), hd1, hp1, b1]
          have hnn : 2 * n * n = 2 * (n * n) := Nat.mul_assoc _ _ _
          obtain ⟨i1, i2, i3, i4, i5⟩ := ih hrest hp2 (fun e he => hr e (by simp [he])) (by omega)
          refine ⟨i1, i2, by omega, ?_, ?_⟩
          · intro l r hl' hr'
            rw [i4 l r hl' hr']
            by_cases hex : ∃ x ∈ lines.filterMap matrixEntry, x.1 = (l : Int) ∧ x.2.1 = (r : Int)
            · rw [if_pos hex, if_pos (by obtain ⟨x, h1, h2⟩ := hex; exact ⟨x, by simp [h1], h2⟩), lastCost_cons _ _ _ _ hex]
            · rw [if_neg hex, hd2, cellAt_write (l' + n * r') _ hp1 b1, hd1]
              by_cases heq : l = l' ∧ r = r'
              · obtain ⟨rfl, rfl⟩ := heq
                rw [if_pos rfl, if_pos ⟨_, List.mem_cons_self, rfl, rfl⟩, b3]
                unfold lastCost
                have hnil : (lines.filterMap matrixEntry).filter (fun e => decide (e.1 = (l : Int)) && decide (e.2.1 = (r : Int))) = [] := by
                  rw [List.filter_eq_nil_iff]
                  intro a ha hcc
                  simp only [Bool.and_eq_true, decide_eq_true_eq] at hcc
                  exact hex ⟨a, ha, hcc⟩
                rw [List.filter_cons_of_pos (by simp), hnil]
                rfl
              · rw [if_neg, if_neg]
                · rintro ⟨x, hx, hx1, hx2⟩
                  rcases List.mem_cons.1 hx with rfl | hx
                  · dsimp only at hx1 hx2
                    exact heq ⟨by omega, by omega⟩
                  · exact hex ⟨x, hx, hx1, hx2⟩
                · intro hc'
                  apply heq
                  have hn0 : 0 < n := by omega
                  have h1 : (l + n * r) % n = (l' + n * r') % n := by rw [hc']
                  rw [Nat.add_mul_mod_self_left, Nat.add_mul_mod_self_left, Nat.mod_eq_of_lt hl', Nat.mod_eq_of_lt l1'] at h1
                  refine ⟨h1, ?_⟩
                  subst h1
                  exact Nat.eq_of_mul_eq_mul_left hn0 (by omega)
          · intro e hee
            rcases List.mem_cons.1 hee with rfl | hee
            · simp only [Int.toNat_natCast]; omega
            · exact i5 e hee
        · cases h

end Sudachi
