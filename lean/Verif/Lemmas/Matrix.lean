import Verif.Lemmas.Load

/-!
# Matrices that need not be square
-/

namespace Sudachi

/-- The cells after the lines of a definition whose entries are in range, `n` left ids and `p` right ids. -/
theorem matrixLines_rect {n p : Nat} : ∀ {lines : List PStr} {m m' : Stream}, matrixLines n m lines = .ok m' → m.pos = 0 →
    (∀ e ∈ lines.filterMap matrixEntry, (0 ≤ e.1 ∧ e.1 < n) ∧ 0 ≤ e.2.1 ∧ e.2.1 < p) → m.data.length ≤ 2 * n * p →
    m'.pos = 0 ∧ m'.data.length ≤ 2 * n * p ∧ m.data.length ≤ m'.data.length ∧
    (∀ l r : Nat, l < n → r < p → cellAt m'.data (l + n * r) =
      if ∃ x ∈ lines.filterMap matrixEntry, x.1 = (l : Int) ∧ x.2.1 = (r : Int) then lastCost (lines.filterMap matrixEntry) l r
      else cellAt m.data (l + n * r)) ∧
    (∀ e ∈ lines.filterMap matrixEntry, 2 * (e.1.toNat + n * e.2.1.toNat) + 2 ≤ m'.data.length) := by
  intro lines
  induction lines with
  | nil =>
    intro m m' h hp _ hl
    cases h
    exact ⟨hp, hl, Nat.le_refl _, by simp, by simp⟩
  | cons line lines ih =>
    intro m m' h hp hr hl
    unfold matrixLines at h
    by_cases hc : (strip line).isEmpty ∨ (strip line).head? = some 35
    · rw [if_pos hc] at h
      have he : matrixEntry line = none := by
        unfold matrixEntry
        rw [if_pos]
        rcases hc with hc | hc
        · left; simpa using hc
        · right; exact hc
      rw [List.filterMap_cons_none he] at hr ⊢
      exact ih h hp hr hl
    · rw [if_neg hc] at h
      by_cases h3 : (splitWs (strip line)).length < 3
      · rw [if_pos h3] at h
        have he : matrixEntry line = none := by
          unfold matrixEntry
          split
          · rfl
          · split
            · rename_i h4; rw [h4] at h3; simp at h3
            · rfl
        rw [List.filterMap_cons_none he] at hr ⊢
        exact ih h hp hr hl
      · rw [if_neg h3] at h
        obtain ⟨vs, hvs, h⟩ := bind_ok h
        split at h
        · rename_i l r cost
          obtain ⟨m1, hm1, h⟩ := bind_ok h
          obtain ⟨b, hb, h⟩ := bind_ok h
          obtain ⟨m2, hm2, hrest⟩ := bind_ok h
          obtain ⟨a', b', c', hw, e1, e2, e3⟩ := pyInts_three hvs
          have he : matrixEntry line = some (l, r, cost) := by
            unfold matrixEntry
            rw [if_neg (by intro hx; apply hc; rcases hx with hx | hx; · left; simp [hx]
                           · right; exact hx)]
            rw [hw]
            simp only [e1, e2, e3]
          rw [List.filterMap_cons_some he] at hr ⊢
          obtain ⟨⟨l0, l1⟩, r0, r1⟩ := hr (l, r, cost) (by simp)
          dsimp only at l0 l1 r0 r1
          obtain ⟨l', rfl⟩ := Int.eq_ofNat_of_zero_le l0
          obtain ⟨r', rfl⟩ := Int.eq_ofNat_of_zero_le r0
          have l1' : l' < n := by omega
          have r1' : r' < p := by omega
          have hnr : (n : Int) * (r' : Int) = ((n * r' : Nat) : Int) := by push_cast; rfl
          have hidx : l' + n * r' + 1 ≤ n * p := by
            have : n * (r' + 1) ≤ n * p := Nat.mul_le_mul_left n r1'
            rw [Nat.mul_add] at this
            omega
          unfold Stream.seek at hm1
          rw [hnr] at hm1
          rw [if_neg (by omega)] at hm1
          injection hm1 with hm1
          have hp1 : m1.pos = 2 * (l' + n * r') := by rw [← hm1]; dsimp only; omega
          have hd1 : m1.data = m.data := by rw [← hm1]
          unfold Stream.seek at hm2
          rw [hp] at hm2
          rw [if_neg (by omega)] at hm2
          injection hm2 with hm2
          have hp2 : m2.pos = 0 := by rw [← hm2]; rfl
          have hd2 : m2.data = (m1.write b).data := by rw [← hm2]
          obtain ⟨b1, _, b3, _⟩ := writeInt_short hb
          have hlen : m2.data.length = max m.data.length (2 * (l' + n * r') + 2) := by
            rw [hd2, Stream.write_length, if_neg (by intro e; simp [e] at b1), hd1, hp1, b1]
          have hnn : 2 * n * p = 2 * (n * p) := Nat.mul_assoc _ _ _
          obtain ⟨i1, i2, i3, i4, i5⟩ := ih hrest hp2 (fun e he => hr e (by simp [he])) (by omega)
          refine ⟨i1, i2, by omega, ?_, ?_⟩
          · intro l r hl' hr'
            rw [i4 l r hl' hr']
            by_cases hex : ∃ x ∈ lines.filterMap matrixEntry, x.1 = (l : Int) ∧ x.2.1 = (r : Int)
            · rw [if_pos hex, if_pos (by obtain ⟨x, h1, h2⟩ := hex; exact ⟨x, by simp [h1], h2⟩), lastCost_cons _ _ _ _ hex]
            · rw [if_neg hex, hd2, cellAt_write (l' + n * r') _ hp1 b1, hd1]
              by_cases heq : l = l' ∧ r = r'
              · obtain ⟨rfl, rfl⟩ := heq
                rw [if_pos rfl, if_pos ⟨_, List.mem_cons_self, rfl, rfl⟩, b3]
                unfold lastCost
                have hnil : (lines.filterMap matrixEntry).filter (fun e => decide (e.1 = (l : Int)) && decide (e.2.1 = (r : Int))) = [] := by
                  rw [List.filter_eq_nil_iff]
                  intro a ha hcc
                  simp only [Bool.and_eq_true, decide_eq_true_eq] at hcc
                  exact hex ⟨a, ha, hcc⟩
                rw [List.filter_cons_of_pos (by simp), hnil]
                rfl
              · rw [if_neg, if_neg]
                · rintro ⟨x, hx, hx1, hx2⟩
                  rcases List.mem_cons.1 hx with rfl | hx
                  · dsimp only at hx1 hx2
                    exact heq ⟨by omega, by omega⟩
                  · exact hex ⟨x, hx, hx1, hx2⟩
                · intro hc'
                  apply heq
                  have hn0 : 0 < n := by omega
                  have h1 : (l + n * r) % n = (l' + n * r') % n := by rw [hc']
                  rw [Nat.add_mul_mod_self_left, Nat.add_mul_mod_self_left, Nat.mod_eq_of_lt hl', Nat.mod_eq_of_lt l1'] at h1
                  refine ⟨h1, ?_⟩
                  subst h1
                  exact Nat.eq_of_mul_eq_mul_left hn0 (by omega)
          · intro e hee
            rcases List.mem_cons.1 hee with rfl | hee
            · simp only [Int.toNat_natCast]; omega
            · exact i5 e hee
        · cases h

/-- The cells written for a matrix whose last cell is listed. -/
theorem convertMatrix_rect {n p : Nat} {header : PStr} {lines : List PStr} {sizes cells : Bytes}
    (hh : pyInts (splitWs (strip header)) = .ok [(n : Int), (p : Int)]) (hm : convertMatrix header lines = .ok (sizes, cells))
    (hr : ∀ e ∈ lines.filterMap matrixEntry, (0 ≤ e.1 ∧ e.1 < n) ∧ 0 ≤ e.2.1 ∧ e.2.1 < p)
    (hlast : ∃ e ∈ lines.filterMap matrixEntry, e.1 = (n : Int) - 1 ∧ e.2.1 = (p : Int) - 1) :
    ∃ a c, writeInt n .short = .ok a ∧ writeInt p .short = .ok c ∧ sizes = a ++ c ∧ cells.length = 2 * n * p ∧
      ∀ l r : Nat, l < n → r < p → cellAt cells (l + n * r) = lastCost (lines.filterMap matrixEntry) l r := by
  unfold convertMatrix at hm
  split at hm
  · cases hm
  · rw [hh] at hm
    obtain ⟨vs, hvs, hm⟩ := bind_ok hm
    cases hvs
    dsimp only at hm
    obtain ⟨a, h2, hm⟩ := bind_ok hm
    obtain ⟨c, h3, hm⟩ := bind_ok hm
    obtain ⟨m, h4, hm⟩ := bind_ok hm
    cases hm
    obtain ⟨i1, i2, _, i4, i5⟩ := matrixLines_rect h4 rfl hr (by simp [Stream.empty])
    have hread : m.read = m.data := by unfold Stream.read; rw [i1]; rfl
    obtain ⟨e, he, e1, e2⟩ := hlast
    have h6 := i5 e he
    have h7 := hr e he
    rw [e1, e2] at h6
    have hn : 0 < n := by omega
    have hp : 0 < p := by omega
    have hnn : ((n : Int) - 1).toNat = n - 1 := by omega
    have hpp : ((p : Int) - 1).toNat = p - 1 := by omega
    rw [hnn, hpp] at h6
    have hsq : (n - 1) + n * (p - 1) + 1 = n * p := by
      obtain ⟨k, rfl⟩ : ∃ k, p = k + 1 := ⟨p - 1, by omega⟩
      rw [Nat.add_sub_cancel, Nat.mul_add]
      omega
    have hmul : 2 * n * p = 2 * (n * p) := Nat.mul_assoc _ _ _
    rw [hread]
    refine ⟨a, c, h2, h3, rfl, by omega, ?_⟩
    intro l r hl hr'
    rw [i4 l r hl hr']
    split
    · rfl
    · rename_i hex
      rw [lastCost_none _ _ _ hex]
      rfl

end Sudachi
