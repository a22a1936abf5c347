import Verif.Lemmas.Numeric
namespace Sudachi

theorem charToNum_spec {c : Nat} {num : Int} (h : charToNum c = some num) :
    (∃ d : Nat, d ≤ 9 ∧ num = d ∧ digitTable.lookup c = some d) ∨
    (-3 ≤ num ∧ num < 0 ∧ ∃ e : Nat, num = -(e : Int) ∧ digitTable.lookup c = none ∧ smallUnits.lookup c = some e) ∨
    (num ≤ -4 ∧ ∃ e : Nat, num = -(e : Int) ∧ digitTable.lookup c = none ∧ smallUnits.lookup c = none ∧
      largeUnits.lookup c = some e) := by
  unfold charToNum at h
  split at h
  · rename_i hc
    have : c = 48 ∨ c = 49 ∨ c = 50 ∨ c = 51 ∨ c = 52 ∨ c = 53 ∨ c = 54 ∨ c = 55 ∨ c = 56 ∨ c = 57 := by omega
    injection h with h
    left
    refine ⟨c - 48, by omega, by omega, ?_⟩
    rcases this with rfl | rfl | rfl | rfl | rfl | rfl | rfl | rfl | rfl | rfl <;> decide
  · split at h <;> first
      | (injection h with h; subst h; left; exact ⟨_, by decide, rfl, by decide⟩)
      | (injection h with h; subst h; left; exact ⟨0, by decide, rfl, by decide⟩)
      | (injection h with h; subst h; left; exact ⟨1, by decide, rfl, by decide⟩)
      | (injection h with h; subst h; left; exact ⟨2, by decide, rfl, by decide⟩)
      | (injection h with h; subst h; left; exact ⟨3, by decide, rfl, by decide⟩)
      | (injection h with h; subst h; left; exact ⟨4, by decide, rfl, by decide⟩)
      | (injection h with h; subst h; left; exact ⟨5, by decide, rfl, by decide⟩)
      | (injection h with h; subst h; left; exact ⟨6, by decide, rfl, by decide⟩)
      | (injection h with h; subst h; left; exact ⟨7, by decide, rfl, by decide⟩)
      | (injection h with h; subst h; left; exact ⟨8, by decide, rfl, by decide⟩)
      | (injection h with h; subst h; left; exact ⟨9, by decide, rfl, by decide⟩)
      | (injection h with h; subst h; right; left; exact ⟨by decide, by decide, 1, rfl, by decide, by decide⟩)
      | (injection h with h; subst h; right; left; exact ⟨by decide, by decide, 2, rfl, by decide, by decide⟩)
      | (injection h with h; subst h; right; left; exact ⟨by decide, by decide, 3, rfl, by decide, by decide⟩)
      | (injection h with h; subst h; right; right; exact ⟨by decide, 4, rfl, by decide, by decide, by decide⟩)
      | (injection h with h; subst h; right; right; exact ⟨by decide, 8, rfl, by decide, by decide, by decide⟩)
      | (injection h with h; subst h; right; right; exact ⟨by decide, 12, rfl, by decide, by decide, by decide⟩)
      | (cases h)

open SNum

/-- The parser and the calculator agree. -/
structure PInv (p : NumParser) (q : Calc) : Prop where
  total : p.total.WF
  totalV : p.total.val = q.total
  sub : p.subTotal.WF
  subV : p.subTotal.val = q.sub
  tmp : p.tmp.WF
  scale : p.tmp.scale = 0
  first : p.firstDigit = p.tmp.isZero
  cur : q.cur = if p.tmp.isZero then none else some p.tmp.val
  frac : q.frac = if p.tmp.point < 0 then none else some ((p.tmp.pos : Int) - p.tmp.point).toNat

theorem PInv.start : PInv .init .start :=
  ⟨.empty, val_empty, .empty, val_empty, .empty, rfl, rfl, rfl, rfl⟩

theorem PInv.curD {p : NumParser} {q : Calc} (h : PInv p q) : q.cur.getD 0 = p.tmp.val := by
  rw [h.cur]
  split
  · rename_i hz; rw [h.tmp.zero_val hz]; rfl
  · rfl

theorem PInv.point {p p' : NumParser} {q : Calc} (h : PInv p q) (hp : p.appendPoint = (p', true)) :
    PInv p' { q with frac := some 0 } := by
  unfold NumParser.appendPoint at hp
  dsimp only at hp
  split at hp
  · cases hp
  · split at hp
    · cases hp
    · rename_i hf _
      split at hp
      · cases hp
      · rename_i tmp hsp
        injection hp with hp _
        subst hp
        unfold setPoint at hsp
        split at hsp
        · rename_i hc
          injection hsp with hsp _
          subst hsp
          have hz : p.tmp.isZero = false := by rw [← h.first]; simpa using hf
          have hpos : p.tmp.pos ≠ 0 := by simpa [isZero] using hz
          refine ⟨h.total, h.totalV, h.sub, h.subV, ⟨h.tmp.pos, h.tmp.digits, h.tmp.scale, .inr ⟨?_, ?_⟩⟩, h.scale,
            h.first, ?_, ?_⟩
          · simp; omega
          · simp
          · dsimp only
            rw [h.cur]
            have : ({ p.tmp with point := (p.tmp.pos : Int) } : SNum).isZero = p.tmp.isZero := rfl
            rw [this, hz]
            simp only [val, fracLen, Bool.false_eq_true, if_false]
            rw [if_pos hc.2, if_neg (by omega)]
            simp
          · dsimp only
            rw [if_neg (by omega)]
            simp
        · cases hsp

theorem PInv.comma {p p' : NumParser} {q : Calc} (h : PInv p q) (hp : p.appendComma = (p', true)) : PInv p' q := by
  unfold NumParser.appendComma at hp
  split at hp
  · cases hp
  · injection hp with hp _
    subst hp
    exact ⟨h.total, h.totalV, h.sub, h.subV, h.tmp, h.scale, h.first, h.cur, h.frac⟩

theorem PInv.shift {n : SNum} (h : n.WF) (e : Nat) : (n.shiftScale e).WF ∧ (n.shiftScale e).isZero = false ∧
    (n.shiftScale e).val = (if n.isZero then p10 n.scale else n.val) * 10 ^ e := by
  unfold shiftScale
  dsimp only
  split
  · rename_i hz
    obtain ⟨z1, z2, z3⟩ := h.zero_sig hz
    rw [h.write_eq, z1, z2]
    have := h.scale
    refine ⟨⟨by simp, by intro c hc; simp at hc; omega, by simp; omega, .inl z3⟩, by simp [isZero], ?_⟩
    simp only [val, fracLen, z3, List.nil_append]
    rw [if_pos (by omega), show n.scale + (e : Int) - 0 = n.scale + e by omega, p10_add, p10_nat]
    rw [show digitsValue [49] = 1 by exact digitsValue_single 1]
    grind
  · rename_i hz
    refine ⟨⟨h.pos, h.digits, by have := h.scale; simp; omega, h.point⟩, by simpa [isZero] using hz, ?_⟩
    simp only [val, fracLen]
    rw [show n.scale + (e : Int) - (if n.point < 0 then 0 else (n.pos : Int) - n.point) =
      (n.scale - (if n.point < 0 then 0 else (n.pos : Int) - n.point)) + e by omega, p10_add, p10_nat]
    grind

theorem PInv.small {p p' : NumParser} {q : Calc} (h : PInv p q) {e : Nat} (hp : p.appendSmall e = (p', true)) :
    PInv p' { q with sub := q.sub + q.cur.getD 1 * 10 ^ e, cur := none, frac := none } := by
  unfold NumParser.appendSmall at hp
  dsimp only at hp
  obtain ⟨w, _, v⟩ := PInv.shift h.tmp e
  split at hp
  · cases hp
  · rename_i sub tmp ha
    injection hp with hp _
    subst hp
    obtain ⟨_, _, hh⟩ := h.sub.add w ha
    obtain ⟨ws, vs, _⟩ := hh rfl
    refine ⟨h.total, h.totalV, ws, ?_, .empty, rfl, rfl, rfl, rfl⟩
    dsimp only
    rw [vs, v, h.subV, h.cur, h.scale]
    congr 1
    split
    · rw [p10_zero]; rfl
    · rfl

theorem PInv.large {p p' : NumParser} {q : Calc} (h : PInv p q) {e : Nat} (hp : p.appendLarge e = (p', true)) :
    PInv p' ⟨q.total + (q.sub + q.cur.getD 0) * 10 ^ e, 0, none, none⟩ := by
  unfold NumParser.appendLarge at hp
  split at hp
  · cases hp
  · rename_i sub tmp ha
    obtain ⟨_, _, hh⟩ := h.sub.add h.tmp ha
    obtain ⟨ws, vs, _⟩ := hh rfl
    split at hp
    · cases hp
    · rename_i hnz
      dsimp only at hp
      obtain ⟨w, _, v⟩ := PInv.shift ws e
      split at hp
      · cases hp
      · rename_i total sub' ha'
        injection hp with hp _
        subst hp
        obtain ⟨_, _, hh⟩ := h.total.add w ha'
        obtain ⟨wt, vt, _⟩ := hh rfl
        refine ⟨wt, ?_, .empty, val_empty, .empty, rfl, rfl, rfl, rfl⟩
        dsimp only
        rw [vt, v, if_neg hnz, vs, h.totalV, h.subV, h.curD]

theorem PInv.digit {p : NumParser} {q : Calc} (h : PInv p q) {d : Nat} (hd : d ≤ 9) :
    ∀ p', p' = { p with tmp := p.tmp.append d, firstDigit := false, digitLength := p.digitLength + 1, hangingPoint := false } →
    ∀ q', q' = (match q.frac with
      | none => { q with cur := some (q.cur.getD 0 * 10 + d) }
      | some k => { q with cur := some (q.cur.getD 0 + d / 10 ^ (k + 1)), frac := some (k + 1) }) →
    PInv p' q' := by
  rintro p' rfl q' rfl
  have hw := h.tmp
  have hap : p.tmp.append d = 
      ⟨p.tmp.sig ++ [48 + d], p.tmp.pos + 1, p.tmp.scale, p.tmp.point, if d ≠ 0 then false else p.tmp.allZero⟩ := by
    unfold SNum.append
    have : ({ p.tmp with allZero := (if d ≠ 0 then false else p.tmp.allZero) } : SNum).WF :=
      ⟨hw.pos, hw.digits, hw.scale, hw.point⟩
    rw [this.write_eq]
    rfl
  have hpos := hw.pos
  have wf : (p.tmp.append d).WF := by
    rw [hap]
    refine ⟨by simp; omega, hw.digits.append (by intro c hc; simp at hc; omega), hw.scale, ?_⟩
    rcases hw.point with h' | h'
    · exact .inl h'
    · right; dsimp only; omega
  have hz : (p.tmp.append d).isZero = false := by rw [hap]; simp [isZero]
  have hval : digitsValue (p.tmp.append d).sig = digitsValue p.tmp.sig * 10 + d := by
    rw [hap]; dsimp only
    rw [digitsValue_append, digitsValue_single]; simp [Rat.pow_succ, Rat.pow_zero]
  have hs := h.scale
  rw [h.frac]
  by_cases hp : p.tmp.point < 0
  · rw [if_pos hp]
    refine ⟨h.total, h.totalV, h.sub, h.subV, wf, by rw [hap]; exact hs, by rw [hz], ?_, ?_⟩
    · dsimp only
      rw [hz, h.curD]
      simp only [val, hval, Bool.false_eq_true, if_false]
      rw [hap]
      simp only [fracLen, if_pos hp, hs]
      rw [show (0 : Int) - 0 = 0 by rfl, p10_zero]
      congr 1; grind
    · dsimp only
      rw [hap]; simp only [if_pos hp]
  · rw [if_neg hp]
    have hpt := hw.point
    refine ⟨h.total, h.totalV, h.sub, h.subV, wf, by rw [hap]; exact hs, by rw [hz], ?_, ?_⟩
    · dsimp only
      rw [hz, h.curD]
      simp only [val, hval, Bool.false_eq_true, if_false]
      rw [hap]
      simp only [fracLen, if_neg hp, hs]
      obtain ⟨k, hk⟩ : ∃ k : Nat, (p.tmp.pos : Int) - p.tmp.point = k :=
        ⟨((p.tmp.pos : Int) - p.tmp.point).toNat, by omega⟩
      rw [hk, show (0 : Int) - k = -(k : Int) by omega, show (0 : Int) - (((p.tmp.pos + 1 : Nat) : Int) - p.tmp.point) = -((k + 1 : Nat) : Int) by omega,
        p10_negnat, p10_negnat, show ((k : Int)).toNat = k by omega, Rat.pow_succ]
      have := p10_nat_ne k
      generalize (10 : Rat) ^ k = y at *
      congr 1; grind
    · dsimp only
      rw [hap]; simp only [if_neg hp]
      congr 1; omega

theorem PInv.step {p p' : NumParser} {q : Calc} (h : PInv p q) {c : Nat} (hp : p.append c = (p', true)) :
    ∃ q', q.step c = some q' ∧ PInv p' q' := by
  unfold NumParser.append at hp
  unfold Calc.step
  by_cases h46 : c = 46
  · subst h46
    exact ⟨_, rfl, h.point hp⟩
  · rw [if_neg h46] at hp
    by_cases h44 : c = 44
    · subst h44
      exact ⟨_, rfl, h.comma hp⟩
    · rw [if_neg h44] at hp
      rw [if_neg h44, if_neg h46]
      split at hp
      · cases hp
      · rename_i num hn
        rcases charToNum_spec hn with ⟨d, hd, rfl, ht⟩ | ⟨h1, h2, e, rfl, ht, hts⟩ | ⟨h1, e, rfl, ht, hts, htl⟩
        · rw [if_neg (by omega), if_neg (by omega)] at hp
          injection hp with hp _
          rw [ht]
          dsimp only
          refine ⟨_, ?_, h.digit hd _ (by rw [← hp]; rfl) _ rfl⟩
          cases q.frac <;> rfl
        · rw [if_pos ⟨h1, h2⟩, Int.neg_neg] at hp
          rw [ht, hts]
          exact ⟨_, rfl, h.small hp⟩
        · rw [if_neg (by omega), if_pos h1, Int.neg_neg] at hp
          rw [ht, hts, htl]
          exact ⟨_, rfl, h.large hp⟩

theorem PInv.run {s : PStr} : ∀ {p p' : NumParser} {q : Calc}, PInv p q → p.appendAll s = (p', true) →
    ∃ q', q.run s = some q' ∧ PInv p' q' := by
  induction s with
  | nil =>
    intro p p' q h hp
    injection hp with hp _
    subst hp
    exact ⟨q, rfl, h⟩
  | cons c cs ih =>
    intro p p' q h hp
    unfold NumParser.appendAll at hp
    split at hp
    · rename_i p1 h1
      obtain ⟨q1, hq1, i1⟩ := h.step h1
      obtain ⟨q', hq', i'⟩ := ih i1 hp
      refine ⟨q', ?_, i'⟩
      show (q.step c).bind _ = _
      rw [hq1]; exact hq'
    · cases hp

theorem PInv.done {p p' : NumParser} {q : Calc} (h : PInv p q) (hp : p.done = (p', true)) :
    p'.total.WF ∧ p'.total.val = q.total + q.sub + q.cur.getD 0 := by
  unfold NumParser.done at hp
  split at hp
  rename_i p1 r1 he
  have hp' : p' = p1 ∧ r1 = true := by
    split at hp
    · cases hp
    · split at hp
      · cases hp
      · injection hp with a b
        exact ⟨a.symm, b⟩
  obtain ⟨rfl, rfl⟩ := hp'
  split at he
  · cases he
  · rename_i sub tmp ha
    obtain ⟨_, _, hh⟩ := h.sub.add h.tmp ha
    obtain ⟨ws, vs, _⟩ := hh rfl
    split at he
    rename_i total sub' r ha'
    injection he with he he2
    subst he he2
    obtain ⟨_, _, hh⟩ := h.total.add ws ha'
    obtain ⟨wt, vt, _⟩ := hh rfl
    refine ⟨wt, ?_⟩
    dsimp only
    rw [vt, vs, h.totalV, h.subV, h.curD]
    grind

/-! ### Writing the number out -/

theorem rstrip0_spec (b : PStr) : ∃ f k, b = f ++ List.replicate k 48 ∧ (∀ z, f.getLast? = some z → z ≠ 48) := by
  suffices h : ∀ r : PStr, ∃ f k, r.reverse = f ++ List.replicate k 48 ∧ (∀ z, f.getLast? = some z → z ≠ 48) by
    have := h b.reverse
    rwa [List.reverse_reverse] at this
  intro r
  induction r with
  | nil => exact ⟨[], 0, rfl, by intro z hz; simp at hz⟩
  | cons c r ih =>
    by_cases hc : c = 48
    · obtain ⟨f, k, h1, h2⟩ := ih
      refine ⟨f, k + 1, ?_, h2⟩
      rw [List.reverse_cons, h1, hc, List.replicate_succ', List.append_assoc]
    · refine ⟨(c :: r).reverse, 0, by simp, ?_⟩
      intro z hz
      simp at hz
      omega

theorem stripLoop_spec (x : PStr) (hx : x ≠ []) (hl : ∀ z, x.getLast? = some z → z ≠ 48) : ∀ k m,
    stripLoop (x ++ List.replicate (k + m) 48) (x.length + k) = .ok ((x.length : Int) - 1) := by
  intro k
  have hlen : 0 < x.length := List.length_pos_iff.mpr hx
  induction k with
  | zero =>
    intro m
    obtain ⟨j, hj⟩ : ∃ j, x.length = j + 1 := ⟨x.length - 1, by omega⟩
    rw [Nat.add_zero, hj]
    unfold stripLoop
    rw [List.getElem?_append_left (by omega)]
    have : x.getLast? = x[j]? := by rw [List.getLast?_eq_getElem?, hj]; rfl
    rw [← this]
    rw [if_neg]
    · simp
    · intro hh; exact hl _ hh rfl
  | succ k ih =>
    intro m
    rw [← Nat.add_assoc]
    unfold stripLoop
    have hg : (x ++ List.replicate (k + 1 + m) 48)[x.length + k]? = some 48 := by
      rw [List.getElem?_append_right (by omega), List.getElem?_replicate, if_pos (by omega)]
    rw [if_pos hg, if_neg (by omega)]
    have := ih (m + 1)
    rw [show k + (m + 1) = k + 1 + m by omega] at this
    exact this

theorem SNum.WF.str {n : SNum} (h : n.WF) :
    ∃ out, n.str.2 = .ok out ∧ IsNumeral out n.val ∧ Canonical out ∧
      (n.isZero = false → n.normalizeScale = n → n.scale = 0 → (n.point = -1 → out = n.sig) ∧
        ∀ a f z, n.sig = a ++ f → n.point = a.length → f.getLast? = some z → z ≠ 48 → out = a ++ 46 :: f) := by
  unfold SNum.str
  by_cases hz : n.isZero = true
  · rw [if_pos hz]
    refine ⟨[48], rfl, .inl ⟨by simp, by intro c hc; simp at hc; omega, ?_⟩, .inl ⟨by simp, by intro c hc; simp at hc; omega⟩,
      fun h' => by rw [hz] at h'; cases h'⟩
    rw [h.zero_val hz]
    exact (digitsValue_single 0).symm
  · rw [if_neg hz]
    obtain ⟨w, v, hsig, hpos, _, hcase⟩ := h.normalize
    have hp0 : n.pos ≠ 0 := by simpa [isZero] using hz
    rw [← v]
    generalize n.normalizeScale = m at *
    dsimp only
    have hmpos := w.pos
    have hne : m.sig ≠ [] := by intro hh; rw [hh] at hmpos; simp at hmpos; omega
    by_cases hs : m.scale > 0
    · rw [if_pos hs]
      unfold fillZero
      rw [if_pos hs, w.write_eq]
      have hpt : m.point = -1 := by
        rcases hcase with h' | h'
        · exact h'
        · omega
      have had : AllDigits (m.sig ++ List.replicate m.scale.toNat 48) := w.digits.append (AllDigits.zeros _)
      refine ⟨_, rfl, .inl ⟨by simp [hne], had, ?_⟩, .inl ⟨by simp [hne], had⟩, fun _ hm h0 => by rw [hm] at hs; omega⟩
      rw [digitsValue_append, digitsValue_zeros, List.length_replicate, ← p10_nat]
      simp only [val, fracLen, hpt]
      rw [if_pos (by omega), show ((m.scale.toNat : Nat) : Int) = m.scale - 0 by omega]
      grind
    · rw [if_neg hs]
      have hs0 : m.scale = 0 := by have := w.scale; omega
      by_cases hpt : m.point ≥ 0
      · rw [if_pos hpt]
        obtain ⟨_, hp1, hp2⟩ : m.scale = 0 ∧ 1 ≤ m.point ∧ m.point < m.pos := by
          rcases hcase with h' | h'
          · omega
          · exact h'
        obtain ⟨pt, hpte⟩ : ∃ k : Nat, m.point = k := ⟨m.point.toNat, by omega⟩
        -- the two halves
        generalize ha : m.sig.take pt = a
        generalize hb : m.sig.drop pt = b
        have hab : m.sig = a ++ b := by rw [← ha, ← hb, List.take_append_drop]
        have hla : a.length = pt := by rw [← ha, List.length_take]; omega
        have hlb : b.length = m.pos - pt := by rw [← hb, List.length_drop]; omega
        have hane : a ≠ [] := by intro hh; rw [hh] at hla; simp at hla; omega
        have hda : AllDigits a := fun c hc => w.digits c (by rw [hab]; exact List.mem_append_left _ hc)
        have hdb : AllDigits b := fun c hc => w.digits c (by rw [hab]; exact List.mem_append_right _ hc)
        have hins : m.insertSig m.point.toNat [46] = { m with sig := a ++ 46 :: b, pos := m.pos + 1 } := by
          rw [hpte]
          unfold insertSig
          dsimp only
          rw [show ((pt : Int)).toNat = pt by omega, hb]
          unfold write
          dsimp only
          have z1 : pt - m.sig.length = 0 := by omega
          rw [z1, ha]
          have e1 : (a ++ List.replicate 0 0 ++ [46] ++ m.sig.drop (pt + [46].length)) = (a ++ [46]) ++ m.sig.drop (pt + 1) := by simp
          rw [e1]
          have l1 : (a ++ [46]).length = pt + 1 := by simp [hla]
          rw [List.take_append_of_le_length (by simp [hla]), List.take_of_length_le (by simp [hla])]
          have z2 : pt + [46].length - (a ++ [46] ++ m.sig.drop (pt + 1)).length = 0 := by simp [hla]
          rw [z2]
          have z3 : (a ++ [46] ++ m.sig.drop (pt + 1)).drop (pt + [46].length + b.length) = [] := by
            apply List.drop_eq_nil_of_le
            simp [hla, hlb]; omega
          rw [z3]
          congr 1
          · simp
          · simp [hlb]; omega
        rw [hins]
        dsimp only
        rw [if_neg (by omega)]
        dsimp only
        -- stripping
        obtain ⟨f, k, hk, hlast⟩ := rstrip0_spec b
        have hx : a ++ 46 :: b = (a ++ 46 :: f) ++ List.replicate (k + 0) 48 := by rw [hk]; simp
        have hlx : m.pos + 1 = (a ++ 46 :: f).length + k := by
          have : b.length = f.length + k := by rw [hk]; simp
          simp [hla]; omega
        have hxl : ∀ z, (a ++ 46 :: f).getLast? = some z → z ≠ 48 := by
          intro z hz
          by_cases hf : f = []
          · subst hf; simp at hz; omega
          · have : (a ++ 46 :: f).getLast? = f.getLast? := by
              rw [List.getLast?_append, List.getLast?_cons]
              cases hff : f.getLast? with
              | none => exact absurd (List.getLast?_eq_none_iff.mp hff) hf
              | some y => simp
            exact hlast z (by rw [← this]; exact hz)
        have hstr : stripLoop (a ++ 46 :: b) (m.pos + 1) = .ok (((a ++ 46 :: f).length : Int) - 1) := by
          rw [hx, hlx]
          exact stripLoop_spec _ (by simp) hxl k 0
        rw [hstr]
        dsimp only
        have hnn : ¬ (((a ++ 46 :: f).length : Int) - 1 < 0) := by simp; omega
        rw [if_neg hnn]
        have et : (((a ++ 46 :: f).length : Int) - 1 + 1).toNat = (a ++ 46 :: f).length := by omega
        have ei : (((a ++ 46 :: f).length : Int) - 1).toNat = a.length + f.length := by simp; omega
        rw [et, ei]
        have htr : (SNum.truncate { m with sig := a ++ 46 :: b, pos := m.pos + 1 } (a ++ 46 :: f).length).sig = a ++ 46 :: f := by
          unfold truncate
          dsimp only
          rw [hx, List.take_append_of_le_length (by omega), List.take_of_length_le (by omega)]
        rw [htr]
        have hval : m.val = digitsValue a + digitsValue f / 10 ^ f.length := by
          simp only [val, fracLen]
          rw [if_neg (by omega), hs0, hpte, hab, hk, digitsValue_append, digitsValue_append, digitsValue_zeros]
          have : (0 : Int) - ((m.pos : Int) - pt) = -((f.length + k : Nat) : Int) := by
            have : b.length = f.length + k := by rw [hk]; simp
            omega
          rw [this, p10_negnat]
          simp only [List.length_append, List.length_replicate]
          rw [← p10_nat (f.length + k), Int.natCast_add, p10_add, p10_nat, p10_nat]
          have i1 := p10_nat_ne f.length
          have i2 := p10_nat_ne k
          generalize (10 : Rat) ^ f.length = y1 at *
          generalize (10 : Rat) ^ k = y2 at *
          grind
        -- if there is nothing to strip
        have hkey : ∀ {a' f' : PStr} {z}, m = n → n.sig = a' ++ f' → n.point = a'.length → f'.getLast? = some z → z ≠ 48 →
            a' = a ∧ f' = f := by
          intro a' f' z hm e1 e2 e3 e4
          rw [hm] at hab hpte
          have hl : a'.length = a.length := by omega
          have hh : a' = a ∧ f' = b := List.append_inj (by rw [← e1, ← hab]) hl
          refine ⟨hh.1, ?_⟩
          cases k with
          | zero => rw [hh.2, hk]; simp
          | succ k =>
            exfalso
            rw [hh.2, hk, List.replicate_succ', ← List.append_assoc, List.getLast?_append] at e3
            simp at e3
            omega
        by_cases hf : f = []
        · subst hf
          have hdot : (a ++ [46])[a.length + ([] : PStr).length]? = some 46 := by simp
          rw [if_pos hdot]
          refine ⟨a, ?_, .inl ⟨hane, hda, ?_⟩, .inl ⟨hane, hda⟩, fun _ hm _ => ⟨fun hh => by rw [hm] at hpt; omega, ?_⟩⟩
          · unfold truncate
            dsimp only
            simp
          · rw [hval]; simp [digitsValue]; grind
          · intro a' f' z e1 e2 e3 e4
            have := (hkey hm e1 e2 e3 e4).2
            rw [this] at e3
            simp at e3
        · have hdf : AllDigits f := fun c hc => hdb c (by rw [hk]; exact List.mem_append_left _ hc)
          have hdot : ¬ ((a ++ 46 :: f)[a.length + f.length]? = some 46) := by
            obtain ⟨j, hj⟩ : ∃ j, f.length = j + 1 := ⟨f.length - 1, by have := List.length_pos_iff.mpr hf; omega⟩
            rw [List.getElem?_append_right (by omega), hj, show a.length + (j + 1) - a.length = j + 1 by omega,
              List.getElem?_cons_succ]
            intro hh
            have := hdf 46 (List.mem_of_getElem? hh)
            omega
          rw [if_neg hdot]
          refine ⟨a ++ 46 :: f, by rw [← htr], .inr ⟨a, f, rfl, hane, hf, hda, hdf, hval⟩, .inr ⟨a, f, rfl, hane, hda, hdf, ?_⟩,
            fun _ hm _ => ⟨fun hh => by rw [hm] at hpt; omega, ?_⟩⟩
          rotate_left
          · intro a' f' z e1 e2 e3 e4
            obtain ⟨r1, r2⟩ := hkey hm e1 e2 e3 e4
            rw [r1, r2]
          exact ⟨f.getLast hf, List.getLast?_eq_some_getLast hf, hlast _ (List.getLast?_eq_some_getLast hf)⟩
      · rw [if_neg hpt]
        refine ⟨_, rfl, .inl ⟨hne, w.digits, ?_⟩, .inl ⟨hne, w.digits⟩, fun _ hm _ => ⟨fun _ => by rw [hm], ?_⟩⟩
        rotate_left
        · intro a f z _ e2 _ _
          rw [hm] at hpt
          omega
        simp only [val, fracLen]
        rw [if_pos (by omega), hs0, show (0 : Int) - 0 = 0 by rfl, p10_zero]
        grind

end Sudachi
