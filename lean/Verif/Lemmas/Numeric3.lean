import Verif.Lemmas.Numeric2
namespace Sudachi
namespace NumParser

/-- All characters and the end are accepted. -/
def accepts (p : NumParser) (s : PStr) : Bool :=
  match p.appendAll s with
  | (_, false) => false
  | (p, true) => p.done.2

theorem parseNumber_isSome (s : PStr) : (parseNumber s).isSome = init.accepts s := by
  unfold parseNumber accepts
  split
  · rename_i h; simp [h]
  · rename_i p h
    simp only [h]
    split
    · rename_i h2; simp [h2]
    · rename_i h2; simp [h2]

theorem charToNum_digit {c d : Nat} (h : digitTable.lookup c = some d) : charToNum c = some (d : Int) ∧ c ≠ 46 ∧ c ≠ 44 := by
  have hm : (c, d) ∈ digitTable := by
    have : ∀ (l : List (Nat × Nat)), l.lookup c = some d → (c, d) ∈ l := by
      intro l
      induction l with
      | nil => intro h; simp at h
      | cons x xs ih =>
        intro h
        obtain ⟨a, b⟩ := x
        rw [List.lookup_cons] at h
        split at h
        · rename_i heq
          have : c = a := by simpa using heq
          injection h with h
          subst this h
          simp
        · exact List.mem_cons_of_mem _ (ih h)
    exact this _ h
  simp only [digitTable, List.mem_cons, Prod.mk.injEq, List.not_mem_nil, or_false] at hm
  rcases hm with h | h | h | h | h | h | h | h | h | h | h | h | h | h | h | h | h | h | h | h <;>
    (obtain ⟨rfl, rfl⟩ := h; decide)

/-- The state when only digits and commas have been read. -/
structure Plain (p : NumParser) : Prop where
  total : p.total = .empty
  sub : p.subTotal = .empty
  hang : p.hangingPoint = false

/-- Reading digits. -/
theorem digits_run {g : PStr} (hg : ∀ c ∈ g, DigitChar c) : ∀ {p : NumParser}, p.Plain →
    ∃ p' : NumParser, (∀ rest, p.accepts (g ++ rest) = p'.accepts rest) ∧ p'.Plain ∧ p'.hasComma = p.hasComma ∧
      p'.digitLength = p.digitLength + g.length ∧ p'.firstDigit = (p.firstDigit && g.isEmpty) ∧
      p'.tmp.pos = p.tmp.pos + g.length ∧
      (p'.tmp.allZero = true ↔ p.tmp.allZero = true ∧ ∀ c ∈ g, digitTable.lookup c = some 0) := by
  induction g with
  | nil =>
    intro p hp
    refine ⟨p, fun rest => rfl, hp, rfl, rfl, by simp, rfl, by simp⟩
  | cons c cs ih =>
    intro p hp
    obtain ⟨d, hd⟩ := hg c (by simp)
    obtain ⟨hn, h46, h44⟩ := charToNum_digit hd
    have happ : p.append c = (NumParser.mk (p.digitLength + 1) false p.hasComma false p.error p.total p.subTotal
        (p.tmp.append d), true) := by
      unfold append
      rw [if_neg h46, if_neg h44, hn]
      dsimp only
      rw [if_neg (by omega), if_neg (by omega)]
      rfl
    obtain ⟨p', h1, h2, h3, h4, h5, h6, h7⟩ := ih (fun x hx => hg x (List.mem_cons_of_mem _ hx))
      (p := NumParser.mk (p.digitLength + 1) false p.hasComma false p.error p.total p.subTotal (p.tmp.append d))
      ⟨hp.total, hp.sub, rfl⟩
    refine ⟨p', ?_, h2, h3, ?_, ?_, ?_, ?_⟩
    · intro rest
      rw [← h1 rest]
      unfold accepts
      rw [List.cons_append, appendAll, happ]
    · rw [h4, List.length_cons]; dsimp only; omega
    · rw [h5]; simp
    · rw [h6, List.length_cons]; simp only [SNum.append, SNum.write, List.length_singleton]; omega
    · rw [h7]
      have : (p.tmp.append d).allZero = if d ≠ 0 then false else p.tmp.allZero := rfl
      rw [this]
      by_cases h0 : d = 0
      · subst h0
        simp [hd]
      · simp [h0, hd]

theorem done_plain {p : NumParser} (hp : p.Plain) : p.done.2 = !(p.hasComma && decide (p.digitLength ≠ 3)) := by
  have h1 : ∃ x, SNum.empty.add p.tmp = (x, p.tmp, true) := by
    unfold SNum.add
    split
    · exact ⟨_, rfl⟩
    · exact ⟨_, rfl⟩
  obtain ⟨x, hx⟩ := h1
  have h2 : ∃ y, SNum.empty.add x = (y, x, true) := by
    unfold SNum.add
    split
    · exact ⟨_, rfl⟩
    · exact ⟨_, rfl⟩
  obtain ⟨y, hy⟩ := h2
  unfold done
  rw [hp.sub, hx]
  dsimp only
  rw [hp.total, hy]
  dsimp only
  rw [hp.hang]
  cases hb : (p.hasComma && decide (p.digitLength ≠ 3)) <;> simp

theorem accepts_tail : ∀ (gs : List PStr), (∀ g ∈ gs, ∀ c ∈ g, DigitChar c) → ∀ {p : NumParser}, p.Plain →
    p.hasComma = true → p.firstDigit = false →
    (p.accepts (gs.flatMap (fun h => 44 :: h)) = true ↔ p.digitLength = 3 ∧ ∀ g ∈ gs, g.length = 3) := by
  intro gs
  induction gs with
  | nil =>
    intro _ p hp hc hf
    show p.done.2 = true ↔ _
    rw [done_plain hp, hc]
    simp
  | cons g gs ih =>
    intro hd p hp hc hf
    rw [List.flatMap_cons, List.cons_append]
    have happ : p.append 44 = p.appendComma := rfl
    by_cases h3 : p.digitLength = 3
    · have hcm : p.appendComma = ({ p with hasComma := true, digitLength := 0 }, true) := by
        unfold appendComma checkComma
        simp [hf, hc, h3]
      obtain ⟨p', a1, a2, a3, a4, a5, a6, a7⟩ := digits_run (hd g (by simp)) (p := { p with hasComma := true, digitLength := 0 })
        ⟨hp.total, hp.sub, hp.hang⟩
      have := ih (fun x hx => hd x (List.mem_cons_of_mem _ hx)) (p := p') a2 a3 (by rw [a5]; simp [hf])
      have hacc : p.accepts (44 :: (g ++ gs.flatMap (fun h => 44 :: h))) = p'.accepts (gs.flatMap (fun h => 44 :: h)) := by
        rw [← a1]
        unfold accepts
        rw [appendAll, happ, hcm]
      rw [hacc, this, a4]
      simp [h3]
    · have hcm : p.appendComma = ({ p with error := .comma }, false) := by
        unfold appendComma checkComma
        simp [hf, hc, h3]
      have hacc : p.accepts (44 :: (g ++ gs.flatMap (fun h => 44 :: h))) = false := by
        unfold accepts
        rw [appendAll, happ, hcm]
      rw [hacc]
      simp [h3]

theorem accepts_groups {g : PStr} {gs : List PStr} (hg : ∀ c ∈ g, DigitChar c) (hgs : ∀ h ∈ gs, ∀ c ∈ h, DigitChar c) :
    init.accepts (commaJoin g gs) = true ↔
      gs = [] ∨ (1 ≤ g.length ∧ g.length ≤ 3 ∧ (∃ c ∈ g, digitTable.lookup c ≠ some 0) ∧ ∀ h ∈ gs, h.length = 3) := by
  unfold commaJoin
  obtain ⟨p, a1, a2, a3, a4, a5, a6, a7⟩ := digits_run hg (p := init) ⟨rfl, rfl, rfl⟩
  rw [a1]
  cases gs with
  | nil =>
    show p.done.2 = true ↔ _
    rw [done_plain a2, a3]
    simp [init]
  | cons h hs =>
    have happ : p.append 44 = p.appendComma := rfl
    rw [List.flatMap_cons, List.cons_append]
    have ha4 : p.digitLength = g.length := by rw [a4]; simp [init]
    have ha6 : p.tmp.pos = g.length := by rw [a6]; simp [init, SNum.empty]
    have ha5 : p.firstDigit = g.isEmpty := by rw [a5]; simp [init]
    have ha7 : p.tmp.allZero = true ↔ ∀ c ∈ g, digitTable.lookup c = some 0 := by rw [a7]; simp [init, SNum.empty]
    by_cases hok : 1 ≤ g.length ∧ g.length ≤ 3 ∧ (∃ c ∈ g, digitTable.lookup c ≠ some 0)
    · have hne : g.isEmpty = false := by cases g with
        | nil => simp at hok
        | cons => rfl
      have haz : p.tmp.allZero = false := by
        rw [Bool.eq_false_iff]
        intro hh
        obtain ⟨c, hc, hc'⟩ := hok.2.2
        exact hc' (ha7.mp hh c hc)
      have hcm : p.appendComma = ({ p with hasComma := true, digitLength := 0 }, true) := by
        unfold appendComma checkComma
        rw [ha5, hne, a3, ha4, haz]
        have : p.tmp.isZero = false := by rw [SNum.isZero, ha6]; exact decide_eq_false (by omega)
        rw [this]
        simp [init, hok.2.1]
      obtain ⟨p', b1, b2, b3, b4, b5, b6, b7⟩ := digits_run (hgs h (by simp)) (p := { p with hasComma := true, digitLength := 0 })
        ⟨a2.total, a2.sub, a2.hang⟩
      have := accepts_tail hs (fun x hx => hgs x (List.mem_cons_of_mem _ hx)) (p := p') b2 b3 (by rw [b5]; simp [ha5, hne])
      have hacc : p.accepts (44 :: (h ++ hs.flatMap (fun h => 44 :: h))) = p'.accepts (hs.flatMap (fun h => 44 :: h)) := by
        rw [← b1]
        unfold accepts
        rw [appendAll, happ, hcm]
      rw [hacc, this, b4]
      simp [hok]
    · have hcm : p.appendComma = ({ p with error := .comma }, false) := by
        unfold appendComma
        have : p.checkComma = false := by
          unfold checkComma
          rw [ha5, a3, ha4]
          cases hge : g with
          | nil => rfl
          | cons x xs =>
            rw [← hge]
            have hne : g.isEmpty = false := by rw [hge]; rfl
            rw [hne]
            by_cases h3 : g.length ≤ 3
            · have : p.tmp.allZero = true := by
                rw [ha7]
                intro c hc
                apply Classical.byContradiction
                intro hh
                exact hok ⟨by rw [hge]; simp, h3, c, hc, hh⟩
              simp [init, this]
            · simp [init, h3]
        rw [this]
        rfl
      have hacc : p.accepts (44 :: (h ++ hs.flatMap (fun h => 44 :: h))) = false := by
        unfold accepts
        rw [appendAll, happ, hcm]
      rw [hacc]
      simp only [Bool.false_eq_true, reduceCtorEq, false_or, false_iff]
      rintro ⟨x1, x2, x3, _⟩
      exact hok ⟨x1, x2, x3⟩

/-- Reading ASCII digits, exactly. -/
theorem digits_state {g : PStr} (hg : AllDigits g) : ∀ {p : NumParser}, p.tmp.WF → ∃ (az : Bool) (dl : Nat) (fd hp : Bool),
    ∀ rest, p.appendAll (g ++ rest) = (NumParser.mk dl fd p.hasComma hp p.error p.total p.subTotal
      ⟨p.tmp.sig ++ g, p.tmp.pos + g.length, p.tmp.scale, p.tmp.point, az⟩).appendAll rest ∧
      fd = (p.firstDigit && g.isEmpty) ∧ hp = (p.hangingPoint && g.isEmpty) := by
  induction g with
  | nil =>
    intro p _
    refine ⟨p.tmp.allZero, p.digitLength, p.firstDigit, p.hangingPoint, fun rest => ⟨?_, by simp, by simp⟩⟩
    simp
  | cons c cs ih =>
    intro p w
    have hc := hg c (by simp)
    have hn : charToNum c = some ((c : Int) - 48) := by unfold charToNum; rw [if_pos hc]
    have happ : p.append c = (NumParser.mk (p.digitLength + 1) false p.hasComma false p.error p.total p.subTotal
        (p.tmp.append (c - 48)), true) := by
      unfold append
      rw [if_neg (by omega), if_neg (by omega), hn]
      dsimp only
      rw [if_neg (by omega), if_neg (by omega)]
      rw [show ((c : Int) - 48).toNat = c - 48 by omega]
    have hap : p.tmp.append (c - 48) =
        ⟨p.tmp.sig ++ [c], p.tmp.pos + 1, p.tmp.scale, p.tmp.point, if c - 48 ≠ 0 then false else p.tmp.allZero⟩ := by
      unfold SNum.append
      have : ({ p.tmp with allZero := (if c - 48 ≠ 0 then false else p.tmp.allZero) } : SNum).WF :=
        ⟨w.pos, w.digits, w.scale, w.point⟩
      rw [this.write_eq, show 48 + (c - 48) = c by omega]
      rfl
    rw [hap] at happ
    obtain ⟨az, dl, fd, hp, h⟩ := ih (fun x hx => hg x (List.mem_cons_of_mem _ hx))
      (p := NumParser.mk (p.digitLength + 1) false p.hasComma false p.error p.total p.subTotal
        ⟨p.tmp.sig ++ [c], p.tmp.pos + 1, p.tmp.scale, p.tmp.point, if c - 48 ≠ 0 then false else p.tmp.allZero⟩)
      ⟨by simp; exact w.pos, w.digits.append (by intro x hx; simp at hx; omega), w.scale, by
        rcases w.point with h' | h'
        · exact .inl h'
        · right; dsimp only; omega⟩
    refine ⟨az, dl, fd, hp, fun rest => ⟨?_, ?_, ?_⟩⟩
    · rw [List.cons_append, appendAll, happ]
      dsimp only
      rw [(h rest).1]
      dsimp only
      rw [List.append_assoc, List.singleton_append, List.length_cons,
        show p.tmp.pos + 1 + cs.length = p.tmp.pos + (cs.length + 1) by omega]
    · rw [(h rest).2.1]; simp
    · rw [(h rest).2.2]; simp

theorem done_lone {t : SNum} (w : t.WF) (hz : t.isZero = false) (dl : Nat) (fd : Bool) (er : NumErr) :
    ∃ p', (NumParser.mk dl fd false false er .empty .empty t).done = (p', true) ∧
      p'.total = ⟨t.sig, t.pos, t.scale, t.point, true⟩ := by
  have hp := w.pos
  have hz' : t.pos ≠ 0 := by simpa [SNum.isZero] using hz
  have h1 : SNum.empty.add t = (⟨t.sig, t.pos, t.scale, t.point, true⟩, t, true) := by
    unfold SNum.add
    rw [if_neg (by simp [hz]), if_pos (show SNum.empty.isZero = true from rfl), SNum.WF.empty.write_eq]
    simp [SNum.empty, hp]
  have h2 : SNum.empty.add ⟨t.sig, t.pos, t.scale, t.point, true⟩ =
      (⟨t.sig, t.pos, t.scale, t.point, true⟩, ⟨t.sig, t.pos, t.scale, t.point, true⟩, true) := by
    unfold SNum.add
    rw [if_neg (by simp [SNum.isZero, hz']), if_pos (show SNum.empty.isZero = true from rfl), SNum.WF.empty.write_eq]
    simp [SNum.empty, hp]
  unfold done
  rw [h1]
  dsimp only
  rw [h2]
  exact ⟨_, rfl, rfl⟩

end NumParser
end Sudachi
