/-
Properties of the numeric parser: C26-C28.
-/
import Verif.Lemmas.Numeric3
namespace Sudachi

/-- **C26** Whenever the parser accepts a string, writing the number out succeeds and gives a decimal numeral whose exact
value is the number the string denotes.  `parseNumber s` is `none` when some character or the end is refused. -/
theorem C26_value_preserved (s : PStr) (r : Res PStr) (h : parseNumber s = some r) :
    ∃ out v, r = .ok out ∧ IsNumeral out v ∧ denotes s = some v := by
  unfold parseNumber at h
  split at h
  · cases h
  · rename_i p hp
    split at h
    · cases h
    · rename_i p' hd
      injection h with h
      obtain ⟨q, hq, hi⟩ := PInv.start.run hp
      obtain ⟨w, v⟩ := hi.done hd
      obtain ⟨out, ho, hn, _, _⟩ := w.str
      refine ⟨out, _, ?_, hn, ?_⟩
      · rw [← h]; exact ho
      · unfold denotes
        rw [hq, v]
        rfl

/-- A numeral has one value, so the value in C26 is that of the normalised form. -/
theorem C26_value_unique {s : PStr} {v w : Rat} (hv : IsNumeral s v) (hw : IsNumeral s w) : v = w := by
  have key : ∀ {a b c : PStr}, AllDigits c → c = a ++ 46 :: b → False := by
    intro a b c hc h
    have := hc 46 (by rw [h]; simp)
    omega
  rcases hv with ⟨_, hd, rfl⟩ | ⟨a, b, h1, q1, q2, ha, hb, rfl⟩
  · rcases hw with ⟨_, _, rfl⟩ | ⟨a', b', h1', _, _, _, _, _⟩
    · rfl
    · exact (key hd h1').elim
  · rcases hw with ⟨_, hd, _⟩ | ⟨a', b', h1', q3, q4, ha', hb', rfl⟩
    · exact (key hd h1).elim
    · have hab : a = a' ∧ b = b' := by
        have : a ++ 46 :: b = a' ++ 46 :: b' := by rw [← h1, ← h1']
        clear h1 h1' hb hb' q1 q2 q3 q4
        induction a generalizing a' with
        | nil =>
          cases a' with
          | nil => simpa using this
          | cons x xs =>
            simp only [List.nil_append, List.cons_append, List.cons.injEq] at this
            have := ha' x (by simp)
            omega
        | cons y ys ih =>
          cases a' with
          | nil =>
            simp only [List.nil_append, List.cons_append, List.cons.injEq] at this
            have := ha y (by simp)
            omega
          | cons x xs =>
            simp only [List.cons_append, List.cons.injEq] at this
            have := ih (fun c hc => ha c (List.mem_cons_of_mem _ hc)) xs (fun c hc => ha' c (List.mem_cons_of_mem _ hc)) this.2
            simp [*]
      rw [hab.1, hab.2]

/-- **C27** The normalised form of an accepted string is canonical. -/
theorem C27_canonical (s : PStr) (r : Res PStr) (h : parseNumber s = some r) : ∃ out, r = .ok out ∧ Canonical out := by
  unfold parseNumber at h
  split at h
  · cases h
  · rename_i p hp
    split at h
    · cases h
    · rename_i p' hd
      injection h with h
      obtain ⟨q, hq, hi⟩ := PInv.start.run hp
      obtain ⟨w, v⟩ := hi.done hd
      obtain ⟨out, ho, _, hc, _⟩ := w.str
      exact ⟨out, by rw [← h]; exact ho, hc⟩

/-- "二千万1.50" (2000 × 10000, then 1.50) is accepted and written "20000001.5". -/
example : parseNumber [0x4E8C, 0x5343, 0x4E07, 49, 46, 53, 48] =
    some (.ok [50, 48, 48, 48, 48, 48, 48, 49, 46, 53]) := by decide
example : denotes [0x4E8C, 0x5343, 0x4E07, 49, 46, 53, 48] = some (20000001 + 1/2) := by decide +kernel

/-- **C28** A string of digit groups separated by commas is accepted exactly when there is no comma, or the first group
has one to three digits, not all zero, and all others exactly three. -/
theorem C28_comma_groups (g : PStr) (gs : List PStr) (hg : ∀ c ∈ g, DigitChar c) (hgs : ∀ h ∈ gs, ∀ c ∈ h, DigitChar c) :
    (parseNumber (commaJoin g gs)).isSome = true ↔
      gs = [] ∨ (1 ≤ g.length ∧ g.length ≤ 3 ∧ (∃ c ∈ g, digitTable.lookup c ≠ some 0) ∧ ∀ h ∈ gs, h.length = 3) := by
  rw [NumParser.parseNumber_isSome]
  exact NumParser.accepts_groups hg hgs

/-- "12,000" is such a string, and its normalised form is "12000". -/
example : commaJoin [49, 50] [[48, 48, 48]] = [49, 50, 44, 48, 48, 48] ∧
    parseNumber [49, 50, 44, 48, 48, 48] = some (.ok [49, 50, 48, 48, 48]) := by decide

/-- The rule is not enforced when a unit or a point follows: "1,00万", "1.5,000" and "1.,000" are accepted. -/
theorem C28_not_enforced_with_units :
    parseNumber [49, 44, 48, 48, 0x4E07] = some (.ok [49, 48, 48, 48, 48, 48, 48]) ∧
    parseNumber [49, 46, 53, 44, 48, 48, 48] = some (.ok [49, 46, 53]) ∧
    parseNumber [49, 46, 44, 48, 48, 48] = some (.ok [49]) := by decide

/-- **C58** Canonical numerals, in particular all normalised forms, are accepted and normalise to themselves. -/
theorem C58_canonical_fixed (s : PStr) (hc : Canonical s) : parseNumber s = some (.ok s) := by
  rcases hc with ⟨hne, hd⟩ | ⟨a, b, rfl, hane, hda, hdb, z, hz, hz48⟩
  · obtain ⟨az, dl, fd, hp, h⟩ := NumParser.digits_state hd (p := .init) SNum.WF.empty
    obtain ⟨h1, h2, h3⟩ := h []
    have hp' : hp = false := by rw [h3]; rfl
    subst hp'
    rw [List.append_nil] at h1
    have hpos : 0 < s.length := List.length_pos_iff.mpr hne
    have w : SNum.WF ⟨SNum.empty.sig ++ s, SNum.empty.pos + s.length, 0, -1, az⟩ :=
      ⟨by simp [SNum.empty], by simpa [SNum.empty] using hd, by simp, .inl rfl⟩
    have hnz : SNum.isZero ⟨SNum.empty.sig ++ s, SNum.empty.pos + s.length, 0, -1, az⟩ = false := by
      simp only [SNum.isZero, SNum.empty]; exact decide_eq_false (by omega)
    obtain ⟨p', hdn, ht⟩ := NumParser.done_lone w hnz dl fd .none
    unfold parseNumber
    rw [h1]
    simp only [NumParser.appendAll, NumParser.init] at hdn ⊢
    simp only [SNum.empty] at hdn ht ⊢
    rw [hdn]
    dsimp only
    have w' : p'.total.WF := by rw [ht]; exact ⟨by simp, by simpa using hd, by simp, .inl rfl⟩
    obtain ⟨out, ho, _, _, hx⟩ := w'.str
    have hx := hx (by rw [ht]; simp only [SNum.isZero]; exact decide_eq_false (by omega))
      (by rw [ht]; rfl) (by rw [ht])
    have : out = s := by rw [hx.1 (by rw [ht]), ht]; simp
    rw [← this]
    congr 1
  · have hbne : b ≠ [] := by intro hh; rw [hh] at hz; simp at hz
    have hapos : 0 < a.length := List.length_pos_iff.mpr hane
    have hbpos : 0 < b.length := List.length_pos_iff.mpr hbne
    obtain ⟨az, dl, fd, hp, h⟩ := NumParser.digits_state hda (p := .init) SNum.WF.empty
    obtain ⟨h1, h2, h3⟩ := h (46 :: b)
    have hp' : hp = false := by rw [h3]; rfl
    have hf' : fd = false := by rw [h2]; cases a with
      | nil => exact absurd rfl hane
      | cons => rfl
    subst hp' hf'
    simp only [NumParser.init, SNum.empty, List.nil_append, Nat.zero_add] at h1
    obtain ⟨az', dl', fd', hp', h'⟩ := NumParser.digits_state hdb
      (p := NumParser.mk dl false false true .none ⟨[], 0, 0, -1, true⟩ ⟨[], 0, 0, -1, true⟩ ⟨a, a.length, 0, a.length, az⟩)
      ⟨rfl, hda, by simp, .inr ⟨by dsimp only; omega, by dsimp only; omega⟩⟩
    obtain ⟨h1', h2', h3'⟩ := h' []
    have hp'' : hp' = false := by rw [h3']; cases b with
      | nil => exact absurd rfl hbne
      | cons => rfl
    subst hp''
    rw [List.append_nil] at h1'
    have hrun : NumParser.init.appendAll (a ++ 46 :: b) = (NumParser.mk dl' fd' false false .none ⟨[], 0, 0, -1, true⟩
        ⟨[], 0, 0, -1, true⟩ ⟨a ++ b, a.length + b.length, 0, a.length, az'⟩, true) := by
      simp only [NumParser.init, SNum.empty]
      rw [h1]
      have hpt : (NumParser.mk dl false false false .none ⟨[], 0, 0, -1, true⟩ ⟨[], 0, 0, -1, true⟩
          ⟨a, a.length, 0, -1, az⟩).append 46 = (NumParser.mk dl false false true .none ⟨[], 0, 0, -1, true⟩
          ⟨[], 0, 0, -1, true⟩ ⟨a, a.length, 0, a.length, az⟩, true) := rfl
      rw [NumParser.appendAll, hpt]
      dsimp only
      rw [h1']
      rfl
    have w : SNum.WF ⟨a ++ b, a.length + b.length, 0, a.length, az'⟩ :=
      ⟨by simp, hda.append hdb, by simp, .inr ⟨by dsimp only; omega, by dsimp only; omega⟩⟩
    have hnz : SNum.isZero ⟨a ++ b, a.length + b.length, 0, a.length, az'⟩ = false := by
      simp only [SNum.isZero]; exact decide_eq_false (by omega)
    obtain ⟨p', hdn, ht⟩ := NumParser.done_lone w hnz dl' fd' .none
    unfold parseNumber
    rw [hrun]
    dsimp only
    simp only [SNum.empty] at hdn
    rw [hdn]
    dsimp only
    have w' : p'.total.WF := by rw [ht]; exact ⟨by simp, hda.append hdb, by simp, .inr ⟨by dsimp only; omega, by dsimp only; omega⟩⟩
    obtain ⟨out, ho, _, _, hx⟩ := w'.str
    have hx := hx (by rw [ht]; simp only [SNum.isZero]; exact decide_eq_false (by omega))
      (by
        rw [ht]
        unfold SNum.normalizeScale
        dsimp only
        rw [if_neg (by omega), if_pos (by omega)]
        simp) (by rw [ht])
    have : out = a ++ 46 :: b := hx.2 a b z (by rw [ht]) (by rw [ht]) hz hz48
    rw [← this]
    congr 1

/-- So normalising is idempotent. -/
theorem C58_idempotent (s out : PStr) (h : parseNumber s = some (.ok out)) : parseNumber out = some (.ok out) := by
  obtain ⟨o, ho, hc⟩ := C27_canonical s _ h
  injection ho with ho
  subst ho
  exact C58_canonical_fixed _ hc

/-- "1万2.50" normalises to "10002.5", which is canonical; leading zeros are kept ("007"). -/
example : parseNumber [49, 0x4E07, 50, 46, 53, 48] = some (.ok [49, 48, 48, 48, 50, 46, 53]) := by decide
example : parseNumber [48, 48, 55] = some (.ok [48, 48, 55]) := by decide

/-- Calling `get_normalized` again on the *same* parser object is not harmless: the number "1.5" is written "1.5" the
first time and "1..5" the second (the significand is edited in place).  The plugin calls it once per parse. -/
theorem C58_get_normalized_once :
    ((NumParser.init.appendAll [49, 46, 53]).1.done.1.getNormalized).2 = .ok [49, 46, 53] ∧
    ((NumParser.init.appendAll [49, 46, 53]).1.done.1.getNormalized.1.getNormalized).2 ≠ .ok [49, 46, 53] := by decide

end Sudachi
