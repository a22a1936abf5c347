import Verif.Lemmas.Text
namespace Sudachi

/-! ### Byte positions -/

/-- `bytePos` as a sum of widths. -/
def wpos (s : PStr) (k : Nat) : Nat := ((widths s).take k).sum

theorem wpos_zero (s : PStr) : wpos s 0 = 0 := by simp [wpos]

theorem wpos_succ (s : PStr) (k : Nat) (hk : k < s.length) : wpos s (k + 1) = wpos s k + utf8ByteLength s[k] := by
  unfold wpos widths
  rw [List.take_add_one, List.sum_append]
  simp [List.getElem?_eq_getElem hk]

theorem wpos_mono (s : PStr) {a b : Nat} (h : a ≤ b) : wpos s a ≤ wpos s b := by
  induction h with
  | refl => exact Nat.le_refl _
  | step h ih =>
    rename_i m
    show wpos s a ≤ wpos s (m + 1)
    by_cases hk : m < s.length
    · rw [wpos_succ s m hk]; omega
    · have : wpos s (m + 1) = wpos s m := by
        unfold wpos
        rw [List.take_of_length_le (by simp; omega), List.take_of_length_le (by simp; omega)]
      omega

theorem wpos_lt {s : PStr} (h : s.all encodable = true) {a b : Nat} (hab : a < b) (hb : b ≤ s.length) :
    wpos s a < wpos s b := by
  have h1 := wpos_mono s (show a + 1 ≤ b from hab)
  rw [wpos_succ s a (by omega)] at h1
  have := utf8ByteLength_pos (List.all_eq_true.mp h s[a] (List.getElem_mem _))
  omega

theorem wpos_len (s : PStr) : wpos s s.length = (widths s).sum := by
  unfold wpos; rw [List.take_of_length_le (by simp)]

theorem wpos_drop (s : PStr) (i k : Nat) : wpos (s.drop i) k = wpos s (i + k) - wpos s i := by
  unfold wpos
  rw [List.take_add, List.sum_append]
  simp [widths, List.map_drop]

theorem wpos_inj {s : PStr} (h : s.all encodable = true) {a b : Nat} (ha : a ≤ s.length) (hb : b ≤ s.length)
    (e : wpos s a = wpos s b) : a = b := by
  rcases Nat.lt_trichotomy a b with h1 | h1 | h1
  · have := wpos_lt h h1 hb; omega
  · exact h1
  · have := wpos_lt h h1 ha; omega

theorem exists_char {s : PStr} {p : Nat} (h : p < (widths s).sum) :
    ∃ k j, ∃ hk : k < s.length, j < utf8ByteLength s[k] ∧ p = wpos s k + j := by
  obtain ⟨k, j, hk, hj, he⟩ := exists_block (widths s) p h
  refine ⟨k, j, by simpa using hk, by simpa [widths] using hj, he⟩

/-- The facts about a built text that everything downstream uses. -/
structure Built (bd : Builder) (catOf : Nat → CatSet) (t : InputText) : Prop where
  enc : bd.modified.all encodable = true
  orig : t.original = bd.original
  modif : t.modified = bd.modified
  bytes : t.bytes = bd.modified.flatMap utf8Cp
  blen : t.bytes.length = wpos bd.modified bd.modified.length
  cats : t.charCats = bd.modified.map catOf
  conts : t.conts = charCategoryContinuities bd.modified (bd.modified.map catOf)
  bow : t.canBowList = buildCanBowList (bd.modified.map catOf)
  biLen : t.byteIndexes.length = t.bytes.length + 1
  bi : ∀ k j (hk : k < bd.modified.length), j < utf8ByteLength bd.modified[k] →
    t.byteIndexes[wpos bd.modified k + j]? = some k
  biEnd : t.byteIndexes[t.bytes.length]? = some bd.modified.length
  offLen : t.offsets.length = t.bytes.length + 1
  off : ∀ k j (hk : k < bd.modified.length), j < utf8ByteLength bd.modified[k] →
    t.offsets[wpos bd.modified k + j]? = bd.m2o[k]?
  offEnd : t.offsets[t.bytes.length]? = bd.m2o[bd.modified.length]?

theorem built {bd : Builder} {catOf : Nat → CatSet} {t : InputText}
    (hlen : bd.m2o.length = bd.modified.length + 1) (h : bd.build catOf = .ok t) : Built bd catOf t := by
  obtain ⟨he, -, rfl⟩ := build_eq hlen h
  have hb : (bd.modified.flatMap utf8Cp).length = (widths bd.modified).sum := flatMap_utf8_length he
  have hx1 := expand_length (widths bd.modified) (List.range bd.modified.length) (by simp)
  have hx2 := expand_length (widths bd.modified) (bd.m2o.take bd.modified.length) (by simp; omega)
  have hsum : ∀ k j (hk : k < bd.modified.length), j < utf8ByteLength bd.modified[k] →
      wpos bd.modified k + j < (widths bd.modified).sum := by
    intro k j hk hj
    have h1 := wpos_succ bd.modified k hk
    have h2 := wpos_mono bd.modified (show k + 1 ≤ bd.modified.length from hk)
    rw [wpos_len] at h2
    omega
  refine ⟨he, rfl, rfl, rfl, by rw [wpos_len]; exact hb, rfl, rfl, rfl, ?_, ?_, ?_, ?_, ?_, ?_⟩
  · simp only [List.length_append, hx1, hb]; rfl
  · intro k j hk hj
    have := hsum k j hk hj
    simp only []
    rw [List.getElem?_append_left (by rw [hx1]; exact this)]
    have := expand_getElem? (widths bd.modified) (List.range bd.modified.length) (by simp) k j (by simpa using hk)
      (by simpa [widths] using hj)
    rw [wpos, this]; simp [hk]
  · simp only []
    rw [List.getElem?_append_right (by rw [hx1, hb]; exact Nat.le_refl _), hx1, hb]; simp
  · simp only [List.length_append, hx2, hb]; rfl
  · intro k j hk hj
    have := hsum k j hk hj
    simp only []
    rw [List.getElem?_append_left (by rw [hx2]; exact this)]
    have := expand_getElem? (widths bd.modified) (bd.m2o.take bd.modified.length) (by simp; omega) k j
      (by simpa using hk) (by simpa [widths] using hj)
    rw [wpos, this, List.getElem?_take, if_pos hk]
  · simp only []
    rw [List.getElem?_append_right (by rw [hx2, hb]; exact Nat.le_refl _), hx2, hb]
    simp [List.getElem?_eq_getElem (show bd.modified.length < bd.m2o.length by omega)]

namespace Built
variable {bd : Builder} {catOf : Nat → CatSet} {t : InputText}

theorem bi_boundary (B : Built bd catOf t) {k : Nat} (hk : k ≤ bd.modified.length) :
    t.byteIndexes[wpos bd.modified k]? = some k := by
  rcases Nat.lt_or_ge k bd.modified.length with h | h
  · have := B.bi k 0 h (utf8ByteLength_pos (List.all_eq_true.mp B.enc _ (List.getElem_mem _)))
    simpa using this
  · have : k = bd.modified.length := by omega
    subst this
    rw [← B.blen]; exact B.biEnd

theorem bytePos_wpos (B : Built bd catOf t) (k : Nat) : bytePos bd.modified k = wpos bd.modified k :=
  bytePos_eq B.enc k

/-- Every byte belongs to a character. -/
theorem char_of_byte (B : Built bd catOf t) {p : Nat} (hp : p < t.bytes.length) :
    ∃ k j, ∃ hk : k < bd.modified.length, j < utf8ByteLength bd.modified[k] ∧ p = wpos bd.modified k + j ∧
      t.byteIndexes[p]? = some k := by
  rw [B.blen, wpos_len] at hp
  obtain ⟨k, j, hk, hj, rfl⟩ := exists_char hp
  exact ⟨k, j, hk, hj, rfl, B.bi k j hk hj⟩

theorem bytes_getElem? (B : Built bd catOf t) {k j : Nat} (hk : k < bd.modified.length)
    (hj : j < utf8ByteLength bd.modified[k]) :
    t.bytes[wpos bd.modified k + j]? = (utf8Cp bd.modified[k])[j]? := by
  have hall := List.all_eq_true.mp B.enc
  have hsplit : bd.modified = bd.modified.take k ++ bd.modified[k] :: bd.modified.drop (k + 1) := by simp
  have hpre : ((bd.modified.take k).flatMap utf8Cp).length = wpos bd.modified k := bytePos_eq B.enc k
  rw [B.bytes]
  conv => lhs; arg 1; rw [hsplit]
  rw [List.flatMap_append, List.flatMap_cons, List.getElem?_append_right (by omega),
    List.getElem?_append_left (by rw [utf8Cp_length (hall _ (List.getElem_mem _))]; omega)]
  congr 1; omega

/-- The offsets of the built text are a valid position map from bytes to the original text. -/
theorem validOffsets (B : Built bd catOf t) (hv : bd.Valid) : ValidMap t.offsets t.bytes.length t.original.length := by
  have hm := hv.mono
  have hl := hv.len
  refine ⟨B.offLen, ?_, ?_, ?_⟩
  · have key : ∀ p, p < t.offsets.length → ∃ k, ∃ hk : k < bd.m2o.length, t.offsets[p]? = some bd.m2o[k] ∧
        wpos bd.modified k ≤ p ∧ (k < bd.modified.length → p < wpos bd.modified (k + 1)) := by
      intro p hp
      rw [B.offLen] at hp
      rcases Nat.lt_or_ge p t.bytes.length with h | h
      · obtain ⟨k, j, hk, hj, hp', -⟩ := B.char_of_byte h
        refine ⟨k, by omega, ?_, by omega, ?_⟩
        · rw [hp', B.off k j hk hj, List.getElem?_eq_getElem]
        · intro _; rw [wpos_succ _ _ hk]; omega
      · have : p = t.bytes.length := by omega
        subst this
        refine ⟨bd.modified.length, by omega, ?_, by rw [B.blen]; exact Nat.le_refl _, by omega⟩
        rw [B.offEnd, List.getElem?_eq_getElem]
    intro i j hi hj hij
    obtain ⟨k1, hk1, e1, a1, b1⟩ := key i hi
    obtain ⟨k2, hk2, e2, a2, b2⟩ := key j hj
    rw [List.getElem?_eq_getElem hi] at e1
    rw [List.getElem?_eq_getElem hj] at e2
    simp only [Option.some.injEq] at e1 e2
    rw [e1, e2]
    apply hm
    rcases Nat.lt_or_ge k2 k1 with h | h
    · have := wpos_mono bd.modified (show k2 + 1 ≤ k1 from h)
      have := b2 (by omega)
      omega
    · exact h
  · rcases Nat.eq_zero_or_pos bd.modified.length with h | h
    · have hb : t.bytes.length = 0 := by rw [B.blen, h]; exact wpos_zero _
      have := B.offEnd
      rw [hb, h, hv.first] at this
      exact this
    · have := B.off 0 0 h (utf8ByteLength_pos (List.all_eq_true.mp B.enc _ (List.getElem_mem _)))
      rw [wpos_zero, hv.first] at this
      exact this
  · rw [B.offEnd, hv.last, B.orig]

end Built

/-! ### Lead bytes -/

theorem cont_byte : ∀ r, r < 64 → (0x80 + r) &&& 0xC0 = 0x80 := by decide
theorem lead1 : ∀ r, r < 128 → r &&& 0xC0 ≠ 0x80 := by decide
theorem lead2 : ∀ r, r < 64 → (0xC0 + r) &&& 0xC0 ≠ 0x80 := by decide

theorem utf8_lead {c : Nat} (h : encodable c = true) (j : Nat) (hj : j < utf8ByteLength c) :
    ∃ x, (utf8Cp c)[j]? = some x ∧ (x &&& 0xC0 ≠ 0x80 ↔ j = 0) := by
  simp only [encodable, Bool.and_eq_true, decide_eq_true_eq] at h
  have hc := h.1
  have m64 : ∀ x : Nat, x % 64 < 64 := fun x => Nat.mod_lt _ (by omega)
  unfold utf8ByteLength at hj
  unfold utf8Cp
  split at hj
  · rename_i h1
    rw [if_pos h1]
    have : j = 0 := by omega
    subst this
    exact ⟨c, rfl, by simp; exact lead1 c (by omega)⟩
  · rename_i h1
    rw [if_neg h1]
    split at hj
    · rename_i h2
      rw [if_pos h2]
      match j, hj with
      | 0, _ => exact ⟨_, rfl, by simp; exact lead2 _ (by omega)⟩
      | 1, _ => exact ⟨_, rfl, by simp; exact cont_byte _ (m64 _)⟩
    · rename_i h2
      rw [if_neg h2]
      split at hj
      · rename_i h3
        rw [if_pos h3]
        match j, hj with
        | 0, _ => exact ⟨_, rfl, by simp; rw [show 0xE0 + c / 4096 = 0xC0 + (32 + c / 4096) by omega]; exact lead2 _ (by omega)⟩
        | 1, _ => exact ⟨_, rfl, by simp; exact cont_byte _ (m64 _)⟩
        | 2, _ => exact ⟨_, rfl, by simp; exact cont_byte _ (m64 _)⟩
      · rename_i h3
        rw [if_neg h3]
        match j, hj with
        | 0, _ => exact ⟨_, rfl, by simp; rw [show 0xF0 + c / 262144 = 0xC0 + (48 + c / 262144) by omega]; exact lead2 _ (by omega)⟩
        | 1, _ => exact ⟨_, rfl, by simp; exact cont_byte _ (m64 _)⟩
        | 2, _ => exact ⟨_, rfl, by simp; exact cont_byte _ (m64 _)⟩
        | 3, _ => exact ⟨_, rfl, by simp; exact cont_byte _ (m64 _)⟩

/-! ### Word beginnings -/

theorem canBowLoop_getElem? (cs : List CatSet) : ∀ (prev : CatSet) (k : Nat) (hk : k < cs.length),
    (canBowLoop prev cs)[k]? = some (bowAfter ((prev :: cs)[k]'(by simp; omega)) cs[k]) := by
  induction cs with
  | nil => intro _ k hk; simp at hk
  | cons c cs ih =>
    intro prev k hk
    cases k with
    | zero => simp [canBowLoop]
    | succ k =>
      have hk' : k < cs.length := by simpa using hk
      simp only [canBowLoop, List.getElem?_cons_succ, List.getElem_cons_succ]
      rw [ih c k hk']

theorem buildCanBowList_length (cats : List CatSet) : (buildCanBowList cats).length = cats.length := by
  cases cats with
  | nil => rfl
  | cons c cs =>
    have : ∀ (cs : List CatSet) p, (canBowLoop p cs).length = cs.length := by
      intro cs
      induction cs with
      | nil => intro p; rfl
      | cons c cs ih => intro p; simp [canBowLoop, ih]
    simp [buildCanBowList, this]

theorem bowAfter_iff (prev cur : CatSet) : bowAfter prev cur = true ↔ (¬ Alphabetic cur ∨ ∀ c ∈ cur, c ∉ prev) := by
  unfold bowAfter Alphabetic
  split
  · rename_i h
    simp only [h, not_true_eq_false, false_or, List.isEmpty_iff, CatSet.inter, List.filter_eq_nil_iff, decide_eq_true_eq]
  · rename_i h; simp [h]

theorem buildCanBowList_iff (cats : List CatSet) (k : Nat) (hk : k < cats.length) :
    (∃ b, (buildCanBowList cats)[k]? = some b) ∧
    ((buildCanBowList cats)[k]? = some true ↔ BowChar cats k) := by
  cases cats with
  | nil => simp at hk
  | cons c cs =>
    cases k with
    | zero => simp [buildCanBowList, BowChar]
    | succ k =>
      have hk' : k < cs.length := by simpa using hk
      simp only [buildCanBowList, List.getElem?_cons_succ]
      rw [canBowLoop_getElem? cs c k hk']
      refine ⟨⟨_, rfl⟩, ?_⟩
      simp only [Option.some.injEq, bowAfter_iff, BowChar, List.getElem?_cons_succ, Nat.add_sub_cancel]
      constructor
      · intro h
        refine Or.inr ⟨cs[k], (c :: cs)[k]'(by simp; omega), ?_, ?_, h⟩
        · simp [List.getElem?_eq_getElem hk']
        · exact List.getElem?_eq_getElem _
      · rintro (h | ⟨cur, prev, h1, h2, h3⟩)
        · omega
        · rw [List.getElem?_eq_getElem hk'] at h1
          rw [List.getElem?_eq_getElem (by simp; omega)] at h2
          simp only [Option.some.injEq] at h1 h2
          rw [h1, h2]; exact h3

end Sudachi
