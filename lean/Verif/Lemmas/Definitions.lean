/-
Lines, columns, hexadecimal numbers.
-/
import Verif.Model.Definitions
import Verif.Spec.Definitions
import Verif.Lemmas.Bytes
namespace Sudachi

/-! ### Columns -/

theorem Blank.nil : Blank [] := by intro c h; cases h

theorem Blank.append {a b : PStr} (ha : Blank a) (hb : Blank b) : Blank (a ++ b) := by
  intro c h; rcases List.mem_append.mp h with h | h
  · exact ha c h
  · exact hb c h

theorem Columns.space {line : PStr} {cols : List PStr} (h : Columns line cols) {c : Nat} (hc : isSpace c = true) :
    Columns (c :: line) cols := by
  have hb : ∀ {w : PStr}, Blank w → Blank (c :: w) := by
    intro w hw x hx
    rcases List.mem_cons.mp hx with rfl | hx
    · exact hc
    · exact hw x hx
  cases h with
  | nil _ hw => exact .nil _ (hb hw)
  | last w c' hw hc' => exact .last (c :: w) c' (hb hw) hc'
  | cons w c' s rest cols hw hc' hs hr => exact .cons (c :: w) c' s rest cols (hb hw) hc' hs hr

theorem splitWsAux_columns : ∀ (line cur : PStr), (∀ c ∈ cur, isSpace c = false) →
    Columns (cur ++ line) (splitWsAux cur line)
  | [], cur, h => by
    rw [splitWsAux]
    cases cur with
    | nil => exact .nil _ Blank.nil
    | cons a as => simpa using Columns.last [] (a :: as) Blank.nil ⟨by simp, h⟩
  | c :: cs, cur, h => by
    rw [splitWsAux]
    by_cases hc : isSpace c = true
    · rw [if_pos hc]
      have ih := splitWsAux_columns cs [] (by simp)
      cases cur with
      | nil => exact ih.space hc
      | cons a as => exact .cons [] (a :: as) c cs _ Blank.nil ⟨by simp, h⟩ hc (ih.space hc)
    · rw [if_neg hc]
      have := splitWsAux_columns cs (cur ++ [c]) (by
        intro x hx
        rcases List.mem_append.mp hx with hx | hx
        · exact h x hx
        · rw [List.mem_singleton.mp hx]; simpa using hc)
      simpa using this

theorem splitWs_columns (line : PStr) : Columns line (splitWs line) := by
  have := splitWsAux_columns line [] (by simp)
  rwa [List.nil_append] at this

theorem splitWsAux_word : ∀ (c cur rest : PStr), (∀ x ∈ c, isSpace x = false) →
    splitWsAux cur (c ++ rest) = splitWsAux (cur ++ c) rest
  | [], cur, rest, _ => by simp
  | a :: as, cur, rest, h => by
    rw [List.cons_append, splitWsAux, if_neg (by simp [h a]), splitWsAux_word as _ _ (fun x hx => h x (by simp [hx]))]
    simp

theorem splitWsAux_blank : ∀ (w rest : PStr), Blank w → splitWsAux [] (w ++ rest) = splitWsAux [] rest
  | [], rest, _ => by simp
  | a :: as, rest, h => by
    rw [List.cons_append, splitWsAux, if_pos (h a (by simp))]
    simpa using splitWsAux_blank as rest (fun x hx => h x (by simp [hx]))

theorem Columns.split {line : PStr} {cols : List PStr} (h : Columns line cols) : splitWs line = cols := by
  unfold splitWs
  induction h with
  | nil w hw =>
    have := splitWsAux_blank w [] hw
    simpa [splitWsAux] using this
  | last w c hw hc =>
    rw [splitWsAux_blank w c hw]
    have := splitWsAux_word c [] [] hc.2
    simp only [List.append_nil, List.nil_append] at this
    rw [this, splitWsAux]
    simp [hc.1]
  | cons w c s rest cols hw hc hs _ ih =>
    rw [List.append_assoc, splitWsAux_blank w _ hw, splitWsAux_word c [] _ hc.2, List.nil_append, splitWsAux, if_pos hs]
    rw [splitWsAux, if_pos hs] at ih
    simp only [List.isEmpty_nil, if_true] at ih
    simp [hc.1, ih]

theorem columns_iff {line : PStr} {cols : List PStr} : Columns line cols ↔ splitWs line = cols :=
  ⟨Columns.split, fun h => h ▸ splitWs_columns line⟩

theorem Columns.words {line : PStr} {cols : List PStr} (h : Columns line cols) : ∀ c ∈ cols, IsWord c := by
  induction h with
  | nil => intro c hc; cases hc
  | last w c _ hc => intro x hx; rw [List.mem_singleton.mp hx]; exact hc
  | cons w c s rest cols _ hc _ _ ih =>
    intro x hx
    rcases List.mem_cons.mp hx with rfl | hx
    · exact hc
    · exact ih x hx

theorem Columns.blank {line : PStr} (h : Columns line []) : Blank line := by
  cases h with
  | nil _ hw => exact hw

/-! ### Stripping -/

theorem dropWhile_split (p : Nat → Bool) (s : PStr) :
    ∃ w, s = w ++ s.dropWhile p ∧ (∀ c ∈ w, p c = true) ∧ ∀ c r, s.dropWhile p = c :: r → p c = false := by
  induction s with
  | nil => exact ⟨[], rfl, by simp, by simp⟩
  | cons a as ih =>
    obtain ⟨w, h1, h2, h3⟩ := ih
    by_cases ha : p a = true
    · refine ⟨a :: w, ?_, ?_, ?_⟩
      · rw [List.dropWhile_cons_of_pos ha, List.cons_append, ← h1]
      · intro c hc
        rcases List.mem_cons.mp hc with rfl | hc
        · exact ha
        · exact h2 c hc
      · rw [List.dropWhile_cons_of_pos ha]; exact h3
    · rw [List.dropWhile_cons_of_neg ha]
      refine ⟨[], rfl, by simp, ?_⟩
      intro c r e
      cases e; simpa using ha

theorem dropWhile_drop {p : Nat → Bool} {w s : PStr} (hw : ∀ c ∈ w, p c = true) :
    (w ++ s).dropWhile p = s.dropWhile p := by
  induction w with
  | nil => rfl
  | cons a as ih =>
    rw [List.cons_append, List.dropWhile_cons_of_pos (hw a (by simp)), ih (fun c hc => hw c (by simp [hc]))]

theorem dropWhile_stay {p : Nat → Bool} {s : PStr} (h : ∀ c r, s = c :: r → p c = false) : s.dropWhile p = s := by
  cases s with
  | nil => rfl
  | cons a as => exact List.dropWhile_cons_of_neg (by simp [h a as rfl])

/-- `rstrip`: the line is what is left and white space; what is left does not end with white space. -/
theorem rstrip_split (s : PStr) : ∃ w, s = rstrip s ++ w ∧ Blank w ∧ ∀ r c, rstrip s = r ++ [c] → isSpace c = false := by
  obtain ⟨w, h1, h2, h3⟩ := dropWhile_split isSpace s.reverse
  refine ⟨w.reverse, ?_, ?_, ?_⟩
  · have := congrArg List.reverse h1
    rw [List.reverse_reverse, List.reverse_append] at this
    exact this
  · intro c hc; exact h2 c (by simpa using hc)
  · intro r c e
    unfold rstrip at e
    have := congrArg List.reverse e
    rw [List.reverse_reverse, List.reverse_append] at this
    exact h3 c r.reverse (by simpa using this)

theorem strip_split (s : PStr) : ∃ w w', s = w ++ strip s ++ w' ∧ Blank w ∧ Blank w' := by
  obtain ⟨w, h1, h2, -⟩ := dropWhile_split isSpace s
  obtain ⟨w', h1', h2', -⟩ := rstrip_split (s.dropWhile isSpace)
  refine ⟨w, w', ?_, h2, h2'⟩
  rw [List.append_assoc]
  have : strip s = rstrip (s.dropWhile isSpace) := rfl
  rw [this, ← h1', ← h1]

theorem splitWsAux_append_blank : ∀ (s cur w : PStr), Blank w → splitWsAux cur (s ++ w) = splitWsAux cur s
  | [], cur, w, hw => by
    cases w with
    | nil => rfl
    | cons a as =>
      have h0 : splitWsAux [] as = [] := by
        have := splitWsAux_blank as [] (fun x hx => hw x (by simp [hx]))
        simpa [splitWsAux] using this
      rw [List.nil_append, splitWsAux.eq_2, splitWsAux.eq_1, if_pos (hw a (by simp)), h0]
  | c :: cs, cur, w, hw => by
    rw [List.cons_append, splitWsAux, splitWsAux, splitWsAux_append_blank cs _ w hw, splitWsAux_append_blank cs _ w hw]

theorem splitWs_strip (s : PStr) : splitWs (strip s) = splitWs s := by
  obtain ⟨w, w', h, hw, hw'⟩ := strip_split s
  conv => rhs; rw [h]
  unfold splitWs
  rw [List.append_assoc, splitWsAux_blank w _ hw, splitWsAux_append_blank _ _ _ hw']

theorem splitWs_rstrip (s : PStr) : splitWs (rstrip s) = splitWs s := by
  obtain ⟨w, h, hw, -⟩ := rstrip_split s
  conv => rhs; rw [h]
  unfold splitWs
  rw [splitWsAux_append_blank _ _ _ hw]

theorem splitWs_nil_iff {s : PStr} : splitWs s = [] ↔ Blank s :=
  ⟨fun h => (columns_iff.mpr h).blank, fun h => (Columns.nil s h).split⟩

theorem rstrip_nil_iff {s : PStr} : rstrip s = [] ↔ Blank s := by
  constructor
  · intro h
    obtain ⟨w, h1, h2, -⟩ := rstrip_split s
    rw [h, List.nil_append] at h1
    rw [h1]; exact h2
  · intro h
    obtain ⟨w, h1, h2, h3⟩ := rstrip_split s
    by_cases hn : rstrip s = []
    · exact hn
    · obtain ⟨r, c, hc⟩ : ∃ r c, rstrip s = r ++ [c] :=
        ⟨_, _, (List.dropLast_concat_getLast hn).symm⟩
      have := h3 r c hc
      rw [h c (by rw [h1, hc]; simp)] at this
      cases this

theorem strip_nil_iff {s : PStr} : strip s = [] ↔ Blank s := by
  rw [← splitWs_nil_iff, ← splitWs_strip, splitWs_nil_iff]
  constructor
  · intro h; rw [h]; exact Blank.nil
  · intro h
    have h2 : strip s = rstrip (s.dropWhile isSpace) := rfl
    by_cases hn : strip s = []
    · exact hn
    · obtain ⟨w, h1, h2', h3⟩ := rstrip_split (s.dropWhile isSpace)
      rw [← h2] at h1 h3
      obtain ⟨r, c, hc⟩ : ∃ r c, strip s = r ++ [c] := ⟨_, _, (List.dropLast_concat_getLast hn).symm⟩
      have := h3 r c hc
      rw [h c (by rw [hc]; simp)] at this
      cases this

/-- The first character of a line that is not blank is kept by `rstrip`. -/
theorem rstrip_head {s : PStr} (h : ¬ Blank s) : ∃ c r r', s = c :: r ∧ rstrip s = c :: r' := by
  obtain ⟨w, h1, h2, -⟩ := rstrip_split s
  cases hr : rstrip s with
  | nil => exact absurd (rstrip_nil_iff.mp hr) h
  | cons c r' => rw [hr] at h1; exact ⟨c, r' ++ w, r', h1, rfl⟩

/-! ### `re.split` -/

def EndsWell (s : PStr) : Prop := ∀ r c, s = r ++ [c] → isSpace c = false

theorem EndsWell.tail {c : Nat} {cs : PStr} (h : EndsWell (c :: cs)) : EndsWell cs :=
  fun r x e => h (c :: r) x (by rw [e]; rfl)

theorem reSplitAux_eq : ∀ (s cur : PStr), EndsWell s →
    (cur ≠ [] → reSplitAux false cur s = splitWsAux cur s) ∧ (s ≠ [] → reSplitAux true [] s = splitWsAux [] s)
  | [], cur, _ => by
    refine ⟨?_, fun h => absurd rfl h⟩
    intro h
    rw [reSplitAux, splitWsAux, if_neg (by simpa using h)]
  | c :: cs, cur, h => by
    by_cases hc : isSpace c = true
    · have hcs : cs ≠ [] := by
        intro e; subst e
        have := h [] c rfl
        rw [hc] at this; cases this
      refine ⟨?_, ?_⟩
      · intro hcur
        rw [reSplitAux, if_pos hc, splitWsAux, if_pos hc, if_neg (by simp), if_neg (by simpa using hcur)]
        rw [(reSplitAux_eq cs [] h.tail).2 hcs]
      · intro _
        rw [reSplitAux, if_pos hc, splitWsAux, if_pos hc, if_pos rfl, if_pos (by rfl)]
        exact (reSplitAux_eq cs [] h.tail).2 hcs
    · refine ⟨?_, ?_⟩
      · intro hcur
        rw [reSplitAux, if_neg hc, splitWsAux, if_neg hc]
        exact (reSplitAux_eq cs _ h.tail).1 (by simp)
      · intro _
        rw [reSplitAux, if_neg hc, splitWsAux, if_neg hc]
        exact (reSplitAux_eq cs _ h.tail).1 (by simp)

theorem reSplitWs_plain {c : Nat} {cs : PStr} (h : EndsWell (c :: cs)) (hc : isSpace c = false) :
    reSplitWs (c :: cs) = splitWs (c :: cs) := by
  unfold reSplitWs splitWs
  rw [reSplitAux, if_neg (by simp [hc]), splitWsAux, if_neg (by simp [hc])]
  exact (reSplitAux_eq cs _ h.tail).1 (by simp)

theorem reSplitWs_indented {c : Nat} {cs : PStr} (h : EndsWell (c :: cs)) (hc : isSpace c = true) :
    reSplitWs (c :: cs) = [] :: splitWs (c :: cs) := by
  unfold reSplitWs splitWs
  have hcs : cs ≠ [] := by
    intro e; subst e
    have := h [] c rfl
    rw [hc] at this; cases this
  rw [reSplitAux, if_pos hc, splitWsAux, if_pos hc, if_neg (by simp), if_pos (by rfl), (reSplitAux_eq cs [] h.tail).2 hcs]

/-! ### Hexadecimal numbers -/

theorem digitVal_range {c d : Nat} (h : digitVal c = some d) : ∃ z ∈ digitZeros, z ≤ c ∧ c < z + 10 ∧ d = c - z := by
  unfold digitVal at h
  split at h
  · rename_i z hz
    have h1 := List.mem_of_find?_eq_some hz
    have h2 := List.find?_some hz
    simp only [Bool.and_eq_true, decide_eq_true_eq] at h2
    exact ⟨z, h1, h2.1, h2.2, (Option.some.inj h).symm⟩
  · cases h

theorem digit_chars : ∀ z ∈ digitZeros, ∀ i < 10, isSpace (z + i) = false ∧ z + i ≠ 43 ∧ z + i ≠ 45 ∧ z + i ≠ 46 ∧
    z + i ≠ 95 ∧ z + i ≠ 120 ∧ z + i ≠ 88 := by decide

theorem hexLetter_chars : ∀ i < 6, (isSpace (65 + i) = false ∧ isSpace (97 + i) = false) ∧
    digitVal (65 + i) = none ∧ digitVal (97 + i) = none := by decide

structure PlainChar (c : Nat) : Prop where
  space : isSpace c = false
  plus : c ≠ 43
  minus : c ≠ 45
  dot : c ≠ 46
  under : c ≠ 95
  x : c ≠ 120
  X : c ≠ 88

theorem HexDigit.plain {c d : Nat} (h : HexDigit c d) : PlainChar c := by
  cases h with
  | decimal _ _ h =>
    obtain ⟨z, hz, h1, h2, -⟩ := digitVal_range h
    have := digit_chars z hz (c - z) (by omega)
    rw [Nat.add_sub_cancel' h1] at this
    exact ⟨this.1, this.2.1, this.2.2.1, this.2.2.2.1, this.2.2.2.2.1, this.2.2.2.2.2.1, this.2.2.2.2.2.2⟩
  | upper i hi =>
    exact ⟨(hexLetter_chars i hi).1.1, by omega, by omega, by omega, by omega, by omega, by omega⟩
  | lower i hi =>
    exact ⟨(hexLetter_chars i hi).1.2, by omega, by omega, by omega, by omega, by omega, by omega⟩

theorem digitVal_plain {c d : Nat} (h : digitVal c = some d) : PlainChar c := (HexDigit.decimal c d h).plain

theorem hexDigit_iff {c d : Nat} : hexDigitVal c = some d ↔ HexDigit c d := by
  constructor
  · intro h
    unfold hexDigitVal at h
    split at h
    · rename_i d' hd; cases h; exact .decimal c d hd
    · rename_i hd
      unfold hexVal at h
      split at h
      · rename_i hr
        exfalso
        have : ∀ i < 10, digitVal (48 + i) = some i := by decide
        have := this (c - 48) (by omega)
        rw [Nat.add_sub_cancel' hr.1, hd] at this
        cases this
      · split at h
        · rename_i hr
          cases h
          have := HexDigit.upper (c - 65) (by omega)
          rw [show 65 + (c - 65) = c by omega, show 10 + (c - 65) = c - 55 by omega] at this
          exact this
        · split at h
          · rename_i hr
            cases h
            have := HexDigit.lower (c - 97) (by omega)
            rw [show 97 + (c - 97) = c by omega, show 10 + (c - 97) = c - 87 by omega] at this
            exact this
          · cases h
  · intro h
    unfold hexDigitVal
    cases h with
    | decimal _ _ h => rw [h]
    | upper i hi =>
      rw [(hexLetter_chars i hi).2.1]
      show hexVal (65 + i) = _
      unfold hexVal
      rw [if_neg (by omega), if_pos (by omega)]
      congr 1; omega
    | lower i hi =>
      rw [(hexLetter_chars i hi).2.2]
      show hexVal (97 + i) = _
      unfold hexVal
      rw [if_neg (by omega), if_neg (by omega), if_pos (by omega)]
      congr 1; omega

theorem hexDigitVal_under : hexDigitVal 95 = none := by decide

theorem hexDigitsFrom_body : ∀ (n : Nat) (cs p : PStr) (acc v : Nat), cs.length ≤ n → HexBody p acc →
    hexDigitsFrom cs acc = some v → HexBody (p ++ cs) v
  | _, [], p, acc, v, _, hp, h => by
    rw [hexDigitsFrom] at h
    cases h
    simpa using hp
  | 0, _ :: _, _, _, _, hn, _, _ => by simp at hn
  | n + 1, c :: cs, p, acc, v, hn, hp, h => by
    rw [hexDigitsFrom.eq_def] at h
    dsimp only at h
    split at h
    · rename_i d hd
      have := hexDigitsFrom_body n cs (p ++ [c]) _ v (by simp at hn; omega)
        (Nat.mul_comm 16 acc ▸ HexBody.more p acc c d hp (hexDigit_iff.mp hd)) h
      simpa using this
    · split at h
      · rename_i h95
        subst h95
        split at h
        · cases h
        · rename_i c' cs'
          split at h
          · rename_i d hd
            have := hexDigitsFrom_body n cs' (p ++ [95, c']) _ v (by simp at hn; omega)
              (Nat.mul_comm 16 acc ▸ HexBody.under p acc c' d hp (hexDigit_iff.mp hd)) h
            simpa using this
          · cases h
      · cases h

theorem hexDigitsFrom_append : ∀ (n : Nat) (s : PStr) (acc v : Nat) (t : PStr), s.length ≤ n →
    hexDigitsFrom s acc = some v → hexDigitsFrom (s ++ t) acc = hexDigitsFrom t v
  | _, [], acc, v, t, _, h => by
    rw [hexDigitsFrom] at h; cases h; rfl
  | 0, _ :: _, _, _, _, hn, _ => by simp at hn
  | n + 1, c :: cs, acc, v, t, hn, h => by
    rw [hexDigitsFrom.eq_def] at h
    dsimp only at h
    rw [List.cons_append, hexDigitsFrom.eq_def]
    dsimp only
    split at h
    · rename_i d hd
      exact hexDigitsFrom_append n cs _ v t (by simp at hn; omega) h
    · rename_i hd
      split at h
      · rename_i h95
        rw [if_pos h95]
        split at h
        · cases h
        · rename_i c' cs'
          rw [List.cons_append]
          dsimp only
          split at h
          · rename_i d hd
            exact hexDigitsFrom_append n cs' _ v t (by simp at hn; omega) h
          · cases h
      · cases h

theorem hexDigits_iff {s : PStr} {v : Nat} : hexDigits s = some v ↔ HexBody s v := by
  constructor
  · intro h
    unfold hexDigits at h
    split at h
    · cases h
    · rename_i c cs
      split at h
      · rename_i d hd
        exact hexDigitsFrom_body cs.length cs [c] d v (Nat.le_refl _) (.one c d (hexDigit_iff.mp hd)) h
      · cases h
  · intro h
    induction h with
    | one c d h => simp only [hexDigits, hexDigit_iff.mpr h, hexDigitsFrom]
    | more s v c d _ hd ih =>
      unfold hexDigits at ih ⊢
      cases s with
      | nil => simp at ih
      | cons a as =>
        dsimp only [List.cons_append] at ih ⊢
        split at ih
        · rename_i d' hd'
          rw [hexDigitsFrom_append as.length as d' v [c] (Nat.le_refl _) ih]
          simp only [hexDigitsFrom, hexDigit_iff.mpr hd, Nat.mul_comm]
        · cases ih
    | under s v c d _ hd ih =>
      unfold hexDigits at ih ⊢
      cases s with
      | nil => simp at ih
      | cons a as =>
        dsimp only [List.cons_append] at ih ⊢
        split at ih
        · rename_i d' hd'
          rw [hexDigitsFrom_append as.length as d' v [95, c] (Nat.le_refl _) ih]
          simp only [hexDigitsFrom, hexDigit_iff.mpr hd, Nat.mul_comm, hexDigitVal_under, if_true]
        · cases ih

theorem HexBody.head {s : PStr} {v : Nat} (h : HexBody s v) : ∃ c cs d, s = c :: cs ∧ HexDigit c d := by
  induction h with
  | one c d h => exact ⟨c, [], d, rfl, h⟩
  | more s v c d _ _ ih => obtain ⟨a, as, e, h1, h2⟩ := ih; exact ⟨a, as ++ [c], e, by rw [h1]; rfl, h2⟩
  | under s v c d _ _ ih => obtain ⟨a, as, e, h1, h2⟩ := ih; exact ⟨a, as ++ [95, c], e, by rw [h1]; rfl, h2⟩

theorem HexBody.second {c c' : Nat} {s : PStr} {v : Nat} (h : HexBody (c :: c' :: s) v) : c' = 95 ∨ ∃ d, HexDigit c' d := by
  rw [← hexDigits_iff] at h
  unfold hexDigits at h
  dsimp only at h
  split at h
  · rw [hexDigitsFrom.eq_def] at h
    dsimp only at h
    split at h
    · rename_i d hd; exact Or.inr ⟨d, hexDigit_iff.mp hd⟩
    · split at h
      · rename_i h95; exact Or.inl h95
      · cases h
  · cases h

theorem HexBody.last {s : PStr} {v : Nat} (h : HexBody s v) : ∃ cs c d, s = cs ++ [c] ∧ HexDigit c d := by
  cases h with
  | one c _ h => exact ⟨[], c, v, rfl, h⟩
  | more s v c d _ h => exact ⟨s, c, d, rfl, h⟩
  | under s v c d _ h => exact ⟨s ++ [95], c, d, by simp, h⟩

theorem HexBody.chars {s : PStr} {v : Nat} (h : HexBody s v) : ∀ c ∈ s, isSpace c = false ∧ c ≠ 46 := by
  induction h with
  | one c d h => intro x hx; rw [List.mem_singleton.mp hx]; exact ⟨h.plain.space, h.plain.dot⟩
  | more s v c d _ h ih =>
    intro x hx
    rcases List.mem_append.mp hx with hx | hx
    · exact ih x hx
    · rw [List.mem_singleton.mp hx]; exact ⟨h.plain.space, h.plain.dot⟩
  | under s v c d _ h ih =>
    intro x hx
    rcases List.mem_append.mp hx with hx | hx
    · exact ih x hx
    · rcases List.mem_cons.mp hx with rfl | hx
      · exact ⟨by decide, by decide⟩
      · rw [List.mem_singleton.mp hx]; exact ⟨h.plain.space, h.plain.dot⟩

theorem hexNumber_iff {s : PStr} {v : Nat} : hexNumber s = some v ↔ HexNat s v := by
  constructor
  · intro h
    unfold hexNumber at h
    split at h
    · cases h
    · rename_i z s
      split at h
      · rename_i hz
        cases s with
        | nil => simp at hz
        | cons x r =>
          have hx : x = 120 ∨ x = 88 := by simpa using hz.2
          simp only [List.tail_cons] at h
          split at h
          · rename_i r'; exact .preUnder z x r' v hz.1 hx (hexDigits_iff.mp h)
          · exact .pre z x r v hz.1 hx (hexDigits_iff.mp h)
      · exact .plain _ v (hexDigits_iff.mp h)
  · intro h
    cases h with
    | plain _ _ h =>
      obtain ⟨c, cs, d, rfl, hd⟩ := h.head
      unfold hexNumber
      dsimp only
      rw [if_neg]
      · exact hexDigits_iff.mpr h
      · rintro ⟨-, h2⟩
        cases cs with
        | nil => simp at h2
        | cons c' cs' =>
          have h2 : c' = 120 ∨ c' = 88 := by simpa using h2
          rcases h.second with e | ⟨d', hd'⟩
          · omega
          · have := hd'.plain.x
            have := hd'.plain.X
            omega
    | pre z x r _ hz hx h =>
      unfold hexNumber
      dsimp only
      rw [if_pos ⟨hz, by simpa using hx⟩]
      obtain ⟨c, cs, d, rfl, hd⟩ := h.head
      simp only [List.tail_cons]
      split
      · rename_i r e
        exact absurd (List.cons.inj e).1 hd.plain.under
      · exact hexDigits_iff.mpr h
    | preUnder z x r _ hz hx h =>
      unfold hexNumber
      dsimp only
      rw [if_pos ⟨hz, by simpa using hx⟩]
      exact hexDigits_iff.mpr h

theorem HexNat.head {s : PStr} {v : Nat} (h : HexNat s v) : ∃ c cs, s = c :: cs ∧ PlainChar c := by
  cases h with
  | plain _ _ h => obtain ⟨c, cs, d, e, hd⟩ := h.head; exact ⟨c, cs, e, hd.plain⟩
  | pre z x r _ hz _ _ => exact ⟨z, x :: r, rfl, digitVal_plain hz⟩
  | preUnder z x r _ hz _ _ => exact ⟨z, x :: 95 :: r, rfl, digitVal_plain hz⟩

theorem HexNat.last {s : PStr} {v : Nat} (h : HexNat s v) : ∃ cs c, s = cs ++ [c] ∧ PlainChar c := by
  cases h with
  | plain _ _ h => obtain ⟨cs, c, d, e, hd⟩ := h.last; exact ⟨cs, c, e, hd.plain⟩
  | pre z x r _ _ _ h => obtain ⟨cs, c, d, e, hd⟩ := h.last; exact ⟨z :: x :: cs, c, by rw [e]; rfl, hd.plain⟩
  | preUnder z x r _ _ _ h => obtain ⟨cs, c, d, e, hd⟩ := h.last; exact ⟨z :: x :: 95 :: cs, c, by rw [e]; rfl, hd.plain⟩

theorem HexNat.chars {s : PStr} {v : Nat} (h : HexNat s v) : ∀ c ∈ s, isSpace c = false ∧ c ≠ 46 := by
  have hx : ∀ {x : Nat}, x = 120 ∨ x = 88 → isSpace x = false ∧ x ≠ 46 := by
    intro x hx; rcases hx with rfl | rfl <;> exact ⟨by decide, by decide⟩
  cases h with
  | plain _ _ h => exact h.chars
  | pre z x r _ hz hx' h =>
    intro c hc
    rcases List.mem_cons.mp hc with rfl | hc
    · exact ⟨(digitVal_plain hz).space, (digitVal_plain hz).dot⟩
    · rcases List.mem_cons.mp hc with rfl | hc
      · exact hx hx'
      · exact h.chars c hc
  | preUnder z x r _ hz hx' h =>
    intro c hc
    rcases List.mem_cons.mp hc with rfl | hc
    · exact ⟨(digitVal_plain hz).space, (digitVal_plain hz).dot⟩
    · rcases List.mem_cons.mp hc with rfl | hc
      · exact hx hx'
      · rcases List.mem_cons.mp hc with rfl | hc
        · exact ⟨by decide, by decide⟩
        · exact h.chars c hc

/-- `int` sees what is between the white space. -/
theorem stripInt_split (s : PStr) : ∃ w w', s = w ++ stripInt s ++ w' ∧ (∀ c ∈ w, isIntSpace c = true) ∧
    ∀ c ∈ w', isIntSpace c = true := by
  obtain ⟨w, h1, h2, -⟩ := dropWhile_split isIntSpace s
  obtain ⟨w', h1', h2', -⟩ := dropWhile_split isIntSpace (s.dropWhile isIntSpace).reverse
  refine ⟨w, w'.reverse, ?_, h2, fun c hc => h2' c (by simpa using hc)⟩
  have := congrArg List.reverse h1'
  rw [List.reverse_reverse, List.reverse_append] at this
  rw [List.append_assoc]
  show s = w ++ ((((s.dropWhile isIntSpace).reverse.dropWhile isIntSpace).reverse) ++ w'.reverse)
  rw [← this, ← h1]

theorem stripInt_mid {w s w' : PStr} (hw : ∀ c ∈ w, isIntSpace c = true) (hw' : ∀ c ∈ w', isIntSpace c = true)
    (h1 : ∃ c r, s = c :: r ∧ isIntSpace c = false) (h2 : ∃ r c, s = r ++ [c] ∧ isIntSpace c = false) :
    stripInt (w ++ s ++ w') = s := by
  obtain ⟨c, r, e, hc⟩ := h1
  obtain ⟨r2, c2, e2, hc2⟩ := h2
  unfold stripInt
  rw [List.append_assoc, dropWhile_drop hw, dropWhile_stay (s := s ++ w') (by
    intro x y hxy; rw [e] at hxy; rw [← (List.cons.inj hxy).1]; exact hc)]
  rw [List.reverse_append, dropWhile_drop (by intro c hc; exact hw' c (by simpa using hc)), dropWhile_stay,
    List.reverse_reverse]
  intro x y hxy
  rw [e2, List.reverse_append] at hxy
  rw [← (List.cons.inj hxy).1]; exact hc2

theorem isIntSpace_of {c : Nat} (h : isSpace c = false) : isIntSpace c = false := by simp [isIntSpace, h]

theorem PlainChar.int {c : Nat} (h : PlainChar c) : isIntSpace c = false := isIntSpace_of h.space

/-- `int(s, 16)` reads exactly the hexadecimal numbers. -/
theorem pyIntHex_iff {s : PStr} {v : Int} : pyIntHex s = .ok v ↔ HexInt s v := by
  constructor
  · intro h
    obtain ⟨w, w', hs, hw, hw'⟩ := stripInt_split s
    unfold pyIntHex at h
    rw [hs]
    split at h
    · rename_i v' hv
      cases h
      split at hv
      · rename_i r e
        rw [e]
        cases hn : hexNumber r with
        | none => rw [hn] at hv; cases hv
        | some n => rw [hn] at hv; cases hv; exact .minus w r w' n hw hw' (hexNumber_iff.mp hn)
      · rename_i r e
        rw [e]
        cases hn : hexNumber r with
        | none => rw [hn] at hv; cases hv
        | some n => rw [hn] at hv; cases hv; exact .plus w r w' n hw hw' (hexNumber_iff.mp hn)
      · cases hn : hexNumber (stripInt s) with
        | none => rw [hn] at hv; cases hv
        | some n => rw [hn] at hv; cases hv; exact .plain w _ w' n hw hw' (hexNumber_iff.mp hn)
    · cases h
  · intro h
    unfold pyIntHex
    cases h with
    | plain w t w' n hw hw' h =>
      obtain ⟨c, cs, e, hc⟩ := h.head
      obtain ⟨cs', c', e', hc'⟩ := h.last
      rw [stripInt_mid hw hw' ⟨c, cs, e, hc.int⟩ ⟨cs', c', e', hc'.int⟩]
      have hn := hexNumber_iff.mpr h
      rw [e] at hn ⊢
      split
      · rename_i v' hv
        split at hv
        · rename_i r e2; exact absurd (List.cons.inj e2).1 hc.minus
        · rename_i r e2; exact absurd (List.cons.inj e2).1 hc.plus
        · rw [hn] at hv; cases hv; rfl
      · rename_i hv
        split at hv
        · rename_i r e2; exact absurd (List.cons.inj e2).1 hc.minus
        · rename_i r e2; exact absurd (List.cons.inj e2).1 hc.plus
        · rw [hn] at hv; cases hv
    | plus w t w' n hw hw' h =>
      obtain ⟨cs', c', e', hc'⟩ := h.last
      rw [stripInt_mid (s := 43 :: t) hw hw' ⟨43, t, rfl, by decide⟩ ⟨43 :: cs', c', by rw [e']; rfl, hc'.int⟩]
      simp only [hexNumber_iff.mpr h]
      rfl
    | minus w t w' n hw hw' h =>
      obtain ⟨cs', c', e', hc'⟩ := h.last
      rw [stripInt_mid (s := 45 :: t) hw hw' ⟨45, t, rfl, by decide⟩ ⟨45 :: cs', c', by rw [e']; rfl, hc'.int⟩]
      simp only [hexNumber_iff.mpr h]
      rfl

theorem pyIntHex_error {s : PStr} {e : Err} (h : pyIntHex s = .error e) : e = .value := by
  unfold pyIntHex at h
  split at h
  · cases h
  · cases h; rfl

theorem isIntSpace_dot {c : Nat} (h : isIntSpace c = true) : c ≠ 46 := by
  intro e; subst e; revert h; decide

theorem HexInt.noDot {s : PStr} {v : Int} (h : HexInt s v) : ∀ c ∈ s, c ≠ 46 := by
  cases h with
  | plain w t w' n hw hw' h =>
    intro c hc
    simp only [List.mem_append] at hc
    rcases hc with (hc | hc) | hc
    · exact isIntSpace_dot (hw c hc)
    · exact (h.chars c hc).2
    · exact isIntSpace_dot (hw' c hc)
  | plus w t w' n hw hw' h =>
    intro c hc
    simp only [List.mem_append, List.mem_cons] at hc
    rcases hc with (hc | rfl | hc) | hc
    · exact isIntSpace_dot (hw c hc)
    · decide
    · exact (h.chars c hc).2
    · exact isIntSpace_dot (hw' c hc)
  | minus w t w' n hw hw' h =>
    intro c hc
    simp only [List.mem_append, List.mem_cons] at hc
    rcases hc with (hc | rfl | hc) | hc
    · exact isIntSpace_dot (hw c hc)
    · decide
    · exact (h.chars c hc).2
    · exact isIntSpace_dot (hw' c hc)

/-! ### The first column -/

theorem splitDots_ne : ∀ (s : PStr), splitDots s ≠ []
  | [] => by simp [splitDots]
  | 46 :: 46 :: cs => by rw [splitDots]; simp
  | [c] => by
    rw [splitDots.eq_def]
    split
    · simp
    · simp
    · split <;> simp
  | c :: c' :: cs => by
    rw [splitDots.eq_def]
    split
    · simp
    · simp
    · split <;> simp

theorem splitDots_cons_of {c : Nat} {cs : PStr} (h : ∀ r, c :: cs ≠ 46 :: 46 :: r) :
    ∃ a as, splitDots cs = a :: as ∧ splitDots (c :: cs) = (c :: a) :: as := by
  cases ha : splitDots cs with
  | nil => exact absurd ha (splitDots_ne cs)
  | cons a as =>
    refine ⟨a, as, rfl, ?_⟩
    rw [splitDots.eq_def]
    split
    · rename_i e; cases e
    · rename_i r e; exact absurd e (h r)
    · rename_i c' cs' _ e
      obtain ⟨rfl, rfl⟩ := List.cons.inj e
      rw [ha]

theorem splitDots_plain : ∀ (s : PStr), (∀ c ∈ s, c ≠ 46) → splitDots s = [s]
  | [], _ => rfl
  | c :: cs, h => by
    obtain ⟨a, as, h1, h2⟩ := splitDots_cons_of (c := c) (cs := cs)
      (fun r e => h c (by simp) (List.cons.inj e).1)
    rw [splitDots_plain cs (fun x hx => h x (by simp [hx]))] at h1
    obtain ⟨rfl, rfl⟩ := List.cons.inj h1
    exact h2

theorem splitDots_append : ∀ (a r : PStr), (∀ c ∈ a, c ≠ 46) → splitDots (a ++ 46 :: 46 :: r) = a :: splitDots r
  | [], r, _ => by rw [List.nil_append, splitDots]
  | c :: cs, r, h => by
    obtain ⟨x, xs, h1, h2⟩ := splitDots_cons_of (c := c) (cs := cs ++ 46 :: 46 :: r)
      (fun r e => h c (by simp) (List.cons.inj e).1)
    rw [splitDots_append cs r (fun x hx => h x (by simp [hx]))] at h1
    obtain ⟨rfl, rfl⟩ := List.cons.inj h1
    exact h2

theorem splitDots_split : ∀ (n : Nat) (s r0 : PStr) (rs : List PStr), s.length ≤ n → splitDots s = r0 :: rs →
    (rs = [] → s = r0) ∧ ∀ r1 rs', rs = r1 :: rs' → ∃ t, s = r0 ++ 46 :: 46 :: t ∧ splitDots t = r1 :: rs'
  | _, [], r0, rs, _, h => by
    rw [splitDots] at h
    obtain ⟨rfl, rfl⟩ := List.cons.inj h
    exact ⟨fun _ => rfl, by simp⟩
  | 0, _ :: _, _, _, hn, _ => by simp at hn
  | n + 1, c :: cs, r0, rs, hn, h => by
    by_cases hd : ∃ r, c :: cs = 46 :: 46 :: r
    · obtain ⟨r, e⟩ := hd
      rw [e, splitDots] at h
      obtain ⟨rfl, rfl⟩ := List.cons.inj h
      refine ⟨fun e' => absurd e' (splitDots_ne r), fun r1 rs' e' => ⟨r, by rw [e]; rfl, e'⟩⟩
    · obtain ⟨a, as, h1, h2⟩ := splitDots_cons_of (c := c) (cs := cs) (fun r e => hd ⟨r, e⟩)
      rw [h2] at h
      obtain ⟨rfl, rfl⟩ := List.cons.inj h
      obtain ⟨i1, i2⟩ := splitDots_split n cs a as (by simp at hn; omega) h1
      refine ⟨fun e => by rw [i1 e], fun r1 rs' e => ?_⟩
      obtain ⟨t, ht, ht'⟩ := i2 r1 rs' e
      exact ⟨t, by rw [ht]; rfl, ht'⟩

/-- A first column that begins with `0x` stands for no negative number. -/
theorem HexInt.nonneg {r : PStr} {v : Int} (h : HexInt (48 :: r) v) : ∃ n : Nat, v = n := by
  generalize hs : (48 :: r) = s at h
  have hw : ∀ {w : PStr} {x : Nat} {t : PStr}, (∀ c ∈ w, isIntSpace c = true) → 48 :: r = w ++ x :: t → x = 48 := by
    intro w x t hw e
    cases w with
    | nil => exact (List.cons.inj e).1.symm
    | cons a as =>
      have := hw a (by simp)
      rw [← (List.cons.inj e).1] at this
      exact absurd this (by decide)
  cases h with
  | plain w t w' n _ _ _ => exact ⟨n, rfl⟩
  | plus w t w' n _ _ _ => exact ⟨n, rfl⟩
  | minus w t w' n h1 h2 _ =>
    have := hw (x := 45) (t := t ++ w') h1 (by rw [hs]; simp)
    omega

theorem charDefRange_iff {r : PStr} {low high : Nat} :
    charDefRange (48 :: r) = .ok (low, high) ↔ ∃ last, CodePoints (48 :: r) low last ∧ low ≤ last ∧ high = last + 1 := by
  constructor
  · intro h
    unfold charDefRange at h
    split at h
    · cases h
    · rename_i r0 rs hd
      obtain ⟨i1, i2⟩ := splitDots_split _ _ r0 rs (Nat.le_refl _) hd
      cases h0 : pyIntHex r0 with
      | error e => rw [h0] at h; cases h
      | ok l =>
        rw [h0] at h
        dsimp only [bind, Except.bind] at h
        cases rs with
        | nil =>
          dsimp only [pure, Except.pure] at h
          rw [if_neg (by omega)] at h
          have := i1 rfl
          rw [← this] at h0
          obtain ⟨n, hn⟩ := (pyIntHex_iff.mp h0).nonneg
          have hh := Except.ok.inj h
          simp only [Prod.mk.injEq] at hh
          obtain ⟨h1, h2⟩ := hh
          subst hn
          refine ⟨n, ?_, by omega, by omega⟩
          have : low = n := by omega
          rw [this]
          exact .single _ n (pyIntHex_iff.mp h0)
        | cons r1 rs' =>
          obtain ⟨t, ht, ht'⟩ := i2 r1 rs' rfl
          dsimp only at h
          cases h1 : pyIntHex r1 with
          | error e => rw [h1] at h; cases h
          | ok m =>
            rw [h1] at h
            dsimp only [Except.map, pure, Except.pure] at h
            split at h
            · cases h
            · rename_i hlt
              have hh := Except.ok.inj h
              simp only [Prod.mk.injEq] at hh
              obtain ⟨e1, e2⟩ := hh
              have hr0 : ∃ x, r0 = 48 :: x := by
                cases r0 with
                | nil => exact absurd (List.cons.inj ht).1 (by decide)
                | cons a as => exact ⟨as, by rw [(List.cons.inj ht).1]⟩
              obtain ⟨x, hx⟩ := hr0
              obtain ⟨n, hn⟩ : ∃ n : Nat, l = n := by
                rw [hx] at h0
                exact (pyIntHex_iff.mp h0).nonneg
              obtain ⟨k, hk⟩ : ∃ k : Nat, m = k := ⟨m.toNat, by omega⟩
              subst hn hk
              refine ⟨k, ?_, by omega, by omega⟩
              have hl : low = n := by omega
              rw [hl, ht]
              obtain ⟨j1, j2⟩ := splitDots_split _ t r1 rs' (Nat.le_refl _) ht'
              cases rs' with
              | nil =>
                have := CodePoints.range r0 r1 [] n k (pyIntHex_iff.mp h0) (pyIntHex_iff.mp h1) (Or.inl rfl)
                rw [j1 rfl]
                simpa using this
              | cons r2 rs'' =>
                obtain ⟨u, hu, -⟩ := j2 r2 rs'' rfl
                have := CodePoints.range r0 r1 (46 :: 46 :: u) n k (pyIntHex_iff.mp h0) (pyIntHex_iff.mp h1)
                  (Or.inr ⟨u, rfl⟩)
                rw [hu]
                simpa using this
  · rintro ⟨last, hc, hle, rfl⟩
    generalize hs : (48 :: r) = s at hc
    unfold charDefRange
    cases hc with
    | single _ _ h =>
      rw [splitDots_plain s h.noDot]
      simp only [pyIntHex_iff.mpr h]
      dsimp only [bind, Except.bind, pure, Except.pure]
      rw [if_neg (by omega)]
      congr 1
    | range a b rest _ _ ha hb hr =>
      have : splitDots (a ++ 46 :: 46 :: b ++ rest) = a :: splitDots (b ++ rest) := by
        rw [← splitDots_append a (b ++ rest) ha.noDot]; simp
      have h2 : ∃ rs, splitDots (b ++ rest) = b :: rs := by
        rcases hr with rfl | ⟨u, rfl⟩
        · exact ⟨[], by rw [List.append_nil]; exact splitDots_plain b hb.noDot⟩
        · exact ⟨_, splitDots_append b u hb.noDot⟩
      obtain ⟨rs, h2⟩ := h2
      rw [this, h2]
      simp only [pyIntHex_iff.mpr ha, pyIntHex_iff.mpr hb]
      dsimp only [bind, Except.bind, pure, Except.pure, Except.map]
      rw [if_neg (by omega)]
      congr 1

theorem charDefRange_error {col : PStr} {e : Err} (h : charDefRange col = .error e) : e = .attribute ∨ e = .value := by
  unfold charDefRange at h
  split at h
  · rename_i hd; exact absurd hd (splitDots_ne col)
  · rename_i r0 rs hd
    cases h0 : pyIntHex r0 with
    | error e' => rw [h0] at h; cases h; exact Or.inr (pyIntHex_error h0)
    | ok l =>
      rw [h0] at h
      dsimp only [bind, Except.bind] at h
      cases rs with
      | nil =>
        dsimp only [pure, Except.pure] at h
        split at h
        · cases h; exact Or.inl rfl
        · cases h
      | cons r1 rs' =>
        dsimp only at h
        cases h1 : pyIntHex r1 with
        | error e' => rw [h1] at h; cases h; exact Or.inr (pyIntHex_error h1)
        | ok m =>
          rw [h1] at h
          dsimp only [Except.map, pure, Except.pure] at h
          split at h
          · cases h; exact Or.inl rfl
          · cases h

/-! ### The categories -/

theorem name_codes (c : Cat) : c.name = codes (catName c) := by cases c <;> decide

theorem catName_inj : ∀ c ∈ Cat.all, ∀ c' ∈ Cat.all, c.name = c'.name → c = c' := by decide

theorem Cat.mem_all (c : Cat) : c ∈ Cat.all := by cases c <;> decide

theorem catGet_iff {s : PStr} {c : Cat} : Cat.get s = some c ↔ s = codes (catName c) := by
  rw [← name_codes]
  unfold Cat.get
  constructor
  · intro h
    have := List.find?_some h
    simpa using (beq_iff_eq.mp this).symm
  · intro h
    subst h
    cases hf : Cat.all.find? (fun c' => c'.name == c.name) with
    | none =>
      rw [List.find?_eq_none] at hf
      have := hf c c.mem_all
      simp at this
    | some c' =>
      have h1 := List.mem_of_find?_eq_some hf
      have h2 := List.find?_some hf
      rw [catName_inj c' h1 c c.mem_all (by simpa using h2)]

theorem name_head (c : Cat) : c.name.head? ≠ some 35 ∧ c.name ≠ [] := by cases c <;> decide

theorem charDefCats_iff : ∀ {cols : List PStr} {cats : List Cat}, (∀ c ∈ cols, IsWord c) →
    (charDefCats cols = .ok cats ↔ ∃ tail, cols = cats.map (fun c => codes (catName c)) ++ tail ∧
      (tail = [] ∨ ∃ t rest, tail = t :: rest ∧ IsComment t))
  | [], cats, _ => by
    rw [charDefCats]
    constructor
    · intro h; cases h; exact ⟨[], rfl, Or.inl rfl⟩
    · rintro ⟨tail, h, -⟩
      cases cats with
      | nil => rfl
      | cons c cs => simp at h
  | col :: cols, cats, hw => by
    have hne := (hw col (by simp)).1
    have ih := @charDefCats_iff cols
    rw [charDefCats]
    by_cases hc : col.head? = some 35
    · rw [if_pos (Or.inl hc)]
      have hcom : IsComment col := by
        cases col with
        | nil => exact absurd rfl hne
        | cons a as => exact ⟨as, by simpa using hc⟩
      constructor
      · intro h; cases h; exact ⟨col :: cols, rfl, Or.inr ⟨col, cols, rfl, hcom⟩⟩
      · rintro ⟨tail, h, -⟩
        cases cats with
        | nil => rfl
        | cons c cs =>
          simp only [List.map_cons, List.cons_append] at h
          rw [(List.cons.inj h).1, ← name_codes] at hc
          exact absurd hc (name_head c).1
    · rw [if_neg (by simp [hc, hne])]
      have hncom : ¬ IsComment col := by
        rintro ⟨r, rfl⟩; exact hc rfl
      split
      · rename_i hn
        constructor
        · intro h; cases h
        · rintro ⟨tail, h, ht⟩
          cases cats with
          | nil =>
            simp only [List.map_nil, List.nil_append] at h
            rcases ht with rfl | ⟨t, rest, rfl, hcom⟩
            · cases h
            · rw [← (List.cons.inj h).1] at hcom; exact absurd hcom hncom
          | cons c cs =>
            simp only [List.map_cons, List.cons_append] at h
            rw [catGet_iff.mpr (List.cons.inj h).1] at hn
            cases hn
      · rename_i c hn
        have hcol := catGet_iff.mp hn
        constructor
        · intro h
          cases hr : charDefCats cols with
          | error e => rw [hr] at h; cases h
          | ok cs =>
            rw [hr] at h
            have h : c :: cs = cats := Except.ok.inj h
            subst h
            obtain ⟨tail, h1, h2⟩ := (ih (fun x hx => hw x (by simp [hx]))).mp hr
            exact ⟨tail, by rw [hcol, h1]; rfl, h2⟩
        · rintro ⟨tail, h, ht⟩
          cases cats with
          | nil =>
            simp only [List.map_nil, List.nil_append] at h
            rcases ht with rfl | ⟨t, rest, rfl, hcom⟩
            · cases h
            · rw [← (List.cons.inj h).1] at hcom; exact absurd hcom hncom
          | cons c' cs =>
            simp only [List.map_cons, List.cons_append] at h
            obtain ⟨h1, h2⟩ := List.cons.inj h
            have hcc : c = c' := by
              have := catGet_iff.mpr h1
              rw [hn] at this
              exact Option.some.inj this
            subst hcc
            rw [(ih (fun x hx => hw x (by simp [hx]))).mpr ⟨tail, h2, ht⟩]
            rfl

theorem charDefCats_error : ∀ {cols : List PStr} {e : Err}, charDefCats cols = .error e → e = .attribute
  | [], e, h => by rw [charDefCats] at h; cases h
  | col :: cols, e, h => by
    rw [charDefCats] at h
    split at h
    · cases h
    · split at h
      · cases h; rfl
      · cases hr : charDefCats cols with
        | error e' => rw [hr] at h; cases h; exact charDefCats_error hr
        | ok cs => rw [hr] at h; cases h

/-! ### The lines of char.def -/

theorem take_two {col : PStr} : col.take 2 = [48, 120] ↔ ∃ r, col = 48 :: 120 :: r := by
  constructor
  · intro h
    match col, h with
    | a :: b :: r, h =>
      simp only [List.take_succ_cons, List.take_zero, List.cons.injEq, and_true] at h
      exact ⟨r, by rw [h.1, h.2]⟩
  · rintro ⟨r, rfl⟩; rfl

theorem endsWell_rstrip (s : PStr) : EndsWell (rstrip s) := (rstrip_split s).choose_spec.2.2

/-- What the code's `re.split` gives for a line that is neither blank nor indented: its columns. -/
theorem reSplitWs_rstrip {line : PStr} (hb : ¬ Blank line) (hi : ¬ Indented line) :
    reSplitWs (rstrip line) = splitWs line := by
  obtain ⟨c, r, r', h1, h2⟩ := rstrip_head hb
  have hc : isSpace c = false := by
    cases h : isSpace c with
    | false => rfl
    | true => exact absurd ⟨c, r, h1, h⟩ hi
  have hw := endsWell_rstrip line
  rw [h2] at hw
  rw [← splitWs_rstrip line, h2, reSplitWs_plain hw hc]

theorem reSplitWs_rstrip_indented {line : PStr} (hb : ¬ Blank line) (hi : Indented line) :
    reSplitWs (rstrip line) = [] :: splitWs line := by
  obtain ⟨c, r, r', h1, h2⟩ := rstrip_head hb
  obtain ⟨c', r'', h1', hc⟩ := hi
  rw [h1] at h1'
  obtain ⟨rfl, -⟩ := List.cons.inj h1'
  have hw := endsWell_rstrip line
  rw [h2] at hw
  rw [← splitWs_rstrip line, h2, reSplitWs_indented hw hc]

theorem rstrip_comment {line : PStr} (hb : ¬ Blank line) : (rstrip line).head? = some 35 ↔ IsComment line := by
  obtain ⟨c, r, r', h1, h2⟩ := rstrip_head hb
  rw [h2, h1]
  constructor
  · intro h; exact ⟨r, by simpa using h⟩
  · rintro ⟨x, hx⟩; rw [(List.cons.inj hx).1]; rfl

theorem charDefLine_skip {line : PStr} (h : Blank line ∨ IsComment line ∨ Indented line) : charDefLine line = .ok none := by
  unfold charDefLine
  by_cases hb : Blank line
  · rw [if_pos (Or.inl (by rw [rstrip_nil_iff.mpr hb]; rfl))]
  · by_cases hc : IsComment line
    · rw [if_pos (Or.inr ((rstrip_comment hb).mpr hc))]
    · have hi : Indented line := by
        rcases h with h | h | h
        · exact absurd h hb
        · exact absurd h hc
        · exact h
      have hne : splitWs line ≠ [] := fun h => hb (splitWs_nil_iff.mp h)
      rw [if_neg (by
        simp only [List.isEmpty_iff, not_or]
        exact ⟨fun h => hb (rstrip_nil_iff.mp h), fun h => hc ((rstrip_comment hb).mp h)⟩)]
      rw [reSplitWs_rstrip_indented hb hi]
      have : splitWs line ≠ [] := hne
      cases hs : splitWs line with
      | nil => exact absurd hs this
      | cons a as =>
        rw [if_neg (by simp)]
        dsimp only
        rw [if_pos (by decide)]

theorem charDefLine_columns {line : PStr} (hb : ¬ Blank line) (hc : ¬ IsComment line) (hi : ¬ Indented line) :
    charDefLine line = (if (splitWs line).length < 2 then .error .attribute
      else
        match splitWs line with
        | [] => .error .attribute
        | col :: cols =>
          if col.take 2 ≠ [48, 120] then .ok none
          else do
            let (low, high) ← charDefRange col
            let cats ← charDefCats cols
            pure (some ⟨low, high, cats⟩)) := by
  unfold charDefLine
  rw [if_neg (by
    simp only [List.isEmpty_iff, not_or]
    exact ⟨fun h => hb (rstrip_nil_iff.mp h), fun h => hc ((rstrip_comment hb).mp h)⟩)]
  rw [reSplitWs_rstrip hb hi]
  rfl

/-! ### Lines of a text -/

theorem linesAux_last : ∀ (s cur : PStr), (∀ c ∈ s, c ≠ 10 ∧ c ≠ 13) →
    linesAux cur s = if (cur ++ s).isEmpty then [] else [cur ++ s]
  | [], cur, _ => by rw [linesAux, List.append_nil]
  | c :: cs, cur, h => by
    have hc := h c (by simp)
    rw [linesAux.eq_3 cur c cs (by intro r e; exact absurd e hc.2), if_neg (by omega),
      linesAux_last cs _ (fun x hx => h x (by simp [hx]))]
    simp

theorem linesAux_cons : ∀ (s cur nl rest : PStr), (∀ c ∈ s, c ≠ 10 ∧ c ≠ 13) →
    (nl = [10] ∨ nl = [13, 10] ∨ (nl = [13] ∧ ¬ ∃ r, rest = 10 :: r)) →
    linesAux cur (s ++ nl ++ rest) = (cur ++ s ++ [10]) :: linesAux [] rest
  | [], cur, nl, rest, _, hn => by
    rcases hn with rfl | rfl | ⟨rfl, hr⟩
    · show linesAux cur (10 :: rest) = _
      rw [linesAux.eq_3 cur 10 rest (by intro r e; cases e), if_pos (Or.inr rfl)]
      simp
    · show linesAux cur (13 :: 10 :: rest) = _
      rw [linesAux]; simp
    · show linesAux cur (13 :: rest) = _
      rw [linesAux.eq_3 cur 13 rest (by intro r _ e; exact hr ⟨r, e⟩), if_pos (Or.inl rfl)]
      simp
  | c :: cs, cur, nl, rest, h, hn => by
    have hc := h c (by simp)
    show linesAux cur (c :: (cs ++ nl ++ rest)) = _
    rw [linesAux.eq_3 cur c _ (by intro r e; exact absurd e hc.2), if_neg (by omega),
      linesAux_cons cs _ nl rest (fun x hx => h x (by simp [hx])) hn]
    simp

theorem Lines.eq {text : PStr} {ls : List PStr} (h : Lines text ls) : linesAux [] text = ls := by
  induction h with
  | nil => rfl
  | last s hs hc => rw [linesAux_last s [] hc]; simp [hs]
  | cons s nl rest ls hc hn _ ih => rw [linesAux_cons s [] nl rest hc hn, ih]; simp

theorem lines_of : ∀ (n : Nat) (text cur : PStr), text.length ≤ n → (∀ c ∈ cur, c ≠ 10 ∧ c ≠ 13) →
    Lines (cur ++ text) (linesAux cur text)
  | _, [], cur, _, h => by
    rw [linesAux, List.append_nil]
    cases cur with
    | nil => exact .nil
    | cons a as => exact .last _ (by simp) h
  | 0, _ :: _, _, hn, _ => by simp at hn
  | n + 1, c :: cs, cur, hn, h => by
    by_cases h2 : ∃ r, c :: cs = 13 :: 10 :: r
    · obtain ⟨r, e⟩ := h2
      rw [e, linesAux]
      have hl := congrArg List.length e
      simp only [List.length_cons] at hl hn
      have := Lines.cons cur [13, 10] r _ h (Or.inr (Or.inl rfl)) (lines_of n r [] (by omega) (by simp))
      simpa using this
    · rw [linesAux.eq_3 cur c cs (by intro r e e'; exact h2 ⟨r, by rw [e, e']⟩)]
      split
      · rename_i hc
        have ih := lines_of n cs [] (by simp at hn; omega) (by simp)
        have := Lines.cons cur [c] cs _ h (by
          rcases hc with rfl | rfl
          · exact Or.inr (Or.inr ⟨rfl, fun ⟨r, e⟩ => h2 ⟨r, by rw [e]⟩⟩)
          · exact Or.inl rfl) ih
        simpa using this
      · rename_i hc
        have := lines_of n cs (cur ++ [c]) (by simp at hn; omega) (by
          intro x hx
          rcases List.mem_append.mp hx with hx | hx
          · exact h x hx
          · rw [List.mem_singleton.mp hx]; omega)
        simpa using this

theorem lines_iff {text : PStr} {ls : List PStr} : linesAux [] text = ls ↔ Lines text ls :=
  ⟨fun h => h ▸ lines_of text.length text [] (Nat.le_refl _) (by simp), Lines.eq⟩

/-! ### Writing ranges -/

theorem hexDigit_text {n : Nat} (h : n < 16) : HexDigit (if n < 10 then 48 + n else 55 + n) n := by
  rw [← hexDigit_iff]
  have : ∀ n < 16, hexDigitVal (if n < 10 then 48 + n else 55 + n) = some n := by decide
  exact this n h

theorem hexText_body (n : Nat) : HexBody (hexText n) n := by
  induction n using Nat.strongRecOn with
  | _ n ih =>
    rw [hexText]
    split
    · rename_i h; exact .one _ _ (hexDigit_text h)
    · rename_i h
      have := HexBody.more _ _ _ _ (ih (n / 16) (by omega)) (hexDigit_text (n := n % 16) (by omega))
      rwa [Nat.div_add_mod] at this

theorem hexText_chars (n : Nat) : ∀ c ∈ hexText n, 48 ≤ c ∧ c ≤ 70 := by
  induction n using Nat.strongRecOn with
  | _ n ih =>
    rw [hexText]
    split
    · intro c hc; rw [List.mem_singleton.mp hc]; split <;> omega
    · intro c hc
      rcases List.mem_append.mp hc with hc | hc
      · exact ih (n / 16) (by omega) c hc
      · rw [List.mem_singleton.mp hc]; split <;> omega

theorem name_chars (c : Cat) : ∀ x ∈ codes (catName c), 48 ≤ x ∧ x ≤ 90 := by
  rw [← name_codes]; cases c <;> decide

theorem space_no {x : Nat} (h : 33 ≤ x) (h' : x ≤ 126) : isSpace x = false := by
  have : ∀ i < 94, isSpace (33 + i) = false := by decide
  have := this (x - 33) (by omega)
  rwa [Nat.add_sub_cancel' h] at this

theorem name_word (c : Cat) : IsWord (codes (catName c)) :=
  ⟨by rw [← name_codes]; exact (name_head c).2, fun x hx => by
    have := name_chars c x hx; exact space_no (by omega) (by omega)⟩

theorem names_columns : ∀ (cats : List Cat),
    Columns (cats.flatMap (fun c => 32 :: codes (catName c)) ++ [10]) (cats.map (fun c => codes (catName c)))
  | [] => .nil _ (by intro c hc; rw [List.mem_singleton.mp hc]; decide)
  | c :: cs => by
    have ih := names_columns cs
    have hb : Blank [32] := by intro c hc; rw [List.mem_singleton.mp hc]; decide
    cases cs with
    | nil =>
      have := Columns.cons [32] _ 10 [] [] hb (name_word c) (by decide) (by simpa using ih)
      simpa using this
    | cons c' cs' =>
      have := Columns.cons [32] _ 32 _ _ hb (name_word c) (by decide) (by simpa using ih)
      simpa using this

theorem names_start (cats : List Cat) : ∃ s rest, cats.flatMap (fun c => 32 :: codes (catName c)) ++ [10] = s :: rest ∧
    isSpace s = true := by
  cases cats with
  | nil => exact ⟨10, [], rfl, by decide⟩
  | cons c cs => exact ⟨32, _, by simp; rfl, by decide⟩

theorem rangeCol_chars {r : CRange} {c : Nat}
    (h : c ∈ 48 :: 120 :: hexText r.low ++ [46, 46, 48, 120] ++ hexText (r.high - 1)) : 46 ≤ c ∧ c ≤ 120 := by
  rcases List.mem_append.mp h with h | h
  · rcases List.mem_append.mp h with h | h
    · rcases List.mem_cons.mp h with rfl | h
      · omega
      · rcases List.mem_cons.mp h with rfl | h
        · omega
        · have := hexText_chars _ _ h; omega
    · simp only [List.mem_cons, List.not_mem_nil, or_false] at h; omega
  · have := hexText_chars _ _ h; omega

theorem rangeLine_gives {r : CRange} (h : r.low < r.high) (hc : r.cats ≠ []) :
    GivesCategories (rangeLine r) r.low (r.high - 1) r.cats := by
  refine ⟨48 :: 120 :: hexText r.low ++ [46, 46, 48, 120] ++ hexText (r.high - 1), [], ?_, ?_, ⟨_, rfl⟩, ?_, by omega,
    Or.inl hc, Or.inl rfl⟩
  · rw [List.append_nil]
    have hn := names_columns r.cats
    obtain ⟨s, rest, e, hs⟩ := names_start r.cats
    unfold rangeLine
    rw [e] at hn ⊢
    refine Columns.cons [] _ s rest _ Blank.nil ⟨by simp, ?_⟩ hs hn
    intro x hx
    have := rangeCol_chars hx
    exact space_no (by omega) (by omega)
  · rintro ⟨c, rest, e, hs⟩
    unfold rangeLine at e
    have : 48 = c := (List.cons.inj e).1
    subst this
    exact absurd hs (by decide)
  · have h1 : HexInt (48 :: 120 :: hexText r.low) (r.low : Int) := by
      have := HexInt.plain [] _ [] _ (by simp) (by simp) (.pre 48 120 _ _ (by decide) (Or.inl rfl) (hexText_body r.low))
      simpa using this
    have h2 : HexInt (48 :: 120 :: hexText (r.high - 1)) ((r.high - 1 : Nat) : Int) := by
      have := HexInt.plain [] _ [] _ (by simp) (by simp)
        (.pre 48 120 _ _ (by decide) (Or.inl rfl) (hexText_body (r.high - 1)))
      simpa using this
    have := CodePoints.range _ _ [] _ _ h1 h2 (Or.inl rfl)
    simpa using this

theorem rangeLine_chars {r : CRange} {c : Nat} (h : c ∈ rangeLine r) : encodable c = true ∧ c ≠ 13 := by
  have hle : c ≤ 126 ∧ c ≠ 13 := by
    rcases List.mem_append.mp h with h | h
    · have := rangeCol_chars h; omega
    · simp only [List.mem_append, List.mem_cons, List.not_mem_nil, or_false, List.mem_flatMap] at h
      rcases h with ⟨a, -, (rfl | h)⟩ | rfl
      · omega
      · have := name_chars _ _ h; omega
      · omega
  refine ⟨?_, hle.2⟩
  exact encodable_iff.mpr ⟨by omega, by omega⟩

theorem rangeLines_lines : ∀ (ranges : List CRange), Lines (ranges.flatMap rangeLine) (ranges.map rangeLine)
  | [] => .nil
  | r :: rs => by
    have ih := rangeLines_lines rs
    have e : ∃ s, rangeLine r = s ++ [10] ∧ ∀ c ∈ s, c ≠ 10 := by
      refine ⟨48 :: 120 :: hexText r.low ++ [46, 46, 48, 120] ++ hexText (r.high - 1) ++
        r.cats.flatMap (fun c => 32 :: codes (catName c)), by simp [rangeLine], ?_⟩
      intro c h
      rcases List.mem_append.mp h with h | h
      · have := rangeCol_chars h; omega
      · simp only [List.mem_cons, List.mem_flatMap] at h
        rcases h with ⟨a, -, (rfl | h)⟩
        · omega
        · have := name_chars _ _ h; omega
    obtain ⟨s, e1, e2⟩ := e
    have := Lines.cons s [10] _ _ (fun c hc => ⟨e2 c hc, (rangeLine_chars (by rw [e1]; simp [hc])).2⟩) (Or.inl rfl) ih
    rw [List.flatMap_cons, List.map_cons, e1]
    exact this

end Sudachi
