/-
Decimal numbers; the lines of the MeCab plugin's files.
-/
import Verif.Lemmas.Definitions
import Verif.Lemmas.DictFile
import Verif.Lemmas.CommandLine
namespace Sudachi

/-! ### Decimal numbers -/

theorem digitVal_under : digitVal 95 = none := by decide

theorem digitsFrom_body : ∀ (n : Nat) (cs p : PStr) (acc v : Nat), cs.length ≤ n → DecBody p acc →
    digitsFrom cs acc = some v → DecBody (p ++ cs) v
  | _, [], p, acc, v, _, hp, h => by
    rw [digitsFrom] at h
    cases h
    simpa using hp
  | 0, _ :: _, _, _, _, hn, _, _ => by simp at hn
  | n + 1, c :: cs, p, acc, v, hn, hp, h => by
    rw [digitsFrom.eq_def] at h
    dsimp only at h
    split at h
    · rename_i d hd
      have := digitsFrom_body n cs (p ++ [c]) _ v (by simp at hn; omega)
        (Nat.mul_comm 10 acc ▸ DecBody.more p acc c d hp hd) h
      simpa using this
    · split at h
      · rename_i h95
        subst h95
        split at h
        · cases h
        · rename_i c' cs'
          split at h
          · rename_i d hd
            have := digitsFrom_body n cs' (p ++ [95, c']) _ v (by simp at hn; omega)
              (Nat.mul_comm 10 acc ▸ DecBody.under p acc c' d hp hd) h
            simpa using this
          · cases h
      · cases h

theorem digitsFrom_append : ∀ (n : Nat) (s : PStr) (acc v : Nat) (t : PStr), s.length ≤ n →
    digitsFrom s acc = some v → digitsFrom (s ++ t) acc = digitsFrom t v
  | _, [], acc, v, t, _, h => by
    rw [digitsFrom] at h; cases h; rfl
  | 0, _ :: _, _, _, _, hn, _ => by simp at hn
  | n + 1, c :: cs, acc, v, t, hn, h => by
    rw [digitsFrom.eq_def] at h
    dsimp only at h
    rw [List.cons_append, digitsFrom.eq_def]
    dsimp only
    split at h
    · rename_i d hd
      exact digitsFrom_append n cs _ v t (by simp at hn; omega) h
    · rename_i hd
      split at h
      · rename_i h95
        rw [if_pos h95]
        split at h
        · cases h
        · rename_i c' cs'
          rw [List.cons_append]
          dsimp only
          split at h
          · rename_i d hd
            exact digitsFrom_append n cs' _ v t (by simp at hn; omega) h
          · cases h
      · cases h

theorem digits_iff {s : PStr} {v : Nat} : digits s = some v ↔ DecBody s v := by
  constructor
  · intro h
    unfold digits at h
    split at h
    · cases h
    · rename_i c cs
      split at h
      · rename_i d hd
        exact digitsFrom_body cs.length cs [c] d v (Nat.le_refl _) (.one c d (hd)) h
      · cases h
  · intro h
    induction h with
    | one c d h => simp only [digits, h, digitsFrom]
    | more s v c d _ hd ih =>
      unfold digits at ih ⊢
      cases s with
      | nil => simp at ih
      | cons a as =>
        dsimp only [List.cons_append] at ih ⊢
        split at ih
        · rename_i d' hd'
          rw [digitsFrom_append as.length as d' v [c] (Nat.le_refl _) ih]
          simp only [digitsFrom, hd, Nat.mul_comm]
        · cases ih
    | under s v c d _ hd ih =>
      unfold digits at ih ⊢
      cases s with
      | nil => simp at ih
      | cons a as =>
        dsimp only [List.cons_append] at ih ⊢
        split at ih
        · rename_i d' hd'
          rw [digitsFrom_append as.length as d' v [95, c] (Nat.le_refl _) ih]
          simp only [digitsFrom, hd, Nat.mul_comm, digitVal_under, if_true]
        · cases ih

theorem DecBody.head {s : PStr} {v : Nat} (h : DecBody s v) : ∃ c cs d, s = c :: cs ∧ digitVal c = some d := by
  induction h with
  | one c d h => exact ⟨c, [], d, rfl, h⟩
  | more s v c d _ _ ih => obtain ⟨a, as, e, h1, h2⟩ := ih; exact ⟨a, as ++ [c], e, by rw [h1]; rfl, h2⟩
  | under s v c d _ _ ih => obtain ⟨a, as, e, h1, h2⟩ := ih; exact ⟨a, as ++ [95, c], e, by rw [h1]; rfl, h2⟩

theorem DecBody.last {s : PStr} {v : Nat} (h : DecBody s v) : ∃ cs c d, s = cs ++ [c] ∧ digitVal c = some d := by
  cases h with
  | one c _ h => exact ⟨[], c, v, rfl, h⟩
  | more s v c d _ h => exact ⟨s, c, d, rfl, h⟩
  | under s v c d _ h => exact ⟨s ++ [95], c, d, by simp, h⟩

/-- `int(s)` reads exactly the decimal numbers. -/
theorem pyInt_iff {s : PStr} {v : Int} : pyInt s = .ok v ↔ DecInt s v := by
  constructor
  · intro h
    obtain ⟨w, w', hs, hw, hw'⟩ := stripInt_split s
    unfold pyInt at h
    rw [hs]
    split at h
    · rename_i v' hv
      cases h
      split at hv
      · rename_i r e
        rw [e]
        cases hn : digits r with
        | none => rw [hn] at hv; cases hv
        | some n => rw [hn] at hv; cases hv; exact .minus w r w' n hw hw' (digits_iff.mp hn)
      · rename_i r e
        rw [e]
        cases hn : digits r with
        | none => rw [hn] at hv; cases hv
        | some n => rw [hn] at hv; cases hv; exact .plus w r w' n hw hw' (digits_iff.mp hn)
      · cases hn : digits (stripInt s) with
        | none => rw [hn] at hv; cases hv
        | some n => rw [hn] at hv; cases hv; exact .plain w _ w' n hw hw' (digits_iff.mp hn)
    · cases h
  · intro h
    unfold pyInt
    cases h with
    | plain w t w' n hw hw' h =>
      obtain ⟨c, cs, d, e, hc⟩ := h.head
      have hc := digitVal_plain hc
      obtain ⟨cs', c', d', e', hc'⟩ := h.last
      have hc' := digitVal_plain hc'
      rw [stripInt_mid hw hw' ⟨c, cs, e, hc.int⟩ ⟨cs', c', e', hc'.int⟩]
      have hn := digits_iff.mpr h
      rw [e] at hn ⊢
      split
      · rename_i v' hv
        split at hv
        · rename_i r e2; exact absurd (List.cons.inj e2).1 hc.minus
        · rename_i r e2; exact absurd (List.cons.inj e2).1 hc.plus
        · rw [hn] at hv; cases hv; rfl
      · rename_i hv
        split at hv
        · rename_i r e2; exact absurd (List.cons.inj e2).1 hc.minus
        · rename_i r e2; exact absurd (List.cons.inj e2).1 hc.plus
        · rw [hn] at hv; cases hv
    | plus w t w' n hw hw' h =>
      obtain ⟨cs', c', d', e', hc'⟩ := h.last
      have hc' := digitVal_plain hc'
      rw [stripInt_mid (s := 43 :: t) hw hw' ⟨43, t, rfl, by decide⟩ ⟨43 :: cs', c', by rw [e']; rfl, hc'.int⟩]
      simp only [digits_iff.mpr h]
      rfl
    | minus w t w' n hw hw' h =>
      obtain ⟨cs', c', d', e', hc'⟩ := h.last
      have hc' := digitVal_plain hc'
      rw [stripInt_mid (s := 45 :: t) hw hw' ⟨45, t, rfl, by decide⟩ ⟨45 :: cs', c', by rw [e']; rfl, hc'.int⟩]
      simp only [digits_iff.mpr h]
      rfl

theorem pyInt_error {s : PStr} {e : Err} (h : pyInt s = .error e) : e = .value := by
  unfold pyInt at h
  split at h
  · cases h
  · cases h; rfl

/-! ### The lines of the MeCab plugin's files -/

theorem strip_notIndented (s : PStr) : ¬ Indented (strip s) := by
  rintro ⟨c, r, h, hc⟩
  obtain ⟨w, -, -, h3⟩ := dropWhile_split isSpace s
  have e : strip s = rstrip (s.dropWhile isSpace) := rfl
  have hb : ¬ Blank (s.dropWhile isSpace) := by
    intro hb
    rw [e, rstrip_nil_iff.mpr hb] at h; cases h
  obtain ⟨c', r', r'', h1, h2⟩ := rstrip_head hb
  rw [e, h2] at h
  have := h3 c' r' h1
  rw [(List.cons.inj h).1, hc] at this
  cases this

theorem strip_first {line col : PStr} {cols : List PStr} (h : Columns line (col :: cols)) :
    ∃ rest, strip line = col ++ rest ∧ (rest = [] ∨ ∃ s r, rest = s :: r ∧ isSpace s = true) := by
  have hs : Columns (strip line) (col :: cols) := columns_iff.mpr (by rw [splitWs_strip, h.split])
  have hi := strip_notIndented line
  generalize strip line = t at hs hi
  have hw : ∀ {w r : PStr}, Blank w → t = w ++ r → w = [] := by
    intro w r hb e
    cases w with
    | nil => rfl
    | cons a as => exact absurd ⟨a, as ++ r, e, hb a (by simp)⟩ hi
  cases hs with
  | last w c hb hc =>
    have := hw hb rfl
    subst this
    exact ⟨[], by simp, Or.inl rfl⟩
  | cons w c s rest cols hb hc hs hr =>
    have := hw hb (List.append_assoc _ _ _)
    subst this
    exact ⟨s :: rest, by simp, Or.inr ⟨s, rest, rfl, hs⟩⟩

theorem strip_head {line col : PStr} {cols : List PStr} (h : Columns line (col :: cols)) :
    ((strip line).head? = some 35 ↔ IsComment col) ∧ ((strip line).take 2 = [48, 120] ↔ ∃ r, col = 48 :: 120 :: r) := by
  obtain ⟨rest, e, hr⟩ := strip_first h
  have hw := h.words col (by simp)
  rw [e]
  cases col with
  | nil => exact absurd rfl hw.1
  | cons a as =>
    refine ⟨⟨fun h => ⟨as, by simpa using h⟩, fun ⟨r, h⟩ => by rw [(List.cons.inj h).1]; rfl⟩, ?_⟩
    rw [take_two]
    constructor
    · rintro ⟨r, h2⟩
      cases as with
      | nil =>
        exfalso
        rcases hr with rfl | ⟨s, r', rfl, hs⟩
        · cases h2
        · simp only [List.cons_append, List.nil_append, List.cons.injEq] at h2
          rw [h2.2.1] at hs
          exact absurd hs (by decide)
      | cons b bs =>
        simp only [List.cons_append, List.cons.injEq] at h2
        exact ⟨bs, by rw [h2.1, h2.2.1]⟩
    · rintro ⟨r, h2⟩
      rw [h2]
      exact ⟨r ++ rest, rfl⟩

theorem strip_mid {w s w' : PStr} (hw : Blank w) (hw' : Blank w') (h1 : ¬ Indented s)
    (h2 : ¬ ∃ r c, s = r ++ [c] ∧ isSpace c = true) : strip (w ++ s ++ w') = s := by
  by_cases hs : s = []
  · subst hs
    exact strip_nil_iff.mpr (by simpa using hw.append hw')
  · unfold strip
    rw [List.append_assoc, dropWhile_drop hw, dropWhile_stay (s := s ++ w') (by
      intro x y hxy
      cases s with
      | nil => exact absurd rfl hs
      | cons a as =>
        rw [← (List.cons.inj hxy).1]
        cases ha : isSpace a with
        | false => rfl
        | true => exact absurd ⟨a, as, rfl, ha⟩ h1)]
    rw [List.reverse_append, dropWhile_drop (by intro c hc; exact hw' c (by simpa using hc)), dropWhile_stay,
      List.reverse_reverse]
    intro x y hxy
    have := congrArg List.reverse hxy
    rw [List.reverse_reverse, List.reverse_cons] at this
    cases hx : isSpace x with
    | false => rfl
    | true => exact absurd ⟨_, _, this, hx⟩ h2

theorem splitOn_noSep {sep : Nat} : ∀ (s : PStr), ∀ col ∈ splitOn sep s, sep ∉ col
  | [], col, h => by rw [splitOn] at h; rw [List.mem_singleton.mp h]; simp
  | c :: cs, col, h => by
    rw [splitOn] at h
    have ih := splitOn_noSep (sep := sep) cs
    split at h
    · rcases List.mem_cons.mp h with rfl | h
      · simp
      · exact ih col h
    · rename_i hc
      split at h
      · rw [List.mem_singleton.mp h]; simpa using fun e => hc e.symm
      · rename_i a as e
        rw [e] at ih
        rcases List.mem_cons.mp h with rfl | h
        · have := ih a (by simp)
          simp only [List.mem_cons, not_or]
          exact ⟨fun e => hc e.symm, this⟩
        · exact ih col (by simp [h])

theorem splitOn_ne (sep : Nat) (s : PStr) : splitOn sep s ≠ [] := by
  cases s with
  | nil => simp [splitOn]
  | cons c cs =>
    rw [splitOn]
    split
    · simp
    · split <;> simp

theorem commaColumns_iff {line : PStr} {cols : List PStr} : CommaColumns line cols ↔ splitOn 44 (strip line) = cols := by
  constructor
  · rintro ⟨w, body, w', rfl, hw, hw', h1, h2, h3, h4, h5⟩
    rw [strip_mid hw hw' h1 h2, h3, ← joinOn_eq, splitOn_joinOn h4 h5]
  · rintro rfl
    obtain ⟨w, w', h, hw, hw'⟩ := strip_split line
    refine ⟨w, _, w', h, hw, hw', strip_notIndented line, ?_, ?_, splitOn_ne _ _, splitOn_noSep _⟩
    · rintro ⟨r, c, e, hc⟩
      have := endsWell_rstrip (line.dropWhile isSpace) r c e
      rw [hc] at this; cases this
    · rw [← joinOn_eq, joinOn_splitOn]

theorem posNumber_iff {g : Grammar} {pos : List PStr} {n : Int} : PosNumber g.posList pos n ↔ g.posId pos = n := by
  have key : ∀ (l : List (List PStr)), (∀ i, l.idxOf? pos = some i ↔ l[i]? = some pos ∧ ∀ j < i, l[j]? ≠ some pos) ∧
      (l.idxOf? pos = none ↔ pos ∉ l) := by
    intro l
    refine ⟨fun i => ?_, by simp⟩
    rw [List.idxOf?_eq_some_iff]
    constructor
    · rintro ⟨h1, h2, h3⟩
      refine ⟨by rw [List.getElem?_eq_getElem h1, h2], fun j hj => ?_⟩
      rw [List.getElem?_eq_getElem (by omega)]
      exact fun e => h3 j hj (Option.some.inj e)
    · rintro ⟨h1, h2⟩
      obtain ⟨h3, h4⟩ := List.getElem?_eq_some_iff.mp h1
      refine ⟨h3, h4, fun j hj e => h2 j hj ?_⟩
      rw [List.getElem?_eq_getElem (by omega), e]
  unfold PosNumber Grammar.posId
  obtain ⟨k1, k2⟩ := key g.posList
  cases h : g.posList.idxOf? pos with
  | none =>
    constructor
    · rintro (⟨i, -, h1, -⟩ | ⟨rfl, -⟩)
      · exact absurd (List.mem_of_getElem? h1) (k2.mp h)
      · rfl
    · rintro rfl; exact Or.inr ⟨rfl, k2.mp h⟩
  | some i =>
    obtain ⟨h1, h2⟩ := (k1 i).mp h
    constructor
    · rintro (⟨j, rfl, h3, h4⟩ | ⟨rfl, h3⟩)
      · have := (k1 j).mpr ⟨h3, h4⟩
        rw [h] at this; rw [Option.some.inj this]
      · exact absurd (List.mem_of_getElem? h1) h3
    · rintro rfl; exact Or.inl ⟨i, rfl, h1, h2⟩

theorem getAttr_member {others : PStr → Option Attr} {name : PStr} {c : Cat} (h : name = codes (catName c)) :
    getAttr others name = some (.member c) := by
  unfold getAttr; rw [catGet_iff.mpr h]

theorem getAttr_some {others : PStr → Option Attr} {name : PStr} {c : Cat} (ho : OnlyOthers others)
    (h : getAttr others name = some (.member c)) : name = codes (catName c) := by
  unfold getAttr at h
  split at h
  · rename_i c' hc
    have : c' = c := by
      have := Option.some.inj h
      injection this
    rw [← this]; exact catGet_iff.mp hc
  · exact absurd h (ho name c)

theorem name_notComment (c : Cat) : ¬ IsComment (codes (catName c)) := by
  rintro ⟨r, h⟩
  have := name_chars c 35 (by rw [h]; simp)
  omega

theorem name_not0x (c : Cat) : ¬ ∃ r, codes (catName c) = 48 :: 120 :: r := by
  rintro ⟨r, h⟩
  have := name_chars c 120 (by rw [h]; simp)
  omega

theorem decide_bool {p : Prop} [Decidable p] {b : Bool} : (b = true ↔ p) ↔ b = decide p := by
  cases b <;> simp

/-- A line of char.def as the MeCab plugin reads it. -/
theorem propertyLine_none {others : PStr → Option Attr} {defined : List (Attr × CategoryInfo)} {line : PStr} :
    propertyLine others defined line = .ok none ↔ NotProperty line := by
  unfold propertyLine
  by_cases hb : Blank line
  · rw [if_pos (Or.inl (by rw [strip_nil_iff.mpr hb]; rfl))]
    refine ⟨fun _ => ?_, fun _ => rfl⟩
    intro col cols h
    have := (Columns.nil line hb).split
    rw [h.split] at this; cases this
  · have hne : ¬ (strip line).isEmpty = true := by
      rw [List.isEmpty_iff]; exact fun h => hb (strip_nil_iff.mp h)
    cases hs : splitWs line with
    | nil => exact absurd (splitWs_nil_iff.mp hs) hb
    | cons col cols =>
      have hcol := columns_iff.mpr hs
      obtain ⟨e1, e2⟩ := strip_head hcol
      by_cases hc : IsComment col ∨ ∃ r, col = 48 :: 120 :: r
      · rw [if_pos (Or.inr (by rw [e1, e2]; exact hc))]
        refine ⟨fun _ => ?_, fun _ => rfl⟩
        intro col' cols' h
        have := h.split
        rw [hs] at this
        rw [← (List.cons.inj this).1]; exact hc
      · rw [if_neg (by rw [e1, e2]; exact fun h => h.elim hne hc)]
        constructor
        · intro h
          exfalso
          split at h
          · split at h
            · cases h
            · cases h
            · split at h
              · cases h
              · rename_i length _ _ _ _ _ _ _
                cases hp : pyInt length with
                | error e => rw [hp] at h; cases h
                | ok n => rw [hp] at h; cases h
          · cases h
        · intro h; exact absurd (h col cols hcol) hc

theorem propertyLine_member {others : PStr → Option Attr} (ho : OnlyOthers others) {defined : List (Attr × CategoryInfo)}
    {line : PStr} {c : Cat} {info : CategoryInfo} :
    propertyLine others defined line = .ok (some (.member c, info)) ↔
      PropertyOf line c info ∧ dictGet defined (.member c) = none := by
  by_cases hnp : NotProperty line
  · rw [propertyLine_none.mpr hnp]
    constructor
    · intro h; cases h
    · rintro ⟨⟨i, g, l, rest, h, -⟩, -⟩
      rcases hnp _ _ h with h | h
      · exact absurd h (name_notComment c)
      · exact absurd h (name_not0x c)
  · have hcond : ¬ ((strip line).isEmpty = true ∨ (strip line).head? = some 35 ∨ (strip line).take 2 = [48, 120]) := by
      intro h
      apply hnp
      rw [← propertyLine_none (others := others) (defined := defined)]
      unfold propertyLine
      rw [if_pos h]
    unfold propertyLine
    rw [if_neg hcond, splitWs_strip]
    constructor
    · intro h
      split at h
      · rename_i name invoke group length rest hs
        split at h
        · cases h
        · cases h
        · rename_i a ha
          split at h
          · cases h
          · rename_i hd
            cases hp : pyInt length with
            | error e => rw [hp] at h; cases h
            | ok n =>
              rw [hp] at h
              have h' := Option.some.inj (Except.ok.inj h)
              clear h
              simp only [Prod.mk.injEq] at h'
              obtain ⟨rfl, h'⟩ := h'
              subst h'
              have hname := getAttr_some ho ha
              subst hname
              refine ⟨⟨invoke, group, length, rest, columns_iff.mpr hs, ?_, ?_, pyInt_iff.mp hp⟩, ?_⟩
              · show decide (invoke ≠ [48]) = true ↔ _
                rw [decide_eq_true_iff]; rfl
              · show decide (group ≠ [48]) = true ↔ _
                rw [decide_eq_true_iff]; rfl
              · simpa using hd
      · cases h
    · rintro ⟨⟨i, g, l, rest, h, h1, h2, h3⟩, h4⟩
      rw [h.split]
      dsimp only
      rw [getAttr_member rfl]
      dsimp only
      rw [if_neg (by simp [h4]), pyInt_iff.mpr h3]
      have h1 : info.isInvoke = decide (i ≠ [48]) := decide_bool.mp h1
      have h2 : info.isGroup = decide (g ≠ [48]) := decide_bool.mp h2
      rw [← h1, ← h2]
      rfl

theorem unkLine_none {others : PStr → Option Attr} {g : Grammar} {defined : List (Attr × CategoryInfo)} {line : PStr} :
    unkLine others g defined line = .ok none ↔ Blank line := by
  unfold unkLine
  by_cases hb : Blank line
  · rw [if_pos (by rw [strip_nil_iff.mpr hb]; rfl)]
    exact ⟨fun _ => hb, fun _ => rfl⟩
  · rw [if_neg (by rw [List.isEmpty_iff]; exact fun h => hb (strip_nil_iff.mp h))]
    refine ⟨fun h => ?_, fun h => absurd h hb⟩
    exfalso
    split at h
    · split at h
      · cases h
      · cases h
      · split at h
        · cases h
        · rename_i name left right cost p0 p1 p2 p3 p4 p5 _ _ _ _ _ _ _
          cases h1 : pyInt left with
          | error e => rw [h1] at h; cases h
          | ok l =>
            rw [h1] at h
            cases h2 : pyInt right with
            | error e => rw [h2] at h; cases h
            | ok r =>
              rw [h2] at h
              cases h3 : pyInt cost with
              | error e => rw [h3] at h; cases h
              | ok k => rw [h3] at h; cases h
    · cases h

theorem unkLine_member {others : PStr → Option Attr} (ho : OnlyOthers others) {g : Grammar}
    {defined : List (Attr × CategoryInfo)} {line : PStr} {c : Cat} {e : OovEntry} :
    unkLine others g defined line = .ok (some (.member c, e)) ↔
      UnkEntry g.posList line c e ∧ dictGet defined (.member c) ≠ none := by
  unfold unkLine
  constructor
  · intro h
    split at h
    · cases h
    · split at h
      · rename_i name left right cost p0 p1 p2 p3 p4 p5 rest hs
        split at h
        · cases h
        · cases h
        · rename_i a ha
          split at h
          · cases h
          · rename_i hd
            cases h1 : pyInt left with
            | error e => rw [h1] at h; cases h
            | ok l =>
              rw [h1] at h
              cases h2 : pyInt right with
              | error e => rw [h2] at h; cases h
              | ok r =>
                rw [h2] at h
                cases h3 : pyInt cost with
                | error e => rw [h3] at h; cases h
                | ok k =>
                  rw [h3] at h
                  have h' := Option.some.inj (Except.ok.inj h)
                  clear h
                  simp only [Prod.mk.injEq] at h'
                  obtain ⟨rfl, h'⟩ := h'
                  subst h'
                  have hname := getAttr_some ho ha
                  subst hname
                  exact ⟨⟨left, right, cost, p0, p1, p2, p3, p4, p5, rest, commaColumns_iff.mpr hs, pyInt_iff.mp h1,
                    pyInt_iff.mp h2, pyInt_iff.mp h3, posNumber_iff.mpr rfl⟩, by simpa using hd⟩
      · cases h
  · rintro ⟨⟨left, right, cost, p0, p1, p2, p3, p4, p5, rest, h, h1, h2, h3, h4⟩, h5⟩
    have hs := commaColumns_iff.mp h
    rw [if_neg (by
      intro he
      rw [List.isEmpty_iff] at he
      rw [he] at hs
      have := congrArg List.length hs
      simp [splitOn] at this)]
    rw [hs]
    dsimp only
    rw [getAttr_member rfl]
    dsimp only
    rw [if_neg (by simp [h5]), pyInt_iff.mpr h1, pyInt_iff.mpr h2, pyInt_iff.mpr h3, posNumber_iff.mp h4]
    rfl

/-! ### The files of the MeCab plugin -/

theorem dictGet_append {α β : Type} [DecidableEq α] (a b : List (α × β)) (x : α) :
    dictGet (a ++ b) x = (match dictGet a x with | some v => some v | none => dictGet b x) := by
  induction a with
  | nil => rfl
  | cons p ps ih =>
    obtain ⟨k, v⟩ := p
    simp only [List.cons_append, dictGet]
    split
    · rfl
    · exact ih

theorem dictGet_members {α : Type} : ∀ (l : List (Attr × α)) (c : Cat), dictGet (members l) c = dictGet l (.member c)
  | [], _ => rfl
  | (.member c', x) :: rest, c => by
    simp only [members, dictGet]
    by_cases h : c' = c
    · subst h; simp
    · rw [if_neg h, if_neg (by intro e; injection e with e; exact h e), dictGet_members rest c]
  | (.other n, x) :: rest, c => by
    simp only [members, dictGet]
    rw [if_neg (by intro e; cases e), dictGet_members rest c]
  | (.unhashable, x) :: rest, c => by
    simp only [members, dictGet]
    rw [if_neg (by intro e; cases e), dictGet_members rest c]

theorem PropertyOf.unique {line : PStr} {c c' : Cat} {i i' : CategoryInfo} (h : PropertyOf line c i) (h' : PropertyOf line c' i') :
    c = c' ∧ i = i' := by
  have h1 := (propertyLine_member (others := fun _ => none) (by intro _ _ h; cases h) (defined := [])).mpr ⟨h, rfl⟩
  have h2 := (propertyLine_member (others := fun _ => none) (by intro _ _ h; cases h) (defined := [])).mpr ⟨h', rfl⟩
  rw [h1] at h2
  have := Option.some.inj (Except.ok.inj h2)
  simp only [Prod.mk.injEq, Attr.member.injEq] at this
  exact this

theorem PropertyOf.notSkipped {line : PStr} {c : Cat} {i : CategoryInfo} (h : PropertyOf line c i) : ¬ NotProperty line := by
  obtain ⟨_, _, _, _, h, -⟩ := h
  intro hn
  rcases hn _ _ h with h | h
  · exact name_notComment c h
  · exact name_not0x c h

/-- What a line of char.def gives the plugin, `others` aside. -/
theorem readProperties_ok {others : PStr → Option Attr} (ho : OnlyOthers others) :
    ∀ {lines : List PStr} {defined cats : List (Attr × CategoryInfo)}, readProperties others defined lines = .ok cats →
      (∀ c info, dictGet cats (.member c) = some info ↔
        dictGet defined (.member c) = some info ∨ ∃ line ∈ lines, PropertyOf line c info) ∧
      (∀ line ∈ lines, ∀ c info, PropertyOf line c info → dictGet defined (.member c) = none) ∧
      lines.Pairwise (fun l l' => ∀ c i i', ¬ (PropertyOf l c i ∧ PropertyOf l' c i')) ∧
      ∀ line ∈ lines, NotProperty line ∨ (∃ c info, PropertyOf line c info) ∨
        ∃ col cols, Columns line (col :: cols) ∧ others col ≠ none
  | [], defined, cats, h => by
    rw [readProperties] at h; cases h
    exact ⟨by simp, by simp, List.Pairwise.nil, by simp⟩
  | line :: lines, defined, cats, h => by
    rw [readProperties] at h
    cases hl : propertyLine others defined line with
    | error e => rw [hl] at h; cases h
    | ok o =>
      rw [hl] at h
      cases o with
      | none =>
        have h : readProperties others defined lines = .ok cats := h
        obtain ⟨i1, i2, i3, i4⟩ := readProperties_ok ho h
        have hn := propertyLine_none.mp hl
        refine ⟨?_, ?_, ?_, ?_⟩
        · intro c info
          rw [i1 c info]
          constructor
          · rintro (h | ⟨l, h1, h2⟩)
            · exact Or.inl h
            · exact Or.inr ⟨l, by simp [h1], h2⟩
          · rintro (h | ⟨l, h1, h2⟩)
            · exact Or.inl h
            · rcases List.mem_cons.mp h1 with rfl | h1
              · exact absurd hn h2.notSkipped
              · exact Or.inr ⟨l, h1, h2⟩
        · intro l h1 c info h2
          rcases List.mem_cons.mp h1 with rfl | h1
          · exact absurd hn h2.notSkipped
          · exact i2 l h1 c info h2
        · exact List.Pairwise.cons (fun l' _ c i i' hh => hh.1.notSkipped hn) i3
        · intro l h1
          rcases List.mem_cons.mp h1 with rfl | h1
          · exact Or.inl hn
          · exact i4 l h1
      | some p =>
        have h : readProperties others (defined ++ [p]) lines = .ok cats := h
        obtain ⟨i1, i2, i3, i4⟩ := readProperties_ok ho h
        obtain ⟨a, info0⟩ := p
        by_cases ha : ∃ c, a = .member c
        · obtain ⟨c0, rfl⟩ := ha
          obtain ⟨hp, hd⟩ := (propertyLine_member ho).mp hl
          have hget : ∀ c, dictGet (defined ++ [(Attr.member c0, info0)]) (.member c) =
              if c0 = c then some info0 else dictGet defined (.member c) := by
            intro c
            rw [dictGet_append]
            by_cases hc : c0 = c
            · subst hc; rw [hd]; simp [dictGet]
            · rw [if_neg hc]
              have : dictGet [(Attr.member c0, info0)] (Attr.member c) = none := by
                simp only [dictGet]
                rw [if_neg (by intro e; injection e with e; exact hc e)]
              rw [this]
              cases dictGet defined (Attr.member c) <;> rfl
          refine ⟨?_, ?_, ?_, ?_⟩
          · intro c info
            rw [i1 c info, hget c]
            constructor
            · rintro (h | ⟨l, h1, h2⟩)
              · split at h
                · rename_i hc
                  subst hc
                  rw [← Option.some.inj h]
                  exact Or.inr ⟨line, by simp, hp⟩
                · exact Or.inl h
              · exact Or.inr ⟨l, by simp [h1], h2⟩
            · rintro (h | ⟨l, h1, h2⟩)
              · refine Or.inl ?_
                rw [if_neg]
                · exact h
                · rintro rfl; rw [hd] at h; cases h
              · rcases List.mem_cons.mp h1 with rfl | h1
                · obtain ⟨rfl, rfl⟩ := hp.unique h2
                  exact Or.inl (if_pos rfl)
                · exact Or.inr ⟨l, h1, h2⟩
          · intro l h1 c info h2
            rcases List.mem_cons.mp h1 with rfl | h1
            · obtain ⟨rfl, -⟩ := hp.unique h2
              exact hd
            · have := i2 l h1 c info h2
              rw [hget c] at this
              split at this
              · cases this
              · exact this
          · refine List.Pairwise.cons ?_ i3
            rintro l' hl' c i i' ⟨h1, h2⟩
            obtain ⟨rfl, -⟩ := hp.unique h1
            have := i2 l' hl' c0 i' h2
            rw [hget c0, if_pos rfl] at this
            cases this
          · intro l h1
            rcases List.mem_cons.mp h1 with rfl | h1
            · exact Or.inr (Or.inl ⟨c0, info0, hp⟩)
            · exact i4 l h1
        · have hnot : ∀ c info, ¬ PropertyOf line c info := by
            intro c info hp
            obtain ⟨i, g, l, rest, hcol, -⟩ := hp
            unfold propertyLine at hl
            rw [splitWs_strip, hcol.split] at hl
            dsimp only at hl
            rw [getAttr_member rfl] at hl
            dsimp only at hl
            split at hl
            · cases hl
            · split at hl
              · cases hl
              · cases hlen : pyInt l with
                | error e => rw [hlen] at hl; cases hl
                | ok n =>
                  rw [hlen] at hl
                  have := Option.some.inj (Except.ok.inj hl)
                  simp only [Prod.mk.injEq] at this
                  exact ha ⟨c, this.1.symm⟩
          have hget : ∀ c, dictGet (defined ++ [(a, info0)]) (.member c) = dictGet defined (.member c) := by
            intro c
            rw [dictGet_append]
            have : dictGet [(a, info0)] (Attr.member c) = none := by
              simp only [dictGet]
              rw [if_neg (fun e => ha ⟨c, e⟩)]
            rw [this]
            cases dictGet defined (Attr.member c) <;> rfl
          refine ⟨?_, ?_, ?_, ?_⟩
          · intro c info
            rw [i1 c info, hget c]
            constructor
            · rintro (h | ⟨l, h1, h2⟩)
              · exact Or.inl h
              · exact Or.inr ⟨l, by simp [h1], h2⟩
            · rintro (h | ⟨l, h1, h2⟩)
              · exact Or.inl h
              · rcases List.mem_cons.mp h1 with rfl | h1
                · exact absurd h2 (hnot c info)
                · exact Or.inr ⟨l, h1, h2⟩
          · intro l h1 c info h2
            rcases List.mem_cons.mp h1 with rfl | h1
            · exact absurd h2 (hnot c info)
            · rw [← hget c]; exact i2 l h1 c info h2
          · exact List.Pairwise.cons (fun l' _ c i i' hh => hnot c i hh.1) i3
          · intro l h1
            rcases List.mem_cons.mp h1 with rfl | h1
            · refine Or.inr (Or.inr ?_)
              unfold propertyLine at hl
              split at hl
              · cases hl
              · rw [splitWs_strip] at hl
                split at hl
                · rename_i name invoke group length rest hs
                  refine ⟨name, _, columns_iff.mpr hs, ?_⟩
                  intro hno
                  unfold getAttr at hl
                  cases hc : Cat.get name with
                  | none => rw [hc] at hl; dsimp only at hl; rw [hno] at hl; cases hl
                  | some c =>
                    rw [hc] at hl
                    dsimp only at hl
                    split at hl
                    · cases hl
                    · cases hlen : pyInt length with
                      | error e => rw [hlen] at hl; cases hl
                      | ok n =>
                        rw [hlen] at hl
                        have := Option.some.inj (Except.ok.inj hl)
                        simp only [Prod.mk.injEq] at this
                        exact ha ⟨c, this.1.symm⟩
                · cases hl
            · exact i4 l h1

theorem readProperties_succeeds {others : PStr → Option Attr} (ho : OnlyOthers others) :
    ∀ {lines : List PStr} {defined : List (Attr × CategoryInfo)},
      (∀ line ∈ lines, NotProperty line ∨ ∃ c info, PropertyOf line c info) →
      (∀ line ∈ lines, ∀ c info, PropertyOf line c info → dictGet defined (.member c) = none) →
      lines.Pairwise (fun l l' => ∀ c i i', ¬ (PropertyOf l c i ∧ PropertyOf l' c i')) →
      ∃ cats, readProperties others defined lines = .ok cats
  | [], defined, _, _, _ => ⟨defined, rfl⟩
  | line :: lines, defined, h1, h2, h3 => by
    rw [readProperties]
    obtain ⟨hp1, hp2⟩ := List.pairwise_cons.mp h3
    rcases h1 line (by simp) with hn | ⟨c, info, hp⟩
    · rw [propertyLine_none.mpr hn]
      exact readProperties_succeeds ho (fun l hl => h1 l (by simp [hl])) (fun l hl => h2 l (by simp [hl])) hp2
    · rw [(propertyLine_member ho).mpr ⟨hp, h2 line (by simp) c info hp⟩]
      refine readProperties_succeeds ho (fun l hl => h1 l (by simp [hl])) ?_ hp2
      intro l hl c' info' hp'
      rw [dictGet_append, h2 l (by simp [hl]) c' info' hp']
      simp only [dictGet]
      rw [if_neg]
      intro e
      injection e with e
      subst e
      exact hp1 l hl c info info' ⟨hp, hp'⟩

theorem readUnk_ok {others : PStr → Option Attr} (ho : OnlyOthers others) {g : Grammar} {defined : List (Attr × CategoryInfo)} :
    ∀ {lines : List PStr} {oovs : List (Attr × OovEntry)}, readUnk others g defined lines = .ok oovs →
      UnkEntries g.posList lines (members oovs) ∧
      (∀ c e, (c, e) ∈ members oovs → dictGet defined (.member c) ≠ none) ∧
      ∀ line ∈ lines, Blank line ∨ (∃ c e, UnkEntry g.posList line c e ∧ dictGet defined (.member c) ≠ none) ∨
        ∃ col cols, CommaColumns line (col :: cols) ∧ others col ≠ none
  | [], oovs, h => by
    rw [readUnk] at h; cases h
    exact ⟨.nil, by simp [members], by simp⟩
  | line :: lines, oovs, h => by
    rw [readUnk] at h
    cases hl : unkLine others g defined line with
    | error e => rw [hl] at h; cases h
    | ok o =>
      rw [hl] at h
      dsimp only [bind, Except.bind] at h
      cases hr : readUnk others g defined lines with
      | error e => rw [hr] at h; cases h
      | ok rs =>
        rw [hr] at h
        dsimp only at h
        obtain ⟨i1, i3, i4⟩ := readUnk_ok ho hr
        cases o with
        | none =>
          have h : rs = oovs := Except.ok.inj h
          subst h
          have hb := unkLine_none.mp hl
          refine ⟨.skip _ _ _ ?_ i1, i3, ?_⟩
          · intro c e
            intro h
            obtain ⟨left, right, cost, p0, p1, p2, p3, p4, p5, rest, hc, -⟩ := h
            have := commaColumns_iff.mp hc
            rw [strip_nil_iff.mpr hb] at this
            have := congrArg List.length this
            simp [splitOn] at this
          · intro l h1
            rcases List.mem_cons.mp h1 with rfl | h1
            · exact Or.inl hb
            · exact i4 l h1
        | some p =>
          have h : p :: rs = oovs := Except.ok.inj h
          subst h
          obtain ⟨a, e0⟩ := p
          by_cases ha : ∃ c, a = .member c
          · obtain ⟨c0, rfl⟩ := ha
            obtain ⟨hu, hd⟩ := (unkLine_member ho).mp hl
            refine ⟨.entry _ _ _ _ _ hu i1, ?_, ?_⟩
            · intro c e hm
              simp only [members, List.mem_cons, Prod.mk.injEq] at hm
              rcases hm with ⟨rfl, -⟩ | hm
              · exact hd
              · exact i3 c e hm
            · intro l h1
              rcases List.mem_cons.mp h1 with rfl | h1
              · exact Or.inr (Or.inl ⟨c0, e0, hu, hd⟩)
              · exact i4 l h1
          · have hm : members ((a, e0) :: rs) = members rs := by
              cases a with
              | member c => exact absurd ⟨c, rfl⟩ ha
              | other n => rfl
              | unhashable => rfl
            have hcase : ∃ col cols, CommaColumns line (col :: cols) ∧ others col ≠ none ∧ Cat.get col = none := by
              unfold unkLine at hl
              split at hl
              · cases hl
              · split at hl
                · rename_i name left right cost p0 p1 p2 p3 p4 p5 rest hs
                  refine ⟨name, _, commaColumns_iff.mpr hs, ?_⟩
                  unfold getAttr at hl
                  cases hc : Cat.get name with
                  | none =>
                    refine ⟨?_, rfl⟩
                    intro hno
                    rw [hc] at hl; dsimp only at hl; rw [hno] at hl; cases hl
                  | some c =>
                    exfalso
                    rw [hc] at hl
                    dsimp only at hl
                    split at hl
                    · cases hl
                    · cases h1 : pyInt left with
                      | error e => rw [h1] at hl; cases hl
                      | ok l =>
                        rw [h1] at hl
                        cases h2 : pyInt right with
                        | error e => rw [h2] at hl; cases hl
                        | ok r =>
                          rw [h2] at hl
                          cases h3 : pyInt cost with
                          | error e => rw [h3] at hl; cases hl
                          | ok k =>
                            rw [h3] at hl
                            have := Option.some.inj (Except.ok.inj hl)
                            simp only [Prod.mk.injEq] at this
                            exact ha ⟨c, this.1.symm⟩
                · cases hl
            obtain ⟨col, cols, hcc, hoth, hcat⟩ := hcase
            have hnone : ∀ c e, ¬ UnkEntry g.posList line c e := by
              intro c e
              intro h
              obtain ⟨left, right, cost, p0, p1, p2, p3, p4, p5, rest, hc, -⟩ := h
              have := commaColumns_iff.mp hc
              rw [commaColumns_iff.mp hcc] at this
              rw [(List.cons.inj this).1, catGet_iff.mpr rfl] at hcat
              cases hcat
            refine ⟨by rw [hm]; refine .skip _ _ _ ?_ i1; exact hnone, by rw [hm]; exact i3, ?_⟩
            · intro l h1
              rcases List.mem_cons.mp h1 with rfl | h1
              · exact Or.inr (Or.inr ⟨col, cols, hcc, hoth⟩)
              · exact i4 l h1

theorem readUnk_succeeds {others : PStr → Option Attr} (ho : OnlyOthers others) {g : Grammar}
    {defined : List (Attr × CategoryInfo)} : ∀ {lines : List PStr},
      (∀ line ∈ lines, Blank line ∨ ∃ c e, UnkEntry g.posList line c e ∧ dictGet defined (.member c) ≠ none) →
      ∃ oovs, readUnk others g defined lines = .ok oovs
  | [], _ => ⟨[], rfl⟩
  | line :: lines, h => by
    obtain ⟨rs, hr⟩ := readUnk_succeeds ho (lines := lines) (fun l hl => h l (by simp [hl]))
    rw [readUnk, hr]
    rcases h line (by simp) with hb | ⟨c, e, hu, hd⟩
    · rw [unkLine_none.mpr hb]; exact ⟨rs, rfl⟩
    · rw [(unkLine_member ho).mpr ⟨hu, hd⟩]; exact ⟨_, rfl⟩

theorem propertyLine_error {others : PStr → Option Attr} {defined : List (Attr × CategoryInfo)} {line : PStr} {e : Err}
    (hc : ∀ col cols, Columns line (col :: cols) → others col = none) (h : propertyLine others defined line = .error e) :
    e = .value := by
  unfold propertyLine at h
  split at h
  · cases h
  · rw [splitWs_strip] at h
    split at h
    · rename_i name invoke group length rest hs
      have hno := hc _ _ (columns_iff.mpr hs)
      unfold getAttr at h
      cases hn : Cat.get name with
      | none => rw [hn] at h; dsimp only at h; rw [hno] at h; cases h; rfl
      | some c =>
        rw [hn] at h
        dsimp only at h
        split at h
        · cases h; rfl
        · cases hlen : pyInt length with
          | error e' => rw [hlen] at h; cases h; exact pyInt_error hlen
          | ok n => rw [hlen] at h; cases h
    · cases h; rfl

theorem unkLine_error {others : PStr → Option Attr} {g : Grammar} {defined : List (Attr × CategoryInfo)} {line : PStr} {e : Err}
    (hc : ∀ col cols, CommaColumns line (col :: cols) → others col = none) (h : unkLine others g defined line = .error e) :
    e = .value := by
  unfold unkLine at h
  split at h
  · cases h
  · split at h
    · rename_i name left right cost p0 p1 p2 p3 p4 p5 rest hs
      have hno := hc _ _ (commaColumns_iff.mpr hs)
      unfold getAttr at h
      cases hn : Cat.get name with
      | none => rw [hn] at h; dsimp only at h; rw [hno] at h; cases h; rfl
      | some c =>
        rw [hn] at h
        dsimp only at h
        split at h
        · cases h; rfl
        · cases h1 : pyInt left with
          | error e' => rw [h1] at h; cases h; exact pyInt_error h1
          | ok l =>
            rw [h1] at h
            cases h2 : pyInt right with
            | error e' => rw [h2] at h; cases h; exact pyInt_error h2
            | ok r =>
              rw [h2] at h
              cases h3 : pyInt cost with
              | error e' => rw [h3] at h; cases h; exact pyInt_error h3
              | ok k => rw [h3] at h; cases h
    · cases h; rfl

theorem readProperties_error {others : PStr → Option Attr} : ∀ {lines : List PStr} {defined : List (Attr × CategoryInfo)} {e : Err},
    (∀ line ∈ lines, ∀ col cols, Columns line (col :: cols) → others col = none) →
    readProperties others defined lines = .error e → e = .value
  | [], _, _, _, h => by rw [readProperties] at h; cases h
  | line :: lines, defined, e, hc, h => by
    rw [readProperties] at h
    cases hl : propertyLine others defined line with
    | error e' => rw [hl] at h; cases h; exact propertyLine_error (hc line (by simp)) hl
    | ok o =>
      rw [hl] at h
      cases o with
      | none => exact readProperties_error (fun l hl => hc l (by simp [hl])) h
      | some p => exact readProperties_error (fun l hl => hc l (by simp [hl])) h

theorem readUnk_error {others : PStr → Option Attr} {g : Grammar} {defined : List (Attr × CategoryInfo)} :
    ∀ {lines : List PStr} {e : Err}, (∀ line ∈ lines, ∀ col cols, CommaColumns line (col :: cols) → others col = none) →
    readUnk others g defined lines = .error e → e = .value
  | [], _, _, h => by rw [readUnk] at h; cases h
  | line :: lines, e, hc, h => by
    rw [readUnk] at h
    cases hl : unkLine others g defined line with
    | error e' => rw [hl] at h; cases h; exact unkLine_error (hc line (by simp)) hl
    | ok o =>
      rw [hl] at h
      dsimp only [bind, Except.bind] at h
      cases hr : readUnk others g defined lines with
      | error e' => rw [hr] at h; cases h; exact readUnk_error (fun l hl => hc l (by simp [hl])) hr
      | ok rs => rw [hr] at h; cases o <;> cases h

end Sudachi
