import Verif.Lemmas.Text2
namespace Sudachi

theorem mem_inter {a b : CatSet} {c : Cat} : c ∈ a.inter b ↔ c ∈ a ∧ c ∈ b := by simp [CatSet.inter]

/-! ### Runs -/

theorem contLoop_spec (cs : List CatSet) : ∀ (cont : CatSet) (len : Nat), ∃ r, contLoop cont cs len = len + r ∧
    r ≤ cs.length ∧ (r = 0 ∨ ∃ c ∈ cont, ∀ k (hk : k < cs.length), k < r → c ∈ cs[k]) ∧
    (r = cs.length ∨ ¬ ∃ c ∈ cont, ∀ k (hk : k < cs.length), k ≤ r → c ∈ cs[k]) := by
  induction cs with
  | nil => intro cont len; exact ⟨0, rfl, by simp, Or.inl rfl, Or.inl rfl⟩
  | cons d cs ih =>
    intro cont len
    by_cases h : (cont.inter d).length = 0
    · refine ⟨0, by simp [contLoop, h], by simp, Or.inl rfl, Or.inr ?_⟩
      rintro ⟨c, hc, hk⟩
      have := hk 0 (by simp) (Nat.le_refl _)
      have h2 : c ∈ cont.inter d := mem_inter.mpr ⟨hc, this⟩
      rw [List.length_eq_zero_iff.mp h] at h2
      simp at h2
    · obtain ⟨r, h1, h2, h3, h4⟩ := ih (cont.inter d) (len + 1)
      refine ⟨r + 1, by rw [contLoop]; simp only [h, if_false]; rw [h1]; omega, by simpa using h2, Or.inr ?_, ?_⟩
      · have hne : ∃ c ∈ cont.inter d, ∀ k (hk : k < cs.length), k < r → c ∈ cs[k] := by
          rcases h3 with rfl | h3
          · obtain ⟨c, hc⟩ := List.exists_mem_of_length_pos (Nat.pos_of_ne_zero h)
            exact ⟨c, hc, by intro k _ hk; omega⟩
          · exact h3
        obtain ⟨c, hc, hk⟩ := hne
        refine ⟨c, (mem_inter.mp hc).1, ?_⟩
        intro k hk' hkr
        cases k with
        | zero => exact (mem_inter.mp hc).2
        | succ k => exact hk k (by simpa using hk') (by omega)
      · rcases h4 with h4 | h4
        · left; simp [h4]
        · right
          rintro ⟨c, hc, hk⟩
          apply h4
          refine ⟨c, mem_inter.mpr ⟨hc, hk 0 (by simp) (by omega)⟩, ?_⟩
          intro k hk' hkr
          exact hk (k + 1) (by simpa using hk') (by omega)

theorem continuousLength_isRun (cats : List CatSet) (i : Nat) (hi : i < cats.length) :
    IsRun cats i (i + continuousLength (cats.drop i)) := by
  rw [List.drop_eq_getElem_cons hi, continuousLength]
  obtain ⟨r, h1, h2, h3, h4⟩ := contLoop_spec (cats.drop (i + 1)) cats[i] 1
  rw [h1]
  simp only [List.length_drop] at h2 h4
  refine ⟨by omega, by omega, ?_, ?_⟩
  · rcases h3 with h3 | ⟨c, hc, hk⟩
    · left; omega
    · right
      refine ⟨c, ?_⟩
      intro k cs h5 h6 h7
      rcases Nat.eq_or_lt_of_le h5 with rfl | h8
      · rw [List.getElem?_eq_getElem hi] at h7; cases h7; exact hc
      · have := hk (k - (i + 1)) (by simp; omega) (by omega)
        rw [List.getElem_drop] at this
        have e : i + 1 + (k - (i + 1)) = k := by omega
        rw [List.getElem?_eq_getElem (by omega)] at h7
        simp only [e] at this
        cases h7; exact this
  · rcases h4 with h4 | h4
    · left; omega
    · rcases Nat.eq_or_lt_of_le (show i + (1 + r) ≤ cats.length by omega) with h5 | h5
      · left; exact h5
      · right
        rintro ⟨c, hc⟩
        apply h4
        refine ⟨c, hc i _ (Nat.le_refl _) (by omega) (List.getElem?_eq_getElem hi), ?_⟩
        intro k hk hkr
        have hk' : k < cats.length - (i + 1) := by simpa using hk
        rw [List.getElem_drop]
        exact hc (i + 1 + k) _ (by omega) (by omega) (List.getElem?_eq_getElem (by omega))

theorem countdown_length : ∀ n, (countdown n).length = n
  | 0 => rfl
  | n + 1 => by simp [countdown, countdown_length n]

theorem countdown_getElem? : ∀ n q, q < n → (countdown n)[q]? = some (n - q)
  | 0, _, h => by omega
  | n + 1, 0, _ => by simp [countdown]
  | n + 1, q + 1, h => by
    rw [countdown, List.getElem?_cons_succ, countdown_getElem? n q (by omega)]
    congr 1; omega

theorem contsLoop_spec (text : PStr) (cats : List CatSet) (hl : text.length = cats.length)
    : ∀ fuel i, cats.length - i < fuel → RunStart cats i → ∀ p,
      wpos text i ≤ p → p < wpos text text.length →
      ∃ a b, RunStart cats a ∧ IsRun cats a b ∧ wpos text a ≤ p ∧ p < wpos text b ∧
        (contsLoop fuel (text.drop i) (cats.drop i))[p - wpos text i]? = some (wpos text b - p) := by
  intro fuel
  induction fuel with
  | zero => intro i h; omega
  | succ fuel ih =>
    intro i hf hr p h1 h2
    have hi : i < cats.length := by
      rcases Nat.lt_or_ge i cats.length with h | h
      · exact h
      · exfalso
        have := wpos_mono text (show text.length ≤ i by omega)
        omega
    have hrun := continuousLength_isRun cats i hi
    generalize hn : continuousLength (cats.drop i) = n at hrun
    have hlen : ((((text.drop i).take n).map utf8ByteLength).sum) = wpos text (i + n) - wpos text i := by
      rw [← wpos_drop, wpos, widths, List.map_take]
    have hunf : contsLoop (fuel + 1) (text.drop i) (cats.drop i) =
        countdown (wpos text (i + n) - wpos text i) ++ contsLoop fuel (text.drop (i + n)) (cats.drop (i + n)) := by
      rw [← hlen, ← hn, ← List.drop_drop, ← List.drop_drop]
      conv => lhs; unfold contsLoop
      rw [List.drop_eq_getElem_cons hi]
    rw [hunf]
    have hmono := wpos_mono text (show i ≤ i + n by omega)
    by_cases hp : p < wpos text (i + n)
    · refine ⟨i, i + n, hr, hrun, h1, hp, ?_⟩
      rw [List.getElem?_append_left (by rw [countdown_length]; omega), countdown_getElem? _ _ (by omega)]
      congr 1; omega
    · have hpos := hrun.lt
      obtain ⟨a, b, ha, hb, h5, h6, h7⟩ := ih (i + n) (by omega) (.next hr hrun) p (by omega) h2
      refine ⟨a, b, ha, hb, h5, h6, ?_⟩
      rw [List.getElem?_append_right (by rw [countdown_length]; omega), countdown_length, ← h7]
      congr 1; omega

namespace Built
variable {bd : Builder} {catOf : Nat → CatSet} {t : InputText}

theorem contRun (B : Built bd catOf t) {p : Nat} (hp : p < t.bytes.length) :
    ∃ a b, RunStart t.charCats a ∧ IsRun t.charCats a b ∧ wpos bd.modified a ≤ p ∧ p < wpos bd.modified b ∧
      t.charCategoryContinuousLength p = .ok (wpos bd.modified b - p) := by
  have hc := B.cats
  obtain ⟨a, b, h1, h2, h3, h4, h5⟩ := contsLoop_spec bd.modified t.charCats (by rw [hc]; simp)
    (t.charCats.length + 1) 0 (by omega) .zero p (by simp [wpos_zero]) (by rw [← B.blen]; exact hp)
  refine ⟨a, b, h1, h2, h3, h4, ?_⟩
  unfold InputText.charCategoryContinuousLength pyGet
  rw [B.conts, charCategoryContinuities, ← hc]
  simp only [List.drop_zero, wpos_zero, Nat.sub_zero] at h5
  rw [h5]

theorem substring (B : Built bd catOf t) {a b : Nat} (hab : a ≤ b) (hb : b ≤ bd.modified.length) :
    t.getSubstring (wpos bd.modified a) (wpos bd.modified b) = .ok ((bd.modified.take b).drop a) := by
  unfold InputText.getSubstring
  have h1 := wpos_mono bd.modified hab
  have h2 := wpos_mono bd.modified hb
  rw [if_neg (by rw [B.blen]; omega), if_neg (by omega), pyGet, pyGet, B.bi_boundary (by omega), B.bi_boundary hb]
  simp [bind, Except.bind, pure, Except.pure, pySlice, B.modif]

theorem commonCats_spec (t : InputText) : ∀ (l : List Nat) (cont : CatSet), (∀ i ∈ l, i < t.charCats.length) →
    ∃ r, InputText.commonCats t cont l = .ok r ∧
      ∀ c, c ∈ r ↔ c ∈ cont ∧ ∀ i ∈ l, ∀ cs, t.charCats[i]? = some cs → c ∈ cs := by
  intro l
  induction l with
  | nil => intro cont _; exact ⟨cont, rfl, by simp⟩
  | cons i is ih =>
    intro cont h
    have hi := h i (by simp)
    obtain ⟨r, h1, h2⟩ := ih (cont.inter t.charCats[i]) (fun j hj => h j (by simp [hj]))
    refine ⟨r, ?_, ?_⟩
    · rw [InputText.commonCats, pyGet, List.getElem?_eq_getElem hi]
      exact h1
    · intro c
      rw [h2, mem_inter]
      constructor
      · rintro ⟨⟨h3, h4⟩, h5⟩
        refine ⟨h3, ?_⟩
        intro j hj cs hcs
        rcases List.mem_cons.mp hj with rfl | hj
        · rw [List.getElem?_eq_getElem hi] at hcs; cases hcs; exact h4
        · exact h5 j hj cs hcs
      · rintro ⟨h3, h4⟩
        exact ⟨⟨h3, h4 i (by simp) _ (List.getElem?_eq_getElem hi)⟩, fun j hj => h4 j (by simp [hj])⟩

/-- `get_char_category_types(begin, end)` on a span of characters. -/
theorem types_span (B : Built bd catOf t) {a b : Nat} (hab : a < b) (hb : b ≤ bd.modified.length) :
    ∃ i j, RunStart t.charCats i ∧ IsRun t.charCats i j ∧ i ≤ a ∧ a < j ∧
    ∃ r, t.charCategoryTypes (wpos bd.modified a) (wpos bd.modified b) = .ok r ∧
      (b ≤ j → ∀ c, c ∈ r ↔ CommonCat t.charCats a b c) ∧ (j < b → r = []) := by
  have hcl : t.charCats.length = bd.modified.length := by rw [B.cats]; simp
  have hp : wpos bd.modified a < t.bytes.length := by rw [B.blen]; exact wpos_lt B.enc (by omega) (Nat.le_refl _)
  obtain ⟨i, j, hr, hrun, h1, h2, h3⟩ := B.contRun hp
  have hjl := hrun.le
  have hij := hrun.lt
  have hia : i ≤ a := by
    rcases Nat.lt_or_ge a i with h | h
    · have := wpos_lt B.enc h (by omega); omega
    · exact h
  have haj : a < j := by
    rcases Nat.lt_or_ge a j with h | h
    · exact h
    · have := wpos_mono bd.modified h; omega
  refine ⟨i, j, hr, hrun, hia, haj, ?_⟩
  unfold InputText.charCategoryTypes
  rw [h3]
  simp only [bind, Except.bind]
  by_cases hbj : b ≤ j
  · have := wpos_mono bd.modified hbj
    rw [if_neg (by omega)]
    simp only [pyGet, B.bi_boundary (show a ≤ bd.modified.length by omega), B.bi_boundary hb,
      List.getElem?_eq_getElem (show a < t.charCats.length by omega)]
    obtain ⟨r, hr1, hr2⟩ := commonCats_spec t (List.range' (a + 1) (b - (a + 1))) t.charCats[a] (by
      intro k hk; rw [List.mem_range'_1] at hk; omega)
    refine ⟨r, hr1, fun _ => ?_, by omega⟩
    intro c
    rw [hr2]
    constructor
    · rintro ⟨h4, h5⟩ k cs hk1 hk2 hk3
      rcases Nat.eq_or_lt_of_le hk1 with rfl | hk4
      · rw [List.getElem?_eq_getElem (by omega)] at hk3; cases hk3; exact h4
      · exact h5 k (by rw [List.mem_range'_1]; omega) cs hk3
    · intro h4
      refine ⟨h4 a _ (Nat.le_refl _) hab (List.getElem?_eq_getElem _), ?_⟩
      intro k hk cs hcs
      rw [List.mem_range'_1] at hk
      exact h4 k cs (by omega) (by omega) hcs
  · have := wpos_lt B.enc (show j < b by omega) hb
    rw [if_pos (by omega)]
    exact ⟨[], rfl, by omega, fun _ => rfl⟩

/-! ### `can_bow` -/

theorem canBow_spec (B : Built bd catOf t) {p : Nat} (hp : p < t.bytes.length) :
    ∃ b, t.canBow p = .ok b ∧ (b = true ↔ ∃ k, k < bd.modified.length ∧ p = wpos bd.modified k ∧ BowChar t.charCats k) := by
  obtain ⟨k, j, hk, hj, hpe, hbi⟩ := B.char_of_byte hp
  have hall := List.all_eq_true.mp B.enc
  obtain ⟨x, hx1, hx2⟩ := utf8_lead (hall _ (List.getElem_mem hk)) j hj
  have hby := B.bytes_getElem? hk hj
  rw [hx1, ← hpe] at hby
  unfold InputText.canBow
  rw [pyGet, hby]
  simp only [bind, Except.bind]
  have hcl : (bd.modified.map catOf).length = bd.modified.length := by simp
  obtain ⟨⟨b, hb⟩, hb2⟩ := buildCanBowList_iff (bd.modified.map catOf) k (by omega)
  by_cases hj0 : j = 0
  · rw [if_pos (hx2.mpr hj0), pyGet, hbi]
    simp only []
    rw [pyGet, B.bow, hb]
    refine ⟨b, rfl, ?_⟩
    rw [hb] at hb2
    simp only [Option.some.injEq] at hb2
    rw [hb2, B.cats]
    constructor
    · intro h; exact ⟨k, hk, by omega, h⟩
    · rintro ⟨k', hk', he, h⟩
      have : k = k' := wpos_inj B.enc (by omega) (by omega) (by omega)
      subst this; exact h
  · rw [if_neg (fun h => hj0 (hx2.mp h))]
    refine ⟨false, rfl, ?_⟩
    constructor
    · intro h; cases h
    · rintro ⟨k', hk', he, -⟩
      exfalso
      have h1 := wpos_succ bd.modified k hk
      rcases Nat.lt_trichotomy k k' with h | h | h
      · have := wpos_mono bd.modified (show k + 1 ≤ k' from h); omega
      · subst h; omega
      · have := wpos_mono bd.modified (show k' ≤ k by omega); omega

theorem wordCandidateLoop_spec (B : Built bd catOf t) (index : Nat) : ∀ n i, index < i → i + n = t.bytes.length →
    ∃ q, InputText.wordCandidateLoop t index (List.range' i n) = .ok (q - index) ∧ i ≤ q ∧ q ≤ t.bytes.length ∧
      (q < t.bytes.length → t.canBow q = .ok true) ∧ ∀ r, i ≤ r → r < q → t.canBow r = .ok false := by
  intro n
  induction n with
  | zero => intro i _ h; exact ⟨t.bytes.length, rfl, by omega, by omega, by omega, by omega⟩
  | succ n ih =>
    intro i hi h
    obtain ⟨b, hb, -⟩ := B.canBow_spec (p := i) (by omega)
    rw [List.range'_succ, InputText.wordCandidateLoop, hb]
    simp only [bind, Except.bind]
    cases b with
    | true => exact ⟨i, rfl, by omega, by omega, fun _ => hb, by omega⟩
    | false =>
      obtain ⟨q, h1, h2, h3, h4, h5⟩ := ih (i + 1) (by omega) (by omega)
      refine ⟨q, h1, by omega, h3, h4, ?_⟩
      intro r hr1 hr2
      rcases Nat.eq_or_lt_of_le hr1 with rfl | hr
      · exact hb
      · exact h5 r hr hr2

/-- `get_word_candidate_length`: the distance to the next possible word beginning. -/
theorem wordCandidateLength_spec (B : Built bd catOf t) {index : Nat} (hi : index < t.bytes.length) :
    ∃ q, t.wordCandidateLength index = .ok (q - index) ∧ index < q ∧ q ≤ t.bytes.length ∧
      (q < t.bytes.length → t.canBow q = .ok true) ∧ ∀ r, index < r → r < q → t.canBow r = .ok false := by
  obtain ⟨q, h1, h2, h3, h4, h5⟩ := B.wordCandidateLoop_spec index (t.bytes.length - (index + 1)) (index + 1)
    (by omega) (by omega)
  exact ⟨q, h1, by omega, h3, h4, fun r hr => h5 r (by omega)⟩

/-! ### Lengths in code points -/

theorem cpOffsetLoop_spec (target : Nat) : ∀ (l : List Nat) (len m : Nat), m ≤ l.length →
    (∀ i (hi : i < l.length), i < m → l[i] < target) → (∀ h : m < l.length, target ≤ l[m]) →
    InputText.cpOffsetLoop target l len = len + m := by
  intro l
  induction l with
  | nil => intro len m hm _ _; simp at hm; simp [InputText.cpOffsetLoop, hm]
  | cons x xs ih =>
    intro len m hm h1 h2
    cases m with
    | zero => have := h2 (by simp); simp at this; simp [InputText.cpOffsetLoop, this]
    | succ m =>
      have hx := h1 0 (by simp) (by omega)
      simp at hx
      rw [InputText.cpOffsetLoop, if_neg (by omega), ih (len + 1) m (by simpa using hm)
        (fun i hi him => h1 (i + 1) (by simpa using hi) (by omega))
        (fun h => h2 (by simpa using h))]
      omega

theorem codePointsOffsetLength_spec (B : Built bd catOf t) {k n : Nat} (hk : k ≤ bd.modified.length) :
    t.codePointsOffsetLength (wpos bd.modified k) n =
      .ok (wpos bd.modified (min (k + n) bd.modified.length) - wpos bd.modified k) := by
  unfold InputText.codePointsOffsetLength
  rw [pyGet, B.bi_boundary hk]
  simp only [bind, Except.bind, pure, Except.pure]
  congr 1
  have hle := wpos_mono bd.modified hk
  have hle2 := wpos_mono bd.modified (show min (k + n) bd.modified.length ≤ bd.modified.length by omega)
  have hle3 := wpos_mono bd.modified (show k ≤ min (k + n) bd.modified.length by omega)
  have hsl : (pySlice t.byteIndexes (wpos bd.modified k) t.bytes.length).length
      = t.bytes.length - wpos bd.modified k := by
    unfold pySlice; simp [B.biLen]
  have hget : ∀ i (hi : i < (pySlice t.byteIndexes (wpos bd.modified k) t.bytes.length).length),
      t.byteIndexes[wpos bd.modified k + i]? = some ((pySlice t.byteIndexes (wpos bd.modified k) t.bytes.length)[i]) := by
    intro i hi
    simp only [pySlice, List.getElem_drop, List.getElem_take]
    exact List.getElem?_eq_getElem _
  rw [cpOffsetLoop_spec _ _ 0 (wpos bd.modified (min (k + n) bd.modified.length) - wpos bd.modified k)]
  · omega
  · rw [hsl, B.blen]; omega
  · intro i hi him
    have := hget i hi
    obtain ⟨k', j', hk', hj', he', hb'⟩ := B.char_of_byte (p := wpos bd.modified k + i) (by rw [hsl] at hi; omega)
    rw [hb'] at this
    injection this with this
    rw [← this]
    rcases Nat.lt_or_ge k' (k + n) with h | h
    · exact h
    · have := wpos_mono bd.modified (show min (k + n) bd.modified.length ≤ k' by omega); omega
  · intro hm
    rw [hsl, B.blen] at hm
    have hlt : k + n < bd.modified.length := by
      rcases Nat.lt_or_ge (k + n) bd.modified.length with h | h
      · exact h
      · rw [Nat.min_eq_right h] at hm; omega
    have hmin : min (k + n) bd.modified.length = k + n := by omega
    have := hget _ (by rw [hsl, B.blen]; exact hm)
    rw [show wpos bd.modified k + (wpos bd.modified (min (k + n) bd.modified.length) - wpos bd.modified k)
      = wpos bd.modified (k + n) by rw [hmin] at hle3 ⊢; omega, B.bi_boundary (by omega)] at this
    simp only [Option.some.injEq] at this
    omega

theorem codePointCount_spec (B : Built bd catOf t) {a b : Nat} (ha : a ≤ bd.modified.length)
    (hb : b ≤ bd.modified.length) :
    t.codePointCount (wpos bd.modified a) (wpos bd.modified b) = .ok ((b : Int) - a) := by
  unfold InputText.codePointCount
  rw [pyGet, pyGet, B.bi_boundary ha, B.bi_boundary hb]
  rfl

end Built
end Sudachi
