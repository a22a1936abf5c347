/-
Tokenization of non-empty text succeeds: C21.
-/
import Verif.Lemmas.Total4
import Verif.Props.Tokenizer
import Verif.Props.Category
import Verif.Spec.CharDef
namespace Sudachi

/-! ## C21 -/

/-- **C21** In the setting of `Tokenizer.Complete`, after any successful calls, tokenizing a non-empty encodable text raises no exception:
the result is a list of morphemes, or (`outOfFuel`, not an exception of the code) the loop of JoinNumericPlugin did not end within the
given number of turns. In modes A and B the units of the words must be readable. -/
theorem C21_no_exception (T : Tokenizer) (left right : Int → Prop) (hT : T.Complete left right) (L : Lattice) (hL : T.CleanHistory L)
    (text : PStr) (hne : text ≠ []) (henc : ∀ c ∈ text, encodable c = true)
    (hlen : ∀ t, T.buildInput text = .ok t → SafeLength t.bytes.length)
    (mode : Option Mode) (hm : mode.getD T.mode = .C ∨ T.lex.UnitsReadable) :
    (∃ ml, (T.tokenize L text mode).2 = .ok ml) ∨ (T.tokenize L text mode).2 = .error .outOfFuel :=
  (tokenize_total hT (hL.clean hT.plugins hT.lexOk) hne henc hlen hm).1

/-- **C21** If moreover numbers have no separators in them, JoinNumericPlugin comes first and is given enough turns, the call succeeds. -/
theorem C21_succeeds (T : Tokenizer) (left right : Int → Prop) (hT : T.Complete left right) (hnf : NumericFirst T.pathPlugins)
    (hns : T.NoSeparators) (hh : T.lex.Honest) (L : Lattice) (hL : T.CleanHistory L)
    (text : PStr) (hne : text ≠ []) (henc : ∀ c ∈ text, encodable c = true)
    (hlen : ∀ t, T.buildInput text = .ok t → SafeLength t.bytes.length ∧ 3 * (t.bytes.length + 1) * (t.bytes.length + 1) ≤ T.fuel)
    (mode : Option Mode) (hm : mode.getD T.mode = .C ∨ T.lex.UnitsReadable) :
    ∃ ml, (T.tokenize L text mode).2 = .ok ml :=
  (tokenize_total hT (hL.clean hT.plugins hT.lexOk) hne henc (fun t ht => (hlen t ht).1) hm).2 hnf hns hh (fun t ht => (hlen t ht).2)

namespace DemoTok

theorem lexOf_answers (ws : List Word) (h : ws.length ≤ 2 ^ 31) : (lexOf ws).Answers (fun _ => True) (fun _ => True) := by
  have key : ∀ bytes i r w e, (lexOf ws).lookup bytes i = .ok r → (w, e) ∈ r → ∃ x, ws[w]? = some x := by
    intro bytes i r w e hr hm
    simp only [lexOf] at hr
    cases hr
    obtain ⟨_, y, h2, _⟩ := matchesAt_mem bytes i _ 0 w e hm
    rw [Nat.sub_zero, List.getElem?_map] at h2
    cases hx : ws[w]? with
    | none => rw [hx] at h2; cases h2
    | some x => exact ⟨x, rfl⟩
  constructor
  · intro bytes i _
    refine ⟨_, rfl, ?_⟩
    intro w e hm
    obtain ⟨x, hx⟩ := key bytes i _ w e rfl hm
    have hlt : w < ws.length := by
      rcases Nat.lt_or_ge w ws.length with h' | h'
      · exact h'
      · rw [List.getElem?_eq_none h'] at hx; cases hx
    refine ⟨by omega, 1, 1, x.cost, ?_, trivial, trivial⟩
    simp [lexOf, hx]
  · intro bytes i r w e hr hm
    obtain ⟨x, hx⟩ := key bytes i r w e hr hm
    exact ⟨x.info, by simp [lexOf, show ¬ (w : Int) < 0 by omega, hx]⟩

theorem lexOf_honest (ws : List Word) : (lexOf ws).Honest := by
  intro wid h
  simp only [lexOf] at h
  split at h
  · cases h
  · split at h <;> cases h

/-- The demonstration tokenizer with more turns. -/
def slow : Tokenizer := { tok with fuel := 5000 }

theorem complete_of (T : Tokenizer) (h1 : T.inputPlugins = []) (h2 : T.lower = id) (h3 : T.nfkc = id) (h4 : ∀ c, T.catOf c ≠ [])
    (h5 : SingleAlphabets T.catOf) (h6 : ∀ categories oovList, OovPlugin.mecab categories oovList ∈ T.oov → NoAlphabetPrefixes categories)
    (h7 : ∃ o, T.oov.getLast? = some (.simple o)) (h8 : ∀ p ∈ T.oov, p.Short) (h8' : ∀ p ∈ T.oov, p.Stores) (h9 : T.conn = fun _ _ => .ok 10) (h10 : T.lex = lexOf words) :
    T.Complete (fun _ => True) (fun _ => True) := by
  refine ⟨⟨?_, ?_, ?_⟩, ?_, ?_, ?_, h4, h5, h6, h7, h8, h8', fun _ _ _ _ => ⟨trivial, trivial⟩, ?_, ⟨trivial, trivial, ?_⟩, ?_, ?_⟩
  · intro c; simp [h2]
  · intro s hs; simpa [h3] using hs
  · intro m s h; rw [h1] at h; cases h
  · intro c hc x hx; rw [h2] at hx; simp at hx; rw [hx]; exact hc
  · intro s hs x hx; rw [h3] at hx; exact hs x hx
  · intro p hp; rw [h1] at hp; cases hp
  · intro l r k hk; rw [h9] at hk; cases hk; simp [Short]
  · intro l r _ _; rw [h9]; exact ⟨10, rfl, by decide⟩
  · rw [h10]; exact lex_ok
  · rw [h10]; exact lexOf_answers _ (by decide)

theorem slow_complete : slow.Complete (fun _ => True) (fun _ => True) := by
  refine ⟨⟨plugins_ok.1, plugins_ok.2, plugins_ok.3⟩, ?_, ?_, ?_, ?_, ?_, ?_, ⟨_, rfl⟩, ?_, ?_, fun _ _ _ _ => ⟨trivial, trivial⟩, ?_, ⟨trivial, trivial, ?_⟩, lex_ok,
    lexOf_answers _ (by decide)⟩
  · intro c hc x hx; simp [slow, tok] at hx; rw [hx]; exact hc
  · intro s hs x hx
    simp only [slow, tok, nfkc, List.mem_map] at hx
    obtain ⟨c, hc, rfl⟩ := hx
    have := hs c hc
    split
    · simp only [encodable, Bool.and_eq_true, Bool.not_eq_true', Bool.and_eq_false_iff, decide_eq_true_eq, decide_eq_false_iff_not]
      omega
    · exact this
  · intro p hp
    simp only [slow, tok, List.mem_singleton] at hp
    subst hp
    intro k v hv
    simp only [table, dictGet] at hv
    split at hv
    · cases hv; decide
    · cases hv
  · intro c; simp only [slow, tok, cats]; split <;> simp
  · intro c hc
    exfalso
    simp only [slow, tok, cats] at hc
    split at hc <;> simp [Alphabetic] at hc
  · intro a b h
    simp [slow, tok] at h
  · intro p hp
    simp only [slow, tok, List.mem_singleton] at hp
    subst hp
    simp [OovPlugin.Short, Short]
  · intro p hp
    simp only [slow, tok, List.mem_singleton] at hp
    subst hp
    simp [OovPlugin.Stores, OovEntry.Stores, CInt]
  · intro l r k hk; simp only [slow, tok] at hk; cases hk; simp [Short]
  · intro l r _ _; exact ⟨10, rfl, by decide⟩

theorem slow_noSeparators : slow.NoSeparators := by
  constructor
  · intro c hc
    simp only [slow, tok, cats]
    rcases hc with rfl | rfl <;> simp
  · intro bytes i ws w e wi s ty _ _ hw _ _ _
    simp only [slow, tok, lexOf] at hw
    split at hw
    · cases hw
    · split at hw
      · rename_i x hx
        cases hw
        have : ∀ x ∈ words, 44 ∉ x.info.normalizedForm ∧ 46 ∉ x.info.normalizedForm := by decide
        exact this x (List.mem_of_getElem? hx)
      · cases hw

theorem slow_units : slow.lex.UnitsReadable := by
  intro bytes i ws w e wi _ _ hw u hu
  simp only [slow, tok, lexOf] at hw
  split at hw
  · cases hw
  · split at hw
    · rename_i x hx
      cases hw
      have : ∀ x ∈ words, ∀ u, u ∈ x.info.aUnitSplit ∨ u ∈ x.info.bUnitSplit → u = 1 ∨ u = 2 := by
        intro x hx u hu
        simp only [words, List.mem_cons, List.not_mem_nil, or_false] at hx
        rcases hx with rfl | rfl | rfl | rfl | rfl <;> simp [info] at hu <;> omega
      rcases this x (List.mem_of_getElem? hx) u hu with rfl | rfl
      · exact ⟨by decide, by decide, _, rfl⟩
      · exact ⟨by decide, by decide, _, rfl⟩
    · cases hw

end DemoTok

/-- The demonstration tokenizer meets all hypotheses, in all modes, with a text that is rewritten in two places. -/
example : ∃ ml, (DemoTok.slow.tokenize Lattice.init DemoTok.text (some .A)).2 = .ok ml := by
  refine C21_succeeds DemoTok.slow _ _ DemoTok.slow_complete (fun p hp => by cases hp) DemoTok.slow_noSeparators (DemoTok.lexOf_honest _) _ .fresh
    DemoTok.text (by decide) (by decide) ?_ _ (.inr DemoTok.slow_units)
  intro t ht
  have : DemoTok.slow.buildInput DemoTok.text = .ok t → t.bytes.length = 20 := by
    intro h
    have : (DemoTok.slow.buildInput DemoTok.text).map (fun t => t.bytes.length) = .ok 20 := by decide +kernel
    rw [h] at this
    injection this
  rw [this ht]
  exact ⟨by unfold SafeLength; decide, by decide⟩

namespace DemoTok

/-- Unknown words of the category KANJI are offered as a group. -/
def deadTok : Tokenizer :=
  { tok with inputPlugins := [], nfkc := id, pathPlugins := []
             catOf := fun _ => [.KANJI]
             oov := [.mecab [(.KANJI, ⟨true, true, 0⟩)] [(.KANJI, ⟨0, 0, 100, 1⟩)], .simple ⟨0, 0, 30000, 3⟩] }

theorem deadTok_complete : deadTok.Complete (fun _ => True) (fun _ => True) := by
  refine complete_of _ rfl rfl rfl (fun c => by simp [deadTok]) ?_ ?_ ⟨_, rfl⟩ ?_ ?_ rfl rfl
  · intro c hc
    exfalso
    simp [deadTok, Alphabetic] at hc
  · intro a b h
    simp only [deadTok, List.mem_cons, OovPlugin.mecab.injEq, reduceCtorEq, List.not_mem_nil, or_false] at h
    intro ty inf hty hinf
    rw [h.1] at hinf
    simp only [dictGet] at hinf
    split at hinf
    · rename_i h'; subst h'; simp [Alphabetic] at hty
    · cases hinf
  · intro p hp
    simp only [deadTok, List.mem_cons, List.not_mem_nil, or_false] at hp
    rcases hp with rfl | rfl <;> simp [OovPlugin.Short, Short]
  · intro p hp
    simp only [deadTok, List.mem_cons, List.not_mem_nil, or_false] at hp
    rcases hp with rfl | rfl <;> simp [OovPlugin.Stores, OovEntry.Stores, CInt]

/-- `b` is both KANJI and ALPHA. -/
def mixed : Nat → CatSet := fun c => if c = 98 then [.KANJI, .ALPHA] else if c = 99 then [.ALPHA] else [.KANJI]

end DemoTok

/-- **C21, the single-category condition is needed** The tokenizer `deadTok` is complete; with a character that is both KANJI and ALPHA
it is not: "abc" fails.  (The unknown word "ab" ends before "c", which cannot begin a word because "b" and "c" share ALPHA.) -/
theorem C21_needs_single_categories : DemoTok.deadTok.Complete (fun _ => True) (fun _ => True) ∧ (∀ c, DemoTok.mixed c ≠ []) ∧
    (Tokenizer.tokenize { DemoTok.deadTok with catOf := DemoTok.mixed } Lattice.init [97, 98, 99] none).2 = .error .attribute := by
  refine ⟨DemoTok.deadTok_complete, fun c => ?_, by decide +kernel⟩
  unfold DemoTok.mixed
  split
  · simp
  · split <;> simp

/-- **C21, the length condition is needed** If the category ALPHA offers words of fixed lengths, "abc" fails: the offered words end inside
the alphabetic word. -/
theorem C21_needs_no_prefixes : DemoTok.deadTok.Complete (fun _ => True) (fun _ => True) ∧
    SingleAlphabets (fun _ => [.ALPHA]) ∧
    (Tokenizer.tokenize { DemoTok.deadTok with
        catOf := fun _ => [.ALPHA]
        oov := [.mecab [(.ALPHA, ⟨true, false, 2⟩)] [(.ALPHA, ⟨0, 0, 100, 1⟩)], .simple ⟨0, 0, 30000, 3⟩] }
      Lattice.init [97, 98, 99] none).2 = .error .attribute := by
  refine ⟨DemoTok.deadTok_complete, ?_, by decide +kernel⟩
  intro c _ x y hx hy
  rw [List.mem_singleton.mp hx, List.mem_singleton.mp hy]

/-- **C21, some provider must answer** Without the Simple provider an unknown character of another category fails. -/
theorem C21_needs_simple : DemoTok.deadTok.Complete (fun _ => True) (fun _ => True) ∧
    (Tokenizer.tokenize { DemoTok.deadTok with
        catOf := fun _ => [.KATAKANA]
        oov := [.mecab [(.KANJI, ⟨true, true, 0⟩)] [(.KANJI, ⟨0, 0, 100, 1⟩)]] }
      Lattice.init [97] none).2 = .error .runtime :=
  ⟨DemoTok.deadTok_complete, by decide +kernel⟩

/-! ### The shipped char.def -/

/-- Two ranges that overlap have the same categories if one of them is an alphabet's. -/
def alphabetsApart (ranges : List CRange) : Bool :=
  ranges.all fun r => ranges.all fun r' =>
    decide (r.high ≤ r'.low) || decide (r'.high ≤ r.low) ||
      (r.cats.all fun c => !(c = .ALPHA || c = .GREEK || c = .CYRILLIC)) || (r'.cats.all fun c => r.cats.all fun c' => c = c')

theorem singleAlphabets_of {pick : SweepState → Nat} {ranges rs : List CRange} (hne : ranges ≠ []) (hr : ∀ r ∈ ranges, r.low < r.high)
    (hc : compile pick ranges = .ok rs) (h : alphabetsApart ranges = true) : SingleAlphabets (getCategoryTypes rs) := by
  obtain ⟨rs', h1, h2⟩ := C10_categories pick ranges hne hr
  rw [hc] at h1
  cases h1
  intro cp halpha x y hx hy
  have hin : ∃ r ∈ ranges, r.low ≤ cp ∧ cp < r.high := by
    apply Classical.byContradiction
    intro hno
    rw [(h2 cp).1 hno] at halpha
    simp [Alphabetic] at halpha
  have hmem := (h2 cp).2 hin
  have hpair : ∀ r ∈ ranges, r.low ≤ cp → cp < r.high → ∀ a, a ∈ r.cats → (a = Cat.ALPHA ∨ a = Cat.GREEK ∨ a = Cat.CYRILLIC) →
      ∀ r' ∈ ranges, r'.low ≤ cp → cp < r'.high → ∀ z ∈ r'.cats, z = a := by
    intro r hr1 hr2 hr3 a ha hal r' hr' h4 h5 z hz
    have h6 := List.all_eq_true.mp (List.all_eq_true.mp h r hr1) r' hr'
    simp only [Bool.or_eq_true, decide_eq_true_eq] at h6
    rcases h6 with ((h6 | h6) | h6) | h6
    · omega
    · omega
    · have := List.all_eq_true.mp h6 a ha
      simp only [Bool.not_eq_true', Bool.or_eq_false_iff, decide_eq_false_iff_not] at this
      rcases hal with h | h | h
      · exact absurd h this.1.1
      · exact absurd h this.1.2
      · exact absurd h this.2
    · exact of_decide_eq_true (List.all_eq_true.mp (List.all_eq_true.mp h6 z hz) a ha)
  obtain ⟨a, ha, hal⟩ : ∃ a, a ∈ getCategoryTypes rs cp ∧ (a = Cat.ALPHA ∨ a = Cat.GREEK ∨ a = Cat.CYRILLIC) := by
    rcases halpha with h | h | h
    · exact ⟨_, h, .inl rfl⟩
    · exact ⟨_, h, .inr (.inl rfl)⟩
    · exact ⟨_, h, .inr (.inr rfl)⟩
  obtain ⟨r, r1, r2, r3, r4⟩ := (hmem a).mp ha
  obtain ⟨rx, x1, x2, x3, x4⟩ := (hmem x).mp hx
  obtain ⟨ry, y1, y2, y3, y4⟩ := (hmem y).mp hy
  rw [hpair r r1 r2 r3 a r4 hal rx x1 x2 x3 x x4, hpair r r1 r2 r3 a r4 hal ry y1 y2 y3 y y4]

/-- **C21** The shipped char.def meets the conditions on it: every character has a category, letters of an alphabet have no second category,
the alphabets offer no words of fixed lengths, and the separators `,` and `.` are not numerals. -/
theorem C21_shipped_char_def (pick : SweepState → Nat) : ∃ rs, compile pick shippedRanges = .ok rs ∧ (∀ c, getCategoryTypes rs c ≠ []) ∧
    SingleAlphabets (getCategoryTypes rs) ∧ NoAlphabetPrefixes shippedCategories ∧
    (∀ c, c = 44 ∨ c = 46 → Cat.NUMERIC ∉ getCategoryTypes rs c ∧ Cat.KANJINUMERIC ∉ getCategoryTypes rs c) := by
  have hne : shippedRanges ≠ [] := by decide
  have hr : ∀ r ∈ shippedRanges, r.low < r.high := by decide
  have hcats : ∀ r ∈ shippedRanges, r.cats ≠ [] := by decide
  obtain ⟨rs, h1, h2⟩ := C10_categories pick shippedRanges hne hr
  refine ⟨rs, h1, ?_, singleAlphabets_of hne hr h1 (by decide +kernel), ?_, ?_⟩
  · intro c hc
    rcases Classical.em (∃ r ∈ shippedRanges, r.low ≤ c ∧ c < r.high) with h | h
    · obtain ⟨r, r1, r2, r3⟩ := h
      obtain ⟨x, hx⟩ := List.exists_mem_of_ne_nil _ (hcats r r1)
      have := ((h2 c).2 ⟨r, r1, r2, r3⟩ x).mpr ⟨r, r1, r2, r3, hx⟩
      rw [hc] at this
      cases this
    · rw [(h2 c).1 h] at hc; cases hc
  · intro ty info hty hi
    have hdec : ∀ ty info, dictGet shippedCategories ty = some info → (ty = .ALPHA ∨ ty = .GREEK ∨ ty = .CYRILLIC) → info.length ≤ 0 := by
      intro ty info h hor
      rcases hor with rfl | rfl | rfl <;> (simp [shippedCategories, dictGet] at h; subst h; decide)
    refine hdec ty info hi ?_
    simp only [Alphabetic, List.mem_singleton] at hty
    rcases hty with h | h | h
    · exact .inl h.symm
    · exact .inr (.inl h.symm)
    · exact .inr (.inr h.symm)
  · intro c hc
    have hs : ∀ r ∈ shippedRanges, ∀ c, c = 44 ∨ c = 46 → r.low ≤ c → c < r.high → r.cats = [.SYMBOL] := by
      intro r hr c hc h1 h2
      have hd : ∀ r ∈ shippedRanges, (r.high ≤ 44 ∨ 44 < r.low ∨ r.cats = [.SYMBOL]) ∧ (r.high ≤ 46 ∨ 46 < r.low ∨ r.cats = [.SYMBOL]) := by
        decide
      rcases hc with rfl | rfl
      · rcases (hd r hr).1 with h | h | h
        · omega
        · omega
        · exact h
      · rcases (hd r hr).2 with h | h | h
        · omega
        · omega
        · exact h
    have hall : ∀ x, x ∈ getCategoryTypes rs c → x = .SYMBOL ∨ x = .DEFAULT := by
      intro x hx
      rcases Classical.em (∃ r ∈ shippedRanges, r.low ≤ c ∧ c < r.high) with h | h
      · obtain ⟨r, r1, r2, r3, r4⟩ := ((h2 c).2 h x).mp hx
        rw [hs r r1 c hc r2 r3] at r4
        exact .inl (List.mem_singleton.mp r4)
      · rw [(h2 c).1 h] at hx
        exact .inr (List.mem_singleton.mp hx)
    constructor
    · intro h; rcases hall _ h with h | h <;> cases h
    · intro h; rcases hall _ h with h | h <;> cases h

end Sudachi
