import Verif.Lemmas.Arguments3
import Verif.Spec.CommandLines
namespace Sudachi

/-- `-h` and more. -/
theorem classify_help (c : Command) (s : PStr) :
    c.parser.classify (45 :: 104 :: s) = some (.opt (some (.help, [45, 104])) (explicitOf s)) := by
  cases s with
  | nil => cases c <;> rfl
  | cons y t =>
    by_cases hy : y = 61
    · subst hy; cases c <;> rfl
    · rw [explicitOf_cons hy]
      have hp : partitionEq (45 :: 104 :: y :: t) = (partitionEq t).map fun z => (45 :: 104 :: y :: z.1, z.2) := by
        rw [partitionEq_cons (by decide), partitionEq_cons (by decide), partitionEq_cons hy]
        cases partitionEq t <;> rfl
      have ht : optionTuples c.parser (45 :: 104 :: y :: t) = [((.help, [45, 104]), some (false, y :: t))] := by cases c <;> rfl
      have hf : ∀ r, c.parser.find (45 :: 104 :: y :: r) = none := by intro r; cases c <;> rfl
      unfold ArgParser.classify
      simp only [hf, List.isEmpty_cons, Bool.false_eq_true, if_false, hp, ht]
      cases partitionEq t with
      | none => rfl
      | some z => simp [hf]

/-- The option with a long name. -/
def longOpt (n : PStr) : Opt := if n = [104, 101, 108, 112] then .help else .version

/-- A word with two minus signs and the first letters of a long name. -/
theorem classify_long (c : Command) {n a : PStr} (hn : n ∈ c.longNames) (ha : a <+: n) :
    (a ≠ [] → c.parser.classify (45 :: 45 :: a) = some (.opt (some (longOpt n, 45 :: 45 :: n)) none)) ∧
      ∀ b, (c = .tokenize ∧ a = [] ∧ c.parser.classify (45 :: 45 :: (a ++ 61 :: b)) = none) ∨
        c.parser.classify (45 :: 45 :: (a ++ 61 :: b)) = some (.opt (some (longOpt n, 45 :: 45 :: n)) (some (true, b))) := by
  have hl := ha.length_le
  rw [List.prefix_iff_eq_take] at ha
  generalize a.length = k at ha hl
  have h4 : ∀ c : Command, k ≤ 4 → a = ([104, 101, 108, 112] : PStr).take k →
      (a ≠ [] → c.parser.classify (45 :: 45 :: a) = some (.opt (some (longOpt [104, 101, 108, 112], 45 :: 45 :: [104, 101, 108, 112])) none)) ∧
      ∀ b, (c = .tokenize ∧ a = [] ∧ c.parser.classify (45 :: 45 :: (a ++ 61 :: b)) = none) ∨
        c.parser.classify (45 :: 45 :: (a ++ 61 :: b)) = some (.opt (some (longOpt [104, 101, 108, 112], 45 :: 45 :: [104, 101, 108, 112])) (some (true, b))) := by
    intro c hk h
    have : k = 0 ∨ k = 1 ∨ k = 2 ∨ k = 3 ∨ k = 4 := by omega
    rcases this with e | e | e | e | e <;> subst e <;> subst h <;> refine ⟨fun h => ?_, fun b => ?_⟩
    · exact absurd rfl h
    · cases c
      · exact .inl ⟨rfl, rfl, rfl⟩
      · right; rfl
      · right; rfl
    all_goals cases c <;> first | rfl | (right; rfl)
  have h7 : k ≤ 7 → a = ([118, 101, 114, 115, 105, 111, 110] : PStr).take k →
      (a ≠ [] → tokenizeParser.classify (45 :: 45 :: a) =
        some (.opt (some (longOpt [118, 101, 114, 115, 105, 111, 110], 45 :: 45 :: [118, 101, 114, 115, 105, 111, 110])) none)) ∧
      ∀ b, (a = [] ∧ tokenizeParser.classify (45 :: 45 :: (a ++ 61 :: b)) = none) ∨
        tokenizeParser.classify (45 :: 45 :: (a ++ 61 :: b)) =
          some (.opt (some (longOpt [118, 101, 114, 115, 105, 111, 110], 45 :: 45 :: [118, 101, 114, 115, 105, 111, 110])) (some (true, b))) := by
    intro hk h
    have : k = 0 ∨ k = 1 ∨ k = 2 ∨ k = 3 ∨ k = 4 ∨ k = 5 ∨ k = 6 ∨ k = 7 := by omega
    rcases this with e | e | e | e | e | e | e | e <;> subst e <;> subst h <;> refine ⟨fun h => ?_, fun b => ?_⟩
    · exact absurd rfl h
    · exact .inl ⟨rfl, rfl⟩
    all_goals first | rfl | (right; rfl)
  cases c
  · simp only [Command.longNames, List.mem_cons, List.not_mem_nil, or_false] at hn
    rcases hn with rfl | rfl
    · exact h4 .tokenize hl ha
    · obtain ⟨h1, h2⟩ := h7 hl ha
      exact ⟨h1, fun b => (h2 b).imp (fun h => ⟨rfl, h⟩) id⟩
  · simp only [Command.longNames, List.mem_cons, List.not_mem_nil, or_false] at hn
    subst hn
    exact h4 .build hl ha
  · simp only [Command.longNames, List.mem_cons, List.not_mem_nil, or_false] at hn
    subst hn
    exact h4 .ubuild hl ha

/-- The part of a word before `=`. -/
theorem before_eq (s : PStr) : ∃ a b, s = a ++ b ∧ 61 ∉ a ∧ (b = [] ∨ b.head? = some 61) := by
  cases h : partitionEq s with
  | none =>
    refine ⟨s, [], by simp, ?_, .inl rfl⟩
    intro hm
    obtain ⟨l, r, rfl⟩ := List.append_of_mem hm
    have : ∀ l : PStr, partitionEq (l ++ 61 :: r) ≠ none := by
      intro l
      induction l with
      | nil => simp [partitionEq]
      | cons x l ih => rw [List.cons_append, partitionEq]; split <;> simp [ih]
    exact this l h
  | some z =>
    obtain ⟨h1, h2⟩ := partitionEq_some (a := z.1) (b := z.2) h
    exact ⟨z.1, 61 :: z.2, h1, h2, .inr rfl⟩

/-- What a word is. -/
theorem word_cases (c : Command) {s : PStr} (hs : s ≠ [45, 45]) :
    (c.ArgWord s ∧ c.parser.classify s = some .arg) ∨
      (∃ x r, (x = (104, .help) ∨ x ∈ c.letters) ∧ s = 45 :: x.1 :: r ∧
        c.parser.classify s = some (.opt (some (x.2, [45, x.1])) (explicitOf r))) ∨
      (∃ n a, n ∈ c.longNames ∧ a <+: n ∧ a ≠ [] ∧ s = 45 :: 45 :: a ∧ c.parser.classify s = some (.opt (some (longOpt n, 45 :: 45 :: n)) none)) ∨
      (∃ n a b, n ∈ c.longNames ∧ a <+: n ∧ s = 45 :: 45 :: (a ++ 61 :: b) ∧
        ((c = .tokenize ∧ a = [] ∧ c.parser.classify s = none) ∨ c.parser.classify s = some (.opt (some (longOpt n, 45 :: 45 :: n)) (some (true, b))))) ∨
      (c.Unknown s ∧ c.parser.classify s = some (.opt none none)) := by
  have harg : c.ArgWord s → (c.ArgWord s ∧ c.parser.classify s = some .arg) := fun h => ⟨h, h.classify⟩
  cases s with
  | nil => exact .inl (harg (.plain (.inl (by simp))))
  | cons y s =>
    by_cases hy : y = 45
    · subst hy
      cases s with
      | nil => exact .inl (harg (.plain (.inr rfl)))
      | cons x r =>
        by_cases hx : x = 45
        · subst hx
          obtain ⟨a, b, rfl, h1, hb⟩ := before_eq r
          by_cases hl : ∃ n ∈ c.longNames, a <+: n
          · obtain ⟨n, hn, ha⟩ := hl
            obtain ⟨k1, k2⟩ := classify_long c hn ha
            rcases hb with rfl | hb
            · have hne : a ≠ [] := by rintro rfl; exact hs rfl
              exact .inr (.inr (.inl ⟨n, a, hn, ha, hne, by simp, by simpa using k1 hne⟩))
            · obtain ⟨b', rfl⟩ : ∃ b', b = 61 :: b' := by
                cases b with
                | nil => simp at hb
                | cons y b' => simp at hb; exact ⟨b', by rw [hb]⟩
              exact .inr (.inr (.inr (.inl ⟨n, a, b', hn, ha, rfl, k2 b'⟩)))
          · have hl' : ∀ n ∈ c.longNames, ¬ a <+: n := fun n hn h => hl ⟨n, hn, h⟩
            have hc := classify_long_odd h1 hb hl'
            by_cases h32 : 32 ∈ a ++ b
            · exact .inl (harg (.long h32 h1 hb hl'))
            · rw [if_neg h32] at hc
              exact .inr (.inr (.inr (.inr ⟨.long h32 h1 hb hl', hc⟩)))
        · by_cases hh : x = 104
          · subst hh
            exact .inr (.inl ⟨(104, .help), r, .inl rfl, rfl, classify_help c r⟩)
          · by_cases hl : ∃ o, (x, o) ∈ c.letters
            · obtain ⟨o, ho⟩ := hl
              exact .inr (.inl ⟨(x, o), r, .inr ho, rfl, classify_letter c ho r⟩)
            · have hl' : ∀ o, (x, o) ∉ c.letters := fun o h => hl ⟨o, h⟩
              have hc := classify_odd hx hh hl' r
              by_cases hn : looksNegative (45 :: x :: r) = true
              · exact .inl (harg (.odd (.inl ((looksNegative_iff _).1 hn)) hx hh (letters_iff.2 hl')))
              · rw [if_neg hn] at hc
                by_cases h32 : 32 ∈ 45 :: x :: r
                · exact .inl (harg (.odd (.inr (by simpa using h32)) hx hh (letters_iff.2 hl')))
                · rw [if_neg h32] at hc
                  exact .inr (.inr (.inr (.inr ⟨.short ⟨hx, hh, letters_iff.2 hl'⟩ (fun h => hn ((looksNegative_iff _).2 h)) (fun h => h32 (List.mem_cons_of_mem _ h)), hc⟩)))
    · exact .inl (harg (.plain (.inl (by simpa using hy))))

theorem argWord_iff {c : Command} {s : PStr} (hs : s ≠ [45, 45]) (h : c.parser.classify s = some .arg) : c.ArgWord s := by
  rcases word_cases c hs with h' | ⟨x, r, _, _, h'⟩ | ⟨n, a, _, _, _, _, h'⟩ | ⟨n, a, b, _, _, _, ⟨_, _, h'⟩ | h'⟩ | ⟨_, h'⟩
  · exact h'.1
  all_goals rw [h] at h'; cases h'

theorem find_inv {c : Command} {y : Nat} {o : Opt} (h : c.parser.find [45, y] = some o) : (y, o) = (104, .help) ∨ (y, o) ∈ c.letters := by
  unfold ArgParser.find at h
  rw [Option.map_eq_some_iff] at h
  obtain ⟨z, hz, rfl⟩ := h
  have h1 := List.mem_of_find?_eq_some hz
  have h2 := List.find?_some hz
  simp at h2
  rcases options_shape c h1 with ⟨x, hx, hx'⟩ | ⟨n, hn, hx, _⟩
  · rw [hx] at h2
    simp at h2
    subst h2
    rcases hx' with hx' | hx'
    · left; exact Prod.ext hx'.1 hx'.2
    · exact .inr hx'
  · rw [hx] at h2
    simp at h2
    rw [h2.2] at hn
    cases c <;> simp [Command.longNames] at hn

theorem expandWord_more {P : ArgParser} {next : Option PStr} {o : Opt} {x y : Nat} {t : PStr} {done : List (Opt × PStr)} (ho : o.takes = false)
    (hx : x ≠ 45) : expandWord P next o [45, x] done (some (false, y :: t)) =
      if y = 45 then .error .error
      else
        match P.find [45, y] with
        | none => .ok (done ++ [(o, [])], some (45 :: y :: t), false)
        | some o' => expandWord P next o' [45, y] (done ++ [(o, [])]) (explicitOf t) := by
  rw [expandWord.eq_def]
  have h2 : ¬ ((List.drop 1 [45, x]).head? = some 45) := by simpa using hx
  simp only [ho, Bool.false_eq_true, if_false, h2, Bool.false_or, beq_iff_eq]
  split
  · rfl
  · cases P.find [45, y] with
    | none => rfl
    | some o' =>
      dsimp only
      cases t with
      | nil => rfl
      | cons d ds =>
        by_cases hd : d = 61
        · subst hd; rfl
        · rw [explicitOf_cons hd]
          split
          · simp_all
          · simp_all
          · simp_all

/-- The flags and `-h`. -/
def Command.gflags (c : Command) : List (Nat × Opt) := (104, .help) :: c.flags

/-- The letters of all options. -/
def Command.gletters (c : Command) : List (Nat × Opt) := (104, .help) :: c.letters

theorem gletters_mem {c : Command} {x : Nat × Opt} : x ∈ c.gletters ↔ x ∈ c.gflags ∨ x ∈ c.valued := by
  simp [Command.gletters, Command.gflags, Command.letters, or_assoc]

theorem gflags_takes {c : Command} {x : Nat × Opt} (h : x ∈ c.gflags) : x.2.takes = false ∧ x.1 ≠ 45 ∧ x.1 ≠ 61 ∧ x.2.choices = none := by
  rcases List.mem_cons.1 h with rfl | h
  · decide
  · exact ⟨(flag_takes c h).1, (letter_ne c (flag_letter h)).1, (letter_ne c (flag_letter h)).2.1, (flag_takes c h).2.1⟩

/-- What the letters of a word give. -/
theorem expandWord_letters (c : Command) (next : Option PStr) : ∀ (r : PStr) (x : Nat × Opt) (done : List (Opt × PStr)) {acts : List (Opt × PStr)}
    {extra : Option PStr} {used : Bool}, x ∈ c.gletters →
    expandWord c.parser next x.2 [45, x.1] done (explicitOf r) = .ok (acts, extra, used) →
    ∃ fs, (∀ f ∈ fs, f ∈ c.gflags) ∧
      ((used = false ∧ extra = none ∧ fs ≠ [] ∧ x.1 :: r = fs.map (·.1) ∧ acts = done ++ fs.map fun f => (f.2, [])) ∨
        (∃ l o v, (l, o) ∈ c.valued ∧ extra = none ∧ acts = done ++ ((fs.map fun f => (f.2, [])) ++ [(o, v)]) ∧
          ((used = true ∧ next = some v ∧ x.1 :: r = fs.map (·.1) ++ [l]) ∨
            (used = false ∧ v ≠ [] ∧ v.head? ≠ some 61 ∧ x.1 :: r = fs.map (·.1) ++ l :: v) ∨
            (used = false ∧ x.1 :: r = fs.map (·.1) ++ l :: 61 :: v))) ∨
        (∃ y t, used = false ∧ fs ≠ [] ∧ c.NoLetter y ∧ y ≠ 61 ∧ x.1 :: r = fs.map (·.1) ++ y :: t ∧ extra = some (45 :: y :: t) ∧
          acts = done ++ fs.map fun f => (f.2, []))) := by
  have hend : ∀ (r : PStr) (x : Nat × Opt) (done : List (Opt × PStr)) {acts : List (Opt × PStr)} {extra : Option PStr} {used : Bool}, x ∈ c.valued →
      expandWord c.parser next x.2 [45, x.1] done (explicitOf r) = .ok (acts, extra, used) → extra = none ∧ ∃ v, acts = done ++ [(x.2, v)] ∧
          ((used = true ∧ next = some v ∧ x.1 :: r = [x.1]) ∨
            (used = false ∧ v ≠ [] ∧ v.head? ≠ some 61 ∧ x.1 :: r = x.1 :: v) ∨ (used = false ∧ x.1 :: r = x.1 :: 61 :: v)) := by
    intro r x done acts extra used hx h
    have ht := (valued_takes c hx).1
    cases r with
    | nil =>
      cases next with
      | none => rw [explicitOf, expandWord.eq_def] at h; simp [ht] at h
      | some v => rw [explicitOf, expandWord_next ht] at h; cases h; exact ⟨rfl, v, rfl, .inl ⟨rfl, rfl, rfl⟩⟩
    | cons y t =>
      by_cases hy : y = 61
      · subst hy
        rw [explicitOf, expandWord_explicit ht] at h
        cases h
        exact ⟨rfl, t, rfl, .inr (.inr ⟨rfl, rfl⟩)⟩
      · rw [explicitOf_cons hy, expandWord_explicit ht] at h
        cases h
        exact ⟨rfl, y :: t, rfl, .inr (.inl ⟨rfl, by simp, by simpa using hy, rfl⟩)⟩
  intro r
  induction r with
  | nil =>
    intro x done acts extra used hx h
    rcases gletters_mem.1 hx with hx | hx
    · rw [explicitOf, expandWord_flag (gflags_takes hx).1] at h
      cases h
      exact ⟨[x], by simpa using hx, .inl ⟨rfl, rfl, by simp, rfl, rfl⟩⟩
    · obtain ⟨h0, v, h1, h2⟩ := hend [] x done hx h
      exact ⟨[], by simp, .inr (.inl ⟨x.1, x.2, v, hx, h0, by simpa using h1, by simpa using h2⟩)⟩
  | cons y t ih =>
    intro x done acts extra used hx h
    rcases gletters_mem.1 hx with hx | hx
    · obtain ⟨ht, h45, _, _⟩ := gflags_takes hx
      by_cases hy : y = 61
      · subst hy
        rw [explicitOf, expandWord.eq_def] at h
        simp only [ht, Bool.false_eq_true, if_false, Bool.true_or, if_true] at h
        exfalso
        split at h
        · cases h
        · split at h <;> cases h
      · rw [explicitOf_cons hy, expandWord_more ht h45] at h
        split at h
        · cases h
        · rename_i hy45
          cases hf : c.parser.find [45, y] with
          | none =>
            rw [hf] at h
            cases h
            have hno : c.NoLetter y := by
              refine ⟨hy45, ?_, letters_iff.2 fun o ho => ?_⟩
              · rintro rfl
                revert hf
                cases c <;> simp [Command.parser, ArgParser.find, tokenizeParser, buildParser, ubuildParser, helpOptions]
              · have := find_letter c ho
                rw [hf] at this
                cases this
            exact ⟨[x], by simpa using hx, .inr (.inr ⟨y, t, rfl, by simp, hno, hy, rfl, rfl, rfl⟩)⟩
          | some o' =>
            rw [hf] at h
            obtain ⟨fs, hfs, h'⟩ := ih (y, o') _ (List.mem_cons.2 (find_inv hf)) h
            refine ⟨x :: fs, List.forall_mem_cons.2 ⟨hx, hfs⟩, ?_⟩
            rcases h' with ⟨h1, h0, h2, h3, h4⟩ | ⟨l, o, v, h1, h0, h2, h3⟩ | ⟨z, u, h1, h2, h3, h4, h5, h6, h7⟩
            · exact .inl ⟨h1, h0, by simp, by rw [List.map_cons, ← h3], by rw [h4]; simp⟩
            · refine .inr (.inl ⟨l, o, v, h1, h0, by rw [h2]; simp, ?_⟩)
              rcases h3 with ⟨k1, k2, k3⟩ | ⟨k1, k2, k3, k4⟩ | ⟨k1, k2⟩
              · exact .inl ⟨k1, k2, by rw [List.map_cons, List.cons_append, ← k3]⟩
              · exact .inr (.inl ⟨k1, k2, k3, by rw [List.map_cons, List.cons_append, ← k4]⟩)
              · exact .inr (.inr ⟨k1, by rw [List.map_cons, List.cons_append, ← k2]⟩)
            · exact .inr (.inr ⟨z, u, h1, by simp, h3, h4, by rw [List.map_cons, List.cons_append, ← h5], h6, by rw [h7]; simp⟩)
    · obtain ⟨h0, v, h1, h2⟩ := hend (y :: t) x done hx h
      exact ⟨[], by simp, .inr (.inl ⟨x.1, x.2, v, hx, h0, by simpa using h1, by simpa using h2⟩)⟩

end Sudachi
