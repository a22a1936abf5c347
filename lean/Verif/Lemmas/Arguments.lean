import Verif.Spec.Arguments
import Verif.Props.Digits
namespace Sudachi

/-- All cases of a disjunction of equations. -/
macro "each_or" h:ident : tactic =>
  `(tactic| ((repeat' (refine Or.elim $h (fun $h => ?_) (fun $h => ?_))) <;> subst $h))

/-- The letters of a command. -/
def Command.letters (c : Command) : List (Nat × Opt) := c.flags ++ c.valued

/-- What is left of a word after an option letter. -/
def explicitOf : PStr → Option (Bool × PStr)
  | [] => none
  | 61 :: t => some (true, t)
  | s => some (false, s)

theorem explicitOf_cons {x : Nat} {t : PStr} (h : x ≠ 61) : explicitOf (x :: t) = some (false, x :: t) := by
  unfold explicitOf
  split
  · simp_all
  · simp_all
  · simp_all

theorem find_letter (c : Command) {x : Nat × Opt} (h : x ∈ c.letters) : c.parser.find [45, x.1] = some x.2 := by
  cases c <;> simp [Command.letters, Command.flags, Command.valued] at h <;>
    each_or h <;> rfl

theorem letter_ne (c : Command) {x : Nat × Opt} (h : x ∈ c.letters) : x.1 ≠ 45 ∧ x.1 ≠ 61 ∧ x.1 ≠ 104 := by
  cases c <;> simp [Command.letters, Command.flags, Command.valued] at h <;>
    each_or h <;> decide

theorem flag_takes (c : Command) {x : Nat × Opt} (h : x ∈ c.flags) : x.2.takes = false ∧ x.2.choices = none ∧ x.2 ≠ .help := by
  cases c <;> simp [Command.flags] at h
  each_or h <;> decide

theorem valued_takes (c : Command) {x : Nat × Opt} (h : x ∈ c.valued) : x.2.takes = true ∧ x.2 ≠ .help := by
  cases c <;> simp [Command.valued] at h <;>
    each_or h <;> decide

theorem flag_letter {c : Command} {x : Nat × Opt} (h : x ∈ c.flags) : x ∈ c.letters := List.mem_append_left _ h

theorem valued_letter {c : Command} {x : Nat × Opt} (h : x ∈ c.valued) : x ∈ c.letters := List.mem_append_right _ h

theorem partitionEq_cons {c : Nat} {s : PStr} (h : c ≠ 61) : partitionEq (c :: s) = (partitionEq s).map fun x => (c :: x.1, x.2) := by
  rw [partitionEq, if_neg h]

/-- A word made of an option letter and more. -/
theorem classify_letter (c : Command) {x : Nat × Opt} (h : x ∈ c.letters) (s : PStr) :
    c.parser.classify (45 :: x.1 :: s) = some (.opt (some (x.2, [45, x.1])) (explicitOf s)) := by
  cases s with
  | nil =>
    cases c <;> simp [Command.letters, Command.flags, Command.valued] at h <;>
      each_or h <;> rfl
  | cons y t =>
    by_cases hy : y = 61
    · subst hy
      cases c <;> simp [Command.letters, Command.flags, Command.valued] at h <;>
        each_or h <;> rfl
    · rw [explicitOf_cons hy]
      have hp : partitionEq (45 :: x.1 :: y :: t) = (partitionEq t).map fun z => (45 :: x.1 :: y :: z.1, z.2) := by
        rw [partitionEq_cons (by decide), partitionEq_cons (letter_ne c h).2.1, partitionEq_cons hy]
        cases partitionEq t <;> rfl
      have ht : optionTuples c.parser (45 :: x.1 :: y :: t) = [((x.2, [45, x.1]), some (false, y :: t))] := by
        cases c <;> simp [Command.letters, Command.flags, Command.valued] at h <;>
          each_or h <;> rfl
      have hf : ∀ r, c.parser.find (45 :: x.1 :: y :: r) = none := by
        intro r
        cases c <;> simp [Command.letters, Command.flags, Command.valued] at h <;>
          each_or h <;> rfl
      unfold ArgParser.classify
      simp only [hf, List.isEmpty_cons, Bool.false_eq_true, if_false, hp, ht]
      cases partitionEq t with
      | none => rfl
      | some z => simp [hf]

theorem find_dash (P : ArgParser) (c : Command) (h : P = c.parser ∨ P = rootParser) : P.find [45] = none := by
  rcases h with h | h
  · subst h; cases c <;> rfl
  · subst h; rfl

theorem classify_plain (P : ArgParser) (c : Command) (h : P = c.parser ∨ P = rootParser) {s : PStr} (hs : PlainArg s) :
    P.classify s = some .arg := by
  rcases hs with hs | hs
  · unfold ArgParser.classify
    split
    · simp at hs
    · rfl
  · subst hs
    unfold ArgParser.classify
    simp [find_dash P c h]

theorem digit_iff (c : Nat) : (digitVal c).isSome = true ↔ ∃ d, DecimalDigit c d := by
  rw [Option.isSome_iff_exists]
  exact exists_congr fun d => C65_digits c d

theorem digit_not {c : Nat} (h : c = 10 ∨ c = 46) : (digitVal c).isSome = false := by
  rcases h with rfl | rfl <;> rfl

theorem scriptDigits_iff (s : PStr) : ScriptDigits s ↔ ∀ c ∈ s, (digitVal c).isSome = true := by
  simp only [ScriptDigits, digit_iff]

theorem takeWhile_allDigits {ds e : PStr} (h : ScriptDigits ds) (he : ∀ x, e.head? = some x → (digitVal x).isSome = false) :
    (ds ++ e).takeWhile (fun c => (digitVal c).isSome) = ds ∧ (ds ++ e).dropWhile (fun c => (digitVal c).isSome) = e := by
  rw [List.takeWhile_append_of_pos ((scriptDigits_iff ds).1 h), List.dropWhile_append_of_pos ((scriptDigits_iff ds).1 h)]
  cases e with
  | nil => simp
  | cons x t => simp [he x rfl]

theorem ends_head {e : PStr} (h : e = [] ∨ e = [10]) : ∀ x, e.head? = some x → (digitVal x).isSome = false := by
  rcases h with rfl | rfl <;> intro x hx
  · cases hx
  · cases hx; exact digit_not (.inl rfl)

theorem looksNegative_iff (s : PStr) : looksNegative s = true ↔ NegativeNumber s := by
  constructor
  · intro h
    unfold looksNegative at h
    split at h
    · rename_i t
      have hd : ∀ u : PStr, ScriptDigits (u.takeWhile fun c => (digitVal c).isSome) := fun u => (scriptDigits_iff _).2 fun c hc => by
        have := List.all_takeWhile (p := fun c => (digitVal c).isSome) (l := u)
        rw [List.all_eq_true] at this
        exact this c hc
      simp only [Bool.or_eq_true, Bool.and_eq_true, Bool.not_eq_true', List.isEmpty_eq_false_iff, beq_iff_eq] at h
      rcases h with ⟨h1, h2⟩ | h
      · have := NegativeNumber.whole h1 (hd t) h2
        rwa [List.takeWhile_append_dropWhile] at this
      · split at h
        · rename_i u hu
          simp only [Bool.or_eq_true, Bool.and_eq_true, Bool.not_eq_true', List.isEmpty_eq_false_iff, beq_iff_eq] at h
          have := NegativeNumber.point (hd t) h.1 (hd u) h.2
          rwa [List.takeWhile_append_dropWhile, ← hu, List.takeWhile_append_dropWhile] at this
        · cases h
    · cases h
  · intro h
    cases h with
    | @whole ds e h1 h2 h3 =>
      obtain ⟨k1, k2⟩ := takeWhile_allDigits h2 (ends_head h3)
      unfold looksNegative
      simp only [k1, k2, Bool.or_eq_true, Bool.and_eq_true, Bool.not_eq_true', List.isEmpty_eq_false_iff, beq_iff_eq]
      exact .inl ⟨h1, h3⟩
    | @point ds es e h1 h2 h3 h4 =>
      obtain ⟨k1, k2⟩ := takeWhile_allDigits h1 (e := 46 :: (es ++ e)) (by intro x hx; cases hx; exact digit_not (.inr rfl))
      obtain ⟨k3, k4⟩ := takeWhile_allDigits h3 (ends_head h4)
      unfold looksNegative
      simp only [k2, k3, k4, Bool.or_eq_true, Bool.and_eq_true, Bool.not_eq_true', List.isEmpty_eq_false_iff, beq_iff_eq]
      exact .inr ⟨h2, h4⟩

theorem partitionEq_none : ∀ {s : PStr}, 61 ∉ s → partitionEq s = none
  | [], _ => rfl
  | c :: s, h => by
    rw [partitionEq_cons (fun e => h (by simp [e])), partitionEq_none fun h' => h (List.mem_cons_of_mem _ h')]; rfl

theorem partitionEq_append : ∀ {a : PStr} (b : PStr), 61 ∉ a → partitionEq (a ++ 61 :: b) = some (a, b)
  | [], _, _ => by simp [partitionEq]
  | c :: a, b, h => by
    rw [List.cons_append, partitionEq_cons (fun e => h (by simp [e])), partitionEq_append b fun h' => h (List.mem_cons_of_mem _ h')]; rfl

theorem partitionEq_some : ∀ {s a b : PStr}, partitionEq s = some (a, b) → s = a ++ 61 :: b ∧ 61 ∉ a
  | [], _, _, h => by cases h
  | c :: s, a, b, h => by
    by_cases hc : c = 61
    · subst hc; simp [partitionEq] at h; obtain ⟨rfl, rfl⟩ := h; simp
    · rw [partitionEq_cons hc, Option.map_eq_some_iff] at h
      obtain ⟨⟨a', b'⟩, h, e⟩ := h
      cases e
      obtain ⟨rfl, h2⟩ := partitionEq_some h
      exact ⟨rfl, by simp [h2]; exact fun h => hc h.symm⟩

/-- The options of a command: a minus sign and a letter, or two and a long name. -/
theorem options_shape (c : Command) {y : PStr × Opt} (h : y ∈ c.parser.options) :
    (∃ x, y = ([45, x], y.2) ∧ ((x = 104 ∧ y.2 = .help) ∨ (x, y.2) ∈ c.letters)) ∨
      ∃ n ∈ c.longNames, y = (45 :: 45 :: n, y.2) ∧ (y.2 = .help ∨ y.2 = .version) := by
  cases c <;> simp [Command.parser, tokenizeParser, buildParser, ubuildParser, helpOptions] at h <;> each_or h <;>
    first
    | exact .inl ⟨_, rfl, by decide⟩
    | exact .inr ⟨_, by decide, rfl, by decide⟩

theorem find_none {c : Command} {s : PStr} (h : ∀ y ∈ c.parser.options, y.1 ≠ s) : c.parser.find s = none := by
  unfold ArgParser.find
  rw [Option.map_eq_none_iff, List.find?_eq_none]
  intro y hy
  simpa using h y hy

/-- No option starts with the letter. -/
theorem no_letter {c : Command} {x : Nat} (h1 : x ≠ 45) (h2 : x ≠ 104) (h3 : ∀ o, (x, o) ∉ c.letters) :
    ∀ y ∈ c.parser.options, y.1 ≠ [45] ∧ ∀ r, y.1 ≠ 45 :: x :: r := by
  intro y hy
  rcases options_shape c hy with ⟨z, hz, hz'⟩ | ⟨n, _, hz, _⟩
  · rw [hz]
    refine ⟨by simp, fun r hr => ?_⟩
    simp at hr
    obtain ⟨rfl, _⟩ := hr
    rcases hz' with h | h
    · exact h2 h.1
    · exact h3 _ h
  · rw [hz]
    refine ⟨by simp, fun r hr => ?_⟩
    simp at hr
    exact h1 hr.1.symm

theorem tuples_short (P : ArgParser) {x : Nat} (hx : x ≠ 45) (r : PStr) : optionTuples P (45 :: x :: r) = P.options.filterMap fun y =>
    if y.1 = [45, x] then some ((y.2, y.1), some (false, r))
    else if (45 :: x :: r).isPrefixOf y.1 then some ((y.2, y.1), none)
    else none := by
  unfold optionTuples
  split
  · simp_all
  · simp

/-- A word with one minus sign that starts with no option. -/
theorem classify_odd {c : Command} {x : Nat} (h1 : x ≠ 45) (h2 : x ≠ 104) (h3 : ∀ o, (x, o) ∉ c.letters) (r : PStr) :
    c.parser.classify (45 :: x :: r) =
      if looksNegative (45 :: x :: r) then some .arg else if 32 ∈ 45 :: x :: r then some .arg else some (.opt none none) := by
  have hn := no_letter h1 h2 h3
  have hf : ∀ r', c.parser.find (45 :: x :: r') = none := fun r' => find_none fun y hy => (hn y hy).2 r'
  have hp : ((partitionEq (45 :: x :: r)).bind fun z => (c.parser.find z.1).map fun o => Tok.opt (some (o, z.1)) (some (true, z.2))) = none := by
    rw [partitionEq_cons (by decide)]
    by_cases hx : x = 61
    · subst hx
      simp [partitionEq, find_none fun y hy => (hn y hy).1]
    · rw [partitionEq_cons hx]
      cases partitionEq r with
      | none => rfl
      | some z => simp [hf]
  have ht : optionTuples c.parser (45 :: x :: r) = [] := by
    rw [tuples_short _ h1, List.filterMap_eq_nil_iff]
    intro y hy
    rw [if_neg ((hn y hy).2 []), if_neg]
    intro hpre
    rw [List.isPrefixOf_iff_prefix] at hpre
    obtain ⟨t, ht⟩ := hpre
    exact (hn y hy).2 (r ++ t) ht.symm
  unfold ArgParser.classify
  simp only [hf, List.isEmpty_cons, Bool.false_eq_true, if_false, hp, ht]

/-- A word with two minus signs that starts with no long name. -/
theorem classify_long_odd {c : Command} {a b : PStr} (h1 : 61 ∉ a) (hb : b = [] ∨ b.head? = some 61) (h2 : ∀ n ∈ c.longNames, ¬ a <+: n) :
    c.parser.classify (45 :: 45 :: (a ++ b)) = if 32 ∈ a ++ b then some .arg else some (.opt none none) := by
  have hno : ∀ y ∈ c.parser.options, ¬ (45 :: 45 :: a) <+: y.1 := by
    intro y hy hpre
    obtain ⟨t, ht⟩ := hpre
    rcases options_shape c hy with ⟨z, hz, hz'⟩ | ⟨n, hn, hz, _⟩
    · rw [hz] at ht
      simp at ht
      obtain ⟨rfl, rfl, _⟩ := ht
      rcases hz' with h | h
      · exact absurd h.1 (by decide)
      · exact (letter_ne c h).1 rfl
    · rw [hz] at ht
      simp at ht
      exact h2 n hn ⟨t, ht⟩
  have hf : c.parser.find (45 :: 45 :: (a ++ b)) = none := find_none fun y hy e => hno y hy ⟨b, by rw [e]; simp⟩
  have hf' : c.parser.find (45 :: 45 :: a) = none := find_none fun y hy e => hno y hy ⟨[], by rw [e]; simp⟩
  have hfil : (c.parser.options.filter fun x => (45 :: 45 :: a).isPrefixOf x.1) = [] := by
    rw [List.filter_eq_nil_iff]
    intro y hy h
    exact hno y hy (List.isPrefixOf_iff_prefix.1 h)
  have hneg : looksNegative (45 :: 45 :: (a ++ b)) = false := by
    have hd : (digitVal 45).isSome = false := rfl
    simp [looksNegative, hd]
  have hm : 32 ∈ 45 :: 45 :: (a ++ b) ↔ 32 ∈ a ++ b := by simp
  have hpa : (45 :: 45 :: a).contains 61 = false := by simp [h1]
  have h1' : 61 ∉ 45 :: 45 :: a := by simp [h1]
  rcases hb with rfl | hb
  · have hp : partitionEq (45 :: 45 :: (a ++ [])) = none := by rw [List.append_nil]; exact partitionEq_none h1'
    have ht : optionTuples c.parser (45 :: 45 :: (a ++ [])) = [] := by
      unfold optionTuples
      simp only [hp]
      rw [List.append_nil, hfil]; rfl
    unfold ArgParser.classify
    simp only [hf, List.isEmpty_cons, Bool.false_eq_true, if_false, hp, ht, Option.bind_none, hneg, hm]
  · obtain ⟨b', rfl⟩ : ∃ b', b = 61 :: b' := by
      cases b with
      | nil => simp at hb
      | cons y b' => simp at hb; exact ⟨b', by rw [hb]⟩
    have hp : partitionEq (45 :: 45 :: (a ++ 61 :: b')) = some (45 :: 45 :: a, b') := partitionEq_append b' h1'
    have ht : optionTuples c.parser (45 :: 45 :: (a ++ 61 :: b')) = [] := by
      unfold optionTuples
      simp only [hp]
      rw [hfil]; rfl
    unfold ArgParser.classify
    simp only [hf, List.isEmpty_cons, Bool.false_eq_true, if_false, hp, ht, Option.bind_some, hf', Option.map_none, hneg, hm]

theorem letters_iff {c : Command} {x : Nat} : (∀ o, (x, o) ∉ c.flags ∧ (x, o) ∉ c.valued) ↔ ∀ o, (x, o) ∉ c.letters := by
  simp [Command.letters]

/-- A word that is taken as an argument. -/
theorem Command.ArgWord.classify {c : Command} {s : PStr} (h : c.ArgWord s) : c.parser.classify s = some .arg := by
  cases h with
  | plain h => exact classify_plain _ c (.inl rfl) h
  | @odd x r h h1 h2 h3 =>
    rw [classify_odd h1 h2 (letters_iff.1 h3)]
    rcases h with h | h
    · rw [if_pos ((looksNegative_iff _).2 h)]
    · rw [if_pos (List.mem_cons_of_mem _ h), ite_self]
  | long h h1 hb h2 => rw [classify_long_odd h1 hb h2, if_pos h]

theorem Command.ArgWord.dashes {c : Command} {s : PStr} (h : c.ArgWord s) : s ≠ [45, 45] := by
  rintro rfl
  generalize hs : ([45, 45] : PStr) = s at h
  cases h with
  | plain h => subst hs; revert h; decide
  | odd _ h1 _ _ => simp at hs; exact h1 hs.1.symm
  | long h _ _ _ => simp at hs; rw [hs.1, hs.2] at h; simp at h

theorem plain_dashes {s : PStr} (hs : PlainArg s) : s ≠ [45, 45] := by
  rintro rfl
  revert hs; decide

theorem expandWord_flag {P : ArgParser} {next : Option PStr} {o : Opt} {name : PStr} {done : List (Opt × PStr)} (h : o.takes = false) :
    expandWord P next o name done none = .ok (done ++ [(o, [])], none, false) := by rw [expandWord.eq_def]; simp [h]

theorem expandWord_next {P : ArgParser} {v : PStr} {o : Opt} {name : PStr} {done : List (Opt × PStr)} (h : o.takes = true) :
    expandWord P (some v) o name done none = .ok (done ++ [(o, v)], none, true) := by rw [expandWord.eq_def]; simp [h]

theorem expandWord_explicit {P : ArgParser} {next : Option PStr} {o : Opt} {name : PStr} {done : List (Opt × PStr)} {sep : Bool} {v : PStr}
    (h : o.takes = true) : expandWord P next o name done (some (sep, v)) = .ok (done ++ [(o, v)], none, false) := by rw [expandWord.eq_def]; simp [h]

/-- The options in a word, letter by letter. -/
theorem expandWord_flags (c : Command) (next : Option PStr) : ∀ (fs : List (Nat × Opt)) (x : Nat × Opt) (s : PStr) (done : List (Opt × PStr)),
    (∀ f ∈ fs, f ∈ c.flags) → x ∈ c.letters →
    ∃ y ∈ c.letters, ∃ r, fs.map (·.1) ++ x.1 :: s = y.1 :: r ∧
      expandWord c.parser next y.2 [45, y.1] done (explicitOf r) =
        expandWord c.parser next x.2 [45, x.1] (done ++ fs.map fun f => (f.2, [])) (explicitOf s)
  | [], x, s, done, _, hx => ⟨x, hx, s, rfl, by simp⟩
  | f :: fs, x, s, done, hf, hx => by
    obtain ⟨y, hy, r, hr, he⟩ := expandWord_flags c next fs x s (done ++ [(f.2, [])]) (fun g hg => hf g (List.mem_cons_of_mem _ hg)) hx
    have hff := hf f (List.mem_cons_self ..)
    refine ⟨f, flag_letter hff, fs.map (·.1) ++ x.1 :: s, rfl, ?_⟩
    rw [hr, explicitOf_cons (letter_ne c hy).2.1, expandWord]
    have h1 : ¬ f.2.takes = true := by simp [(flag_takes c hff).1]
    have h2 : ¬ ((List.drop 1 [45, f.1]).head? = some 45) := by simpa using (letter_ne c (flag_letter hff)).1
    have h3 : ¬ ((false || y.1 == 45) = true) := by simpa using (letter_ne c hy).1
    rw [if_neg h1, if_neg h2, if_neg h3, find_letter c hy]
    dsimp only
    have e : done ++ [(f.2, [])] ++ fs.map (fun f => (f.2, ([] : PStr))) = done ++ (f :: fs).map fun f => (f.2, []) := by simp
    rw [e] at he
    rw [← he]
    cases r with
    | nil => rfl
    | cons d ds =>
      by_cases hd : d = 61
      · subst hd; rfl
      · rw [explicitOf_cons hd]
        split
        · simp_all
        · simp_all
        · simp_all

theorem allows_choices {o : Opt} {v : PStr} (h : o.Allows v) : ∀ cs, o.choices = some cs → v ∈ cs := by
  intro cs hc
  cases o <;> simp [Opt.choices] at hc
  all_goals subst hc
  all_goals simpa [Opt.Allows] using h

theorem takeAct_ok {o : Opt} {v : PStr} (h : o.Allows v) (hh : o ≠ .help) (r : Parsed) : takeAct r o v = .ok { r with acts := r.acts ++ [(o, v)] } := by
  unfold takeAct
  rw [if_neg hh]
  cases hc : o.choices with
  | none => rfl
  | some cs => simp [allows_choices h cs hc]

theorem takeActs_ok : ∀ {acts : List (Opt × PStr)} (r : Parsed), (∀ a ∈ acts, Opt.Allows a.1 a.2 ∧ a.1 ≠ .help) →
    takeActs r acts = .ok { r with acts := r.acts ++ acts }
  | [], r, _ => by simp [takeActs]
  | (o, v) :: acts, r, h => by
    have h0 := h (o, v) (List.mem_cons_self ..)
    rw [takeActs, takeAct_ok h0.1 h0.2]
    refine (takeActs_ok (acts := acts) _ fun a ha => h a (List.mem_cons_of_mem _ ha)).trans ?_
    simp

theorem flag_allows (c : Command) {x : Nat × Opt} (h : x ∈ c.flags) : Opt.Allows x.2 [] := by
  cases c <;> simp [Command.flags] at h
  each_or h <;> trivial

theorem Command.Group.acts_ok {c : Command} {ws : List PStr} {acts : List (Opt × PStr)} (h : c.Group ws acts) :
    ∀ a ∈ acts, Opt.Allows a.1 a.2 ∧ a.1 ≠ .help := by
  have hfl : ∀ fs : List (Nat × Opt), (∀ x ∈ fs, x ∈ c.flags) → ∀ a ∈ fs.map (fun x => (x.2, ([] : PStr))), Opt.Allows a.1 a.2 ∧ a.1 ≠ .help := by
    intro fs hfs a ha
    obtain ⟨x, hx, rfl⟩ := List.mem_map.1 ha
    exact ⟨flag_allows c (hfs x hx), (flag_takes c (hfs x hx)).2.2⟩
  cases h with
  | flags _ hf => exact hfl _ hf
  | version _ _ => intro a ha; simp at ha; subst ha; exact ⟨trivial, by decide⟩
  | next hf hl hv hp | joined hf hl hv _ _ | equals hf hl hv =>
    intro a ha
    rcases List.mem_append.1 ha with ha | ha
    · exact hfl _ hf a ha
    · simp at ha; subst ha; exact ⟨hv, (valued_takes c hl).2⟩

theorem classifyAll_cons {P : ArgParser} {s : PStr} {t : Tok} (h1 : s ≠ [45, 45]) (h2 : P.classify s = some t) (ss : List PStr) :
    P.classifyAll (s :: ss) = (P.classifyAll ss).map ((s, t) :: ·) := by
  rw [ArgParser.classifyAll, if_neg h1, h2]
  cases P.classifyAll ss <;> rfl

theorem parseLoop_opt (P : ArgParser) (fuel : Nat) (r : Parsed) (s : PStr) (o : Option (Opt × PStr)) (e : Option (Bool × PStr))
    (ts : List (PStr × Tok)) : parseLoop P (fuel + 1) r ((s, .opt o e) :: ts) = (do
      let x ← consumeOptional P r s o e ts
      parseLoop P fuel x.1 x.2) := rfl

/-- What a group of words does. -/
theorem Command.Group.step {c : Command} {ws : List PStr} {acts : List (Opt × PStr)} (h : c.Group ws acts) :
    ∃ ts : List (PStr × Tok), ts ≠ [] ∧ ts.map (·.1) = ws ∧ (∃ x, ts.head? = some x ∧ x.2.isOpt = true) ∧
      (∀ rest, c.parser.classifyAll (ws ++ rest) = (c.parser.classifyAll rest).map (ts ++ ·)) ∧
      ∀ fuel r rest, parseLoop c.parser (fuel + 1) r (ts ++ rest) = parseLoop c.parser fuel { r with acts := r.acts ++ acts } rest := by
  have hacts := h.acts_ok
  have hloop : ∀ (s : PStr) (o : Opt) (name : PStr) (e : Option (Bool × PStr)) (tl rest : List (PStr × Tok)) (fuel : Nat) (r : Parsed) (used : Bool),
      (∀ next, nextArg (tl ++ rest) = next → expandWord c.parser next o name [] e = .ok (acts, none, used)) →
      (if used then (tl ++ rest).drop 1 else tl ++ rest) = rest →
      parseLoop c.parser (fuel + 1) r ((s, .opt (some (o, name)) e) :: tl ++ rest) = parseLoop c.parser fuel { r with acts := r.acts ++ acts } rest := by
    intro s o name e tl rest fuel r used he hu
    rw [List.cons_append, parseLoop_opt]
    simp only [consumeOptional]
    rw [he _ rfl]
    show (do
      let x ← (do
        let r' ← takeActs { r with extras := r.extras ++ (none : Option PStr).toList } acts
        pure (r', if used then (tl ++ rest).drop 1 else tl ++ rest))
      parseLoop c.parser fuel x.1 x.2 : Except Stop Parsed) = _
    rw [takeActs_ok _ hacts, hu]
    simp
    rfl
  cases h with
  | @flags fs hne hf =>
    obtain ⟨fs', x, rfl⟩ : ∃ fs' x, fs = fs' ++ [x] := ⟨fs.dropLast, fs.getLast hne, (List.dropLast_concat_getLast hne).symm⟩
    have hx := hf x (by simp)
    have hfs : ∀ f ∈ fs', f ∈ c.flags := fun f h => hf f (List.mem_append_left _ h)
    obtain ⟨y, hy, r0, hr, _⟩ := expandWord_flags c none fs' x [] [] hfs (flag_letter hx)
    have hword : 45 :: (fs' ++ [x]).map (·.1) = 45 :: y.1 :: r0 := by rw [← hr]; simp
    refine ⟨[(45 :: (fs' ++ [x]).map (·.1), .opt (some (y.2, [45, y.1])) (explicitOf r0))], by simp, rfl, ⟨_, rfl, rfl⟩, ?_, ?_⟩
    · intro rest
      rw [hword]
      exact classifyAll_cons (by simp [(letter_ne c hy).1]) (classify_letter c hy r0) rest
    · intro fuel r rest
      refine hloop _ _ _ _ [] rest fuel r false (fun next _ => ?_) (by simp)
      obtain ⟨y', hy', r', hr', he⟩ := expandWord_flags c next fs' x [] [] hfs (flag_letter hx)
      rw [hr] at hr'
      injection hr' with h1 h2
      have hyy : y' = y := by
        have e1 := find_letter c hy; have e2 := find_letter c hy'
        rw [← h1] at e2
        exact Prod.ext h1.symm (Option.some.inj (e2.symm.trans e1))
      subst hyy; subst h2
      rw [he]
      rw [explicitOf, expandWord_flag (flag_takes c hx).1]
      simp
  | @next fs l o v hf hl hv hp =>
    obtain ⟨y, hy, r0, hr, _⟩ := expandWord_flags c none fs (l, o) [] [] hf (valued_letter hl)
    refine ⟨[(45 :: (fs.map (·.1) ++ [l]), .opt (some (y.2, [45, y.1])) (explicitOf r0)), (v, .arg)], by simp, rfl, ⟨_, rfl, rfl⟩, ?_, ?_⟩
    · intro rest
      have hword : (45 :: (fs.map (·.1) ++ [l]) : PStr) = 45 :: y.1 :: r0 := by rw [← hr]
      rw [hword]
      refine (classifyAll_cons (by simp [(letter_ne c hy).1]) (classify_letter c hy r0) (v :: rest)).trans ?_
      rw [classifyAll_cons hp.dashes hp.classify rest]
      cases c.parser.classifyAll rest <;> rfl
    · intro fuel r rest
      refine hloop _ _ _ _ [(v, .arg)] rest fuel r true (fun next hn => ?_) (by simp)
      obtain ⟨y', hy', r', hr', he⟩ := expandWord_flags c next fs (l, o) [] [] hf (valued_letter hl)
      rw [hr] at hr'
      injection hr' with h1 h2
      have hyy : y' = y := by
        have e1 := find_letter c hy; have e2 := find_letter c hy'
        rw [← h1] at e2
        exact Prod.ext h1.symm (Option.some.inj (e2.symm.trans e1))
      subst hyy; subst h2
      rw [he]
      have hn' : next = some v := hn.symm
      subst hn'
      rw [explicitOf, expandWord_next (valued_takes c hl).1]
      simp
  | @joined fs l o v hf hl hv hne h61 =>
    obtain ⟨y, hy, r0, hr, _⟩ := expandWord_flags c none fs (l, o) v [] hf (valued_letter hl)
    refine ⟨[(45 :: (fs.map (·.1) ++ l :: v), .opt (some (y.2, [45, y.1])) (explicitOf r0))], by simp, rfl, ⟨_, rfl, rfl⟩, ?_, ?_⟩
    · intro rest
      have hword : (45 :: (fs.map (·.1) ++ l :: v) : PStr) = 45 :: y.1 :: r0 := by rw [← hr]
      rw [hword]
      exact classifyAll_cons (by simp [(letter_ne c hy).1]) (classify_letter c hy r0) rest
    · intro fuel r rest
      refine hloop _ _ _ _ [] rest fuel r false (fun next _ => ?_) (by simp)
      obtain ⟨y', hy', r', hr', he⟩ := expandWord_flags c next fs (l, o) v [] hf (valued_letter hl)
      rw [hr] at hr'
      injection hr' with h1 h2
      have hyy : y' = y := by
        have e1 := find_letter c hy; have e2 := find_letter c hy'
        rw [← h1] at e2
        exact Prod.ext h1.symm (Option.some.inj (e2.symm.trans e1))
      subst hyy; subst h2
      rw [he]
      cases v with
      | nil => exact absurd rfl hne
      | cons d ds =>
        rw [explicitOf_cons (by simpa using h61), expandWord_explicit (valued_takes c hl).1]
        simp
  | @equals fs l o v hf hl hv =>
    obtain ⟨y, hy, r0, hr, _⟩ := expandWord_flags c none fs (l, o) (61 :: v) [] hf (valued_letter hl)
    refine ⟨[(45 :: (fs.map (·.1) ++ l :: 61 :: v), .opt (some (y.2, [45, y.1])) (explicitOf r0))], by simp, rfl, ⟨_, rfl, rfl⟩, ?_, ?_⟩
    · intro rest
      have hword : (45 :: (fs.map (·.1) ++ l :: 61 :: v) : PStr) = 45 :: y.1 :: r0 := by rw [← hr]
      rw [hword]
      exact classifyAll_cons (by simp [(letter_ne c hy).1]) (classify_letter c hy r0) rest
    · intro fuel r rest
      refine hloop _ _ _ _ [] rest fuel r false (fun next _ => ?_) (by simp)
      obtain ⟨y', hy', r', hr', he⟩ := expandWord_flags c next fs (l, o) (61 :: v) [] hf (valued_letter hl)
      rw [hr] at hr'
      injection hr' with h1 h2
      have hyy : y' = y := by
        have e1 := find_letter c hy; have e2 := find_letter c hy'
        rw [← h1] at e2
        exact Prod.ext h1.symm (Option.some.inj (e2.symm.trans e1))
      subst hyy; subst h2
      rw [he]
      rw [explicitOf, expandWord_explicit (valued_takes c hl).1]
      simp
  | @version n hc hn =>
    subst hc
    have hcl : Command.tokenize.parser.classify ([45, 45, 118, 101, 114, 115, 105, 111, 110].take n) =
        some (.opt (some (.version, [45, 45, 118, 101, 114, 115, 105, 111, 110])) none) ∧
        ([45, 45, 118, 101, 114, 115, 105, 111, 110] : PStr).take n ≠ [45, 45] := by
      by_cases h9 : 9 ≤ n
      · rw [List.take_of_length_le (by simpa using h9)]
        exact ⟨rfl, by decide⟩
      · have : n = 3 ∨ n = 4 ∨ n = 5 ∨ n = 6 ∨ n = 7 ∨ n = 8 := by omega
        rcases this with h | h | h | h | h | h <;> subst h <;> exact ⟨rfl, by decide⟩
    refine ⟨[(_, .opt (some (.version, [45, 45, 118, 101, 114, 115, 105, 111, 110])) none)], by simp, rfl, ⟨_, rfl, rfl⟩, ?_, ?_⟩
    · intro rest
      exact classifyAll_cons hcl.2 hcl.1 rest
    · intro fuel r rest
      refine hloop _ _ _ _ [] rest fuel r false (fun next _ => ?_) (by simp)
      exact expandWord_flag rfl

/-- What words that write options do. -/
theorem Command.Spells.step {c : Command} {ws : List PStr} {acts : List (Opt × PStr)} (h : c.Spells ws acts) :
    ∃ ts : List (PStr × Tok), ts.map (·.1) = ws ∧ (ws ≠ [] → ∃ x, ts.head? = some x ∧ x.2.isOpt = true) ∧
      (∀ rest, c.parser.classifyAll (ws ++ rest) = (c.parser.classifyAll rest).map (ts ++ ·)) ∧
      ∀ fuel r rest, ∃ fuel' r', (ts ++ rest).length ≤ fuel → rest.length ≤ fuel' ∧ r' = { r with acts := r.acts ++ acts } ∧
        parseLoop c.parser fuel r (ts ++ rest) = parseLoop c.parser fuel' r' rest := by
  induction h with
  | nil => exact ⟨[], rfl, fun h => absurd rfl h, fun rest => by cases hx : c.parser.classifyAll rest <;> simp [hx],
      fun fuel r rest => ⟨fuel, r, fun hl => ⟨by simpa using hl, by simp, rfl⟩⟩⟩
  | @cons ws ws' acts acts' hg hs ih =>
    obtain ⟨ts, hne, hmap, hhead, hcl, hst⟩ := hg.step
    obtain ⟨ts', hmap', _, hcl', hst'⟩ := ih
    refine ⟨ts ++ ts', by simp [hmap, hmap'], fun _ => ?_, fun rest => ?_, fun fuel r rest => ?_⟩
    · obtain ⟨x, hx, hx'⟩ := hhead
      refine ⟨x, ?_, hx'⟩
      cases ts with
      | nil => exact absurd rfl hne
      | cons a b => simpa using hx
    · rw [List.append_assoc, hcl, hcl']
      cases c.parser.classifyAll rest <;> simp
    · cases fuel with
      | zero => exact ⟨0, r, fun hl => absurd hl (by cases ts with | nil => exact absurd rfl hne | cons a b => simp)⟩
      | succ fuel =>
        obtain ⟨f', r', h'⟩ := hst' fuel { r with acts := r.acts ++ acts } rest
        refine ⟨f', r', fun hl => ?_⟩
        have hlt : 0 < ts.length := List.length_pos_iff.2 hne
        obtain ⟨h1, h2, h3⟩ := h' (by simp at hl ⊢; omega)
        refine ⟨h1, by rw [h2]; simp, ?_⟩
        rw [List.append_assoc, hst, h3]

end Sudachi
