import Verif.Lemmas.Arguments
namespace Sudachi

/-- Arguments that are no options. -/
def argToks (files : List PStr) : List (PStr × Tok) := files.map fun f => (f, .arg)

theorem argToks_names (files : List PStr) : (argToks files).map (·.1) = files := by simp [argToks, Function.comp_def]

theorem argToks_opt (files : List PStr) : ∀ x ∈ argToks files, (!x.2.isOpt) = true := by
  intro x hx
  obtain ⟨f, _, rfl⟩ := List.mem_map.1 hx
  rfl

theorem classifyAll_plain (c : Command) (rest : List PStr) : ∀ {files : List PStr}, (∀ f ∈ files, c.ArgWord f) →
    c.parser.classifyAll (files ++ rest) = (c.parser.classifyAll rest).map (argToks files ++ ·)
  | [], _ => by cases h : c.parser.classifyAll rest <;> simp [argToks, h]
  | f :: fs, h => by
    have hf := h f (List.mem_cons_self ..)
    rw [List.cons_append, classifyAll_cons hf.dashes hf.classify,
      classifyAll_plain c rest fun g hg => h g (List.mem_cons_of_mem _ hg)]
    cases c.parser.classifyAll rest <;> simp [argToks]

/-- How parsing ends: no option is left. -/
theorem parseLoop_end (P : ArgParser) (fuel : Nat) (r : Parsed) {ts : List (PStr × Tok)} (h : (ts.any fun x => x.2.isOpt) = false) :
    parseLoop P fuel r ts = .ok { (consumePositionals P r ts).1 with
      extras := (consumePositionals P r ts).1.extras ++ (consumePositionals P r ts).2.map (·.1) } := by
  cases fuel with
  | zero => rfl
  | succ fuel => rw [parseLoop.eq_def]; simp only [h]; rfl

/-- Arguments before an option. -/
theorem parseLoop_args (P : ArgParser) (fuel : Nat) (r : Parsed) (s : PStr) {t : Tok} (ht : t.isOpt = false) (ts : List (PStr × Tok))
    (h : (ts.any fun x => x.2.isOpt) = true) : parseLoop P (fuel + 1) r ((s, t) :: ts) =
      if (consumePositionals P r ((s, t) :: ts)).2.length < ((s, t) :: ts).length then
        parseLoop P fuel (consumePositionals P r ((s, t) :: ts)).1 (consumePositionals P r ((s, t) :: ts)).2
      else parseLoop P fuel { (consumePositionals P r ((s, t) :: ts)).1 with
        extras := (consumePositionals P r ((s, t) :: ts)).1.extras ++ (((s, t) :: ts).takeWhile fun x => !x.2.isOpt).map (·.1) }
        (((s, t) :: ts).dropWhile fun x => !x.2.isOpt) := by
  rw [parseLoop.eq_def]
  simp only [List.any_cons, ht, h, Bool.or_true, if_true]
  cases t <;> first | rfl | simp [Tok.isOpt] at ht

theorem takeWhile_toks (files : List PStr) {t : List (PStr × Tok)} (ht : t = [] ∨ ∃ x, t.head? = some x ∧ x.2.isOpt = true) :
    ((argToks files ++ t).takeWhile fun x => !x.2.isOpt) = argToks files ∧ ((argToks files ++ t).dropWhile fun x => !x.2.isOpt) = t := by
  rw [List.takeWhile_append_of_pos (argToks_opt files), List.dropWhile_append_of_pos (argToks_opt files)]
  rcases ht with rfl | ⟨x, hx, hx'⟩
  · simp
  · cases t with
    | nil => simp at hx
    | cons a b => simp at hx; subst hx; simp [hx']

/-- A block of files. -/
theorem consumePositionals_files (c : Command) {files : List PStr} (hp : ∀ f ∈ files, c.ArgWord f) (hne : files ≠ []) (a : List (Opt × PStr))
    (e : List PStr) {t : List (PStr × Tok)} (ht : t = [] ∨ ∃ x, t.head? = some x ∧ x.2.isOpt = true) :
    consumePositionals c.parser ⟨a, none, e⟩ (argToks files ++ t) = (⟨a, some files, e⟩, t) := by
  have hk := (takeWhile_toks files ht).1
  have hcount : c.parser.nargs.count (argToks files ++ t) = some (argToks files).length := by
    unfold Nargs.count
    rw [hk]
    cases c
    · rfl
    · cases files with
      | nil => exact absurd rfl hne
      | cons f fs => simp [Command.parser, buildParser, argToks]
    · cases files with
      | nil => exact absurd rfl hne
      | cons f fs => simp [Command.parser, ubuildParser, argToks]
  have hvals : c.parser.nargs.values files = files := by
    unfold Nargs.values
    rw [if_neg (by cases c <;> decide)]
    exact List.erase_of_not_mem fun h => (hp _ h).dashes rfl
  unfold consumePositionals
  simp [hcount, argToks_names, hvals]

theorem any_head {t : List (PStr × Tok)} {x : PStr × Tok} (h : t.head? = some x) (h' : x.2.isOpt = true) : (t.any fun x => x.2.isOpt) = true := by
  cases t with
  | nil => simp at h
  | cons a b => simp at h; subst h; simp [h']

theorem argToks_any (files : List PStr) : ((argToks files).any fun x => x.2.isOpt) = false := by
  rw [List.any_eq_false]
  intro x hx
  have := argToks_opt files x hx
  simpa using this

/-- The first block of files. -/
theorem parseLoop_files (c : Command) {files : List PStr} (hp : ∀ f ∈ files, c.ArgWord f) (hne : files ≠ []) (a : List (Opt × PStr))
    (e : List PStr) {t : List (PStr × Tok)} (ht : t = [] ∨ ∃ x, t.head? = some x ∧ x.2.isOpt = true) {fuel : Nat}
    (hf : (argToks files ++ t).length ≤ fuel) :
    ∃ fuel', t.length ≤ fuel' ∧ parseLoop c.parser fuel ⟨a, none, e⟩ (argToks files ++ t) = parseLoop c.parser fuel' ⟨a, some files, e⟩ t := by
  have hcp := consumePositionals_files c hp hne a e ht
  rcases ht with rfl | ⟨x, hx, hx'⟩
  · refine ⟨fuel, by simp, ?_⟩
    rw [parseLoop_end _ _ _ (by simpa using argToks_any files), hcp, parseLoop_end _ _ _ rfl]
    simp [consumePositionals]
  · cases files with
    | nil => exact absurd rfl hne
    | cons f fs =>
      cases fuel with
      | zero => simp [argToks] at hf
      | succ fuel =>
        refine ⟨fuel, by simp [argToks] at hf; omega, ?_⟩
        have hh : (((argToks fs) ++ t).any fun x => x.2.isOpt) = true := by rw [List.any_append, any_head hx hx', Bool.or_true]
        have := parseLoop_args c.parser fuel ⟨a, none, e⟩ f (t := .arg) rfl (argToks fs ++ t) hh
        have e1 : (f, Tok.arg) :: (argToks fs ++ t) = argToks (f :: fs) ++ t := rfl
        rw [e1, hcp, if_pos (by simp [argToks]; omega)] at this
        exact this

/-- A block of files after another. -/
theorem parseLoop_more (c : Command) {files : List PStr} (hne : files ≠ []) (a : List (Opt × PStr))
    (fs : List PStr) (e : List PStr) {t : List (PStr × Tok)} (ht : t = [] ∨ ∃ x, t.head? = some x ∧ x.2.isOpt = true) {fuel : Nat}
    (hf : (argToks files ++ t).length ≤ fuel) :
    ∃ fuel', t.length ≤ fuel' ∧ parseLoop c.parser fuel ⟨a, some fs, e⟩ (argToks files ++ t) = parseLoop c.parser fuel' ⟨a, some fs, e ++ files⟩ t := by
  have hk := takeWhile_toks files ht
  have hcp : consumePositionals c.parser ⟨a, some fs, e⟩ (argToks files ++ t) = (⟨a, some fs, e⟩, argToks files ++ t) := by simp [consumePositionals]
  rcases ht with rfl | ⟨x, hx, hx'⟩
  · refine ⟨fuel, by simp, ?_⟩
    rw [parseLoop_end _ _ _ (by simpa using argToks_any files), hcp, parseLoop_end _ _ _ rfl]
    simp [consumePositionals, argToks_names]
  · cases files with
    | nil => exact absurd rfl hne
    | cons f gs =>
      cases fuel with
      | zero => simp [argToks] at hf
      | succ fuel =>
        refine ⟨fuel, by simp [argToks] at hf; omega, ?_⟩
        have hh : (((argToks gs) ++ t).any fun x => x.2.isOpt) = true := by rw [List.any_append, any_head hx hx', Bool.or_true]
        have := parseLoop_args c.parser fuel ⟨a, some fs, e⟩ f (t := .arg) rfl (argToks gs ++ t) hh
        have e1 : (f, Tok.arg) :: (argToks gs ++ t) = argToks (f :: gs) ++ t := rfl
        rw [e1, hcp, if_neg (by simp), hk.1, hk.2, argToks_names] at this
        exact this

/-- The files of a command: `build` and `ubuild` need one. -/
def Command.filesOf (c : Command) (files : List PStr) : Option (List PStr) := if files = [] ∧ c ≠ .tokenize then none else some files

/-- Options, one block of files, options. -/
theorem parse_spelled (c : Command) {w1 w2 files : List PStr} {a1 a2 : List (Opt × PStr)} (h1 : c.Spells w1 a1) (h2 : c.Spells w2 a2)
    (hp : ∀ f ∈ files, c.ArgWord f) : c.parser.parse (w1 ++ (files ++ w2)) = .ok ⟨a1 ++ a2, c.filesOf files, []⟩ := by
  obtain ⟨t1, _, _, hc1, hs1⟩ := h1.step
  obtain ⟨t2, hn2, hh2, hc2, hs2⟩ := h2.step
  have hcl : c.parser.classifyAll (w1 ++ (files ++ w2)) = some (t1 ++ (argToks files ++ (t2 ++ []))) := by
    rw [hc1, classifyAll_plain c w2 hp]
    have := hc2 []
    rw [List.append_nil] at this
    rw [this]
    rfl
  have ht2 : t2 ++ [] = [] ∨ ∃ x, (t2 ++ []).head? = some x ∧ x.2.isOpt = true := by
    rw [List.append_nil]
    by_cases hw : w2 = []
    · left; rw [hw] at hn2; exact List.map_eq_nil_iff.1 hn2
    · exact .inr (hh2 hw)
  unfold ArgParser.parse
  rw [hcl]
  dsimp only
  obtain ⟨f1, r1, h⟩ := hs1 (t1 ++ (argToks files ++ (t2 ++ []))).length ⟨[], none, []⟩ (argToks files ++ (t2 ++ []))
  obtain ⟨hl1, hr1, he1⟩ := h (Nat.le_refl _)
  rw [he1, hr1]
  by_cases hne : files = []
  · subst hne
    obtain ⟨f2, r2, h⟩ := hs2 f1 ⟨[] ++ a1, none, []⟩ []
    obtain ⟨_, hr2, he2⟩ := h (by simpa [argToks] using hl1)
    have : argToks [] ++ (t2 ++ []) = t2 ++ [] := rfl
    rw [this, he2, hr2, parseLoop_end _ _ _ rfl]
    cases c <;> simp [consumePositionals, Command.parser, tokenizeParser, buildParser, ubuildParser, Nargs.count, Nargs.values, Command.filesOf]
  · obtain ⟨f2, hl2, he2⟩ := parseLoop_files c hp hne ([] ++ a1) [] ht2 hl1
    obtain ⟨f3, r3, h⟩ := hs2 f2 ⟨[] ++ a1, some files, []⟩ []
    obtain ⟨_, hr3, he3⟩ := h hl2
    rw [he2, he3, hr3, parseLoop_end _ _ _ rfl]
    simp [consumePositionals, Command.filesOf, hne]

/-- Two blocks of files. -/
theorem parse_split (c : Command) {w1 w2 w3 f1 f2 : List PStr} {a1 a2 a3 : List (Opt × PStr)} (h1 : c.Spells w1 a1) (h2 : c.Spells w2 a2)
    (h3 : c.Spells w3 a3) (hw : w2 ≠ []) (hp1 : ∀ f ∈ f1, c.ArgWord f) (hp2 : ∀ f ∈ f2, c.ArgWord f) (hn1 : f1 ≠ []) (hn2 : f2 ≠ []) :
    c.parser.parse (w1 ++ (f1 ++ (w2 ++ (f2 ++ w3)))) = .ok ⟨a1 ++ a2 ++ a3, some f1, f2⟩ := by
  obtain ⟨t1, _, _, hc1, hs1⟩ := h1.step
  obtain ⟨t2, _, hh2, hc2, hs2⟩ := h2.step
  obtain ⟨t3, hm3, hh3, hc3, hs3⟩ := h3.step
  have hcl : c.parser.classifyAll (w1 ++ (f1 ++ (w2 ++ (f2 ++ w3)))) = some (t1 ++ (argToks f1 ++ (t2 ++ (argToks f2 ++ (t3 ++ []))))) := by
    rw [hc1, classifyAll_plain c _ hp1, hc2, classifyAll_plain c _ hp2]
    have := hc3 []
    rw [List.append_nil] at this
    rw [this]
    rfl
  have ht3 : t3 ++ [] = [] ∨ ∃ x, (t3 ++ []).head? = some x ∧ x.2.isOpt = true := by
    rw [List.append_nil]
    by_cases hw : w3 = []
    · left; rw [hw] at hm3; exact List.map_eq_nil_iff.1 hm3
    · exact .inr (hh3 hw)
  have ht2 : t2 ++ (argToks f2 ++ (t3 ++ [])) = [] ∨ ∃ x, (t2 ++ (argToks f2 ++ (t3 ++ []))).head? = some x ∧ x.2.isOpt = true := by
    obtain ⟨x, hx, hx'⟩ := hh2 hw
    refine .inr ⟨x, ?_, hx'⟩
    cases t2 with
    | nil => simp at hx
    | cons a b => simpa using hx
  unfold ArgParser.parse
  rw [hcl]
  dsimp only
  obtain ⟨g1, r1, h⟩ := hs1 (t1 ++ (argToks f1 ++ (t2 ++ (argToks f2 ++ (t3 ++ []))))).length ⟨[], none, []⟩ (argToks f1 ++ (t2 ++ (argToks f2 ++ (t3 ++ []))))
  obtain ⟨hl1, hr1, he1⟩ := h (Nat.le_refl _)
  obtain ⟨g2, hl2, he2⟩ := parseLoop_files c hp1 hn1 ([] ++ a1) [] ht2 hl1
  obtain ⟨g3, r3, h⟩ := hs2 g2 ⟨[] ++ a1, some f1, []⟩ (argToks f2 ++ (t3 ++ []))
  obtain ⟨hl3, hr3, he3⟩ := h hl2
  obtain ⟨g4, hl4, he4⟩ := parseLoop_more c hn2 ([] ++ a1 ++ a2) f1 [] ht3 hl3
  obtain ⟨g5, r5, h⟩ := hs3 g4 ⟨[] ++ a1 ++ a2, some f1, [] ++ f2⟩ []
  obtain ⟨_, hr5, he5⟩ := h hl4
  rw [he1, hr1, he2, he3, hr3, he4, he5, hr5, parseLoop_end _ _ _ rfl]
  simp [consumePositionals]

theorem last_eq (r : Parsed) (o : Opt) : r.last o = lastOf o r.acts := by
  unfold Parsed.last lastOf
  rw [List.foldl_eq_foldr_reverse]
  generalize r.acts.reverse = l
  induction l with
  | nil => rfl
  | cons a l ih =>
    rw [List.foldr_cons, ← ih, List.find?_cons]
    by_cases h : a.1 = o <;> simp [h]

theorem flag_eq (r : Parsed) (o : Opt) : r.flag o = r.acts.any fun a => a.1 = o := by
  unfold Parsed.flag Parsed.last
  rw [Option.isSome_map, ← List.any_reverse (l := r.acts)]
  generalize r.acts.reverse = l
  induction l with
  | nil => rfl
  | cons a l ih =>
    rw [List.find?_cons, List.any_cons, ← ih]
    by_cases h : a.1 = o <;> simp [h]

theorem root_tuples (b : Nat) (t : PStr) : (optionTuples rootParser (45 :: b :: t)).length ≤ 1 := by
  by_cases hb : b = 45
  · subst hb
    unfold optionTuples
    cases hp : partitionEq (45 :: 45 :: t) with
    | none =>
      simp only [rootParser, helpOptions, List.filter_cons, List.isPrefixOf]
      simp
      split <;> simp
    | some z =>
      obtain ⟨p, e⟩ := z
      have : ∃ q, p = 45 :: 45 :: q := by
        rw [partitionEq_cons (by decide), partitionEq_cons (by decide)] at hp
        cases hq : partitionEq t with
        | none => simp [hq] at hp
        | some z => simp [hq] at hp; exact ⟨z.1, hp.1.symm⟩
      obtain ⟨q, rfl⟩ := this
      simp only [rootParser, helpOptions, List.filter_cons, List.isPrefixOf]
      simp
      split <;> simp
  · have h : optionTuples rootParser (45 :: b :: t) = rootParser.options.filterMap fun x =>
        if x.1 = (45 :: b :: t).take 2 then some ((x.2, x.1), some (false, (45 :: b :: t).drop 2))
        else if (45 :: b :: t).isPrefixOf x.1 then some ((x.2, x.1), none)
        else none := by
      unfold optionTuples
      split
      · simp_all
      · rfl
    rw [h]
    have h2 : (List.isPrefixOf (45 :: b :: t) [45, 45, 104, 101, 108, 112]) = false := by simp [List.isPrefixOf, hb]
    have h3 : ¬ ([45, 45, 104, 101, 108, 112] = (45 :: b :: t).take 2) := by simp
    simp only [rootParser, helpOptions, List.filterMap_cons, List.filterMap_nil, h2, if_neg h3, Bool.false_eq_true, if_false]
    split <;> simp

/-- The parser of the program knows `-h` and `--help` only: no word is ambiguous. -/
theorem root_classify (s : PStr) : ∃ t, rootParser.classify s = some t := by
  cases s with
  | nil => exact ⟨_, rfl⟩
  | cons a s =>
    by_cases ha : a = 45
    · subst ha
      cases s with
      | nil => exact ⟨_, rfl⟩
      | cons b t =>
        have hl := root_tuples b t
        unfold ArgParser.classify
        dsimp only
        cases rootParser.find (45 :: b :: t) with
        | some o => exact ⟨_, rfl⟩
        | none =>
          simp only [List.isEmpty_cons, Bool.false_eq_true, if_false]
          split
          · exact ⟨_, rfl⟩
          · split
            · exact ⟨_, rfl⟩
            · rename_i h; rw [h] at hl; simp at hl
            · split
              · exact ⟨_, rfl⟩
              · split <;> exact ⟨_, rfl⟩
    · refine ⟨.arg, ?_⟩
      unfold ArgParser.classify
      split
      · simp_all
      · rfl

theorem root_classifyAll : ∀ ss : List PStr, ∃ ts, rootParser.classifyAll ss = some ts ∧ ts.map (·.1) = ss
  | [] => ⟨[], rfl, rfl⟩
  | s :: ss => by
    by_cases h : s = [45, 45]
    · refine ⟨(s, .dashes) :: ss.map fun x => (x, .arg), by rw [ArgParser.classifyAll, if_pos h], by simp [Function.comp_def]⟩
    · obtain ⟨t, ht⟩ := root_classify s
      obtain ⟨ts, hts, hm⟩ := root_classifyAll ss
      exact ⟨(s, t) :: ts, by rw [classifyAll_cons h ht, hts]; rfl, by simp [hm]⟩

theorem name_plain {s : PStr} (h : CommandName s) : PlainArg s := by
  rcases h with h | h | h <;> subst h <;> decide

/-- The name of a command and its arguments. -/
theorem root_parse {s : PStr} (h : CommandName s) (ss : List PStr) : rootParser.parse (s :: ss) = .ok ⟨[], some (s :: ss), []⟩ := by
  obtain ⟨ts, hts, hm⟩ := root_classifyAll ss
  have hp := name_plain h
  have hcl : rootParser.classifyAll (s :: ss) = some ((s, .arg) :: ts) := by
    rw [classifyAll_cons (plain_dashes hp) (classify_plain _ .tokenize (.inr rfl) hp), hts]; rfl
  have hcp : consumePositionals rootParser ⟨[], none, []⟩ ((s, .arg) :: ts) = (⟨[], some (s :: ss), []⟩, []) := by
    simp [consumePositionals, rootParser, Nargs.count, Nargs.values, hm]
  unfold ArgParser.parse
  rw [hcl]
  dsimp only
  by_cases hany : (ts.any fun x => x.2.isOpt) = true
  · rw [List.length_cons, parseLoop_args _ _ _ _ rfl _ hany, hcp, if_pos (by simp), parseLoop_end _ _ _ rfl]
    simp [consumePositionals]
  · rw [parseLoop_end _ _ _ (by simpa [Tok.isOpt] using hany), hcp]
    simp

theorem find_name (c : Command) : Command.find c.name = some c := by cases c <;> rfl

theorem commandName (c : Command) : CommandName c.name := by
  cases c
  · exact .inl rfl
  · exact .inr (.inl rfl)
  · exact .inr (.inr rfl)

theorem withDefault_name {s : PStr} (h : CommandName s) (ss : List PStr) : withDefault (s :: ss) = s :: ss := by
  unfold withDefault
  split
  · rfl
  · rw [if_pos]
    rcases h with h | h | h <;> subst h <;> simp

/-- The arguments of a command. -/
theorem parseArgs_command (c : Command) (ss : List PStr) : parseArgs (c.name :: ss) =
    match c.parser.parse ss with
    | .error x => .error x
    | .ok sub =>
      match c.request sub with
      | none => .error .error
      | some q => if sub.extras.isEmpty then .ok q else .error .error := by
  unfold parseArgs
  rw [withDefault_name (commandName c), root_parse (commandName c)]
  simp only [find_name]
  cases c.parser.parse ss with
  | error x => rfl
  | ok sub => cases h : c.request sub <;> simp [h]

theorem argWord_help {c : Command} {s : PStr} (h : c.ArgWord s) : ¬ HelpWord s := by
  have h' := h.classify
  rintro (rfl | rfl) <;> revert h' <;> cases c <;> simp [Command.parser, ArgParser.classify, ArgParser.find, tokenizeParser, buildParser, ubuildParser, helpOptions]

/-- The words that write options. -/
theorem Command.Group.words {c : Command} {ws : List PStr} {acts : List (Opt × PStr)} (h : c.Group ws acts) : ∀ w ∈ ws, ¬ HelpWord w := by
  have key : ∀ (fs : List (Nat × Opt)) (x : Nat × Opt) (s : PStr), (∀ f ∈ fs, f ∈ c.flags) → x ∈ c.letters →
      ¬ HelpWord (45 :: (fs.map (·.1) ++ x.1 :: s)) := by
    intro fs x s hf hx
    obtain ⟨y, hy, r, hr, _⟩ := expandWord_flags c none fs x s [] hf hx
    rw [hr]
    obtain ⟨h1, _, h2⟩ := letter_ne c hy
    simp [HelpWord, h1, h2]
  intro w hw
  cases h with
  | @flags fs hne hf =>
    obtain ⟨fs', x, rfl⟩ : ∃ fs' x, fs = fs' ++ [x] := ⟨fs.dropLast, fs.getLast hne, (List.dropLast_concat_getLast hne).symm⟩
    simp at hw
    subst hw
    exact key fs' x [] (fun f h => hf f (List.mem_append_left _ h)) (flag_letter (hf x (by simp)))
  | @next fs l o v hf hl hv hp =>
    simp at hw
    rcases hw with rfl | rfl
    · exact key fs (l, o) [] hf (valued_letter hl)
    · exact argWord_help hp
  | @joined fs l o v hf hl hv hne h61 =>
    simp at hw; subst hw
    exact key fs (l, o) v hf (valued_letter hl)
  | @equals fs l o v hf hl hv =>
    simp at hw; subst hw
    exact key fs (l, o) (61 :: v) hf (valued_letter hl)
  | @version n hc hn =>
    simp at hw; subst hw
    obtain ⟨m, rfl⟩ := Nat.exists_eq_add_of_le hn
    rw [Nat.add_comm]
    simp [HelpWord]

theorem Command.Spells.words {c : Command} {ws : List PStr} {acts : List (Opt × PStr)} (h : c.Spells ws acts) : ∀ w ∈ ws, ¬ HelpWord w := by
  induction h with
  | nil => simp
  | cons hg _ ih =>
    intro w hw
    rcases List.mem_append.1 hw with hw | hw
    · exact hg.words w hw
    · exact ih w hw

theorem plain_help {s : PStr} (h : PlainArg s) : ¬ HelpWord s := by
  rintro (rfl | rfl) <;> revert h <;> decide

theorem withDefault_none {argv : List PStr} (h1 : ∀ w ∈ argv, ¬ HelpWord w) (h2 : ∀ w ∈ argv, ¬ CommandName w) :
    withDefault argv = Command.tokenize.name :: argv := by
  unfold withDefault
  rw [if_neg, if_neg]
  · rintro (h | h | h)
    · exact h2 _ h (.inl rfl)
    · exact h2 _ h (.inr (.inl rfl))
    · exact h2 _ h (.inr (.inr rfl))
  · rintro (h | h)
    · exact h1 _ h (.inl rfl)
    · exact h1 _ h (.inr rfl)

/-- `tokenize` is left out. -/
theorem parseArgs_default {argv : List PStr} (h1 : ∀ w ∈ argv, ¬ HelpWord w) (h2 : ∀ w ∈ argv, ¬ CommandName w) :
    parseArgs argv = parseArgs (Command.tokenize.name :: argv) := by
  have e := withDefault_none h1 h2
  unfold parseArgs
  rw [withDefault_name (commandName .tokenize), e]

end Sudachi
