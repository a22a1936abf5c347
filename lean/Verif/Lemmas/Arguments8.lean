import Verif.Lemmas.Arguments7
namespace Sudachi

theorem root_find_letter (y : Nat) : rootParser.find [45, y] = if y = 104 then some .help else none := by
  by_cases h : y = 104
  · subst h; rfl
  · rw [if_neg h]
    have h' : ¬ (104 = y) := fun e => h e.symm
    simp [ArgParser.find, rootParser, helpOptions, h']

/-- `-h` and more in front of the command. -/
theorem root_classify_help (s : PStr) :
    rootParser.classify (45 :: 104 :: s) = some (.opt (some (.help, [45, 104])) (explicitOf s)) := by
  cases s with
  | nil => rfl
  | cons y t =>
    by_cases hy : y = 61
    · subst hy; rfl
    · rw [explicitOf_cons hy]
      have hp : partitionEq (45 :: 104 :: y :: t) = (partitionEq t).map fun z => (45 :: 104 :: y :: z.1, z.2) := by
        rw [partitionEq_cons (by decide), partitionEq_cons (by decide), partitionEq_cons hy]
        cases partitionEq t <;> rfl
      have ht : optionTuples rootParser (45 :: 104 :: y :: t) = [((.help, [45, 104]), some (false, y :: t))] := rfl
      have hf : ∀ r, rootParser.find (45 :: 104 :: y :: r) = none := fun r => rfl
      unfold ArgParser.classify
      simp only [hf, List.isEmpty_cons, Bool.false_eq_true, if_false, hp, ht]
      cases partitionEq t with
      | none => rfl
      | some z => simp [hf]

theorem root_find_none {s : PStr} (h1 : s ≠ [45, 104]) (h2 : s ≠ [45, 45, 104, 101, 108, 112]) : rootParser.find s = none := by
  simp [ArgParser.find, rootParser, helpOptions, h1.symm, h2.symm]

/-- Another word with one minus sign in front of the command. -/
theorem root_classify_odd {x : Nat} (h1 : x ≠ 45) (h2 : x ≠ 104) (r : PStr) :
    rootParser.classify (45 :: x :: r) =
      if looksNegative (45 :: x :: r) then some .arg else if 32 ∈ 45 :: x :: r then some .arg else some (.opt none none) := by
  have hf : ∀ r', rootParser.find (45 :: x :: r') = none := fun r' => root_find_none (by simp [h2]) (by simp [h1])
  have hp : ((partitionEq (45 :: x :: r)).bind fun z => (rootParser.find z.1).map fun o => Tok.opt (some (o, z.1)) (some (true, z.2))) = none := by
    rw [partitionEq_cons (by decide)]
    by_cases hx : x = 61
    · subst hx
      simp [partitionEq, root_find_none (s := [45]) (by simp) (by simp)]
    · rw [partitionEq_cons hx]
      cases partitionEq r with
      | none => rfl
      | some z => simp [hf]
  have ht : optionTuples rootParser (45 :: x :: r) = [] := by
    rw [tuples_short _ h1, List.filterMap_eq_nil_iff]
    intro y hy
    simp [rootParser, helpOptions] at hy
    rcases hy with rfl | rfl
    · simp [List.isPrefixOf, h2.symm, h2]
    · simp [List.isPrefixOf, h1]
  unfold ArgParser.classify
  simp only [hf, List.isEmpty_cons, Bool.false_eq_true, if_false, hp, ht]

/-- `--help`, perhaps cut short or with `=`, in front of the command. -/
theorem root_classify_long {a : PStr} (ha : a <+: (pstr! "help")) :
    (a ≠ [] → rootParser.classify (45 :: 45 :: a) = some (.opt (some (.help, (pstr! "--help"))) none)) ∧
      ∀ b, rootParser.classify (45 :: 45 :: (a ++ 61 :: b)) = some (.opt (some (.help, (pstr! "--help"))) (some (true, b))) := by
  have hl := ha.length_le
  rw [List.prefix_iff_eq_take] at ha
  generalize a.length = k at ha hl
  have : k = 0 ∨ k = 1 ∨ k = 2 ∨ k = 3 ∨ k = 4 := by simp at hl; omega
  rcases this with e | e | e | e | e <;> subst e <;> subst ha <;> refine ⟨fun h => ?_, fun b => ?_⟩
  · exact absurd rfl h
  all_goals rfl

/-- Another word with two minus signs in front of the command. -/
theorem root_classify_long_odd {a b : PStr} (h1 : 61 ∉ a) (hb : b = [] ∨ b.head? = some 61) (h2 : ¬ a <+: (pstr! "help")) :
    rootParser.classify (45 :: 45 :: (a ++ b)) = if 32 ∈ a ++ b then some .arg else some (.opt none none) := by
  have hno : ∀ y ∈ rootParser.options, ¬ (45 :: 45 :: a) <+: y.1 := by
    intro y hy hpre
    simp [rootParser, helpOptions] at hy
    obtain ⟨t, ht⟩ := hpre
    rcases hy with rfl | rfl
    · simp at ht
    · simp at ht
      exact h2 ⟨t, ht⟩
  have hf : rootParser.find (45 :: 45 :: (a ++ b)) = none :=
    root_find_none (by simp) fun e => hno ([45, 45, 104, 101, 108, 112], .help) (by simp [rootParser, helpOptions]) ⟨b, by rw [← e]; simp⟩
  have hf' : rootParser.find (45 :: 45 :: a) = none :=
    root_find_none (by simp) fun e => hno ([45, 45, 104, 101, 108, 112], .help) (by simp [rootParser, helpOptions]) ⟨[], by rw [← e]; simp⟩
  have hfil : (rootParser.options.filter fun x => (45 :: 45 :: a).isPrefixOf x.1) = [] := by
    rw [List.filter_eq_nil_iff]
    intro y hy h
    exact hno y hy (List.isPrefixOf_iff_prefix.1 h)
  have hneg : looksNegative (45 :: 45 :: (a ++ b)) = false := by
    have hd : (digitVal 45).isSome = false := rfl
    simp [looksNegative, hd]
  have hm : 32 ∈ 45 :: 45 :: (a ++ b) ↔ 32 ∈ a ++ b := by simp
  have h1' : 61 ∉ 45 :: 45 :: a := by simp [h1]
  rcases hb with rfl | hb
  · have hp : partitionEq (45 :: 45 :: (a ++ [])) = none := by rw [List.append_nil]; exact partitionEq_none h1'
    have ht : optionTuples rootParser (45 :: 45 :: (a ++ [])) = [] := by
      unfold optionTuples
      simp only [hp]
      rw [List.append_nil, hfil]; rfl
    unfold ArgParser.classify
    simp only [hf, List.isEmpty_cons, Bool.false_eq_true, if_false, hp, ht, Option.bind_none, hneg, hm]
  · obtain ⟨b', rfl⟩ : ∃ b', b = 61 :: b' := by
      cases b with
      | nil => simp at hb
      | cons y b' => simp at hb; exact ⟨b', by rw [hb]⟩
    have hp : partitionEq (45 :: 45 :: (a ++ 61 :: b')) = some (45 :: 45 :: a, b') := partitionEq_append b' h1'
    have ht : optionTuples rootParser (45 :: 45 :: (a ++ 61 :: b')) = [] := by
      unfold optionTuples
      simp only [hp]
      rw [hfil]; rfl
    unfold ArgParser.classify
    simp only [hf, List.isEmpty_cons, Bool.false_eq_true, if_false, hp, ht, Option.bind_some, hf', Option.map_none, hneg, hm]

/-- What may come after `-h` in one word. -/
def HelpTail (r : PStr) : Prop := ∃ n t, r = List.replicate n 104 ++ t ∧ ∀ y, t.head? = some y → y ≠ 45 ∧ y ≠ 61 ∧ y ≠ 104

theorem helpTail_cons (t : PStr) : HelpTail (104 :: t) ↔ HelpTail t := by
  constructor
  · rintro ⟨n, u, h, hu⟩
    cases n with
    | zero =>
      simp at h
      subst h
      exact absurd rfl (hu 104 rfl).2.2
    | succ n =>
      rw [List.replicate_succ, List.cons_append] at h
      injection h with _ h
      exact ⟨n, u, h, hu⟩
  · rintro ⟨n, u, rfl, hu⟩
    exact ⟨n + 1, u, by rw [List.replicate_succ, List.cons_append], hu⟩

theorem helpTail_other {y : Nat} (hy : y ≠ 104) (t : PStr) : HelpTail (y :: t) ↔ y ≠ 45 ∧ y ≠ 61 := by
  constructor
  · rintro ⟨n, u, h, hu⟩
    cases n with
    | zero =>
      simp at h
      subst h
      exact ⟨(hu y rfl).1, (hu y rfl).2.1⟩
    | succ n =>
      rw [List.replicate_succ, List.cons_append] at h
      injection h with h _
      exact absurd h hy
  · intro h
    exact ⟨0, y :: t, rfl, fun z hz => by simp at hz; subst hz; exact ⟨h.1, h.2, hy⟩⟩

/-- What `-h` and more letters do. -/
theorem root_expand (next : Option PStr) : ∀ (r : PStr) (done : List (Opt × PStr)),
    (HelpTail r ∧ ∃ acts extra used, expandWord rootParser next .help [45, 104] done (explicitOf r) = .ok (done ++ (.help, []) :: acts, extra, used)) ∨
      (¬ HelpTail r ∧ expandWord rootParser next .help [45, 104] done (explicitOf r) = .error .error) := by
  intro r
  induction r with
  | nil =>
    intro done
    exact .inl ⟨⟨0, [], rfl, by simp⟩, [], none, false, expandWord_flag rfl⟩
  | cons y t ih =>
    intro done
    by_cases hy : y = 104
    · subst hy
      rw [helpTail_cons, explicitOf_cons (by decide), expandWord_more rfl (by decide), if_neg (by decide), root_find_letter, if_pos rfl]
      dsimp only
      rcases ih (done ++ [(.help, [])]) with ⟨h, acts, extra, used, he⟩ | h
      · exact .inl ⟨h, (.help, []) :: acts, extra, used, by rw [he]; simp⟩
      · exact .inr h
    · rw [helpTail_other hy]
      by_cases h61 : y = 61
      · subst h61
        right
        refine ⟨by simp, ?_⟩
        rw [explicitOf, expandWord.eq_def]
        cases t <;> rfl
      · rw [explicitOf_cons h61, expandWord_more rfl (by decide)]
        by_cases h45 : y = 45
        · subst h45
          exact .inr ⟨by simp, rfl⟩
        · left
          refine ⟨⟨h45, h61⟩, [], some (45 :: y :: t), false, ?_⟩
          rw [if_neg h45, root_find_letter, if_neg hy]

theorem takeActs_help (r : Parsed) (v : PStr) (acts : List (Opt × PStr)) : takeActs r ((.help, v) :: acts) = .error .help := rfl

theorem ForeignOption.classify {s : PStr} (h : ForeignOption s) : s ≠ [45, 45] ∧ rootParser.classify s = some (.opt none none) := by
  cases h with
  | @short x r h1 h2 h3 h4 =>
    refine ⟨by simp [h1], ?_⟩
    rw [root_classify_odd h1 h2, if_neg fun h => h3 ((looksNegative_iff _).1 h), if_neg (by simpa using h4)]
  | @long a b h1 h2 h3 h4 =>
    refine ⟨?_, ?_⟩
    · intro e
      simp at e
      exact h4 (by rw [e.1]; exact List.nil_prefix)
    · rw [root_classify_long_odd h2 h3 h4, if_neg h1]

theorem ProgramHelp.classify {s : PStr} (h : ProgramHelp s) : s ≠ [45, 45] ∧ ∃ o e, rootParser.classify s = some (.opt (some o) e) ∧
    ∀ r ts, consumeOptional rootParser r s (some o) e ts = .error .help := by
  cases h with
  | @letters n r h =>
    refine ⟨by simp, _, _, root_classify_help _, fun r' ts => ?_⟩
    unfold consumeOptional
    dsimp only
    rcases root_expand (nextArg ts) (List.replicate n 104 ++ r) [] with ⟨_, acts, extra, used, he⟩ | ⟨hn, _⟩
    · rw [he]; rfl
    · exact absurd ⟨n, r, rfl, h⟩ hn
  | @long n hn =>
    have : ∀ m, 3 ≤ m → m ≤ 6 → ((pstr! "--help").take m) ≠ [45, 45] ∧ ∃ o e, rootParser.classify ((pstr! "--help").take m) = some (.opt (some o) e) ∧
        ∀ r ts, consumeOptional rootParser r ((pstr! "--help").take m) (some o) e ts = .error .help := by
      intro m h1 h2
      have : m = 3 ∨ m = 4 ∨ m = 5 ∨ m = 6 := by omega
      have hc : ∀ s r ts, consumeOptional rootParser r s (some (.help, (pstr! "--help"))) none ts = .error .help := by
        intro s r ts
        unfold consumeOptional
        dsimp only
        rw [expandWord_flag rfl]
        rfl
      rcases this with rfl | rfl | rfl | rfl <;> exact ⟨by decide, _, _, rfl, hc _⟩
    by_cases h6 : n ≤ 6
    · exact this n hn h6
    · have e : (pstr! "--help").take n = (pstr! "--help").take 6 := by
        rw [List.take_of_length_le (by simp; omega)]; rfl
      rw [e]
      exact this 6 (by decide) (by decide)

/-- What a word in front of the command is. -/
theorem root_word {s : PStr} (hs : s ≠ [45, 45]) :
    rootParser.classify s = some .arg ∨ ForeignOption s ∨ ProgramHelp s ∨
      ∃ o e, rootParser.classify s = some (.opt (some o) e) ∧ ∀ r ts, consumeOptional rootParser r s (some o) e ts = .error .error := by
  cases s with
  | nil => exact .inl rfl
  | cons y s =>
    by_cases hy : y = 45
    · subst hy
      cases s with
      | nil => exact .inl rfl
      | cons x r =>
        by_cases hx : x = 45
        · subst hx
          obtain ⟨a, b, rfl, h1, hb⟩ := before_eq r
          by_cases hl : a <+: (pstr! "help")
          · rcases hb with rfl | hb
            · have hne : a ≠ [] := by rintro rfl; exact hs rfl
              right; right; left
              have hlen := hl.length_le
              rw [List.prefix_iff_eq_take] at hl
              have e : 45 :: 45 :: (a ++ []) = (pstr! "--help").take (a.length + 2) := by
                rw [List.append_nil]
                conv => lhs; rw [hl]
                rfl
              rw [e]
              refine .long ?_
              have := List.length_pos_iff.2 hne
              omega
            · obtain ⟨b', rfl⟩ : ∃ b', b = 61 :: b' := by
                cases b with
                | nil => simp at hb
                | cons y b' => simp at hb; exact ⟨b', by rw [hb]⟩
              refine .inr (.inr (.inr ⟨_, _, (root_classify_long hl).2 b', fun r ts => ?_⟩))
              unfold consumeOptional
              dsimp only
              rw [expandWord.eq_def]
              cases b' <;> rfl
          · by_cases h32 : 32 ∈ a ++ b
            · left; rw [root_classify_long_odd h1 hb hl, if_pos h32]
            · exact .inr (.inl (.long h32 h1 hb hl))
        · by_cases hh : x = 104
          · subst hh
            by_cases ht : HelpTail r
            · obtain ⟨n, t, rfl, ht⟩ := ht
              exact .inr (.inr (.inl (.letters ht)))
            · refine .inr (.inr (.inr ⟨_, _, root_classify_help r, fun r' ts => ?_⟩))
              unfold consumeOptional
              dsimp only
              rcases root_expand (nextArg ts) r [] with ⟨h, _⟩ | ⟨_, he⟩
              · exact absurd h ht
              · rw [he]; rfl
          · have hc := root_classify_odd hx hh r
            by_cases hn : looksNegative (45 :: x :: r) = true
            · left; rw [hc, if_pos hn]
            · by_cases h32 : 32 ∈ 45 :: x :: r
              · left; rw [hc, if_neg hn, if_pos h32]
              · exact .inr (.inl (.short hx hh (fun h => hn ((looksNegative_iff _).2 h)) fun h => h32 (List.mem_cons_of_mem _ h)))
    · exact .inl (classify_plain _ .tokenize (.inr rfl) (.inl (by simpa using hy)))

theorem name_classify (c : Command) : c.name ≠ [45, 45] ∧ rootParser.classify c.name = some .arg := by cases c <;> exact ⟨by decide, rfl⟩

/-- The program or a command is asked for help. -/
def FirstHelp (w : PStr) (rest : List PStr) : Prop := ProgramHelp w ∨ ∃ c : Command, w = c.name ∧ c.AsksHelp rest

/-- A word that asks for help after options that the program does not have. -/
def FindsHelp (ss : List PStr) : Prop := ∃ ws w rest, ss = ws ++ w :: rest ∧ (∀ u ∈ ws, ForeignOption u) ∧ FirstHelp w rest

/-- Help is printed after what the parser of the program found. -/
def LeadsToHelp : Except Stop Parsed → Prop
  | .error x => x = .help
  | .ok r => ∃ (c : Command) (rest : List PStr), r.files = some (c.name :: rest) ∧ c.AsksHelp rest

theorem findsHelp_cons (s : PStr) (ss : List PStr) : FindsHelp (s :: ss) ↔ FirstHelp s ss ∨ (ForeignOption s ∧ FindsHelp ss) := by
  constructor
  · rintro ⟨ws, w, rest, h, hu, hw⟩
    cases ws with
    | nil =>
      simp at h
      obtain ⟨rfl, rfl⟩ := h
      exact .inl hw
    | cons u ws =>
      simp at h
      obtain ⟨rfl, rfl⟩ := h
      exact .inr ⟨hu _ (List.mem_cons_self ..), ws, w, rest, rfl, fun v hv => hu v (List.mem_cons_of_mem _ hv), hw⟩
  · rintro (h | ⟨h, ws, w, rest, rfl, hu, hw⟩)
    · exact ⟨[], s, ss, rfl, by simp, h⟩
    · exact ⟨s :: ws, w, rest, rfl, List.forall_mem_cons.2 ⟨h, hu⟩, hw⟩

theorem root_positionals (ex : List PStr) (s : PStr) (ts : List (PStr × Tok)) :
    consumePositionals rootParser ⟨[], none, ex⟩ ((s, .arg) :: ts) = (⟨[], some (s :: ts.map (·.1)), ex⟩, []) := by
  simp [consumePositionals, rootParser, Nargs.count, Nargs.values]

/-- When the words lead to help. -/
theorem root_leads : ∀ (ss : List PStr) (ts : List (PStr × Tok)) (fuel : Nat) (ex : List PStr), rootParser.classifyAll ss = some ts →
    ts.length ≤ fuel → (LeadsToHelp (parseLoop rootParser fuel ⟨[], none, ex⟩ ts) ↔ FindsHelp ss) := by
  intro ss
  induction ss with
  | nil =>
    intro ts fuel ex h _
    cases h
    rw [parseLoop_end _ _ _ rfl]
    constructor
    · rintro ⟨c, rest, h, _⟩
      simp [consumePositionals, rootParser, Nargs.count] at h
    · rintro ⟨ws, w, rest, h, _⟩
      simp at h
  | cons s ss ih =>
    intro ts fuel ex h hl
    rw [findsHelp_cons]
    by_cases hd : s = [45, 45]
    · rw [ArgParser.classifyAll, if_pos hd] at h
      cases h
      have hopt : (((s, Tok.dashes) :: ss.map fun x => (x, Tok.arg)).any fun x => x.2.isOpt) = false := by
        simp [Tok.isOpt]
      rw [parseLoop_end _ _ _ hopt]
      constructor
      · rintro ⟨c, rest, h, _⟩
        exfalso
        cases ss with
        | nil => simp [consumePositionals, rootParser, Nargs.count] at h
        | cons a ss =>
          simp [consumePositionals, rootParser, Nargs.count, Nargs.values] at h
          exact (name_classify c).1 (h.1.symm.trans hd)
      · rintro ((h | ⟨c, h, _⟩) | ⟨h, _⟩)
        · exact absurd hd h.classify.1
        · exact absurd (h.symm.trans hd) (name_classify c).1
        · exact absurd hd h.classify.1
    · rcases root_word hd with hw | hw | hw | ⟨o, e, hw, hc⟩
      · -- an argument
        obtain ⟨us, hus, hm⟩ := root_classifyAll ss
        rw [classifyAll_cons hd hw, hus] at h
        cases h
        have hr : parseLoop rootParser fuel ⟨[], none, ex⟩ ((s, .arg) :: us) = .ok ⟨[], some (s :: ss), ex⟩ := by
          by_cases hany : (us.any fun x => x.2.isOpt) = true
          · cases fuel with
            | zero => simp at hl
            | succ fuel =>
              rw [parseLoop_args _ _ _ _ rfl _ hany, root_positionals, if_pos (by simp), parseLoop_end _ _ _ rfl, hm]
              simp [consumePositionals]
          · rw [parseLoop_end _ _ _ (by simpa [Tok.isOpt] using hany), root_positionals, hm]
            simp
        rw [hr]
        constructor
        · rintro ⟨c, rest, h, ha⟩
          simp at h
          obtain ⟨rfl, rfl⟩ := h
          exact .inl (.inr ⟨c, rfl, ha⟩)
        · rintro ((h | ⟨c, rfl, ha⟩) | ⟨h, _⟩)
          · obtain ⟨_, o, e, h, _⟩ := h.classify
            rw [hw] at h; cases h
          · exact ⟨c, ss, rfl, ha⟩
          · rw [h.classify.2] at hw; cases hw
      · -- an option that the program does not have
        obtain ⟨us, hus, _⟩ := root_classifyAll ss
        rw [classifyAll_cons hd hw.classify.2, hus] at h
        cases h
        cases fuel with
        | zero => simp at hl
        | succ fuel =>
          rw [parseLoop_opt]
          have hst : consumeOptional rootParser ⟨[], none, ex⟩ s none none us = .ok (⟨[], none, ex ++ [s]⟩, us) := rfl
          rw [hst]
          have := ih us fuel (ex ++ [s]) hus (by simpa using hl)
          refine Iff.trans (b := FindsHelp ss) this ?_
          constructor
          · intro h; exact .inr ⟨hw, h⟩
          · rintro ((h | ⟨c, rfl, ha⟩) | ⟨_, h⟩)
            · obtain ⟨_, o, e, h, _⟩ := h.classify
              rw [hw.classify.2] at h; cases h
            · have := (name_classify c).2
              rw [hw.classify.2] at this; cases this
            · exact h
      · -- help
        obtain ⟨us, hus, _⟩ := root_classifyAll ss
        obtain ⟨_, o, e, hcl, hc⟩ := hw.classify
        rw [classifyAll_cons hd hcl, hus] at h
        cases h
        cases fuel with
        | zero => simp at hl
        | succ fuel =>
          rw [parseLoop_opt, hc]
          exact ⟨fun _ => .inl (.inl hw), fun _ => rfl⟩
      · -- an error
        obtain ⟨us, hus, _⟩ := root_classifyAll ss
        rw [classifyAll_cons hd hw, hus] at h
        cases h
        cases fuel with
        | zero => simp at hl
        | succ fuel =>
          rw [parseLoop_opt, hc]
          constructor
          · intro h; cases h
          · rintro ((h | ⟨c, rfl, ha⟩) | ⟨h, _⟩)
            · obtain ⟨_, o', e', h, hc'⟩ := h.classify
              rw [hw] at h
              cases h
              have := hc ⟨[], none, []⟩ []
              rw [hc'] at this
              cases this
            · have := (name_classify c).2
              rw [hw] at this; cases this
            · rw [h.classify.2] at hw; cases hw

/-- When the program prints help. -/
theorem parseArgs_leads (argv : List PStr) : parseArgs argv = .error .help ↔ LeadsToHelp (rootParser.parse (withDefault argv)) := by
  unfold parseArgs
  cases rootParser.parse (withDefault argv) with
  | error x => simp [LeadsToHelp]
  | ok root =>
    dsimp only [LeadsToHelp]
    cases hf : root.files with
    | none =>
      dsimp only
      constructor
      · intro h; split at h <;> cases h
      · rintro ⟨c, rest, h, _⟩; cases h
    | some l =>
      cases l with
      | nil =>
        dsimp only
        constructor
        · intro h; split at h <;> cases h
        · rintro ⟨c, rest, h, _⟩; cases h
      | cons name rest =>
        dsimp only
        cases hc : Command.find name with
        | none =>
          dsimp only
          constructor
          · intro h; cases h
          · rintro ⟨c, rest', h, _⟩
            cases h
            rw [find_name] at hc
            cases hc
        | some c =>
          have hname : name = c.name := by
            unfold Command.find at hc
            have := List.find?_some hc
            simp at this
            exact this.symm
          subst hname
          dsimp only
          constructor
          · intro h
            refine ⟨c, rest, rfl, ?_⟩
            rw [← parse_help]
            split at h
            · rename_i hp; cases h; exact hp
            · split at h
              · cases h
              · split at h <;> cases h
          · rintro ⟨c', rest', h, ha⟩
            injection h with h
            injection h with h1 h2
            subst h2
            have : c' = c := by
              have := find_name c
              rw [h1, find_name] at this
              exact Option.some.inj this
            subst this
            rw [(parse_help _ _).2 ha]

theorem parseArgs_help (argv : List PStr) : parseArgs argv = .error .help ↔ AsksForHelp argv := by
  rw [parseArgs_leads]
  obtain ⟨ts, hts, _⟩ := root_classifyAll (withDefault argv)
  have hp : rootParser.parse (withDefault argv) = parseLoop rootParser ts.length ⟨[], none, []⟩ ts := by
    unfold ArgParser.parse; rw [hts]
  rw [hp, root_leads _ _ _ _ hts (Nat.le_refl _)]
  by_cases hn : ∀ w ∈ argv, ¬ CommandName w ∧ ¬ HelpWord w
  · rw [withDefault_none (fun w h => (hn w h).2) fun w h => (hn w h).1, findsHelp_cons]
    constructor
    · rintro ((h | ⟨c, h, ha⟩) | ⟨h, _⟩)
      · obtain ⟨_, o, e, h, _⟩ := h.classify
        cases h
      · have : c = .tokenize := by cases c <;> first | rfl | (revert h; decide)
        subst this
        exact .default hn ha
      · cases h.classify.2
    · intro h
      left; right
      refine ⟨.tokenize, rfl, ?_⟩
      cases h with
      | program _ _ h =>
        obtain ⟨u, hu, h⟩ := h
        rcases h with h | h
        · exact absurd h (hn u hu).1
        · exact absurd h (hn u hu).2
      | @command ws rest c _ _ => exact absurd (commandName c) (hn c.name (by simp)).1
      | default _ h => exact h
  · have hex : ∃ u ∈ argv, CommandName u ∨ HelpWord u := by
      apply Classical.byContradiction
      intro h
      exact hn fun w hw => ⟨fun k => h ⟨w, hw, .inl k⟩, fun k => h ⟨w, hw, .inr k⟩⟩
    have hd : withDefault argv = argv := by
      obtain ⟨u, hu, h⟩ := hex
      unfold withDefault
      rcases h with (rfl | rfl | rfl) | (rfl | rfl)
      · split
        · rfl
        · rw [if_pos (.inl hu)]
      · split
        · rfl
        · rw [if_pos (.inr (.inl hu))]
      · split
        · rfl
        · rw [if_pos (.inr (.inr hu))]
      · rw [if_pos (.inl hu)]
      · rw [if_pos (.inr hu)]
    rw [hd]
    constructor
    · rintro ⟨ws, w, rest, rfl, hu, h | ⟨c, rfl, ha⟩⟩
      · exact .program hu h hex
      · exact .command hu ha
    · intro h
      cases h with
      | @program ws rest w hu h _ => exact ⟨ws, w, rest, rfl, hu, .inl h⟩
      | @command ws rest c hu ha => exact ⟨ws, c.name, rest, rfl, hu, .inr ⟨c, rfl, ha⟩⟩
      | default h _ => exact absurd h hn

end Sudachi
