import Verif.Lemmas.Arguments2
namespace Sudachi

theorem takeAct_inv {r r' : Parsed} {o : Opt} {v : PStr} (h : takeAct r o v = .ok r') :
    r'.files = r.files ∧ r'.extras = r.extras ∧ r'.acts = r.acts ++ [(o, v)] ∧ Opt.Allows o v ∧ o ≠ .help := by
  unfold takeAct at h
  split at h
  · cases h
  · rename_i hh
    split at h
    · rename_i cs hc
      split at h
      · rename_i hv
        cases h
        refine ⟨rfl, rfl, rfl, ?_, hh⟩
        cases o <;> simp [Opt.choices] at hc
        all_goals first | trivial | (subst hc; simpa [Opt.Allows] using hv)
      · cases h
    · rename_i hc
      cases h
      refine ⟨rfl, rfl, rfl, ?_, hh⟩
      cases o <;> simp [Opt.choices] at hc <;> trivial

theorem takeActs_inv : ∀ {acts : List (Opt × PStr)} {r r' : Parsed}, takeActs r acts = .ok r' →
    r'.files = r.files ∧ r'.extras = r.extras ∧ r'.acts = r.acts ++ acts ∧ ∀ a ∈ acts, Opt.Allows a.1 a.2 ∧ a.1 ≠ .help
  | [], r, r', h => by cases h; simp
  | (o, v) :: acts, r, r', h => by
    rw [takeActs] at h
    cases hx : takeAct r o v with
    | error x => rw [hx] at h; cases h
    | ok r1 =>
      rw [hx] at h
      obtain ⟨h1, h2, h3, h4, h5⟩ := takeAct_inv hx
      obtain ⟨g1, g2, g3, g4⟩ := takeActs_inv (acts := acts) (r := r1) h
      refine ⟨g1.trans h1, g2.trans h2, by rw [g3, h3]; simp, fun a ha => ?_⟩
      rcases List.mem_cons.1 ha with rfl | ha
      · exact ⟨h4, h5⟩
      · exact g4 a ha

/-- The first option of a word comes first, and the next word is used only if there is one. -/
theorem expandWord_inv (P : ArgParser) (next : Option PStr) (o : Opt) (name : PStr) (done : List (Opt × PStr)) (e : Option (Bool × PStr))
    {acts : List (Opt × PStr)} {extra : Option PStr} {used : Bool} (h : expandWord P next o name done e = .ok (acts, extra, used)) :
    (∃ v l, acts = done ++ (o, v) :: l) ∧ (used = true → next.isSome = true) := by
  fun_induction expandWord P next o name done e generalizing acts extra used
  all_goals try (cases h; done)
  all_goals try (cases h; exact ⟨⟨_, [], rfl⟩, by simp [*]⟩)
  all_goals
    rename_i ih
    obtain ⟨⟨v, l, hv⟩, hu⟩ := ih h
    exact ⟨⟨_, _, hv.trans (List.append_assoc ..)⟩, hu⟩

theorem consumeOptional_inv {P : ArgParser} {r : Parsed} {s : PStr} {o : Option (Opt × PStr)} {e : Option (Bool × PStr)}
    {ts : List (PStr × Tok)} {x : Parsed × List (PStr × Tok)} (h : consumeOptional P r s o e ts = .ok x) :
    x.1.files = r.files ∧ (∃ l, x.1.extras = r.extras ++ l) ∧ (o = none → x.1.extras = r.extras ++ [s]) ∧
      (∃ l, x.1.acts = r.acts ++ l ∧ (∀ a ∈ l, Opt.Allows a.1 a.2 ∧ a.1 ≠ .help) ∧ ∀ y, o = some y → ∃ v l', l = (y.1, v) :: l') ∧
      (x.2 = ts ∨ ∃ v ts', ts = (v, .arg) :: ts' ∧ x.2 = ts') := by
  unfold consumeOptional at h
  cases o with
  | none =>
    cases h
    exact ⟨rfl, ⟨[s], rfl⟩, fun _ => rfl, ⟨[], by simp, by simp, by simp⟩, .inl rfl⟩
  | some y =>
    obtain ⟨o, name⟩ := y
    dsimp only at h
    cases hx : expandWord P (nextArg ts) o name [] e with
    | error z => rw [hx] at h; cases h
    | ok z =>
      obtain ⟨acts, extra, used⟩ := z
      obtain ⟨⟨v, l, hv⟩, hu⟩ := expandWord_inv P _ o name [] e hx
      rw [hx] at h
      change (do
        let r' ← takeActs { r with extras := r.extras ++ extra.toList } acts
        pure (r', if used then ts.drop 1 else ts)) = Except.ok x at h
      cases hy : takeActs { r with extras := r.extras ++ extra.toList } acts with
      | error w => rw [hy] at h; cases h
      | ok r1 =>
        rw [hy] at h
        obtain ⟨h1, h2, h3, h4⟩ := takeActs_inv hy
        cases h
        refine ⟨h1, ⟨_, h2⟩, nofun, ⟨acts, h3, h4, fun y hy => ?_⟩, ?_⟩
        · cases hy; exact ⟨v, l, hv⟩
        · cases used with
          | false => exact .inl rfl
          | true =>
            have := hu rfl
            cases ts with
            | nil => simp [nextArg] at this
            | cons a b =>
              obtain ⟨v, t⟩ := a
              cases t with
              | arg => exact .inr ⟨v, b, rfl, rfl⟩
              | dashes => simp [nextArg] at this
              | opt _ _ => simp [nextArg] at this

theorem consumePositionals_inv (P : ArgParser) (r : Parsed) (ts : List (PStr × Tok)) :
    (consumePositionals P r ts).1.acts = r.acts ∧ (consumePositionals P r ts).1.extras = r.extras ∧
      (∀ fs, r.files = some fs → consumePositionals P r ts = (r, ts)) := by
  unfold consumePositionals
  split
  · exact ⟨rfl, rfl, fun _ _ => rfl⟩
  · rename_i h
    split <;> exact ⟨rfl, rfl, fun fs hfs => by simp [hfs] at h⟩

/-- What a parser adds to a state. -/
theorem parseLoop_inv (P : ArgParser) : ∀ (fuel : Nat) (r : Parsed) (ts : List (PStr × Tok)) {r' : Parsed}, parseLoop P fuel r ts = .ok r' →
    (∃ l, r'.extras = r.extras ++ l) ∧ (∃ l, r'.acts = r.acts ++ l ∧ ∀ a ∈ l, Opt.Allows a.1 a.2) ∧
      (∀ fs, r.files = some fs → r'.files = some fs) := by
  have hend : ∀ (r : Parsed) (ts : List (PStr × Tok)) {r' : Parsed},
      (Except.ok { (consumePositionals P r ts).1 with
        extras := (consumePositionals P r ts).1.extras ++ (consumePositionals P r ts).2.map (·.1) } : Except Stop Parsed) = .ok r' →
      (∃ l, r'.extras = r.extras ++ l) ∧ (∃ l, r'.acts = r.acts ++ l ∧ ∀ a ∈ l, Opt.Allows a.1 a.2) ∧
        (∀ fs, r.files = some fs → r'.files = some fs) := by
    intro r ts r' h
    cases h
    obtain ⟨h1, h2, h3⟩ := consumePositionals_inv P r ts
    refine ⟨⟨_, by rw [← h2]⟩, ⟨[], by simpa using h1, by simp⟩, fun fs hfs => ?_⟩
    rw [h3 fs hfs]; exact hfs
  intro fuel
  induction fuel with
  | zero => intro r ts r' h; exact hend r ts h
  | succ fuel ih =>
    intro r ts r' h
    by_cases hany : (ts.any fun x => x.2.isOpt) = true
    · cases ts with
      | nil => simp at hany
      | cons a ts =>
        obtain ⟨s, t⟩ := a
        by_cases ht : t.isOpt = true
        · obtain ⟨o, e, rfl⟩ : ∃ o e, t = .opt o e := by cases t <;> simp [Tok.isOpt] at ht ⊢
          rw [parseLoop_opt] at h
          cases hc : consumeOptional P r s o e ts with
          | error x => rw [hc] at h; cases h
          | ok x =>
            rw [hc] at h
            obtain ⟨h1, ⟨l, h2⟩, _, ⟨m, h3, h4, _⟩, _⟩ := consumeOptional_inv hc
            obtain ⟨⟨l', g1⟩, ⟨m', g2, g3⟩, g4⟩ := ih x.1 x.2 h
            refine ⟨⟨l ++ l', by rw [g1, h2]; simp⟩, ⟨m ++ m', by rw [g2, h3]; simp, fun a ha => ?_⟩, fun fs hfs => g4 fs (h1.trans hfs)⟩
            rcases List.mem_append.1 ha with ha | ha
            · exact (h4 a ha).1
            · exact g3 a ha
        · have ht' : t.isOpt = false := by simpa using ht
          rw [parseLoop_args P fuel r s ht' ts (by simpa [ht'] using hany)] at h
          obtain ⟨h1, h2, h3⟩ := consumePositionals_inv P r ((s, t) :: ts)
          split at h
          · obtain ⟨⟨l', g1⟩, ⟨m', g2, g3⟩, g4⟩ := ih _ _ h
            refine ⟨⟨l', by rw [g1, h2]⟩, ⟨m', by rw [g2, h1], g3⟩, fun fs hfs => g4 fs ?_⟩
            rw [h3 fs hfs]; exact hfs
          · obtain ⟨⟨l', g1⟩, ⟨m', g2, g3⟩, g4⟩ := ih _ _ h
            refine ⟨⟨_, by rw [g1, h2, List.append_assoc]⟩, ⟨m', by rw [g2, h1], g3⟩, fun fs hfs => g4 fs ?_⟩
            show (consumePositionals P r ((s, t) :: ts)).1.files = some fs
            rw [h3 fs hfs]; exact hfs
    · rw [parseLoop_end P _ r (by simpa using hany)] at h
      exact hend r ts h

theorem extras_ne {l e m : List PStr} (h : l = e ++ m) (he : e ≠ []) : l ≠ [] := by
  rw [h]; simp [he]

/-- The parser of the program: some words were not recognised, or the first is the name. -/
theorem root_loop (fuel : Nat) (r : Parsed) (s : PStr) (t : Tok) (ts : List (PStr × Tok)) {r' : Parsed} (hr : r.files = none)
    (hh : ∀ o e, t = .opt (some o) e → o.1 = .help) (h : parseLoop rootParser fuel r ((s, t) :: ts) = .ok r') :
    r'.extras ≠ [] ∨ r'.files = some (s :: ts.map (·.1)) := by
  have hcp : consumePositionals rootParser r ((s, t) :: ts) = (r, (s, t) :: ts) ∨
      consumePositionals rootParser r ((s, t) :: ts) = ({ r with files := some (s :: ts.map (·.1)) }, []) := by
    unfold consumePositionals
    rw [hr]
    simp only [Option.isSome_none, Bool.false_eq_true, if_false]
    cases hc : rootParser.nargs.count ((s, t) :: ts) with
    | none => exact .inl rfl
    | some k =>
      have hk : k = ((s, t) :: ts).length := by
        unfold Nargs.count at hc
        simp only [rootParser] at hc
        split at hc
        · exact (Option.some.inj hc).symm
        · cases hc
      subst hk
      right
      simp [Nargs.values, rootParser]
  by_cases hany : (((s, t) :: ts).any fun x => x.2.isOpt) = true
  · cases fuel with
    | zero =>
      have h' : (Except.ok _ : Except Stop Parsed) = .ok r' := h
      injection h' with h'
      rcases hcp with hcp | hcp
      · left; rw [← h', hcp]; simp
      · right; rw [← h', hcp]
    | succ fuel =>
      by_cases ht : t.isOpt = true
      · obtain ⟨o, e, rfl⟩ : ∃ o e, t = .opt o e := by cases t <;> simp [Tok.isOpt] at ht ⊢
        rw [parseLoop_opt] at h
        cases hc : consumeOptional rootParser r s o e ts with
        | error x => rw [hc] at h; cases h
        | ok x =>
          rw [hc] at h
          obtain ⟨_, _, h1, ⟨l, _, h3, h4⟩, _⟩ := consumeOptional_inv hc
          cases o with
          | some y =>
            obtain ⟨v, l', hl⟩ := h4 y rfl
            have := (h3 (y.1, v) (by rw [hl]; simp)).2
            exact absurd (hh y e rfl) this
          | none =>
            obtain ⟨⟨m, g⟩, _⟩ := parseLoop_inv rootParser fuel x.1 x.2 h
            exact .inl (extras_ne g (by rw [h1 rfl]; simp))
      · have ht' : t.isOpt = false := by simpa using ht
        rw [parseLoop_args _ fuel r s ht' ts (by simpa [ht'] using hany)] at h
        rcases hcp with hcp | hcp
        · rw [hcp, if_neg (by simp)] at h
          obtain ⟨⟨m, g⟩, _⟩ := parseLoop_inv rootParser fuel _ _ h
          exact .inl (extras_ne g (by simp [ht']))
        · rw [hcp, if_pos (by simp)] at h
          exact .inr ((parseLoop_inv rootParser fuel _ _ h).2.2 _ rfl)
  · rw [parseLoop_end _ _ _ (by simpa using hany)] at h
    injection h with h'
    rcases hcp with hcp | hcp
    · left; rw [← h', hcp]; simp
    · right; rw [← h', hcp]

theorem root_find {s : PStr} {o : Opt} (h : rootParser.find s = some o) : o = .help := by
  unfold ArgParser.find at h
  rw [Option.map_eq_some_iff] at h
  obtain ⟨x, hx, rfl⟩ := h
  have := List.mem_of_find?_eq_some hx
  simp [rootParser, helpOptions] at this
  rcases this with h | h <;> rw [h]

theorem optionTuples_mem {P : ArgParser} {s : PStr} {x : (Opt × PStr) × Option (Bool × PStr)} (h : x ∈ optionTuples P s) :
    ∃ y ∈ P.options, x.1.1 = y.2 := by
  unfold optionTuples at h
  split at h
  · split at h <;>
    · obtain ⟨y, hy, rfl⟩ := List.mem_map.1 h
      exact ⟨y, (List.mem_filter.1 hy).1, rfl⟩
  · obtain ⟨y, hy, hx⟩ := List.mem_filterMap.1 h
    refine ⟨y, hy, ?_⟩
    split at hx
    · cases hx; rfl
    · split at hx <;> cases hx
      rfl

theorem root_help {s : PStr} {o : Opt × PStr} {e : Option (Bool × PStr)} (h : rootParser.classify s = some (.opt (some o) e)) : o.1 = .help := by
  unfold ArgParser.classify at h
  split at h
  · rename_i rest
    cases hf : rootParser.find (45 :: rest) with
    | some o' => rw [hf] at h; cases h; exact root_find hf
    | none =>
      rw [hf] at h
      dsimp only at h
      split at h
      · cases h
      · split at h
        · rename_i t ht
          cases h
          rw [Option.bind_eq_some_iff] at ht
          obtain ⟨⟨n, v⟩, _, hm⟩ := ht
          rw [Option.map_eq_some_iff] at hm
          obtain ⟨o', ho, hm⟩ := hm
          cases hm
          exact root_find ho
        · split at h
          · rename_i x e' hx
            cases h
            obtain ⟨y, hy, hxy⟩ := optionTuples_mem (x := (o, e)) (by rw [hx]; simp)
            simp only [rootParser, helpOptions, List.mem_cons, List.not_mem_nil, or_false] at hy
            rcases hy with rfl | rfl <;> exact hxy
          · cases h
          · split at h
            · cases h
            · split at h <;> cases h
  · cases h

/-- If the arguments are accepted the first word is a command, unless `tokenize` is left out. -/
theorem parseArgs_first {argv : List PStr} {q : Request} (h : parseArgs argv = .ok q) :
    ∃ (c : Command) (rest : List PStr) (sub : Parsed), withDefault argv = c.name :: rest ∧ c.parser.parse rest = .ok sub ∧
      c.request sub = some q ∧ sub.extras = [] := by
  have hne : withDefault argv ≠ [] := by
    unfold withDefault
    split
    · rename_i h; rcases h with h | h <;> exact List.ne_nil_of_mem h
    · split
      · rename_i h; rcases h with h | h | h <;> exact List.ne_nil_of_mem h
      · simp
  unfold parseArgs at h
  cases hw : withDefault argv with
  | nil => exact absurd hw hne
  | cons s ss =>
    rw [hw] at h
    cases hp : rootParser.parse (s :: ss) with
    | error x => rw [hp] at h; cases h
    | ok root =>
      rw [hp] at h
      dsimp only at h
      have key : root.extras ≠ [] ∨ root.files = some (s :: ss) := by
        unfold ArgParser.parse at hp
        by_cases hd : s = [45, 45]
        · rw [ArgParser.classifyAll, if_pos hd] at hp
          have := root_loop _ _ s .dashes _ rfl (by intro o e h; cases h) hp
          simpa [Function.comp_def] using this
        · obtain ⟨t, ht⟩ := root_classify s
          obtain ⟨ts, hts, hm⟩ := root_classifyAll ss
          rw [classifyAll_cons hd ht, hts] at hp
          have := root_loop _ _ s t ts rfl (by intro o e h; subst h; exact root_help ht) hp
          rwa [hm] at this
      cases hf : root.files with
      | none =>
        rw [hf] at h
        rcases key with k | k
        · simp [k] at h
        · rw [hf] at k; cases k
      | some l =>
        rw [hf] at h
        cases l with
        | nil =>
          rcases key with k | k
          · simp [k] at h
          · rw [hf] at k; cases k
        | cons name rest =>
          dsimp only at h
          cases hc : Command.find name with
          | none => rw [hc] at h; cases h
          | some c =>
            rw [hc] at h
            dsimp only at h
            cases hs : c.parser.parse rest with
            | error x => rw [hs] at h; cases h
            | ok sub =>
              rw [hs] at h
              dsimp only at h
              cases hq : c.request sub with
              | none => rw [hq] at h; cases h
              | some q' =>
                rw [hq] at h
                dsimp only at h
                split at h
                · rename_i he
                  cases h
                  simp at he
                  rcases key with k | k
                  · exact absurd he.1 k
                  · rw [hf] at k
                    cases k
                    have : c.name = s := by
                      unfold Command.find at hc
                      have := List.find?_some hc
                      simpa using this
                    exact ⟨c, ss, sub, by rw [this], hs, hq, he.2⟩
                · cases h

theorem lastOf_mem {o : Opt} {acts : List (Opt × PStr)} {v : PStr} (h : lastOf o acts = some v) : (o, v) ∈ acts := by
  have : (Parsed.mk acts none []).last o = some v := (last_eq _ o).trans h
  unfold Parsed.last at this
  rw [Option.map_eq_some_iff] at this
  obtain ⟨x, hx, rfl⟩ := this
  have h1 := List.mem_of_find?_eq_some hx
  have h2 := List.find?_some hx
  simp at h1 h2
  subst h2
  exact h1

theorem parse_allows {P : ArgParser} {ss : List PStr} {r : Parsed} (h : P.parse ss = .ok r) : ∀ a ∈ r.acts, Opt.Allows a.1 a.2 := by
  unfold ArgParser.parse at h
  split at h
  · cases h
  · obtain ⟨_, ⟨l, hl, hl'⟩, _⟩ := parseLoop_inv P _ _ _ h
    simp at hl
    rw [hl]; exact hl'

theorem classifyAll_opt {P : ArgParser} {ss : List PStr} {s : PStr} {t : Tok} {ts : List (PStr × Tok)} (h : P.classifyAll ss = some ((s, t) :: ts))
    (ht : t ≠ .dashes) : s ≠ [45, 45] ∧ ∃ ss', P.classifyAll ss' = some ts := by
  cases ss with
  | nil => cases h
  | cons x ss =>
    rw [ArgParser.classifyAll] at h
    split at h
    · cases h; exact absurd rfl ht
    · rename_i hx
      cases hc : P.classify x with
      | none => rw [hc] at h; cases h
      | some t' =>
        rw [hc] at h
        cases hs : P.classifyAll ss with
        | none => rw [hs] at h; cases h
        | some ts' => rw [hs] at h; cases h; exact ⟨hx, ss, hs⟩

theorem classifyAll_dashes {P : ArgParser} {ss : List PStr} {s : PStr} {ts : List (PStr × Tok)} (h : P.classifyAll ss = some ((s, .dashes) :: ts)) :
    s = [45, 45] ∧ ∃ l, ts = argToks l := by
  cases ss with
  | nil => cases h
  | cons x ss =>
    rw [ArgParser.classifyAll] at h
    split at h
    · rename_i hx; cases h; exact ⟨hx, ss, rfl⟩
    · cases hc : P.classify x with
      | none => rw [hc] at h; cases h
      | some t' =>
        rw [hc] at h
        cases hs : P.classifyAll ss with
        | none => rw [hs] at h; cases h
        | some ts' =>
          rw [hs] at h
          injection h with h
          injection h with h1 h2
          injection h1 with h1 h3
          rw [h3] at hc
          exfalso
          unfold ArgParser.classify at hc
          repeat' split at hc
          all_goals try (cases hc; done)
          rename_i hb
          rw [Option.bind_eq_some_iff] at hb
          obtain ⟨_, _, hb⟩ := hb
          rw [Option.map_eq_some_iff] at hb
          obtain ⟨_, _, hb⟩ := hb
          cases hb
          cases hc

/-- One file at least. -/
theorem plus_positionals {P : ArgParser} (hP : P.nargs = .plus) {ss : List PStr} {ts : List (PStr × Tok)} (hc : P.classifyAll ss = some ts)
    (r : Parsed) (hr : r.files = none) : consumePositionals P r ts = (r, ts) ∨
      ∃ f fs ts', consumePositionals P r ts = ({ r with files := some (f :: fs) }, ts') ∧ ts'.length < ts.length := by
  unfold consumePositionals
  rw [hr]
  simp only [Option.isSome_none, Bool.false_eq_true, if_false, hP]
  cases hk : Nargs.plus.count ts with
  | none => exact .inl rfl
  | some k =>
    right
    dsimp only
    cases ts with
    | nil => simp [Nargs.count] at hk
    | cons a ts =>
      obtain ⟨s, t⟩ := a
      cases t with
      | opt o e => simp [Nargs.count] at hk
      | arg =>
        have hs := (classifyAll_opt hc (by simp)).1
        have hk' : k = ((ts.takeWhile fun x => !x.2.isOpt).length) + 1 := by
          simp [Nargs.count, Tok.isOpt] at hk
          exact hk.symm
        subst hk'
        refine ⟨s, ((ts.take (ts.takeWhile fun x => !x.2.isOpt).length).map (·.1)).erase [45, 45],
          ((s, Tok.arg) :: ts).drop ((ts.takeWhile fun x => !x.2.isOpt).length + 1), ?_, ?_⟩
        · congr 2
          simp only [List.take_succ_cons, List.map_cons, Nargs.values]
          rw [if_neg (by simp), List.erase_cons, if_neg (by simpa using hs)]
        · simp; omega
      | dashes =>
        obtain ⟨hs, l, rfl⟩ := classifyAll_dashes hc
        subst hs
        have hk' : k = (argToks l).length + 1 ∧ l ≠ [] := by
          unfold Nargs.count at hk
          have e : (((([45, 45] : PStr), Tok.dashes) :: argToks l).takeWhile fun x => !x.2.isOpt) = ([45, 45], Tok.dashes) :: argToks l := by
            rw [List.takeWhile_cons]
            have := List.takeWhile_append_of_pos (l₂ := []) (argToks_opt l)
            simp at this
            rw [this]
            rfl
          rw [e] at hk
          dsimp only at hk
          split at hk
          · rename_i h
            refine ⟨(Option.some.inj hk).symm, ?_⟩
            rintro rfl
            simp [argToks] at h
          · cases hk
        obtain ⟨rfl, hl⟩ := hk'
        cases l with
        | nil => exact absurd rfl hl
        | cons f fs =>
          refine ⟨f, fs, [], ?_, by simp⟩
          simp [Nargs.values, argToks_names]

theorem plus_files {P : ArgParser} (hP : P.nargs = .plus) : ∀ (fuel : Nat) (r : Parsed) (ts : List (PStr × Tok)) (ss : List PStr) {r' : Parsed},
    r.files = none → P.classifyAll ss = some ts → parseLoop P fuel r ts = .ok r' → r'.files ≠ some [] := by
  have hend : ∀ (r : Parsed) (ts : List (PStr × Tok)) (ss : List PStr) {r' : Parsed}, r.files = none → P.classifyAll ss = some ts →
      (Except.ok { (consumePositionals P r ts).1 with
        extras := (consumePositionals P r ts).1.extras ++ (consumePositionals P r ts).2.map (·.1) } : Except Stop Parsed) = .ok r' →
      r'.files ≠ some [] := by
    intro r ts ss r' hr hc h
    cases h
    rcases plus_positionals hP hc r hr with h | ⟨f, fs, ts', h, _⟩
    · rw [h]; simp [hr]
    · rw [h]; simp
  intro fuel
  induction fuel with
  | zero => intro r ts ss r' hr hc h; exact hend r ts ss hr hc h
  | succ fuel ih =>
    intro r ts ss r' hr hc h
    by_cases hany : (ts.any fun x => x.2.isOpt) = true
    · cases ts with
      | nil => simp at hany
      | cons a ts =>
        obtain ⟨s, t⟩ := a
        by_cases ht : t.isOpt = true
        · obtain ⟨o, e, rfl⟩ : ∃ o e, t = .opt o e := by cases t <;> simp [Tok.isOpt] at ht ⊢
          obtain ⟨_, ss', hss⟩ := classifyAll_opt hc (by simp)
          rw [parseLoop_opt] at h
          cases hx : consumeOptional P r s o e ts with
          | error x => rw [hx] at h; cases h
          | ok x =>
            rw [hx] at h
            obtain ⟨h1, _, _, _, h5⟩ := consumeOptional_inv hx
            rcases h5 with h5 | ⟨v, ts', h5, h6⟩
            · exact ih x.1 x.2 ss' (h1.trans hr) (by rw [h5]; exact hss) h
            · rw [h5] at hss
              obtain ⟨_, ss'', hss'⟩ := classifyAll_opt hss (by simp)
              exact ih x.1 x.2 ss'' (h1.trans hr) (by rw [h6]; exact hss') h
        · have ht' : t.isOpt = false := by simpa using ht
          have hany' : (ts.any fun x => x.2.isOpt) = true := by simpa [ht'] using hany
          rw [parseLoop_args P fuel r s ht' ts hany'] at h
          rcases plus_positionals hP hc r hr with hcp | ⟨f, fs, ts', hcp, hlt⟩
          · exfalso
            cases t with
            | opt o e => simp [Tok.isOpt] at ht'
            | dashes =>
              obtain ⟨_, l, rfl⟩ := classifyAll_dashes hc
              rw [argToks_any] at hany'
              cases hany'
            | arg =>
              have h2 := congrArg (fun x => x.2.length) hcp
              unfold consumePositionals at h2
              simp [hr, hP, Nargs.count, Tok.isOpt] at h2
              omega
          · rw [hcp, if_pos hlt] at h
            rw [(parseLoop_inv P fuel _ _ h).2.2 _ rfl]
            simp
    · rw [parseLoop_end P _ r (by simpa using hany)] at h
      exact hend r ts ss hr hc h

theorem plus_parse {P : ArgParser} (hP : P.nargs = .plus) {ss : List PStr} {r : Parsed} (h : P.parse ss = .ok r) : r.files ≠ some [] := by
  unfold ArgParser.parse at h
  split at h
  · cases h
  · rename_i ts hts
    exact plus_files hP _ _ _ _ rfl hts h

end Sudachi
