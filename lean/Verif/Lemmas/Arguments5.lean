import Verif.Lemmas.Arguments4
namespace Sudachi

theorem takeWhile_self {α : Type} {p : α → Bool} : ∀ {l : List α}, (∀ x ∈ l, p x = true) → l.takeWhile p = l
  | [], _ => rfl
  | x :: l, h => by
    rw [List.takeWhile_cons, if_pos (h x (List.mem_cons_self ..)), takeWhile_self fun y hy => h y (List.mem_cons_of_mem _ hy)]

theorem classifyAll_inv {P : ArgParser} {ss : List PStr} {s : PStr} {t : Tok} {ts : List (PStr × Tok)} (h : P.classifyAll ss = some ((s, t) :: ts)) :
    ∃ ss', ss = s :: ss' ∧ ((s = [45, 45] ∧ t = .dashes ∧ ts = argToks ss') ∨
      (s ≠ [45, 45] ∧ P.classify s = some t ∧ P.classifyAll ss' = some ts)) := by
  cases ss with
  | nil => cases h
  | cons x ss =>
    rw [ArgParser.classifyAll] at h
    split at h
    · rename_i hx; cases h; exact ⟨ss, rfl, .inl ⟨hx, rfl, rfl⟩⟩
    · rename_i hx
      cases hc : P.classify x with
      | none => rw [hc] at h; cases h
      | some t' =>
        rw [hc] at h
        cases hs : P.classifyAll ss with
        | none => rw [hs] at h; cases h
        | some ts' => rw [hs] at h; cases h; exact ⟨ss, rfl, .inr ⟨hx, hc, hs⟩⟩

theorem classifyAll_empty {P : ArgParser} {ss : List PStr} (h : P.classifyAll ss = some []) : ss = [] := by
  cases ss with
  | nil => rfl
  | cons x ss =>
    rw [ArgParser.classifyAll] at h
    split at h
    · cases h
    · cases hc : P.classify x with
      | none => rw [hc] at h; cases h
      | some t' =>
        rw [hc] at h
        cases hs : P.classifyAll ss with
        | none => rw [hs] at h; cases h
        | some ts' => rw [hs] at h; cases h

/-- An option word that adds nothing that is not recognised. -/
theorem consumeOptional_group {c : Command} {s : PStr} {o : Option (Opt × PStr)} {e : Option (Bool × PStr)} (hs : s ≠ [45, 45])
    (hc : c.parser.classify s = some (.opt o e)) {r : Parsed} {ts : List (PStr × Tok)} {x : Parsed × List (PStr × Tok)}
    (h : consumeOptional c.parser r s o e ts = .ok x) (hx : x.1.extras = []) :
    ∃ acts, x.1 = { r with acts := r.acts ++ acts } ∧
      ((x.2 = ts ∧ c.Group [s] acts) ∨ ∃ v, ts = (v, .arg) :: x.2 ∧ (c.ArgWord v → c.Group [s, v] acts)) := by
  cases o with
  | none => cases h; simp at hx
  | some y =>
    obtain ⟨o, name⟩ := y
    unfold consumeOptional at h
    dsimp only at h
    cases he : expandWord c.parser (nextArg ts) o name [] e with
    | error z => rw [he] at h; cases h
    | ok z =>
      obtain ⟨acts, extra, used⟩ := z
      rw [he] at h
      change (do
        let r' ← takeActs { r with extras := r.extras ++ extra.toList } acts
        pure (r', if used then ts.drop 1 else ts)) = Except.ok x at h
      cases hy : takeActs { r with extras := r.extras ++ extra.toList } acts with
      | error w => rw [hy] at h; cases h
      | ok r1 =>
        rw [hy] at h
        obtain ⟨h1, h2, h3, h4⟩ := takeActs_inv hy
        cases h
        dsimp only at hx h1 h2 h3 ⊢
        rw [hx] at h2
        have hr0 : r.extras = [] := by
          cases hh : r.extras with
          | nil => rfl
          | cons a b => rw [hh] at h2; simp at h2
        have hex : extra = none := by
          cases extra with
          | none => rfl
          | some a => simp at h2
        subst hex
        have hhelp : ¬ ∃ v, (Opt.help, v) ∈ acts := fun ⟨v, hv⟩ => (h4 _ hv).2 rfl
        have hr1 : r1 = { r with acts := r.acts ++ acts } := by
          obtain ⟨ra, rf, rx⟩ := r1
          dsimp only at h1 h3 hx
          subst h1 h3 hx
          rw [← hr0]
        refine ⟨acts, hr1, ?_⟩
        rcases word_cases c hs with ⟨_, h'⟩ | ⟨x, w, hx', rfl, h'⟩ | ⟨n, a, hn, ha, hne, rfl, h'⟩ | ⟨n, a, b, _, _, _, ⟨_, _, h'⟩ | h'⟩ | ⟨_, h'⟩
        · rw [hc] at h'; cases h'
        · rw [hc] at h'
          cases h'
          obtain ⟨fs, hgs, h'⟩ := expandWord_letters c (nextArg ts) w x [] (List.mem_cons.2 hx') he
          have hfs : ∀ f ∈ fs, f ∈ c.flags := by
            intro f hf
            rcases List.mem_cons.1 (hgs f hf) with rfl | h
            · have hm : (Opt.help, ([] : PStr)) ∈ fs.map fun f => (f.2, []) := List.mem_map.2 ⟨_, hf, rfl⟩
              exfalso
              refine hhelp ⟨[], ?_⟩
              rcases h' with ⟨_, _, _, _, k3⟩ | ⟨l, o, v, _, _, k3, _⟩ | ⟨y, t, _, _, _, _, _, h, _⟩
              · rw [k3]; simpa using hm
              · rw [k3]; exact List.mem_append_right _ (List.mem_append_left _ hm)
              · cases h
            · exact h
          · rcases h' with ⟨rfl, _, k1, k2, k3⟩ | ⟨l, o, v, k1, _, k2, k3⟩ | ⟨y, t, _, _, _, _, _, h, _⟩
            · left
              refine ⟨rfl, ?_⟩
              rw [k2, k3]
              exact .flags k1 hfs
            · have hv : o.Allows v := (h4 (o, v) (by rw [k2]; simp)).1
              rcases k3 with ⟨rfl, k4, k5⟩ | ⟨rfl, k4, k5, k6⟩ | ⟨rfl, k4⟩
              · right
                cases ts with
                | nil => simp [nextArg] at k4
                | cons p ts =>
                  obtain ⟨v', t⟩ := p
                  cases t with
                  | dashes => simp [nextArg] at k4
                  | opt _ _ => simp [nextArg] at k4
                  | arg =>
                    simp [nextArg] at k4
                    subst k4
                    refine ⟨v', rfl, fun hw => ?_⟩
                    rw [k5, k2]
                    exact .next hfs k1 hv hw
              · left
                refine ⟨rfl, ?_⟩
                rw [k6, k2]
                exact .joined hfs k1 hv k4 k5
              · left
                refine ⟨rfl, ?_⟩
                rw [k4, k2]
                exact .equals hfs k1 hv
            · cases h
        · rw [hc] at h'
          cases h'
          left
          have ho : longOpt n = .version := by
            unfold longOpt
            split
            · rename_i hh
              rw [hh] at he
              rw [expandWord_flag rfl] at he
              cases he
              exact absurd ⟨[], by simp [longOpt]⟩ hhelp
            · rfl
          rw [ho, expandWord_flag rfl] at he
          cases he
          refine ⟨rfl, ?_⟩
          have hnn : n = [118, 101, 114, 115, 105, 111, 110] ∧ c = .tokenize := by
            cases c
            · simp only [Command.longNames, List.mem_cons, List.not_mem_nil, or_false] at hn
              rcases hn with rfl | rfl
              · cases ho
              · exact ⟨rfl, rfl⟩
            all_goals
              simp only [Command.longNames, List.mem_cons, List.not_mem_nil, or_false] at hn
              subst hn
              cases ho
          obtain ⟨rfl, rfl⟩ := hnn
          rw [List.prefix_iff_eq_take] at ha
          have hl : 0 < a.length := List.length_pos_iff.2 hne
          generalize a.length = k at ha hl
          have : (45 :: 45 :: a : PStr) = [45, 45, 118, 101, 114, 115, 105, 111, 110].take (k + 2) := by rw [ha]; rfl
          rw [this]
          exact .version rfl (by omega)
        · rw [hc] at h'; cases h'
        · rw [hc] at h'
          cases h'
          exfalso
          rw [expandWord.eq_def] at he
          have ht : (longOpt n).takes = false := by unfold longOpt; split <;> rfl
          simp only [ht, Bool.false_eq_true, if_false] at he
          split at he
          · cases he
          · rw [if_pos (by simp)] at he
            cases he
        · rw [hc] at h'; cases h'

/-- After the files there are options only. -/
theorem parseLoop_rest (c : Command) : ∀ (fuel : Nat) (r : Parsed) (ss : List PStr) (ts : List (PStr × Tok)) {r' : Parsed} {fs : List PStr},
    c.parser.classifyAll ss = some ts → ts.length ≤ fuel → r.files = some fs → parseLoop c.parser fuel r ts = .ok r' → r'.extras = [] →
    ∃ acts, c.Spells ss acts ∧ r'.acts = r.acts ++ acts := by
  intro fuel
  induction fuel using Nat.strongRecOn with
  | ind fuel ih =>
    intro r ss ts r' fs hcl hl hfs h hx
    have hcp := (consumePositionals_inv c.parser r ts).2.2 fs hfs
    by_cases hany : (ts.any fun x => x.2.isOpt) = true
    · cases ts with
      | nil => simp at hany
      | cons p ts =>
        obtain ⟨s, t⟩ := p
        cases fuel with
        | zero => simp at hl
        | succ fuel =>
          by_cases ht : t.isOpt = true
          · obtain ⟨o, e, rfl⟩ : ∃ o e, t = .opt o e := by cases t <;> simp [Tok.isOpt] at ht ⊢
            obtain ⟨ss', rfl, ⟨_, h', _⟩ | ⟨hs, hc, hcl'⟩⟩ := classifyAll_inv hcl
            · cases h'
            rw [parseLoop_opt] at h
            cases hco : consumeOptional c.parser r s o e ts with
            | error y => rw [hco] at h; cases h
            | ok y =>
              rw [hco] at h
              change parseLoop c.parser fuel y.1 y.2 = .ok r' at h
              have hy : y.1.extras = [] := by
                obtain ⟨l, hl'⟩ := (parseLoop_inv c.parser fuel y.1 y.2 h).1
                rw [hx] at hl'
                exact (List.append_eq_nil_iff.1 hl'.symm).1
              obtain ⟨acts, h1, h2⟩ := consumeOptional_group hs hc hco hy
              have hfy : y.1.files = some fs := by rw [h1]; exact hfs
              rcases h2 with ⟨h2, hg⟩ | ⟨v, h2, hg⟩
              · obtain ⟨acts', k1, k2⟩ := ih fuel (by omega) y.1 ss' y.2 (by rw [h2]; exact hcl') (by rw [h2]; simp at hl; omega) hfy h hx
                exact ⟨acts ++ acts', .cons hg k1, by rw [k2, h1]; simp⟩
              · rw [h2] at hcl'
                obtain ⟨ss'', rfl, ⟨_, h', _⟩ | ⟨hs', hc', hcl''⟩⟩ := classifyAll_inv hcl'
                · cases h'
                obtain ⟨acts', k1, k2⟩ := ih fuel (by omega) y.1 ss'' y.2 hcl'' (by rw [h2] at hl; simp at hl; omega) hfy h hx
                exact ⟨acts ++ acts', .cons (hg (argWord_iff hs' hc')) k1, by rw [k2, h1]; simp⟩
          · have ht' : t.isOpt = false := by simpa using ht
            rw [parseLoop_args c.parser fuel r s ht' ts (by simpa [ht'] using hany), hcp, if_neg (by simp)] at h
            obtain ⟨⟨m, g⟩, _⟩ := parseLoop_inv c.parser fuel _ _ h
            exact absurd hx (extras_ne g (by simp [ht']))
    · rw [parseLoop_end c.parser _ r (by simpa using hany), hcp] at h
      cases h
      simp at hx
      obtain ⟨_, rfl⟩ := hx
      rw [classifyAll_empty hcl]
      exact ⟨[], .nil, by simp⟩

/-- Words without an option. -/
theorem no_options {c : Command} : ∀ {ss : List PStr} {ts : List (PStr × Tok)}, c.parser.classifyAll ss = some ts →
    (ts.any fun x => x.2.isOpt) = false →
    ((∀ s ∈ ss, c.ArgWord s) ∧ ts = argToks ss) ∨
      ∃ f1 f2, ss = f1 ++ [45, 45] :: f2 ∧ (∀ s ∈ f1, c.ArgWord s) ∧ ts = argToks f1 ++ ([45, 45], .dashes) :: argToks f2
  | ss, [], h, _ => by rw [classifyAll_empty h]; exact .inl ⟨by simp, rfl⟩
  | ss, (s, t) :: ts, h, hn => by
    simp only [List.any_cons, Bool.or_eq_false_iff] at hn
    obtain ⟨ss', rfl, ⟨rfl, rfl, rfl⟩ | ⟨hs, hc, hcl⟩⟩ := classifyAll_inv h
    · exact .inr ⟨[], ss', rfl, by simp, rfl⟩
    · have ht : t = .arg := by
        cases t with
        | arg => rfl
        | opt _ _ => simp [Tok.isOpt] at hn
        | dashes =>
          exfalso
          rcases word_cases c hs with ⟨_, h'⟩ | ⟨x, w, _, _, h'⟩ | ⟨n, a, _, _, _, _, h'⟩ | ⟨n, a, b, _, _, _, ⟨_, _, h'⟩ | h'⟩ | ⟨_, h'⟩ <;>
            (rw [hc] at h'; cases h')
      subst ht
      have hw := argWord_iff hs hc
      rcases no_options hcl hn.2 with ⟨h1, rfl⟩ | ⟨f1, f2, rfl, h1, rfl⟩
      · exact .inl ⟨List.forall_mem_cons.2 ⟨hw, h1⟩, rfl⟩
      · exact .inr ⟨s :: f1, f2, rfl, List.forall_mem_cons.2 ⟨hw, h1⟩, rfl⟩

/-- The words before the first option. -/
theorem first_option {c : Command} : ∀ {ss : List PStr} {ts : List (PStr × Tok)}, c.parser.classifyAll ss = some ts →
    (ts.any fun x => x.2.isOpt) = true →
    ∃ block rest ts', ss = block ++ rest ∧ (∀ s ∈ block, c.ArgWord s) ∧ ts = argToks block ++ ts' ∧ c.parser.classifyAll rest = some ts' ∧
      ∃ x, ts'.head? = some x ∧ x.2.isOpt = true
  | ss, [], _, h => by simp at h
  | ss, (s, t) :: ts, h, ha => by
    by_cases ht : t.isOpt = true
    · exact ⟨[], ss, _, rfl, by simp, rfl, h, _, rfl, ht⟩
    · obtain ⟨ss', rfl, ⟨rfl, rfl, rfl⟩ | ⟨hs, hc, hcl⟩⟩ := classifyAll_inv h
      · simp only [List.any_cons, argToks_any] at ha
        cases ha
      · have ht' : t = .arg := by
          cases t with
          | arg => rfl
          | opt _ _ => simp [Tok.isOpt] at ht
          | dashes =>
            exfalso
            rcases word_cases c hs with ⟨_, h'⟩ | ⟨x, w, _, _, h'⟩ | ⟨n, a, _, _, _, _, h'⟩ | ⟨n, a, b, _, _, _, ⟨_, _, h'⟩ | h'⟩ | ⟨_, h'⟩ <;>
              (rw [hc] at h'; cases h')
        subst ht'
        obtain ⟨block, rest, ts', rfl, h1, rfl, h3, h4⟩ := first_option hcl (by simpa [Tok.isOpt] using ha)
        exact ⟨s :: block, rest, ts', rfl, List.forall_mem_cons.2 ⟨argWord_iff hs hc, h1⟩, rfl, h3, h4⟩

theorem Command.Line.cons {c : Command} {ws ss files : List PStr} {acts acts' : List (Opt × PStr)} (hg : c.Group ws acts)
    (h : c.Line ss acts' files) : c.Line (ws ++ ss) (acts ++ acts') files := by
  cases h with
  | @files w1 w2 _ a1 a2 h1 h2 h3 =>
    have := Command.Line.files (.cons hg h1) h2 h3
    simpa only [List.append_assoc] using this
  | @dashes w1 f1 f2 _ h1 h2 =>
    have := Command.Line.dashes (f2 := f2) (.cons hg h1) h2
    simpa only [List.append_assoc] using this

/-- The arguments that a parser takes. -/
theorem parseLoop_line (c : Command) : ∀ (fuel : Nat) (r : Parsed) (ss : List PStr) (ts : List (PStr × Tok)) {r' : Parsed} {files : List PStr},
    c.parser.classifyAll ss = some ts → ts.length ≤ fuel → r.files = none → parseLoop c.parser fuel r ts = .ok r' → r'.extras = [] →
    r'.files = some files → ∃ acts, c.Line ss acts files ∧ r'.acts = r.acts ++ acts := by
  intro fuel
  induction fuel using Nat.strongRecOn with
  | ind fuel ih =>
    intro r ss ts r' files hcl hl hfs h hx hf
    by_cases hany : (ts.any fun x => x.2.isOpt) = true
    · cases ts with
      | nil => simp at hany
      | cons p ts =>
        obtain ⟨s, t⟩ := p
        cases fuel with
        | zero => simp at hl
        | succ fuel =>
          by_cases ht : t.isOpt = true
          · obtain ⟨o, e, rfl⟩ : ∃ o e, t = .opt o e := by cases t <;> simp [Tok.isOpt] at ht ⊢
            obtain ⟨ss', rfl, ⟨_, h', _⟩ | ⟨hs, hc, hcl'⟩⟩ := classifyAll_inv hcl
            · cases h'
            rw [parseLoop_opt] at h
            cases hco : consumeOptional c.parser r s o e ts with
            | error y => rw [hco] at h; cases h
            | ok y =>
              rw [hco] at h
              change parseLoop c.parser fuel y.1 y.2 = .ok r' at h
              have hy : y.1.extras = [] := by
                obtain ⟨l, hl'⟩ := (parseLoop_inv c.parser fuel y.1 y.2 h).1
                rw [hx] at hl'
                exact (List.append_eq_nil_iff.1 hl'.symm).1
              obtain ⟨acts, h1, h2⟩ := consumeOptional_group hs hc hco hy
              have hfy : y.1.files = none := by rw [h1]; exact hfs
              rcases h2 with ⟨h2, hg⟩ | ⟨v, h2, hg⟩
              · obtain ⟨acts', k1, k2⟩ := ih fuel (by omega) y.1 ss' y.2 (by rw [h2]; exact hcl') (by rw [h2]; simp at hl; omega) hfy h hx hf
                exact ⟨acts ++ acts', k1.cons hg, by rw [k2, h1]; simp⟩
              · rw [h2] at hcl'
                obtain ⟨ss'', rfl, ⟨_, h', _⟩ | ⟨hs', hc', hcl''⟩⟩ := classifyAll_inv hcl'
                · cases h'
                obtain ⟨acts', k1, k2⟩ := ih fuel (by omega) y.1 ss'' y.2 hcl'' (by rw [h2] at hl; simp at hl; omega) hfy h hx hf
                exact ⟨acts ++ acts', k1.cons (hg (argWord_iff hs' hc')), by rw [k2, h1]; simp⟩
          · obtain ⟨block, rest, ts', rfl, h1, h2, h3, x, hx1, hx2⟩ := first_option hcl hany
            have hne : block ≠ [] := by
              rintro rfl
              change (s, t) :: ts = ts' at h2
              rw [← h2] at hx1
              cases hx1
              exact ht hx2
            obtain ⟨ra, rf, re⟩ := r
            change rf = none at hfs
            subst hfs
            rw [h2] at h hl
            obtain ⟨g, hg, he⟩ := parseLoop_files c h1 hne ra re (.inr ⟨x, hx1, hx2⟩) hl
            rw [he] at h
            have hff := (parseLoop_inv c.parser g _ _ h).2.2 block rfl
            rw [hf] at hff
            cases hff
            obtain ⟨acts, k1, k2⟩ := parseLoop_rest c g _ rest ts' h3 hg rfl h hx
            exact ⟨acts, .files .nil h1 k1, k2⟩
    · have hany' : (ts.any fun x => x.2.isOpt) = false := by simpa using hany
      rw [parseLoop_end c.parser _ r hany'] at h
      cases h
      dsimp only at hf
      have htw : (ts.takeWhile fun x => !x.2.isOpt) = ts := by
        rw [List.any_eq_false] at hany'
        refine takeWhile_self ?_
        intro x hx
        simpa using hany' x hx
      have hval : files = (ts.map (·.1)).erase [45, 45] ∧ (consumePositionals c.parser r ts).1.acts = r.acts := by
        refine ⟨?_, (consumePositionals_inv c.parser r ts).1⟩
        unfold consumePositionals at hf
        rw [hfs] at hf
        simp only [Option.isSome_none, Bool.false_eq_true, if_false] at hf
        cases hct : c.parser.nargs.count ts with
        | none => rw [hct] at hf; rw [hfs] at hf; cases hf
        | some k =>
          rw [hct] at hf
          have hk : k = ts.length := by
            unfold Nargs.count at hct
            rw [htw] at hct
            cases c <;> simp [Command.parser, tokenizeParser, buildParser, ubuildParser] at hct
            · exact hct.symm
            · exact hct.2.symm
            · exact hct.2.symm
          subst hk
          have hnp : c.parser.nargs ≠ .parser := by cases c <;> decide
          simp [Nargs.values, hnp] at hf
          exact hf.symm
      refine ⟨[], ?_, by rw [hval.2]; simp⟩
      rcases no_options hcl hany' with ⟨h1, h2⟩ | ⟨f1, f2, rfl, h1, h2⟩
      · rw [h2, argToks_names, List.erase_of_not_mem fun hm => (h1 _ hm).dashes rfl] at hval
        rw [hval.1]
        have := Command.Line.files (c := c) .nil h1 .nil
        simpa using this
      · rw [h2, List.map_append, List.map_cons, argToks_names, argToks_names,
          List.erase_append_right _ fun hm => (h1 _ hm).dashes rfl] at hval
        simp at hval
        rw [hval.1]
        exact Command.Line.dashes (c := c) (f2 := f2) .nil h1

/-- What a parser accepts. -/
theorem parse_line {c : Command} {ss files : List PStr} {r : Parsed} (h : c.parser.parse ss = .ok r) (hx : r.extras = [])
    (hf : r.files = some files) : c.Line ss r.acts files := by
  unfold ArgParser.parse at h
  cases hcl : c.parser.classifyAll ss with
  | none => rw [hcl] at h; cases h
  | some ts =>
    rw [hcl] at h
    obtain ⟨acts, h1, h2⟩ := parseLoop_line c _ _ ss ts hcl (Nat.le_refl _) rfl h hx hf
    simp at h2
    rw [h2]; exact h1

/-- Files after `--`. -/
theorem parse_dashes (c : Command) {w1 f1 f2 : List PStr} {a1 : List (Opt × PStr)} (h1 : c.Spells w1 a1) (hp : ∀ f ∈ f1, c.ArgWord f)
    (hne : c = .tokenize ∨ f1 ++ f2 ≠ []) : c.parser.parse (w1 ++ (f1 ++ [45, 45] :: f2)) = .ok ⟨a1, some (f1 ++ f2), []⟩ := by
  obtain ⟨t1, _, _, hc1, hs1⟩ := h1.step
  have hcl : c.parser.classifyAll (w1 ++ (f1 ++ [45, 45] :: f2)) = some (t1 ++ (argToks f1 ++ ([45, 45], .dashes) :: argToks f2)) := by
    rw [hc1, classifyAll_plain c _ hp]
    rfl
  unfold ArgParser.parse
  rw [hcl]
  dsimp only
  generalize hT : argToks f1 ++ ([45, 45], Tok.dashes) :: argToks f2 = T
  obtain ⟨g1, r1, h⟩ := hs1 (t1 ++ T).length ⟨[], none, []⟩ T
  obtain ⟨hl1, hr1, he1⟩ := h (Nat.le_refl _)
  have hany : (T.any fun x => x.2.isOpt) = false := by
    rw [← hT, List.any_append, List.any_cons, argToks_any, argToks_any]; rfl
  have htw : (T.takeWhile fun x => !x.2.isOpt) = T := by
    rw [List.any_eq_false] at hany
    refine takeWhile_self ?_
    intro x hx
    simpa using hany x hx
  have hcount : c.parser.nargs.count T = some T.length := by
    unfold Nargs.count
    rw [htw]
    have hplus : f1 ++ f2 ≠ [] → ((T.dropWhile fun x => x.2 == .dashes).head?.map (·.2)) = some .arg := by
      intro hne
      rw [← hT]
      cases f1 with
      | nil =>
        cases f2 with
        | nil => exact absurd rfl hne
        | cons a b => rfl
      | cons a b => rfl
    cases c
    · rfl
    all_goals
      rcases hne with h | h
      · cases h
      · simp only [Command.parser, buildParser, ubuildParser, hplus h, if_true]
  have hnp : c.parser.nargs ≠ .parser := by cases c <;> decide
  have hvals : (T.map (·.1)).erase [45, 45] = f1 ++ f2 := by
    rw [← hT, List.map_append, List.map_cons, argToks_names, argToks_names, List.erase_append_right _ fun hm => (hp _ hm).dashes rfl]
    simp
  rw [he1, hr1, parseLoop_end _ _ _ hany]
  simp [consumePositionals, hcount, Nargs.values, hnp, hvals]

end Sudachi
