import Verif.Lemmas.Arguments5
namespace Sudachi

theorem takeActs_error : ∀ {acts : List (Opt × PStr)} {r : Parsed}, takeActs r acts = .error .help → ∃ v, (Opt.help, v) ∈ acts
  | [], r, h => by cases h
  | (o, v) :: acts, r, h => by
    rw [takeActs] at h
    cases hx : takeAct r o v with
    | error x =>
      rw [hx] at h
      cases h
      unfold takeAct at hx
      split at hx
      · rename_i ho; subst ho; exact ⟨v, by simp⟩
      · split at hx
        · split at hx <;> cases hx
        · cases hx
    | ok r1 =>
      rw [hx] at h
      obtain ⟨w, hw⟩ := takeActs_error (acts := acts) (r := r1) h
      exact ⟨w, List.mem_cons_of_mem _ hw⟩

theorem takeActs_gflags {c : Command} : ∀ {gs : List (Nat × Opt)} (r : Parsed) (tl : List (Opt × PStr)), (∀ g ∈ gs, g ∈ c.gflags) →
    (104, .help) ∈ gs → takeActs r ((gs.map fun g => (g.2, ([] : PStr))) ++ tl) = .error .help
  | [], _, _, _, h => by simp at h
  | g :: gs, r, tl, hg, h => by
    rw [List.map_cons, List.cons_append, takeActs]
    rcases List.mem_cons.1 (hg g (List.mem_cons_self ..)) with rfl | hf
    · rfl
    · have hh := flag_takes c hf
      rw [takeAct_ok (flag_allows c hf) hh.2.2]
      have hm : (104, .help) ∈ gs := by
        rcases List.mem_cons.1 h with h' | h'
        · rw [← h'] at hh; exact absurd rfl hh.2.2
        · exact h'
      exact takeActs_gflags _ tl (fun x hx => hg x (List.mem_cons_of_mem _ hx)) hm

theorem flagLetter_of {c : Command} {g : Nat × Opt} (h : g ∈ c.gflags) : c.FlagLetter g.1 := by
  rcases List.mem_cons.1 h with rfl | h
  · exact .inl rfl
  · exact .inr ⟨g.2, h⟩

theorem gflags_split {c : Command} {gs : List (Nat × Opt)} (hg : ∀ g ∈ gs, g ∈ c.gflags) :
    (∀ g ∈ gs, g ∈ c.flags) ∨ ((104, Opt.help) ∈ gs ∧ ∃ fs hs, gs.map (·.1) = fs ++ 104 :: hs ∧ ∀ x ∈ fs ++ hs, c.FlagLetter x) := by
  by_cases h : (104, Opt.help) ∈ gs
  · obtain ⟨l, r, rfl⟩ := List.append_of_mem h
    refine .inr ⟨h, l.map (·.1), r.map (·.1), by simp, fun x hx => ?_⟩
    rcases List.mem_append.1 hx with hx | hx
    · obtain ⟨g, hg', rfl⟩ := List.mem_map.1 hx
      exact flagLetter_of (hg g (by simp [hg']))
    · obtain ⟨g, hg', rfl⟩ := List.mem_map.1 hx
      exact flagLetter_of (hg g (by simp [hg']))
  · left
    intro g hg'
    rcases List.mem_cons.1 (hg g hg') with rfl | h'
    · exact absurd hg' h
    · exact h'

theorem flagLetters {c : Command} : ∀ {l : PStr}, (∀ x ∈ l, c.FlagLetter x) → ∃ gs : List (Nat × Opt), gs.map (·.1) = l ∧ ∀ g ∈ gs, g ∈ c.gflags
  | [], _ => ⟨[], rfl, by simp⟩
  | x :: l, h => by
    obtain ⟨gs, h1, h2⟩ := flagLetters (c := c) fun y hy => h y (List.mem_cons_of_mem _ hy)
    rcases h x (List.mem_cons_self ..) with rfl | ⟨o, ho⟩
    · exact ⟨(104, .help) :: gs, by simp [h1], List.forall_mem_cons.2 ⟨List.mem_cons_self .., h2⟩⟩
    · exact ⟨(x, o) :: gs, by simp [h1], List.forall_mem_cons.2 ⟨List.mem_cons_of_mem _ ho, h2⟩⟩

theorem longName_help {c : Command} {n : PStr} (h : n ∈ c.longNames) :
    (n = [104, 101, 108, 112] ∧ longOpt n = .help) ∨ (n = [118, 101, 114, 115, 105, 111, 110] ∧ c = .tokenize ∧ longOpt n = .version) := by
  cases c <;> simp only [Command.longNames, List.mem_cons, List.not_mem_nil, or_false] at h
  · rcases h with rfl | rfl
    · exact .inl ⟨rfl, rfl⟩
    · exact .inr ⟨rfl, rfl, rfl⟩
  · subst h; exact .inl ⟨rfl, rfl⟩
  · subst h; exact .inl ⟨rfl, rfl⟩

theorem nextArg_some {ts : List (PStr × Tok)} {v : PStr} (h : nextArg ts = some v) : ∃ ts', ts = (v, .arg) :: ts' := by
  cases ts with
  | nil => simp [nextArg] at h
  | cons p ts =>
    obtain ⟨v', t⟩ := p
    cases t with
    | dashes => simp [nextArg] at h
    | opt _ _ => simp [nextArg] at h
    | arg => simp [nextArg] at h; subst h; exact ⟨ts, rfl⟩

/-- What an option word does. -/
theorem consumeOptional_all {c : Command} {s : PStr} {o : Option (Opt × PStr)} {e : Option (Bool × PStr)} (hs : s ≠ [45, 45])
    (hc : c.parser.classify s = some (.opt o e)) (r : Parsed) (ts : List (PStr × Tok)) :
    match consumeOptional c.parser r s o e ts with
    | .error .error => True
    | .error .help => c.Help [s] ∨ ∃ v ts', ts = (v, .arg) :: ts' ∧ (c.ArgWord v → c.Help [s, v])
    | .ok x => (x.2 = ts ∧ (c.Unknown s ∨ ∃ acts, c.Group [s] acts)) ∨ ∃ v, ts = (v, .arg) :: x.2 ∧ (c.ArgWord v → ∃ acts, c.Group [s, v] acts) := by
  have hun : c.Unknown s → match consumeOptional c.parser r s none none ts with
      | .error .error => True
      | .error .help => c.Help [s] ∨ ∃ v ts', ts = (v, .arg) :: ts' ∧ (c.ArgWord v → c.Help [s, v])
      | .ok x => (x.2 = ts ∧ (c.Unknown s ∨ ∃ acts, c.Group [s] acts)) ∨
          ∃ v, ts = (v, .arg) :: x.2 ∧ (c.ArgWord v → ∃ acts, c.Group [s, v] acts) := fun h => .inl ⟨rfl, .inl h⟩
  rcases word_cases c hs with ⟨_, h'⟩ | ⟨x, w, hx', rfl, h'⟩ | ⟨n, a, hn, ha, hne, rfl, h'⟩ | ⟨n, a, b, hn, _, _, ⟨_, _, h'⟩ | h'⟩ | ⟨hu, h'⟩
  · rw [hc] at h'; cases h'
  · rw [hc] at h'
    cases h'
    unfold consumeOptional
    dsimp only
    cases he : expandWord c.parser (nextArg ts) x.2 [45, x.1] [] (explicitOf w) with
    | error z =>
      have : z = .error := by
        cases z with
        | error => rfl
        | help =>
          exfalso
          revert he
          generalize hname : ([45, x.1] : PStr) = name
          generalize ([] : List (Opt × PStr)) = done
          generalize explicitOf w = e
          generalize x.2 = o
          intro he
          clear hname
          fun_induction expandWord c.parser (nextArg ts) o name done e
          all_goals first | (cases he; done) | (rename_i ih; exact ih he)
      subst this
      exact True.intro
    | ok z =>
      obtain ⟨acts, extra, used⟩ := z
      obtain ⟨fs, hgs, h'⟩ := expandWord_letters c (nextArg ts) w x [] (List.mem_cons.2 hx') he
      show (match (do
        let r' ← takeActs { r with extras := r.extras ++ extra.toList } acts
        pure (r', if used then ts.drop 1 else ts) : Except Stop (Parsed × List (PStr × Tok))) with
        | .error .error => True
        | .error .help => c.Help [45 :: x.1 :: w] ∨ ∃ v ts', ts = (v, .arg) :: ts' ∧ (c.ArgWord v → c.Help [45 :: x.1 :: w, v])
        | .ok y => (y.2 = ts ∧ (c.Unknown (45 :: x.1 :: w) ∨ ∃ acts, c.Group [45 :: x.1 :: w] acts)) ∨
            ∃ v, ts = (v, .arg) :: y.2 ∧ (c.ArgWord v → ∃ acts, c.Group [45 :: x.1 :: w, v] acts))
      have hnohelp : (∀ g ∈ fs, g ∈ c.flags) → ¬ ∃ v, (Opt.help, v) ∈ fs.map fun f => (f.2, ([] : PStr)) := by
        rintro hf ⟨v, hv⟩
        obtain ⟨g, hg, e⟩ := List.mem_map.1 hv
        simp at e
        exact (flag_takes c (hf g hg)).2.2 e.1
      cases ht : takeActs { r with extras := r.extras ++ extra.toList } acts with
      | error z =>
        cases z with
        | error => exact True.intro
        | help =>
          obtain ⟨v, hv⟩ := takeActs_error ht
          have hh : ∃ gs hs, fs.map (·.1) = gs ++ 104 :: hs ∧ ∀ x ∈ gs ++ hs, c.FlagLetter x := by
            rcases gflags_split hgs with hf | ⟨_, hf⟩
            · exfalso
              rcases h' with ⟨_, _, _, _, k⟩ | ⟨l, o, v', k0, _, k, _⟩ | ⟨_, _, _, _, _, _, _, _, k⟩
              · rw [k] at hv; exact hnohelp hf ⟨v, by simpa using hv⟩
              · rw [k] at hv
                simp only [List.nil_append, List.mem_append, List.mem_singleton] at hv
                rcases hv with hv | hv
                · exact hnohelp hf ⟨v, hv⟩
                · simp at hv
                  exact (valued_takes c k0).2 hv.1.symm
              · rw [k] at hv; exact hnohelp hf ⟨v, by simpa using hv⟩
            · exact hf
          obtain ⟨gs, hs', hmap, hfl⟩ := hh
          show c.Help [45 :: x.1 :: w] ∨ ∃ v ts', ts = (v, .arg) :: ts' ∧ (c.ArgWord v → c.Help [45 :: x.1 :: w, v])
          rcases h' with ⟨_, _, _, k, _⟩ | ⟨l, o, v', k0, _, _, k⟩ | ⟨y, t, _, _, k1, k2, k, _, _⟩
          · left; rw [k, hmap]; exact .letters hfl
          · rcases k with ⟨_, k1, k2⟩ | ⟨_, k1, k2, k3⟩ | ⟨_, k1⟩
            · right
              obtain ⟨ts', rfl⟩ := nextArg_some k1
              refine ⟨v', ts', rfl, fun hw => ?_⟩
              rw [k2, hmap, List.append_assoc, List.cons_append]
              exact .next hfl k0 hw
            · left
              rw [k3, hmap, List.append_assoc, List.cons_append]
              exact .joined hfl k0 k1
            · left
              rw [k1, hmap, List.append_assoc, List.cons_append]
              exact .joined hfl k0 (by simp)
          · left
            rw [k, hmap, List.append_assoc, List.cons_append]
            exact .after hfl k1 k2
      | ok r1 =>
        obtain ⟨_, _, _, h4⟩ := takeActs_inv ht
        have hf : ∀ g ∈ fs, g ∈ c.flags := by
          intro g hg
          rcases List.mem_cons.1 (hgs g hg) with rfl | h
          · have hm : (Opt.help, ([] : PStr)) ∈ fs.map fun f => (f.2, []) := List.mem_map.2 ⟨_, hg, rfl⟩
            exfalso
            rcases h' with ⟨_, _, _, _, k⟩ | ⟨l, o, v', k0, _, k, _⟩ | ⟨_, _, _, _, _, _, _, _, k⟩
            · exact (h4 (.help, []) (by rw [k]; exact hm)).2 rfl
            · exact (h4 _ (by rw [k]; exact List.mem_append_right _ (List.mem_append_left _ hm))).2 rfl
            · exact (h4 (.help, []) (by rw [k]; exact hm)).2 rfl
          · exact h
        show ((if used then ts.drop 1 else ts) = ts ∧ (c.Unknown (45 :: x.1 :: w) ∨ ∃ acts, c.Group [45 :: x.1 :: w] acts)) ∨
            ∃ v, ts = (v, .arg) :: (if used then ts.drop 1 else ts) ∧ (c.ArgWord v → ∃ acts, c.Group [45 :: x.1 :: w, v] acts)
        rcases h' with ⟨rfl, _, k0, k, _⟩ | ⟨l, o, v', k0, _, k, k'⟩ | ⟨y, t, rfl, k0, k1, k2, k, _, _⟩
        · left; rw [k]; exact ⟨rfl, .inr ⟨_, .flags k0 hf⟩⟩
        · have hv : o.Allows v' := (h4 (o, v') (by rw [k]; simp)).1
          rcases k' with ⟨rfl, k1, k2⟩ | ⟨rfl, k1, k2, k3⟩ | ⟨rfl, k1⟩
          · right
            obtain ⟨ts', rfl⟩ := nextArg_some k1
            refine ⟨v', rfl, fun hw => ?_⟩
            rw [k2]
            exact ⟨_, .next hf k0 hv hw⟩
          · left; rw [k3]; exact ⟨rfl, .inr ⟨_, .joined hf k0 hv k1 k2⟩⟩
          · left; rw [k1]; exact ⟨rfl, .inr ⟨_, .equals hf k0 hv⟩⟩
        · left; rw [k]; exact ⟨rfl, .inl (.after k0 hf k1 k2)⟩
  · rw [hc] at h'
    cases h'
    have hpre := List.prefix_iff_eq_take.1 ha
    have hl : 0 < a.length := List.length_pos_iff.2 hne
    generalize a.length = k at hpre hl
    unfold consumeOptional
    dsimp only
    rcases longName_help hn with ⟨rfl, ho⟩ | ⟨rfl, rfl, ho⟩
    · rw [ho, expandWord_flag rfl]
      left
      have : (45 :: 45 :: a : PStr) = [45, 45, 104, 101, 108, 112].take (k + 2) := by rw [hpre]; rfl
      rw [this]
      exact .long (by omega)
    · rw [ho, expandWord_flag rfl]
      left
      refine ⟨rfl, .inr ⟨[(.version, [])], ?_⟩⟩
      have : (45 :: 45 :: a : PStr) = [45, 45, 118, 101, 114, 115, 105, 111, 110].take (k + 2) := by rw [hpre]; rfl
      rw [this]
      exact .version rfl (by omega)
  · rw [hc] at h'; cases h'
  · rw [hc] at h'
    cases h'
    have : expandWord c.parser (nextArg ts) (longOpt n) (45 :: 45 :: n) [] (some (true, b)) = .error .error := by
      rw [expandWord.eq_def]
      have ht : (longOpt n).takes = false := by unfold longOpt; split <;> rfl
      simp only [ht, Bool.false_eq_true, if_false]
      split
      · rfl
      · rw [if_pos (by simp)]
    unfold consumeOptional
    dsimp only
    rw [this]
    exact True.intro
  · rw [hc] at h'
    cases h'
    exact hun hu

theorem noLetter_iff {c : Command} {x : Nat} (h : c.NoLetter x) : x ≠ 45 ∧ x ≠ 104 ∧ ∀ o, (x, o) ∉ c.letters :=
  ⟨h.1, h.2.1, letters_iff.1 h.2.2⟩

theorem gfind {c : Command} {x : Nat × Opt} (h : x ∈ c.gletters) : c.parser.find [45, x.1] = some x.2 := by
  rcases List.mem_cons.1 h with rfl | h
  · cases c <;> rfl
  · exact find_letter c h

theorem gletters_ne {c : Command} {x : Nat × Opt} (h : x ∈ c.gletters) : x.1 ≠ 45 ∧ x.1 ≠ 61 := by
  rcases List.mem_cons.1 h with rfl | h
  · decide
  · exact ⟨(letter_ne c h).1, (letter_ne c h).2.1⟩

theorem gclassify {c : Command} {x : Nat × Opt} (h : x ∈ c.gletters) (s : PStr) :
    c.parser.classify (45 :: x.1 :: s) = some (.opt (some (x.2, [45, x.1])) (explicitOf s)) := by
  rcases List.mem_cons.1 h with rfl | h
  · exact classify_help c s
  · exact classify_letter c h s

/-- The options in a word, letter by letter, with `-h`. -/
theorem expandWord_gflags (c : Command) (next : Option PStr) : ∀ (fs : List (Nat × Opt)) (x : Nat × Opt) (s : PStr) (done : List (Opt × PStr)),
    (∀ f ∈ fs, f ∈ c.gflags) → x ∈ c.gletters →
    ∃ y ∈ c.gletters, ∃ r, fs.map (·.1) ++ x.1 :: s = y.1 :: r ∧ (∀ (f : Nat × Opt) (fs' : List (Nat × Opt)), fs = f :: fs' → y = f) ∧ (fs = [] → y = x) ∧
      expandWord c.parser next y.2 [45, y.1] done (explicitOf r) =
        expandWord c.parser next x.2 [45, x.1] (done ++ fs.map fun f => (f.2, [])) (explicitOf s)
  | [], x, s, done, _, hx => ⟨x, hx, s, rfl, by simp, fun _ => rfl, by simp⟩
  | f :: fs, x, s, done, hf, hx => by
    obtain ⟨y, hy, r, hr, _, _, he⟩ := expandWord_gflags c next fs x s (done ++ [(f.2, [])]) (fun g hg => hf g (List.mem_cons_of_mem _ hg)) hx
    have hff := hf f (List.mem_cons_self ..)
    refine ⟨f, gletters_mem.2 (.inl hff), fs.map (·.1) ++ x.1 :: s, rfl, fun g gs h => by cases h; rfl, nofun, ?_⟩
    have e : done ++ [(f.2, [])] ++ fs.map (fun f => (f.2, ([] : PStr))) = done ++ (f :: fs).map fun f => (f.2, []) := by simp
    rw [hr, explicitOf_cons (gletters_ne hy).2, expandWord_more (gflags_takes hff).1 (gflags_takes hff).2.1, if_neg (gletters_ne hy).1, gfind hy]
    dsimp only
    rw [he, e]

/-- Letters of flags and `h`, and what comes after them. -/
theorem letters_word (c : Command) {fs : List (Nat × Opt)} (hfs : ∀ f ∈ fs, f ∈ c.gflags) {x : Nat × Opt} (hx : x ∈ c.gletters) (s : PStr) :
    ∃ o e, (45 :: (fs.map (·.1) ++ x.1 :: s) : PStr) ≠ [45, 45] ∧ c.parser.classify (45 :: (fs.map (·.1) ++ x.1 :: s)) = some (.opt (some o) e) ∧
      ∀ next, expandWord c.parser next o.1 o.2 [] e = expandWord c.parser next x.2 [45, x.1] (fs.map fun f => (f.2, [])) (explicitOf s) := by
  obtain ⟨y, hy, r, hr, hy1, hy2, _⟩ := expandWord_gflags c none fs x s [] hfs hx
  refine ⟨(y.2, [45, y.1]), explicitOf r, ?_, ?_, fun next => ?_⟩
  · rw [hr]; simp [(gletters_ne hy).1]
  · rw [hr]; exact gclassify hy r
  · obtain ⟨y', hy', r', hr', hy1', hy2', he⟩ := expandWord_gflags c next fs x s [] hfs hx
    have hyy : y' = y := by
      cases fs with
      | nil => rw [hy2 rfl, hy2' rfl]
      | cons f fs => rw [hy1 f fs rfl, hy1' f fs rfl]
    subst hyy
    rw [hr] at hr'
    cases hr'
    simpa using he

theorem NoLetter.find {c : Command} {y : Nat} (h : c.NoLetter y) : c.parser.find [45, y] = none := by
  obtain ⟨h1, h2, h3⟩ := noLetter_iff h
  exact find_none fun z hz => (no_letter h1 h2 h3 z hz).2 []

theorem expandWord_unknown {c : Command} {x : Nat × Opt} (hx : x ∈ c.gflags) {y : Nat} (hy : c.NoLetter y) (h61 : y ≠ 61) (t : PStr) (next : Option PStr)
    (done : List (Opt × PStr)) : expandWord c.parser next x.2 [45, x.1] done (explicitOf (y :: t)) =
      .ok (done ++ [(x.2, [])], some (45 :: y :: t), false) := by
  rw [explicitOf_cons h61, expandWord_more (gflags_takes hx).1 (gflags_takes hx).2.1, if_neg hy.1, NoLetter.find hy]

/-- What an option word that is not known does. -/
theorem Command.Unknown.step {c : Command} {s : PStr} (h : c.Unknown s) :
    s ≠ [45, 45] ∧ ∃ o e, c.parser.classify s = some (.opt o e) ∧ ∀ r ts, ∃ r', consumeOptional c.parser r s o e ts = .ok (r', ts) := by
  cases h with
  | @short x w h1 h2 h3 =>
    obtain ⟨k1, k2, k3⟩ := noLetter_iff h1
    refine ⟨by simp [k1], none, none, ?_, fun r ts => ⟨_, rfl⟩⟩
    rw [classify_odd k1 k2 k3, if_neg fun h => h2 ((looksNegative_iff _).1 h), if_neg (by simpa using h3)]
  | @long a b h1 h2 h3 h4 =>
    refine ⟨?_, none, none, ?_, fun r ts => ⟨_, rfl⟩⟩
    · intro h
      simp at h
      obtain ⟨rfl, rfl⟩ := h
      cases c <;> exact h4 [104, 101, 108, 112] (by simp [Command.longNames]) (by simp)
    · rw [classify_long_odd h2 h3 h4, if_neg h1]
  | @after fs y w hne hf hy h61 =>
    obtain ⟨fs', x, rfl⟩ : ∃ fs' x, fs = fs' ++ [x] := ⟨fs.dropLast, fs.getLast hne, (List.dropLast_concat_getLast hne).symm⟩
    have hx : x ∈ c.flags := hf x (by simp)
    have hgx : x ∈ c.gflags := List.mem_cons_of_mem _ hx
    obtain ⟨o, e, h1, h2, h3⟩ := letters_word c (fs := fs') (fun f hf' => List.mem_cons_of_mem _ (hf f (List.mem_append_left _ hf')))
      (gletters_mem.2 (.inl hgx)) (y :: w)
    have hw : (fs' ++ [x]).map (·.1) ++ y :: w = fs'.map (·.1) ++ x.1 :: y :: w := by simp
    rw [hw]
    refine ⟨h1, some o, e, h2, fun r ts => ?_⟩
    unfold consumeOptional
    dsimp only
    rw [h3, expandWord_unknown hgx hy h61]
    have ht : ∀ r : Parsed, ∃ r', takeActs r ((fs'.map fun f => (f.2, ([] : PStr))) ++ [(x.2, [])]) = .ok r' := by
      intro r
      refine ⟨_, takeActs_ok r ?_⟩
      intro a ha
      have : ∃ f ∈ fs' ++ [x], a = (f.2, []) := by
        rcases List.mem_append.1 ha with ha | ha
        · obtain ⟨f, hf', rfl⟩ := List.mem_map.1 ha
          exact ⟨f, List.mem_append_left _ hf', rfl⟩
        · simp at ha; exact ⟨x, by simp, ha⟩
      obtain ⟨f, hf', rfl⟩ := this
      exact ⟨flag_allows c (hf f hf'), (flag_takes c (hf f hf')).2.2⟩
    obtain ⟨r', hr'⟩ := ht { r with extras := r.extras ++ [45 :: y :: w] }
    refine ⟨r', ?_⟩
    show (do
        let r' ← takeActs { r with extras := r.extras ++ (some (45 :: y :: w) : Option PStr).toList } _
        pure (r', if false then ts.drop 1 else ts) : Except Stop (Parsed × List (PStr × Tok))) = _
    rw [show (some (45 :: y :: w) : Option PStr).toList = [45 :: y :: w] from rfl, hr']
    rfl

/-- What a word that asks for help does. -/
theorem Command.Help.step {c : Command} {ws : List PStr} (h : c.Help ws) :
    ∃ ts : List (PStr × Tok), (∃ x, ts.head? = some x ∧ x.2.isOpt = true) ∧
      (∀ rest, c.parser.classifyAll (ws ++ rest) = (c.parser.classifyAll rest).map (ts ++ ·)) ∧
      ∀ fuel r rest, parseLoop c.parser (fuel + 1) r (ts ++ rest) = .error .help := by
  have hstep : ∀ (s : PStr) (o : Opt × PStr) (e : Option (Bool × PStr)) (tl rest : List (PStr × Tok)) (fuel : Nat) (r : Parsed),
      (∃ acts extra used, expandWord c.parser (nextArg (tl ++ rest)) o.1 o.2 [] e = .ok (acts, extra, used) ∧
        ∀ r, takeActs r acts = .error .help) →
      parseLoop c.parser (fuel + 1) r ((s, .opt (some o) e) :: tl ++ rest) = .error .help := by
    rintro s o e tl rest fuel r ⟨acts, extra, used, he, ht⟩
    rw [List.cons_append, parseLoop_opt]
    simp only [consumeOptional]
    rw [he]
    show (do
      let x ← (do
        let r' ← takeActs { r with extras := r.extras ++ extra.toList } acts
        pure (r', if used then (tl ++ rest).drop 1 else tl ++ rest))
      parseLoop c.parser fuel x.1 x.2 : Except Stop Parsed) = _
    rw [ht]
    rfl
  have hg : ∀ {fs hs : PStr}, (∀ x ∈ fs ++ hs, c.FlagLetter x) → ∃ gs : List (Nat × Opt), gs.map (·.1) = fs ++ 104 :: hs ∧
      (∀ g ∈ gs, g ∈ c.gflags) ∧ (104, Opt.help) ∈ gs := by
    intro fs hs h
    obtain ⟨g1, h1, k1⟩ := flagLetters (c := c) (l := fs) fun x hx => h x (List.mem_append_left _ hx)
    obtain ⟨g2, h2, k2⟩ := flagLetters (c := c) (l := hs) fun x hx => h x (List.mem_append_right _ hx)
    refine ⟨g1 ++ (104, .help) :: g2, by simp [h1, h2], ?_, by simp⟩
    intro g hg
    rcases List.mem_append.1 hg with hg | hg
    · exact k1 g hg
    · rcases List.mem_cons.1 hg with rfl | hg
      · exact List.mem_cons_self ..
      · exact k2 g hg
  have htk : ∀ {gs : List (Nat × Opt)}, (∀ g ∈ gs, g ∈ c.gflags) → (104, Opt.help) ∈ gs → ∀ (tl : List (Opt × PStr)) (r : Parsed),
      takeActs r ((gs.map fun g => (g.2, ([] : PStr))) ++ tl) = .error .help := fun h1 h2 tl r => takeActs_gflags r tl h1 h2
  cases h with
  | @letters fs hs hfl =>
    obtain ⟨gs, hmap, hgs, hh⟩ := hg hfl
    have hne : gs ≠ [] := List.ne_nil_of_mem hh
    obtain ⟨gs', x, rfl⟩ : ∃ fs' x, gs = fs' ++ [x] := ⟨gs.dropLast, gs.getLast hne, (List.dropLast_concat_getLast hne).symm⟩
    have hx : x ∈ c.gflags := hgs x (by simp)
    obtain ⟨o, e, h1, h2, h3⟩ := letters_word c (fs := gs') (fun f hf' => hgs f (List.mem_append_left _ hf')) (gletters_mem.2 (.inl hx)) []
    have hw : fs ++ 104 :: hs = gs'.map (·.1) ++ x.1 :: [] := by rw [← hmap]; simp
    rw [hw]
    refine ⟨[(_, .opt (some o) e)], ⟨_, rfl, rfl⟩, fun rest => classifyAll_cons h1 h2 rest, fun fuel r rest => hstep _ o e [] rest fuel r ?_⟩
    refine ⟨_, _, _, by rw [h3, explicitOf, expandWord_flag (gflags_takes hx).1], fun r => ?_⟩
    have := htk hgs hh [] r
    simpa using this
  | @next fs hs l o' v hfl hl hv =>
    obtain ⟨gs, hmap, hgs, hh⟩ := hg hfl
    obtain ⟨o, e, h1, h2, h3⟩ := letters_word c hgs (x := (l, o')) (gletters_mem.2 (.inr hl)) []
    have hw : fs ++ 104 :: (hs ++ [l]) = gs.map (·.1) ++ l :: [] := by rw [hmap]; simp
    rw [hw]
    refine ⟨[(45 :: (gs.map (·.1) ++ [l]), .opt (some o) e), (v, .arg)], ⟨_, rfl, rfl⟩, fun rest => ?_, fun fuel r rest => hstep _ o e [(v, .arg)] rest fuel r ?_⟩
    · refine (classifyAll_cons h1 h2 (v :: rest)).trans ?_
      rw [classifyAll_cons hv.dashes hv.classify rest]
      cases c.parser.classifyAll rest <;> rfl
    · refine ⟨_, _, _, by rw [h3]; exact expandWord_next (valued_takes c hl).1, htk hgs hh _⟩
  | @joined fs hs l o' v hfl hl hne =>
    obtain ⟨gs, hmap, hgs, hh⟩ := hg hfl
    obtain ⟨o, e, h1, h2, h3⟩ := letters_word c hgs (x := (l, o')) (gletters_mem.2 (.inr hl)) v
    have hw : fs ++ 104 :: (hs ++ l :: v) = gs.map (·.1) ++ l :: v := by rw [hmap]; simp
    rw [hw]
    refine ⟨[(_, .opt (some o) e)], ⟨_, rfl, rfl⟩, fun rest => classifyAll_cons h1 h2 rest, fun fuel r rest => hstep _ o e [] rest fuel r ?_⟩
    obtain ⟨sep, w, hsw⟩ : ∃ sep w, explicitOf v = some (sep, w) := by
      cases v with
      | nil => exact absurd rfl hne
      | cons y t =>
        by_cases hy : y = 61
        · subst hy; exact ⟨_, _, rfl⟩
        · exact ⟨_, _, explicitOf_cons hy⟩
    refine ⟨_, _, _, by rw [h3, hsw]; exact expandWord_explicit (valued_takes c hl).1, htk hgs hh _⟩
  | @after fs hs y t hfl hy h61 =>
    obtain ⟨gs, hmap, hgs, hh⟩ := hg hfl
    have hne : gs ≠ [] := List.ne_nil_of_mem hh
    obtain ⟨gs', x, rfl⟩ : ∃ fs' x, gs = fs' ++ [x] := ⟨gs.dropLast, gs.getLast hne, (List.dropLast_concat_getLast hne).symm⟩
    have hx : x ∈ c.gflags := hgs x (by simp)
    obtain ⟨o, e, h1, h2, h3⟩ := letters_word c (fs := gs') (fun f hf' => hgs f (List.mem_append_left _ hf')) (gletters_mem.2 (.inl hx)) (y :: t)
    have hw : fs ++ 104 :: (hs ++ y :: t) = gs'.map (·.1) ++ x.1 :: y :: t := by
      have : fs ++ 104 :: (hs ++ y :: t) = (fs ++ 104 :: hs) ++ y :: t := by simp
      rw [this, ← hmap]; simp
    rw [hw]
    refine ⟨[(_, .opt (some o) e)], ⟨_, rfl, rfl⟩, fun rest => classifyAll_cons h1 h2 rest, fun fuel r rest => hstep _ o e [] rest fuel r ?_⟩
    refine ⟨_, _, _, by rw [h3, expandWord_unknown hx hy h61], fun r => ?_⟩
    have := htk hgs hh [] r
    simpa using this
  | @long n hn =>
    have hcl : c.parser.classify ([45, 45, 104, 101, 108, 112].take n) = some (.opt (some (.help, [45, 45, 104, 101, 108, 112])) none) ∧
        ([45, 45, 104, 101, 108, 112] : PStr).take n ≠ [45, 45] := by
      by_cases h6 : 6 ≤ n
      · rw [List.take_of_length_le (by simpa using h6)]
        exact ⟨by cases c <;> rfl, by decide⟩
      · have : n = 3 ∨ n = 4 ∨ n = 5 := by omega
        rcases this with h | h | h <;> subst h <;> exact ⟨by cases c <;> rfl, by decide⟩
    refine ⟨[(_, .opt (some (.help, [45, 45, 104, 101, 108, 112])) none)], ⟨_, rfl, rfl⟩, fun rest => classifyAll_cons hcl.2 hcl.1 rest,
      fun fuel r rest => hstep _ _ _ [] rest fuel r ⟨_, _, _, expandWord_flag rfl, fun r => rfl⟩⟩

end Sudachi
