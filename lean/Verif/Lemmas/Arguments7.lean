import Verif.Lemmas.Arguments6
namespace Sudachi

/-- A block of arguments before an option. -/
theorem parseLoop_block (c : Command) {block : List PStr} (hb : ∀ f ∈ block, c.ArgWord f) (r : Parsed) {t : List (PStr × Tok)}
    (ht : ∃ x, t.head? = some x ∧ x.2.isOpt = true) {fuel : Nat} (hf : (argToks block ++ t).length ≤ fuel) :
    ∃ fuel' r', t.length ≤ fuel' ∧ parseLoop c.parser fuel r (argToks block ++ t) = parseLoop c.parser fuel' r' t := by
  by_cases hne : block = []
  · subst hne; exact ⟨fuel, r, hf, rfl⟩
  · obtain ⟨a, f, e⟩ := r
    cases f with
    | none =>
      obtain ⟨g, h1, h2⟩ := parseLoop_files c hb hne a e (.inr ht) hf
      exact ⟨g, _, h1, h2⟩
    | some fs =>
      obtain ⟨g, h1, h2⟩ := parseLoop_more c hne a fs e (.inr ht) hf
      exact ⟨g, _, h1, h2⟩

/-- When a parser prints its help. -/
theorem parseLoop_help (c : Command) : ∀ (n fuel : Nat) (r : Parsed) (ss : List PStr) (ts : List (PStr × Tok)),
    c.parser.classifyAll ss = some ts → ts.length = n → ts.length ≤ fuel → parseLoop c.parser fuel r ts = .error .help →
    ∃ w1 w w2, ss = w1 ++ w ++ w2 ∧ c.Passes w1 ∧ c.Help w := by
  intro n
  induction n using Nat.strongRecOn with
  | ind n ih =>
    intro fuel r ss ts hcl hn hl h
    by_cases hany : (ts.any fun x => x.2.isOpt) = true
    · obtain ⟨block, rest, ts', rfl, h1, rfl, h3, x, hx1, hx2⟩ := first_option hcl hany
      obtain ⟨g, r', hg, he⟩ := parseLoop_block c h1 r ⟨x, hx1, hx2⟩ hl
      rw [he] at h
      have hpass : ∀ {w : List PStr}, c.Passes w → c.Passes (block ++ w) := by
        intro w hw
        clear hcl hany hl he hn
        induction block with
        | nil => exact hw
        | cons s block ihb => exact .arg (h1 s (List.mem_cons_self ..)) (ihb fun f hf => h1 f (List.mem_cons_of_mem _ hf))
      have key : ∃ w1 w w2, rest = w1 ++ w ++ w2 ∧ c.Passes w1 ∧ c.Help w := by
        cases ts' with
        | nil => cases hx1
        | cons p ts =>
          obtain ⟨s, t⟩ := p
          cases hx1
          obtain ⟨o, e, rfl⟩ : ∃ o e, t = .opt o e := by cases t <;> simp [Tok.isOpt] at hx2 ⊢
          obtain ⟨ss', rfl, ⟨_, h', _⟩ | ⟨hs, hc, hcl'⟩⟩ := classifyAll_inv h3
          · cases h'
          cases g with
          | zero => simp at hg
          | succ g =>
            have hlen : ts.length < n := by simp [argToks] at hn; omega
            rw [parseLoop_opt] at h
            have hall := consumeOptional_all hs hc r' ts
            cases hco : consumeOptional c.parser r' s o e ts with
            | error y =>
              rw [hco] at h hall
              cases h
              rcases hall with hh | ⟨v, ts', rfl, hh⟩
              · exact ⟨[], [s], ss', by simp, .nil, hh⟩
              · obtain ⟨ss'', rfl, ⟨_, h', _⟩ | ⟨hs', hc', _⟩⟩ := classifyAll_inv hcl'
                · cases h'
                exact ⟨[], [s, v], ss'', by simp, .nil, hh (argWord_iff hs' hc')⟩
            | ok y =>
              rw [hco] at h hall
              change parseLoop c.parser g y.1 y.2 = .error .help at h
              rcases hall with ⟨h2, hh⟩ | ⟨v, h2, hh⟩
              · obtain ⟨w1, w, w2, k1, k2, k3⟩ := ih y.2.length (by rw [h2]; exact hlen) g y.1 ss' y.2 (by rw [h2]; exact hcl') rfl (by rw [h2]; simp at hg; omega) h
                rcases hh with hu | ⟨acts, hgr⟩
                · exact ⟨s :: w1, w, w2, by rw [k1]; simp, .unknown hu k2, k3⟩
                · exact ⟨[s] ++ w1, w, w2, by rw [k1]; simp, .group hgr k2, k3⟩
              · rw [h2] at hcl'
                obtain ⟨ss'', rfl, ⟨_, h', _⟩ | ⟨hs', hc', hcl''⟩⟩ := classifyAll_inv hcl'
                · cases h'
                obtain ⟨acts, hgr⟩ := hh (argWord_iff hs' hc')
                obtain ⟨w1, w, w2, k1, k2, k3⟩ := ih y.2.length (by rw [h2] at hlen; simp at hlen; omega) g y.1 ss'' y.2 hcl'' rfl
                  (by rw [h2] at hg; simp at hg; omega) h
                exact ⟨[s, v] ++ w1, w, w2, by rw [k1]; simp, .group hgr k2, k3⟩
      obtain ⟨w1, w, w2, rfl, k2, k3⟩ := key
      exact ⟨block ++ w1, w, w2, by simp, hpass k2, k3⟩
    · rw [parseLoop_end c.parser _ r (by simpa using hany)] at h
      cases h

/-- Words that come before help do not matter. -/
theorem Command.Passes.help {c : Command} {w1 w w2 : List PStr} (h : c.Passes w1) (hw : c.Help w) : ∀ (block : List PStr) (ts : List (PStr × Tok))
    (fuel : Nat) (r : Parsed), (∀ f ∈ block, c.ArgWord f) → c.parser.classifyAll (block ++ (w1 ++ (w ++ w2))) = some ts → ts.length ≤ fuel →
    parseLoop c.parser fuel r ts = .error .help := by
  have hblock : ∀ {block rest : List PStr} {ts : List (PStr × Tok)} {t0 : List (PStr × Tok)}, (∀ f ∈ block, c.ArgWord f) →
      c.parser.classifyAll (block ++ rest) = some ts → c.parser.classifyAll rest = some t0 → ts = argToks block ++ t0 := by
    intro block rest ts t0 hb h1 h2
    rw [classifyAll_plain c rest hb, h2] at h1
    exact (Option.some.inj h1).symm
  have hrest : ∀ {block rest : List PStr} {ts : List (PStr × Tok)}, (∀ f ∈ block, c.ArgWord f) →
      c.parser.classifyAll (block ++ rest) = some ts → ∃ t0, c.parser.classifyAll rest = some t0 := by
    intro block rest ts hb h1
    rw [classifyAll_plain c rest hb] at h1
    cases h2 : c.parser.classifyAll rest with
    | none => rw [h2] at h1; cases h1
    | some t0 => exact ⟨t0, rfl⟩
  induction h with
  | nil =>
    intro block ts fuel r hb hcl hl
    obtain ⟨t0, h0⟩ := hrest hb hcl
    have e := hblock hb hcl h0
    subst e
    obtain ⟨tw, ⟨x, hx1, hx2⟩, hcw, hst⟩ := hw.step
    rw [List.nil_append, hcw] at h0
    cases h2 : c.parser.classifyAll w2 with
    | none => rw [h2] at h0; cases h0
    | some t2 =>
      rw [h2] at h0
      cases h0
      have hhead : ∃ x, (tw ++ t2).head? = some x ∧ x.2.isOpt = true := by
        cases tw with
        | nil => cases hx1
        | cons a b => exact ⟨x, hx1, hx2⟩
      obtain ⟨g, r', hg, he⟩ := parseLoop_block c hb r hhead hl
      rw [he]
      cases g with
      | zero =>
        cases tw with
        | nil => cases hx1
        | cons a b => simp at hg
      | succ g => exact hst g r' t2
  | @arg s ws hs _ ih =>
    intro block ts fuel r hb hcl hl
    refine ih (block ++ [s]) ts fuel r ?_ (by simpa using hcl) hl
    intro f hf
    rcases List.mem_append.1 hf with hf | hf
    · exact hb f hf
    · simp at hf; subst hf; exact hs
  | @group ws ws' acts hgr _ ih =>
    intro block ts fuel r hb hcl hl
    rw [List.append_assoc] at hcl
    obtain ⟨t0, h0⟩ := hrest hb hcl
    have e := hblock hb hcl h0
    subst e
    obtain ⟨tg, hne, _, ⟨x, hx1, hx2⟩, hcg, hst⟩ := hgr.step
    rw [hcg] at h0
    cases h2 : c.parser.classifyAll (ws' ++ (w ++ w2)) with
    | none => rw [h2] at h0; cases h0
    | some t2 =>
      rw [h2] at h0
      cases h0
      have hhead : ∃ x, (tg ++ t2).head? = some x ∧ x.2.isOpt = true := by
        cases tg with
        | nil => cases hx1
        | cons a b => exact ⟨x, hx1, hx2⟩
      obtain ⟨g, r', hg, he⟩ := parseLoop_block c hb r hhead hl
      rw [he]
      have hpos : 0 < tg.length := List.length_pos_iff.2 hne
      cases g with
      | zero => exact absurd (List.append_eq_nil_iff.1 (List.length_eq_zero_iff.1 (Nat.le_zero.1 hg))).1 hne
      | succ g =>
        rw [hst]
        exact ih [] t2 g _ (by simp) h2 (by simp at hg; omega)
  | @unknown s ws hu _ ih =>
    intro block ts fuel r hb hcl hl
    obtain ⟨t0, h0⟩ := hrest hb hcl
    have e := hblock hb hcl h0
    subst e
    obtain ⟨hs, o, e, hc, hst⟩ := hu.step
    rw [List.cons_append, classifyAll_cons hs hc] at h0
    cases h2 : c.parser.classifyAll (ws ++ (w ++ w2)) with
    | none => rw [h2] at h0; cases h0
    | some t2 =>
      rw [h2] at h0
      cases h0
      obtain ⟨g, r', hg, he⟩ := parseLoop_block c hb r (t := (s, .opt o e) :: t2) ⟨_, rfl, rfl⟩ hl
      rw [he]
      cases g with
      | zero => simp at hg
      | succ g =>
        rw [parseLoop_opt]
        obtain ⟨r'', hr⟩ := hst r' t2
        rw [hr]
        exact ih [] t2 g _ (by simp) h2 (by simp at hg; omega)

theorem classify_none {c : Command} {s : PStr} (hs : s ≠ [45, 45]) : c.parser.classify s = none ↔ c.Ambiguous s := by
  constructor
  · intro h
    rcases word_cases c hs with ⟨_, h'⟩ | ⟨x, w, _, _, h'⟩ | ⟨n, a, _, _, _, _, h'⟩ | ⟨n, a, b, _, _, rfl, ⟨rfl, rfl, h'⟩ | h'⟩ | ⟨_, h'⟩
    · rw [h] at h'; cases h'
    · rw [h] at h'; cases h'
    · rw [h] at h'; cases h'
    · exact ⟨rfl, ⟨b, rfl⟩⟩
    · rw [h] at h'; cases h'
    · rw [h] at h'; cases h'
  · rintro ⟨rfl, b, rfl⟩
    rfl

theorem classifyAll_none {c : Command} : ∀ {ss : List PStr}, c.parser.classifyAll ss = none ↔
    ∃ w1 s w2, ss = w1 ++ s :: w2 ∧ [45, 45] ∉ w1 ∧ c.Ambiguous s
  | [] => by simp [ArgParser.classifyAll]
  | s :: ss => by
    by_cases hs : s = [45, 45]
    · rw [ArgParser.classifyAll, if_pos hs]
      simp only [reduceCtorEq, false_iff]
      rintro ⟨w1, x, w2, h1, h2, _, b, rfl⟩
      cases w1 with
      | nil => simp at h1; rw [h1.1] at hs; simp at hs
      | cons y w1 => simp at h1; rw [h1.1] at hs; exact h2 (by simp [hs])
    · constructor
      · intro h
        cases hc : c.parser.classify s with
        | none => exact ⟨[], s, ss, rfl, by simp, (classify_none hs).1 hc⟩
        | some t =>
          rw [classifyAll_cons hs hc, Option.map_eq_none_iff, classifyAll_none] at h
          obtain ⟨w1, x, w2, rfl, h2, h3⟩ := h
          exact ⟨s :: w1, x, w2, rfl, by simp [h2]; exact fun h => hs h.symm, h3⟩
      · rintro ⟨w1, x, w2, h1, h2, h3⟩
        cases hc : c.parser.classify s with
        | none => rw [ArgParser.classifyAll, if_neg hs, hc]; rfl
        | some t =>
          cases w1 with
          | nil =>
            simp at h1
            rw [← h1.1, ← classify_none hs, hc] at h3
            cases h3
          | cons y w1 =>
            simp at h1
            obtain ⟨rfl, rfl⟩ := h1
            rw [classifyAll_cons hs hc, Option.map_eq_none_iff, classifyAll_none]
            exact ⟨w1, x, w2, rfl, fun h => h2 (List.mem_cons_of_mem _ h), h3⟩

/-- When a parser prints its help. -/
theorem parse_help (c : Command) (ws : List PStr) : c.parser.parse ws = .error .help ↔ c.AsksHelp ws := by
  unfold ArgParser.parse Command.AsksHelp
  cases hcl : c.parser.classifyAll ws with
  | none =>
    simp only [Except.error.injEq, reduceCtorEq, false_iff]
    rintro ⟨_, h⟩
    obtain ⟨w1, s, w2, h1, h2, h3⟩ := classifyAll_none.1 hcl
    exact h w1 s w2 h1 h2 h3
  | some ts =>
    have hamb : ∀ w1 s w2, ws = w1 ++ s :: w2 → [45, 45] ∉ w1 → ¬ c.Ambiguous s := by
      intro w1 s w2 h1 h2 h3
      rw [classifyAll_none.2 ⟨w1, s, w2, h1, h2, h3⟩] at hcl
      cases hcl
    constructor
    · intro h
      exact ⟨parseLoop_help c _ _ _ ws ts hcl rfl (Nat.le_refl _) h, hamb⟩
    · rintro ⟨⟨w1, w, w2, rfl, h1, h2⟩, _⟩
      rw [List.append_assoc] at hcl
      exact h1.help h2 [] ts _ _ (by simp) hcl (Nat.le_refl _)

end Sudachi
