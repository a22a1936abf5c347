/-
C53: the output of the tokenize command.
-/
import Verif.Lemmas.CommandLine
namespace Sudachi

theorem blocks_of_run {T : Tokenizer} (hp : T.PluginsOk) (hlex : T.lex.Ok) {g : Grammar} {mode : Mode} {all : Bool} :
    ∀ (lines : List PStr) (L : Lattice) (out : List PStr) (r : Res Unit), T.CleanHistory L →
      runLines T g mode all L lines = (out, r) →
      (r = .ok () → ∃ blocks, BlocksOf T g mode all lines blocks ∧ out = blocks.flatten) ∧
      (∀ e, r = .error e → ∃ before line after blocks part body, lines = before ++ line :: after ∧
        BlocksOf T g mode all before blocks ∧ out = blocks.flatten ++ part ∧ Chomped line body ∧
        (((T.tokenize Lattice.init body (some mode)).2 = .error e ∧ part = []) ∨
         ∃ ml, (T.tokenize Lattice.init body (some mode)).2 = .ok ml ∧ part.length < ml.len ∧
          (∀ i l, part[i]? = some l → LineOf g T.lex ml all i l) ∧ ∀ l, ¬ LineOf g T.lex ml all part.length l)) := by
  intro lines
  induction lines with
  | nil =>
    intro L out r _ h
    injection h with h1 h2
    subst h1 h2
    exact ⟨fun _ => ⟨[], trivial, rfl⟩, fun e h => (by cases h)⟩
  | cons line lines ih =>
    intro L out r hL h
    unfold runLines at h
    have hst := C18_stateless T hp hlex L hL (rstripNewline line) (some mode)
    cases ht : T.tokenize L (rstripNewline line) (some mode) with
    | mk L' res =>
      rw [ht] at h hst
      cases res with
      | error e =>
        injection h with h1 h2
        subst h1 h2
        refine ⟨fun h => (by cases h), ?_⟩
        intro e' he'
        injection he' with he'
        subst he'
        exact ⟨[], line, lines, [], [], rstripNewline line, rfl, trivial, rfl, chomped_rstrip line, .inl ⟨hst.symm, rfl⟩⟩
      | ok ml =>
        dsimp only at h
        cases hpr : printMorphemes g T.lex ml all ml.iter with
        | mk out1 r1 =>
          rw [hpr] at h
          obtain ⟨g1, g2, g3, g4⟩ := printMorphemes_out ml.iter out1 r1 hpr
          rw [iter_length] at g1 g3
          have g2' : ∀ i l, out1[i]? = some l → LineOf g T.lex ml all i l := by
            intro i l hi
            have hlt : i < ml.len := Nat.lt_of_lt_of_le ((List.getElem?_eq_some_iff.mp hi).1) g1
            exact g2 i i l (iter_getElem ml i hlt) hi
          cases r1 with
          | error e =>
            injection h with h1 h2
            subst h1 h2
            refine ⟨fun h => (by cases h), ?_⟩
            intro e' he'
            injection he' with he'
            subst he'
            obtain ⟨i, hi, hf⟩ := g4 e rfl
            have hlt : out1.length < ml.len := by
              rw [← iter_length]
              exact (List.getElem?_eq_some_iff.mp hi).1
            rw [iter_getElem ml _ hlt] at hi
            injection hi with hi
            subst hi
            exact ⟨[], line, lines, [], out1, rstripNewline line, rfl, trivial, rfl, chomped_rstrip line,
              .inr ⟨ml, hst.symm, hlt, g2', fun l => fieldsOf_none hf l⟩⟩
          | ok u =>
            dsimp only at h
            cases hrest : runLines T g mode all L' lines with
            | mk rest r2 =>
              rw [hrest] at h
              injection h with h1 h2
              subst h1 h2
              obtain ⟨k1, k2⟩ := ih L' rest r2 (.call _ _ hL ht) hrest
              have hb : BlockOf T g mode all line (out1 ++ [lit "EOS"]) :=
                ⟨rstripNewline line, ml, out1, chomped_rstrip line, hst.symm, rfl, g3 rfl, g2'⟩
              have heos : lit "EOS" = [69, 79, 83] := by decide
              constructor
              · intro hr
                obtain ⟨bs, hbs, ho⟩ := k1 hr
                refine ⟨(out1 ++ [lit "EOS"]) :: bs, ⟨hb, hbs⟩, ?_⟩
                rw [List.flatten_cons, ho, heos]
                simp
              · intro e he
                obtain ⟨before, l, after, bs, part, body, q1, q2, q3, q4⟩ := k2 e he
                refine ⟨line :: before, l, after, (out1 ++ [lit "EOS"]) :: bs, part, body, by rw [q1]; rfl, ⟨hb, q2⟩, ?_, q4⟩
                rw [List.flatten_cons, q3, heos]
                simp

/-- **C53**: for each line of input, in order, the command prints the lines of the morphemes of its analysis and then one line
`EOS`; the lines before do not influence it. -/
theorem C53_blocks (T : Tokenizer) (hp : T.PluginsOk) (hlex : T.lex.Ok) (g : Grammar) (mode : Mode) (all : Bool) (L : Lattice)
    (hL : T.CleanHistory L) (lines out : List PStr) (h : runLines T g mode all L lines = (out, .ok ())) :
    ∃ blocks, BlocksOf T g mode all lines blocks ∧ out = blocks.flatten :=
  (blocks_of_run hp hlex lines L out (.ok ()) hL h).1 rfl

/-- **C53**: if there is an exception, the blocks of the lines before have been printed; then nothing, if the line could not
be analysed, or the lines of its morphemes before the first one that cannot be printed, and no `EOS`. -/
theorem C53_interrupted (T : Tokenizer) (hp : T.PluginsOk) (hlex : T.lex.Ok) (g : Grammar) (mode : Mode) (all : Bool) (L : Lattice)
    (hL : T.CleanHistory L) (lines out : List PStr) (e : Err) (h : runLines T g mode all L lines = (out, .error e)) :
    ∃ before line after blocks part body, lines = before ++ line :: after ∧ BlocksOf T g mode all before blocks ∧
      out = blocks.flatten ++ part ∧ Chomped line body ∧
      (((T.tokenize Lattice.init body (some mode)).2 = .error e ∧ part = []) ∨
       ∃ ml, (T.tokenize Lattice.init body (some mode)).2 = .ok ml ∧ part.length < ml.len ∧
        (∀ i l, part[i]? = some l → LineOf g T.lex ml all i l) ∧ ∀ l, ¬ LineOf g T.lex ml all part.length l) :=
  (blocks_of_run hp hlex lines L out (.error e) hL h).2 e rfl

/-- **C53**: a block has exactly one line `EOS`, the last, whatever the morphemes are. -/
theorem C53_one_eos (T : Tokenizer) (g : Grammar) (mode : Mode) (all : Bool) (line : PStr) (block : List PStr)
    (h : BlockOf T g mode all line block) : block.getLast? = some (lit "EOS") ∧ block.count (lit "EOS") = 1 := by
  obtain ⟨body, ml, out, _, _, hb, _, hl⟩ := h
  subst hb
  have hno : lit "EOS" ∉ out := by
    intro hm
    obtain ⟨i, hi⟩ := List.getElem?_of_mem hm
    have := (hl i _ hi).tab
    revert this
    decide
  refine ⟨by simp, ?_⟩
  rw [List.count_append, List.count_eq_zero.mpr hno]
  simp

/-- **C53**: as many lines `EOS` as lines of input. -/
theorem C53_eos_count (T : Tokenizer) (hp : T.PluginsOk) (hlex : T.lex.Ok) (g : Grammar) (mode : Mode) (all : Bool) (L : Lattice)
    (hL : T.CleanHistory L) (lines out : List PStr) (h : runLines T g mode all L lines = (out, .ok ())) :
    out.count (lit "EOS") = lines.length := by
  obtain ⟨blocks, hb, ho⟩ := C53_blocks T hp hlex g mode all L hL lines out h
  rw [ho]
  clear ho h
  induction lines generalizing blocks with
  | nil =>
    cases blocks with
    | nil => rfl
    | cons b bs => exact absurd hb id
  | cons l ls ih =>
    cases blocks with
    | nil => exact absurd hb id
    | cons b bs =>
      rw [List.flatten_cons, List.count_append, (C53_one_eos T g mode all l b hb.1).2, ih bs hb.2, List.length_cons]
      omega

/-- **C53**: a line of a morpheme is cut at its tabs into the surface, the part of speech and the normalised form, if there
are no tabs in them. -/
theorem C53_fields (g : Grammar) (lex : Lex) (ml : MorphemeList) (i : Nat) (line : PStr) (h : LineOf g lex ml false i line) :
    ∃ surface wi pos, ml.getSurface i = .ok surface ∧ ml.getWordInfo lex i = .ok wi ∧ g.posString wi.posId = .ok pos ∧
      (9 ∉ surface → (∀ p ∈ pos, 9 ∉ p) → 9 ∉ wi.normalizedForm →
        splitOn 9 line = [surface, commas pos, wi.normalizedForm]) := by
  obtain ⟨s, wi, pos, hs, hw, hp, rfl⟩ := h
  refine ⟨s, wi, pos, hs, hw, hp, ?_⟩
  intro h1 h2 h3
  rw [← tabbed_eq]
  apply splitOn_joinOn (by simp)
  intro a ha
  have hc : 9 ∉ commas pos := by
    rw [← commas_eq]
    clear ha h3 h1 hp hs hw
    induction pos with
    | nil => simp [joinOn]
    | cons p ps ih =>
      cases ps with
      | nil => exact h2 p (List.mem_cons_self ..)
      | cons q qs =>
        unfold joinOn
        intro hm
        rcases List.mem_append.mp hm with hm | hm
        · exact h2 p (List.mem_cons_self ..) hm
        · rcases List.mem_cons.mp hm with hm | hm
          · exact absurd hm (by decide)
          · exact ih (fun x hx => h2 x (List.mem_cons_of_mem _ hx)) hm
  simp only [List.mem_cons, List.not_mem_nil, or_false] at ha
  rcases ha with rfl | rfl | rfl
  · exact h1
  · exact hc
  · exact h3

/-- **C53**: in mode C the surfaces printed for a line of input make up the line without its newline. -/
theorem C53_text (T : Tokenizer) (hp : T.PluginsOk) (hlex : T.lex.Ok) (g : Grammar) (all : Bool) (line : PStr) (block : List PStr)
    (h : BlockOf T g .C all line block) :
    ∃ body surfaces : List PStr, block = body ++ [lit "EOS"] ∧ body.length = surfaces.length ∧ Chomped line surfaces.flatten ∧
      ∀ (i : Nat) l s, body[i]? = some l → surfaces[i]? = some s → ∃ rest, l = s ++ 9 :: rest := by
  obtain ⟨body, ml, out, hc, ht, hb, hlen, hl⟩ := h
  obtain ⟨spans, h1, h2, h3⟩ := C01_partition T hp hlex Lattice.init .fresh body (some .C) rfl
    (T.tokenize Lattice.init body (some .C)).1 ml (by rw [← ht])
  refine ⟨out, spans.map (·.2.2), hb, by rw [hlen, h1.1, List.length_map], by rw [h3]; exact hc, ?_⟩
  intro i l s hi hs
  rw [List.getElem?_map] at hs
  cases hsp : spans[i]? with
  | none =>
    rw [hsp] at hs
    cases hs
  | some bes =>
    obtain ⟨b, e, s'⟩ := bes
    rw [hsp] at hs
    injection hs with hs
    have hs : s' = s := hs
    subst hs
    have hsurf := (h1.2 i b e s' hsp).2.2
    have hli := hl i l hi
    unfold LineOf at hli
    have key : ∀ (x : PStr) (y z : PStr) (r : List PStr), tabbed (x :: y :: r) = x ++ 9 :: tabbed (y :: r) := by
      intro x y _ r
      rw [← tabbed_eq, ← tabbed_eq]
      rfl
    cases all with
    | true =>
      rw [if_pos rfl] at hli
      obtain ⟨s2, wi, pos, d, oov, k1, _, _, _, _, rfl⟩ := hli
      rw [hsurf] at k1
      injection k1 with k1
      subst k1
      exact ⟨_, key _ _ [] _⟩
    | false =>
      rw [if_neg (by decide)] at hli
      obtain ⟨s2, wi, pos, k1, _, _, rfl⟩ := hli
      rw [hsurf] at k1
      injection k1 with k1
      subst k1
      exact ⟨_, key _ _ [] _⟩

/-- **C53**: the option `-m`: `A` and `B` are these modes, everything else (argparse lets only `C` through, which is also the
default) is mode C. -/
theorem C53_mode : modeArg (lit "A") = .A ∧ modeArg (lit "B") = .B ∧ ∀ m, m ≠ lit "A" → m ≠ lit "B" → modeArg m = .C := by
  refine ⟨rfl, rfl, fun m hA hB => ?_⟩
  unfold modeArg
  have hA' : m ≠ [65] := hA
  have hB' : m ≠ [66] := hB
  rw [if_neg hA', if_neg hB']

/-- Ten parts of speech; the first three are used by `DemoTok`. -/
def demoGrammar : Grammar := ⟨[[lit "a", lit "b"], [lit "c"], [lit "d", lit "e"], [lit "x"], [lit "f"], [lit "g"], [lit "h"], [lit "n", lit "m"]], 1, 1, [0], 0⟩

/-- 東京都 and 12 on one line, an empty line: the output of the command, without and with `-a`. -/
example : runLines DemoTok.tok demoGrammar .C false Lattice.init [[0x6771, 0x4EAC, 0x90FD, 49, 50, 10], [10]] =
      ([[0x6771, 0x4EAC, 0x90FD] ++ lit "\tc\t" ++ [0x6771, 0x4EAC, 0x90FD], lit "12\tn,m\t12", lit "EOS", lit "EOS"], .ok ()) ∧
    runLines DemoTok.tok demoGrammar .C true Lattice.init [[49]] =
      ([lit "1\tn,m\t1\t1\t1\t0\t[]", lit "EOS"], .ok ()) ∧
    DemoTok.tok.PluginsOk ∧ DemoTok.tok.lex.Ok := by
  refine ⟨by decide +kernel, by decide +kernel, DemoTok.plugins_ok, DemoTok.lex_ok⟩

/-- A word whose part of speech is not in the grammar: the first line is printed, the second broken off. -/
example : runLines DemoTok.tok ⟨[[], [lit "c"]], 1, 1, [0], 0⟩ .C false Lattice.init [[0x6771, 0x4EAC, 0x90FD], [0x6771, 0x4EAC, 0x90FD, 49]] =
    ([[0x6771, 0x4EAC, 0x90FD] ++ lit "\tc\t" ++ [0x6771, 0x4EAC, 0x90FD], lit "EOS",
      [0x6771, 0x4EAC, 0x90FD] ++ lit "\tc\t" ++ [0x6771, 0x4EAC, 0x90FD]], .error .index) := by
  decide +kernel

/-- A morpheme that is in no dictionary is marked with `-a`. -/
example : runLines DemoTok.tok demoGrammar .C true Lattice.init [[97]] =
    ([lit "a\tx\ta\ta\t\t-1\t[]\t(OOV)", lit "EOS"], .ok ()) := by
  decide +kernel

/-- **C53**, where it fails: a tab in the text is printed as it is, so that a line has more fields than it should. -/
theorem C53_violated_tab : ∃ out, runLines DemoTok.tok demoGrammar .C false Lattice.init [[9, 10]] = ([out, lit "EOS"], .ok ()) ∧
    (splitOn 9 out).length = 5 := by
  refine ⟨lit "\t\tx\t\t", by decide +kernel, by decide +kernel⟩

end Sudachi
