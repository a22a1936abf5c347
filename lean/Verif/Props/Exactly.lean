/-
C53, C77: what the tokenize loop prints, exactly.
-/
import Verif.Lemmas.Dump3
import Verif.Props.Dump
namespace Sudachi

theorem LineOf.unique {g : Grammar} {lex : Lex} {ml : MorphemeList} {all : Bool} {i : Nat} {l l' : PStr} (h : LineOf g lex ml all i l)
    (h' : LineOf g lex ml all i l') : l = l' := by
  unfold LineOf at h h'
  cases all with
  | true =>
    rw [if_pos rfl] at h h'
    obtain ⟨s, wi, pos, d, oov, h1, h2, h3, h4, h5, rfl⟩ := h
    obtain ⟨s', wi', pos', d', oov', k1, k2, k3, k4, k5, rfl⟩ := h'
    rw [h1] at k1; cases k1
    rw [h2] at k2; cases k2
    rw [h3] at k3; cases k3
    rw [h4] at k4; cases k4
    rw [h5] at k5; cases k5
    rfl
  | false =>
    rw [if_neg (by decide)] at h h'
    obtain ⟨s, wi, pos, h1, h2, h3, rfl⟩ := h
    obtain ⟨s', wi', pos', k1, k2, k3, rfl⟩ := h'
    rw [h1] at k1; cases k1
    rw [h2] at k2; cases k2
    rw [h3] at k3; cases k3
    rfl

theorem Chomped.unique {line a b : PStr} (h : Chomped line a) (h' : Chomped line b) : a = b := h.eq.symm.trans h'.eq

theorem BlockOf.unique {T : Tokenizer} {g : Grammar} {mode : Mode} {all : Bool} {line : PStr} {b b' : List PStr}
    (h : BlockOf T g mode all line b) (h' : BlockOf T g mode all line b') : b = b' := by
  obtain ⟨body, ml, out, h1, h2, rfl, h4, h5⟩ := h
  obtain ⟨body', ml', out', k1, k2, rfl, k4, k5⟩ := h'
  cases h1.unique k1
  rw [h2] at k2
  cases k2
  congr 1
  apply List.ext_getElem? 
  intro i
  rcases Nat.lt_or_ge i out.length with hi | hi
  · have e := List.getElem?_eq_getElem hi
    have e' := List.getElem?_eq_getElem (l := out') (i := i) (by omega)
    rw [e, e', (h5 i _ e).unique (k5 i _ e')]
  · rw [List.getElem?_eq_none hi, List.getElem?_eq_none (by omega)]

theorem BlocksOf.unique {T : Tokenizer} {g : Grammar} {mode : Mode} {all : Bool} : ∀ {lines : List PStr} {b b' : List (List PStr)},
    BlocksOf T g mode all lines b → BlocksOf T g mode all lines b' → b = b'
  | [], [], [], _, _ => rfl
  | [], _ :: _, _, h, _ => h.elim
  | [], [], _ :: _, _, h => h.elim
  | _ :: _, [], _, h, _ => h.elim
  | _ :: _, _ :: _, [], _, h => h.elim
  | _ :: _, _ :: _, _ :: _, h, h' => by rw [h.1.unique h'.1, BlocksOf.unique h.2 h'.2]

theorem BlocksOf.mem {T : Tokenizer} {g : Grammar} {mode : Mode} {all : Bool} : ∀ {lines : List PStr} {b : List (List PStr)},
    BlocksOf T g mode all lines b → ∀ l ∈ lines, ∃ block, BlockOf T g mode all l block
  | [], _, _, _, hl => by cases hl
  | _ :: _, [], h, _, _ => h.elim
  | l :: ls, b :: bs, h, x, hx => by
    rcases List.mem_cons.mp hx with rfl | hx
    · exact ⟨b, h.1⟩
    · exact BlocksOf.mem h.2 x hx

/-- **C53** The tokenize loop ends normally and has printed `out` exactly if every line of input has its block (it is analysed by a
fresh tokenizer and every morpheme has its line) and `out` is the blocks one after another. -/
theorem C53_exactly (T : Tokenizer) (hp : T.PluginsOk) (hlex : T.lex.Ok) (g : Grammar) (mode : Mode) (all : Bool) (L : Lattice)
    (hL : T.CleanHistory L) (lines out : List PStr) :
    runLines T g mode all L lines = (out, .ok ()) ↔ ∃ blocks, BlocksOf T g mode all lines blocks ∧ out = blocks.flatten := by
  constructor
  · exact C53_blocks T hp hlex g mode all L hL lines out
  · rintro ⟨blocks, hb, rfl⟩
    cases hr : runLines T g mode all L lines with
    | mk out r =>
      cases r with
      | ok u =>
        obtain ⟨bs, h1, rfl⟩ := C53_blocks T hp hlex g mode all L hL lines out hr
        rw [hb.unique h1]
      | error e =>
        obtain ⟨before, line, after, bs, part, body, h1, _, _, h4, h5⟩ := C53_interrupted T hp hlex g mode all L hL lines out e hr
        obtain ⟨block, body', ml, o, k1, k2, _, k4, k5⟩ := hb.mem line (by rw [h1]; simp)
        cases h4.unique k1
        rcases h5 with ⟨h5, _⟩ | ⟨ml', h5, h6, _, h8⟩
        · rw [k2] at h5; cases h5
        · rw [k2] at h5
          cases h5
          have e := List.getElem?_eq_getElem (l := o) (i := part.length) (by omega)
          exact absurd (k5 _ _ e) (h8 _)

/-- **C77** A call with a dump succeeds and prints `dump` exactly if `dump` is the dump of the analysis by a fresh tokenizer. -/
theorem C77_exactly (T : Tokenizer) (hp : T.PluginsOk) (hlex : T.lex.Ok) (g : Grammar) (L : Lattice) (hL : T.CleanHistory L) (text : PStr)
    (mode : Mode) (dump : List PStr) :
    (∃ L' ml, T.tokenizeDump g L text (some mode) = (dump, L', .ok ml)) ↔ DumpOf T g mode text dump := by
  constructor
  · rintro ⟨L', ml, h⟩
    exact C77_shows T hp hlex g L L' hL text mode dump ml h
  · rintro (⟨rfl, rfl⟩ | ⟨hne, t, L1, path0, ml, o1, o2, o3, ht, hb, hp0, htk, hd, hd2, hd3, rfl⟩)
    · exact ⟨L, .empty, rfl⟩
    · have hst := C18_stateless T hp hlex L hL text (some mode)
      rw [htk] at hst
      obtain ⟨bd, _, _, _, B, _⟩ := buildInput_built hp ht
      obtain ⟨L2, e1, e2, e3⟩ := build_dump_same (g := g) hlex B init_clean (hL.clean hp hlex) hb
      cases htk' : T.tokenize L text (some mode) with
      | mk L' r =>
        rw [htk'] at hst
        have hst : r = .ok ml := hst
        subst hst
        rcases tokenize_run hp htk' with ⟨rfl, _⟩ | ⟨_, ⟨bd', t', L1', p0, path, path', hti, _, _, _, _, hb', hp0', hrw, hcl, hsp, hml⟩⟩
        · exact absurd rfl hne
        · rw [ht] at hti
          cases hti
          rw [e1] at hb'
          cases hb'
          rw [e3, hp0] at hp0'
          cases hp0'
          subst hml
          have f1 : T.lex.Ok := hlex
          have t1 : lit "=== Inupt dump:" = inputTitle := by decide
          have t2 : lit "=== Lattice dump:" = latticeTitle := by decide
          have t3 : lit "=== Before Rewriting:" = beforeTitle := by decide
          have t4 : lit "=== After Rewriting:" = afterTitle := by decide
          have t5 : lit "===" = endTitle := by decide
          have q2 : dumpPath T.lex 0 path0 = (o2, .ok ()) := dumpPath_of hd2.1 (fun i n line hn hl => by
            rw [Nat.zero_add]; exact hd2.2 i n line hn hl)
          have q3 : dumpPath T.lex 0 path' = (o3, .ok ()) := dumpPath_of hd3.1 (fun i n line hn hl => by
            rw [Nat.zero_add]; exact hd3.2 i n line hn hl)
          rw [t1, t2, t3, t4, t5]
          exact ⟨L', _, tokenizeDump_ok.mpr (.inr ⟨hne, ⟨t, L2, path0, path, path', o1, o2, o3, ht, e1, e2.trans (dump_of hd), e3.trans hp0, q2, hrw, hcl,
            hsp, q3, rfl, rfl⟩⟩)⟩

/-- **C77** With `-d` the loop ends normally and has printed `out` exactly if every line of input has its dump and its block, and
`out` is these one after another, the dump of a line before its block. -/
theorem C77_loop (T : Tokenizer) (hp : T.PluginsOk) (hlex : T.lex.Ok) (g : Grammar) (mode : Mode) (all : Bool) (L : Lattice)
    (hL : T.CleanHistory L) (lines out : List PStr) :
    runDump T g mode all L lines = (out, .ok ()) ↔
      ∃ dumps blocks, DumpsOf T g mode lines dumps ∧ BlocksOf T g mode all lines blocks ∧
        out = (List.zipWith (· ++ ·) dumps blocks).flatten := by
  constructor
  · intro h
    obtain ⟨dumps, blocks, h1, h2, _, h4⟩ := C77_lines T hp hlex g mode all L hL lines out h
    exact ⟨dumps, blocks, h1, h2, h4⟩
  · rintro ⟨dumps, blocks, h1, h2, rfl⟩
    induction lines generalizing L dumps blocks with
    | nil =>
      cases h1
      cases blocks with
      | nil => rfl
      | cons b bs => exact h2.elim
    | cons line lines ih =>
      cases blocks with
      | nil => exact h2.elim
      | cons b bs =>
        cases h1 with
        | @cons _ d _ ds h3 h4 =>
          obtain ⟨body, hc, hd⟩ := h3
          obtain ⟨L', ml, hd⟩ := (C77_exactly T hp hlex g L hL body mode d).mpr hd
          have hto := C77_same_result _ _ _ _ _ _ _ _ hd
          have hone := (C53_exactly T hp hlex g mode all L hL [line] b).mpr ⟨[b], ⟨h2.1, trivial⟩, by simp⟩
          unfold runLines at hone
          rw [hc.eq, hto] at hone
          dsimp only at hone
          unfold runDump
          rw [hc.eq, hd]
          dsimp only
          cases hpr : printMorphemes g T.lex ml all ml.iter with
          | mk o r =>
            rw [hpr] at hone
            cases r with
            | error e => cases hone
            | ok u =>
              dsimp only at hone ⊢
              rw [ih L' (.call _ _ hL hto) ds bs h4 h2.2]
              cases hone
              rw [List.zipWith_cons_cons, List.flatten_cons]
              simp [runLines]

end Sudachi
