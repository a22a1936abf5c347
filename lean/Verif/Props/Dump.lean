/-
C77: the dump of `tokenize -d`.
-/
import Verif.Lemmas.Dump2
import Verif.Props.Printing
namespace Sudachi

/-- **C77** If a call with a dump succeeds, it has the result of the call without one, and leaves the same lattice. -/
theorem C77_same_result (T : Tokenizer) (g : Grammar) (L L' : Lattice) (text : PStr) (mode : Option Mode) (dump : List PStr)
    (ml : MorphemeList) (h : T.tokenizeDump g L text mode = (dump, L', .ok ml)) : T.tokenize L text mode = (L', .ok ml) := by
  rcases tokenizeDump_ok.mp h with ⟨rfl, _, rfl, rfl⟩ | ⟨hne, hd⟩
  · rfl
  · exact hd.tokenize hne

/-- **C77** What is shown: the text after the input plugins, all nodes of the lattice with their words, parameters and the costs of
their connections, the best path, and the path of the result — those of a fresh tokenizer, whatever texts were analysed before. -/
theorem C77_shows (T : Tokenizer) (hp : T.PluginsOk) (hlex : T.lex.Ok) (g : Grammar) (L L' : Lattice) (hL : T.CleanHistory L) (text : PStr)
    (mode : Mode) (dump : List PStr) (ml : MorphemeList) (h : T.tokenizeDump g L text (some mode) = (dump, L', .ok ml)) :
    DumpOf T g mode text dump := by
  have hst := C18_stateless T hp hlex L hL text (some mode)
  have hto := C77_same_result T g L L' text (some mode) dump ml h
  rw [hto] at hst
  rcases tokenizeDump_ok.mp h with ⟨rfl, rfl, _⟩ | ⟨hne, ⟨t, L1, path0, path, path', o1, o2, o3, ht, hb, hd, hp0, hd2, hrw, hcl, hsp, hd3, rfl, rfl⟩⟩
  · exact .inl ⟨rfl, rfl⟩
  · obtain ⟨bd, _, _, _, B, _⟩ := buildInput_built hp ht
    obtain ⟨L2, e1, e2, e3⟩ := build_dump_same (g := g) hlex B (hL.clean hp hlex) init_clean hb
    refine .inr ⟨hne, t, L2, path0, _, o1, o2, o3, ht, e1, e3.trans hp0, hst.symm, dump_lines (e2.trans hd), ?_, ?_, ?_⟩
    · obtain ⟨h1, h2⟩ := dumpPath_lines hd2
      refine ⟨h1, fun i n line hn hl => ?_⟩
      have := h2 i n line hn hl
      rw [Nat.zero_add] at this
      exact this
    · obtain ⟨h1, h2⟩ := dumpPath_lines hd3
      refine ⟨h1, fun i n line hn hl => ?_⟩
      have := h2 i n line hn hl
      rw [Nat.zero_add] at this
      exact this
    · have t1 : lit "=== Inupt dump:" = inputTitle := by decide
      have t2 : lit "=== Lattice dump:" = latticeTitle := by decide
      have t3 : lit "=== Before Rewriting:" = beforeTitle := by decide
      have t4 : lit "=== After Rewriting:" = afterTitle := by decide
      have t5 : lit "===" = endTitle := by decide
      rw [t1, t2, t3, t4, t5]

/-- **C77** With `-d` the command prints for every line of input its dump and then what it prints without `-d`. -/
theorem C77_lines (T : Tokenizer) (hp : T.PluginsOk) (hlex : T.lex.Ok) (g : Grammar) (mode : Mode) (all : Bool) (L : Lattice)
    (hL : T.CleanHistory L) (lines out : List PStr) (h : runDump T g mode all L lines = (out, .ok ())) :
    ∃ dumps blocks, DumpsOf T g mode lines dumps ∧ BlocksOf T g mode all lines blocks ∧
      runLines T g mode all L lines = (blocks.flatten, .ok ()) ∧ out = (List.zipWith (· ++ ·) dumps blocks).flatten := by
  induction lines generalizing L out with
  | nil => cases h; exact ⟨[], [], .nil, trivial, rfl, rfl⟩
  | cons line lines ih =>
    unfold runDump at h
    split at h
    · cases h
    · rename_i d L' ml hd
      split at h
      · cases h
      · rename_i o ho
        have hto := C77_same_result _ _ _ _ _ _ _ _ hd
        cases hr : runDump T g mode all L' lines with
        | mk out' r =>
          rw [hr] at h
          cases h
          obtain ⟨dumps, blocks, h1, h2, h3, h4⟩ := ih L' (.call _ _ hL hto) out' hr
          have hone : runLines T g mode all L [line] = (o ++ [[69, 79, 83]], .ok ()) := by
            unfold runLines
            rw [hto]
            dsimp only
            rw [ho]
            rfl
          obtain ⟨bs, hb1, hb2⟩ := C53_blocks T hp hlex g mode all L hL [line] _ hone
          cases bs with
          | nil => exact absurd hb1 id
          | cons b bs =>
            cases bs with
            | cons b' bs => exact absurd hb1.2 id
            | nil =>
              rw [List.flatten_cons, List.flatten_nil, List.append_nil] at hb2
              refine ⟨d :: dumps, b :: blocks, .cons ⟨rstripNewline line, chomped_rstrip line, C77_shows T hp hlex g L L' hL _ mode d ml hd⟩ h1,
                ⟨hb1.1, h2⟩, ?_, ?_⟩
              · unfold runLines
                rw [hto]
                dsimp only
                rw [ho]
                dsimp only
                rw [h3, List.flatten_cons, ← hb2]
                simp
              · rw [List.zipWith_cons_cons, List.flatten_cons, ← hb2, h4]
                simp

variable {S : Sources} {cfg : DictConfig} {dict : Dict}

theorem inserted_ids {T : Tokenizer} {left right : Int → Prop} (hT : T.Complete left right) {bd : Builder} {t : InputText}
    (B : Built bd T.catOf t) {d : NodeData} (hd : Inserted T.lex T.oov t bd.modified d) : left d.leftId ∧ right d.rightId := by
  obtain ⟨k, hk, hb, _⟩ := B.bow_char hd.bow
  rcases hd.offered with ⟨_, _, ws, w, h1, h2, _, h3⟩ | ⟨_, p, hp, has, ns, h1, h2⟩
  · have hlt : d.begin_ < t.bytes.length := by rw [hb, B.blen]; exact wpos_lt B.enc hk (Nat.le_refl _)
    obtain ⟨ws', g1, g2⟩ := hT.answers.lookup t.bytes d.begin_ hlt
    rw [h1] at g1
    cases g1
    obtain ⟨_, l, r, c, g3, g4, g5⟩ := g2 w d.end_ h2
    rw [h3] at g3
    cases g3
    exact ⟨g4, g5⟩
  · obtain ⟨ns', g1, g2⟩ := getOov_good hT B hp hk has
    rw [← hb, h1] at g1
    cases g1
    have := g2 d h2
    exact ⟨this.left, this.right⟩

/-- Every node of the lattice of a text has a word that can be shown. -/
theorem inserted_shown (hD : cfg.D.Ok) (h : S.Installed cfg dict) (hf : S.Fit) (hch : S.ChainsEnd cfg.depth)
    (ps : List PathPlugin) (mode0 : Mode) (hpos : (dict.tokenizer cfg ps mode0).PosOk dict.grammar) {bd : Builder} {catOf : Nat → CatSet}
    {t : InputText} (B : Built bd catOf t) {n : NodeData}
    (hn : Inserted (dict.tokenizer cfg ps mode0).lex (dict.tokenizer cfg ps mode0).oov t bd.modified n) :
    ∃ wi, nodeWordInfo (dict.tokenizer cfg ps mode0).lex n = .ok wi ∧ (n.defined = true → ∃ pos, dict.grammar.posString wi.posId = .ok pos) := by
  cases hdef : n.defined with
  | false =>
    refine ⟨WordInfo.unk, ?_, fun h => by cases h⟩
    unfold nodeWordInfo
    rw [hdef]
    rfl
  | true =>
    rcases hn.offered with ⟨_, hx, ws, w, h1, h2, h3, _⟩ | ⟨_, p, hp, has, ns, h1, h2⟩
    · obtain ⟨found, f1, f2⟩ := h.lookup hD t.bytes n.begin_
      have h1 : dict.set.lookup cfg.D t.bytes n.begin_ = .ok ws := h1
      rw [f1] at h1
      cases h1
      obtain ⟨d, w0, c, rfl, hc, _⟩ := (f2 w n.end_).1 h2
      obtain ⟨info, hi⟩ := h.readable hD hf hch hc
      refine ⟨info, ?_, fun _ => ⟨c.pos, (h.infoSays hD hf hc hi).pos⟩⟩
      unfold nodeWordInfo
      rw [hdef, hx, h3]
      exact hi
    · obtain ⟨k, hk, hb, _⟩ := B.bow_char hn.bow
      rw [hb] at h1
      obtain ⟨o, s, info, e1, e2, e3, e4⟩ := getOov_info B hk h1 n h2
      refine ⟨info, ?_, fun _ => ?_⟩
      · unfold nodeWordInfo
        rw [hdef, e2]
        rfl
      · rw [e4.pos]
        exact posString_index (hpos.oov p hp o e1)

theorem wordShown_of {g : Grammar} {lex : Lex} {n : NodeData} {wi : WordInfo} (h1 : nodeWordInfo lex n = .ok wi)
    (h2 : n.defined = true → ∃ pos, g.posString wi.posId = .ok pos) : ∃ surface pos, WordShown g lex n surface pos := by
  cases hdef : n.defined with
  | false => exact ⟨_, _, .inl ⟨hdef, rfl, rfl⟩⟩
  | true =>
    obtain ⟨pos, hp⟩ := h2 hdef
    by_cases h0 : wi.posId < 0
    · exact ⟨_, _, .inr ⟨hdef, wi, h1, rfl, .inl ⟨h0, rfl⟩⟩⟩
    · exact ⟨_, _, .inr ⟨hdef, wi, h1, rfl, .inr ⟨by omega, pos, hp, rfl⟩⟩⟩

theorem each_exists {α β : Type} {R : α → β → Prop} : ∀ {l : List α}, (∀ a ∈ l, ∃ b, R a b) → ∃ m, Each R l m
  | [], _ => ⟨[], .nil⟩
  | a :: l, h => by
    obtain ⟨b, hb⟩ := h a (by simp)
    obtain ⟨m, hm⟩ := each_exists (l := l) (fun x hx => h x (by simp [hx]))
    exact ⟨b :: m, .cons hb hm⟩

/-- **C77** On complete sources the dump never fails: every call that would succeed without it succeeds with it. -/
theorem C77_never_fails (hD : cfg.D.Ok) (h : S.Installed cfg dict) {n : Nat} {entries : List (Int × Int × Int)}
    (hS : S.Complete n entries cfg.depth) (hcfg : cfg.Complete n) (ps : List PathPlugin) (mode0 : Mode)
    (hpos : (dict.tokenizer cfg ps mode0).PosOk dict.grammar) {L L' : Lattice} (hL : (dict.tokenizer cfg ps mode0).CleanHistory L) {text : PStr}
    {mode : Option Mode} (hadd : S.SplitsAddUp ∨ mode.getD mode0 = .C) {ml : MorphemeList}
    (ht : (dict.tokenizer cfg ps mode0).tokenize L text mode = (L', .ok ml)) :
    ∃ dump, (dict.tokenizer cfg ps mode0).tokenizeDump dict.grammar L text mode = (dump, L', .ok ml) := by
  have hT := h.complete hD hS hcfg ps mode0
  rcases tokenize_run hT.plugins ht with ⟨rfl, rfl, rfl⟩ | ⟨hne, ⟨bd, t, L1, path0, path, path', hti, _, _, _, B, hb, hp0, hrw, hcl, hsp, hml⟩⟩
  · exact ⟨[], rfl⟩
  · have F := lattice_facts hT.lexOk B (hL.clean hT.plugins hT.lexOk) hb
    have hbos := ((hL.clean hT.plugins hT.lexOk).sane (dict.tokenizer cfg ps mode0).conn (dict.tokenizer cfg ps mode0).lex).buildLattice B hT.lexOk hb
    have hright : ∀ (e : Nat) (ns : List LNode), L1.endLists[e]? = some ns → ∀ x ∈ ns, Sources.InRange n x.data.rightId := by
      intro e ns hns x hx
      rcases F.nodes e ns hns x hx with ⟨_, h2, _⟩ | ⟨_, _, h3⟩
      · rw [h2]; exact hT.joinable.bos
      · exact (inserted_ids hT B h3).2
    have hline : ∀ d : NodeData, d.begin_ ≤ L1.size → Sources.InRange n d.leftId →
        (∃ wi, nodeWordInfo (dict.tokenizer cfg ps mode0).lex d = .ok wi ∧ (d.defined = true → ∃ pos, dict.grammar.posString wi.posId = .ok pos)) →
        ∀ k, ∃ line, NodeLine (dict.tokenizer cfg ps mode0).conn dict.grammar (dict.tokenizer cfg ps mode0).lex L1 k d line := by
      intro d hbd hl ⟨wi, hw1, hw2⟩ k
      obtain ⟨surface, pos, hw⟩ := wordShown_of hw1 hw2
      have hp := List.getElem?_eq_getElem (l := L1.endLists) (i := d.begin_) (by have := F.room; omega)
      obtain ⟨costs, hc⟩ := each_exists (l := L1.endLists[d.begin_]'(by have := F.room; omega))
        (R := fun l c => (dict.tokenizer cfg ps mode0).conn d.leftId l.data.rightId = .ok c) (fun x hx => by
          obtain ⟨c, hc, _⟩ := hT.joinable.link d.leftId x.data.rightId hl (hright _ _ hp x hx)
          exact ⟨c, hc⟩)
      exact ⟨_, surface, pos, _, costs, hw, hp, hc, rfl⟩
    have hblank : ∀ d : NodeData, d.defined = false →
        (∃ wi, nodeWordInfo (dict.tokenizer cfg ps mode0).lex d = .ok wi ∧ (d.defined = true → ∃ pos, dict.grammar.posString wi.posId = .ok pos)) := by
      intro d hd
      refine ⟨WordInfo.unk, ?_, fun h => by rw [hd] at h; cases h⟩
      unfold nodeWordInfo
      rw [hd]
      rfl
    obtain ⟨eos, heos, hdata⟩ := F.eos
    have hd1 : ∃ o1, L1.dump (dict.tokenizer cfg ps mode0).conn dict.grammar (dict.tokenizer cfg ps mode0).lex = (o1, .ok ()) := by
      refine dump_total heos (hline _ ?_ ?_ (hblank _ ?_)) F.room ?_
      · rw [hdata, F.size]; exact Nat.le_refl _
      · rw [hdata]; exact hT.joinable.eos
      · rw [hdata]; rfl
      · intro i ns hi hns x hx
        rcases F.nodes i ns hns x hx with ⟨rfl, _, _⟩ | ⟨_, h2, h3⟩
        · have := hbos.1.bos
          rw [hns] at this
          cases this
          rw [List.mem_singleton.mp hx]
          exact hline _ (Nat.zero_le _) hT.joinable.eos (hblank _ rfl)
        · exact hline _ (by omega) (inserted_ids hT B h3).1 (inserted_shown hD h hS.fit hS.chains ps mode0 hpos B h3)
    obtain ⟨o1, hd1⟩ := hd1
    have hins := (Sources.bestPath_cands hT.lexOk B (hL.clean hT.plugins hT.lexOk) hb hp0).1
    obtain ⟨o2, hd2⟩ := dumpPath_total (lex := (dict.tokenizer cfg ps mode0).lex) (path := path0) (k := 0) (fun d hd => by
      obtain ⟨wi, hw, _⟩ := inserted_shown hD h hS.fit hS.chains ps mode0 hpos B (hins d hd)
      exact ⟨wi, hw⟩)
    obtain ⟨o3, hd3⟩ := dumpPath_total (lex := (dict.tokenizer cfg ps mode0).lex) (path := path') (k := 0) (fun d hd => by
      obtain ⟨i, hi⟩ := List.getElem?_of_mem hd
      have hlt : i < ml.len := by rw [hml]; exact (List.getElem?_eq_some_iff.mp hi).1
      obtain ⟨line, hl⟩ := C74_lines hD h hcfg.plugins hS.fit hS.chains ps mode0 hpos hL hadd ht false hlt
      obtain ⟨_, wi, _, _, hw, _⟩ := hl
      refine ⟨wi, ?_⟩
      unfold MorphemeList.getWordInfo at hw
      have : pyGet ml.path i = .ok d := by rw [hml]; unfold pyGet; rw [hi]
      rw [this] at hw
      exact hw)
    exact ⟨_, tokenizeDump_ok.mpr (.inr ⟨hne, ⟨t, L1, path0, path, path', o1, o2, o3, hti, hb, hd1, hp0, hd2, hrw, hcl, hsp, hd3, hml, rfl⟩⟩)⟩

/-- **C77** On complete sources the command prints all lines with their dumps. -/
theorem C77_prints (hD : cfg.D.Ok) (h : S.Installed cfg dict) {n : Nat} {entries : List (Int × Int × Int)}
    (hS : S.Complete n entries cfg.depth) (hcfg : cfg.Complete n) (hsep : S.NoSeparators cfg.catOf)
    (hchars : ∀ c, c = 44 ∨ c = 46 → Cat.NUMERIC ∉ cfg.catOf c ∧ Cat.KANJINUMERIC ∉ cfg.catOf c) (ps : List PathPlugin)
    (hnf : NumericFirst ps) (mode0 : Mode) (hpos : (dict.tokenizer cfg ps mode0).PosOk dict.grammar) (mode : Mode)
    (hadd : S.SplitsAddUp ∨ mode = .C) (all : Bool) (lines : List PStr)
    (hlines : ∀ line ∈ lines, (dict.tokenizer cfg ps mode0).CanRead line) {L : Lattice} (hL : (dict.tokenizer cfg ps mode0).CleanHistory L) :
    ∃ out, runDump (dict.tokenizer cfg ps mode0) dict.grammar mode all L lines = (out, .ok ()) := by
  obtain ⟨out, ho⟩ := C74_prints hD h hS hcfg hsep hchars ps hnf mode0 hpos mode hadd all lines hlines hL
  clear hlines
  induction lines generalizing L out with
  | nil => exact ⟨[], rfl⟩
  | cons line lines ih =>
    unfold runLines at ho
    split at ho
    · cases ho
    · rename_i L' ml ht
      split at ho
      · cases ho
      · rename_i o hpr
        cases hr : runLines (dict.tokenizer cfg ps mode0) dict.grammar mode all L' lines with
        | mk rest r =>
          rw [hr] at ho
          cases ho
          obtain ⟨out', ho'⟩ := ih (.call _ _ hL ht) rest hr
          obtain ⟨dump, hd⟩ := C77_never_fails hD h hS hcfg ps mode0 hpos hL (mode := some mode) hadd ht
          unfold runDump
          rw [hd]
          dsimp only
          rw [hpr, ho']
          exact ⟨_, rfl⟩

/-- A line `1` with its dump: the three nodes of the lattice, the path before and after the rewriting, and then the morpheme. -/
example : DemoTok.tok.CleanHistory Lattice.init ∧
    runDump DemoTok.tok demoGrammar .C false Lattice.init [lit "1\n"] = (["=== Inupt dump:", "1", "=== Lattice dump:",
      "1: 1 1 (null)(0) BOS/EOS 0 0 0: 10", "2: 0 1 1(3) n,m 1 1 50: 10", "3: 0 0 (null)(0) BOS/EOS 0 0 0: 10", "=== Before Rewriting:",
      "0: 0 1 1(3) 1 1 50\uFFFF", "=== After Rewriting:", "0: 0 1 1(3) 1 1 50\uFFFF", "===", "1\tn,m\t1", "EOS"].map lit, .ok ()) :=
  ⟨.fresh, by decide +kernel⟩

/-- The sample of complete sources: the lines `aabx` and an empty line, with their dumps. -/
example (mode : Mode) (all : Bool) : ∃ (dict : Dict) (out : List PStr), Sample.sources.Installed Sample.config dict ∧
    runDump (dict.tokenizer Sample.config [] .C) dict.grammar mode all Lattice.init [[97, 97, 98, 120, 10], [10]] = (out, .ok ()) := by
  obtain ⟨dict, h⟩ := Sample.installed
  obtain ⟨out, ho⟩ := C77_prints SimpleTrie.ok h Sample.sources_complete Sample.config_complete Sample.no_separators
    (fun c _ => ⟨fun h => (by cases List.mem_singleton.1 h), fun h => (by cases List.mem_singleton.1 h)⟩) [] (by trivial) .C (Sample.pos_ok h) mode
    (.inl Sample.splits_add_up) all _ (Sample.can_read dict) .fresh
  exact ⟨dict, out, h, ho⟩

/-- Two words `a`; the dearer one has a part of speech that the grammar does not have. -/
def DemoTok.badWord : Tokenizer :=
  { DemoTok.tok with lex := DemoTok.lexOf [⟨[97], 10, DemoTok.info [97] 1 0 []⟩, ⟨[97], 20, DemoTok.info [97] 1 99 []⟩] }

/-- **C77** What is shown when the call fails: nothing if the text could not be built; else the text after the input plugins, and, if
the lattice could be built, the lines of the lattice after their title. -/
theorem C77_failed (T : Tokenizer) (g : Grammar) (L L' : Lattice) (text : PStr) (mode : Option Mode) (dump : List PStr) (x : Err)
    (h : T.tokenizeDump g L text mode = (dump, L', .error x)) :
    (T.buildInput text = .error x ∧ dump = []) ∨
    ∃ t L1 r, T.buildInput text = .ok t ∧ buildLattice T.conn T.lex T.oov t L = (L1, r) ∧
      ((r = .error x ∧ dump = [lit "=== Inupt dump:", t.modified]) ∨
       (r = .ok () ∧ ∃ rest, dump = [lit "=== Inupt dump:", t.modified, lit "=== Lattice dump:"] ++ (L1.dump T.conn g T.lex).1 ++ rest ∧
         ((L1.dump T.conn g T.lex).2 ≠ .ok () → rest = []))) := by
  unfold Tokenizer.tokenizeDump at h
  split at h
  · cases h
  · split at h
    · rename_i y hy
      cases h
      exact .inl ⟨hy, rfl⟩
    · rename_i t ht
      right
      split at h
      · rename_i L1 y hb
        cases h
        exact ⟨t, _, _, ht, hb, .inl ⟨rfl, rfl⟩⟩
      · rename_i L1 hb
        refine ⟨t, _, _, ht, hb, .inr ⟨rfl, ?_⟩⟩
        split at h
        · rename_i o1 y hd
          cases h
          rw [hd]
          exact ⟨[], by rw [List.append_nil]; rfl, fun _ => rfl⟩
        · rename_i o1 hd
          rw [hd]
          have fin : ∀ rest, dump = [inputTitle, t.modified, latticeTitle] ++ o1 ++ rest → ∃ rest,
              dump = [lit "=== Inupt dump:", t.modified, lit "=== Lattice dump:"] ++ o1 ++ rest ∧ ((.ok () : Res Unit) ≠ .ok () → rest = []) :=
            fun rest h => ⟨rest, h, fun hn => absurd rfl hn⟩
          repeat' split at h
          all_goals first
            | (cases h; done)
            | exact fin _ ((congrArg Prod.fst h).symm.trans (List.append_nil _).symm)
            | exact fin _ (congrArg Prod.fst h).symm
            | exact fin _ ((congrArg Prod.fst h).symm.trans (List.append_assoc _ _ _))

/-- **C77** Without the completeness of the sources the dump can fail where the analysis does not: it asks for the parts of speech of
all words of the lattice, also of those that are not in the result. -/
theorem C77_can_fail : ∃ (T : Tokenizer) (lines out dump : List PStr), T.PluginsOk ∧ T.lex.Ok ∧ T.CleanHistory Lattice.init ∧
    runLines T demoGrammar .C false Lattice.init lines = (out, .ok ()) ∧
    runDump T demoGrammar .C false Lattice.init lines = (dump, .error .index) := by
  refine ⟨DemoTok.badWord, [lit "a\n"], ["a\ta,b\ta", "EOS"].map lit, ["=== Inupt dump:", "a", "=== Lattice dump:",
    "1: 1 1 (null)(0) BOS/EOS 0 0 0: 10 10", "2: 0 1 a(0) a,b 1 1 10: 10"].map lit,
    ⟨DemoTok.plugins_ok.1, DemoTok.plugins_ok.2, DemoTok.plugins_ok.3⟩, DemoTok.lexOf_ok _ (by simp [DemoTok.info, Short]), .fresh, by decide +kernel, by decide +kernel⟩

end Sudachi
