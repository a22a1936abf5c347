import Verif.Lemmas.SetOrder
import Verif.Lemmas.SetOrder2
import Verif.Props.Ties

/-!
# C85: the order of the categories of a character

`CategoryType` is an `Enum`, whose members hash by their names; Python randomises the hashes of strings.  So the order in which
mecab_oov_plugin.py:66 goes through the set of the categories of a character may differ between two runs of the program.
-/

namespace Sudachi

namespace Demo

/-- The letter `a`, in two categories; each has one entry, of the same cost. -/
def twoCats : Nat → CatSet := fun _ => [.ALPHA, .USER1]
def twoCats' : Nat → CatSet := fun _ => [.USER1, .ALPHA]
def twoOov : OovPlugin :=
  .mecab [(.ALPHA, ⟨true, false, 1⟩), (.USER1, ⟨true, false, 1⟩)] [(.ALPHA, ⟨0, 0, 100, 1⟩), (.USER1, ⟨0, 0, 100, 2⟩)]
def twoTokenizer (catOf : Nat → CatSet) : Tokenizer :=
  ⟨catOf, id, id, [], conn2, ⟨fun _ _ => .ok [], fun _ => .error .index, fun _ => .error .index⟩, [twoOov], [], .C, 100⟩

end Demo

/-- **C85** Violated: the part of speech of the unknown word `a` is 1 or 2, depending on the order of the categories of `a`. -/
theorem C85_order_matters : ∃ (f g : Nat → CatSet) (T : Tokenizer) (text : PStr) (ml ml' : MorphemeList), SameSets f g ∧
    ({ T with catOf := f }.tokenize Lattice.init text none).2 = .ok ml ∧
    ({ T with catOf := g }.tokenize Lattice.init text none).2 = .ok ml' ∧
    ml.path.map (fun x => x.extra.map (·.posId)) = [some 1] ∧ ml'.path.map (fun x => x.extra.map (·.posId)) = [some 2] := by
  refine ⟨Demo.twoCats, Demo.twoCats', Demo.twoTokenizer Demo.twoCats, [97], _, _, ?_, rfl, rfl, by decide, by decide⟩
  intro ch c
  simp only [Demo.twoCats, Demo.twoCats', List.mem_cons, List.not_mem_nil, or_false]
  exact Or.comm

namespace Sources
variable {S : Sources} {cfg : DictConfig} {dict dict' : Dict}

/-- No user dictionary leaves a cost to be computed. -/
def GivenCosts (S : Sources) : Prop := ∀ d w c, S.Row d w c → d ≠ 0 → pyInt c.cost ≠ .ok (-32768)

theorem GivenCosts.word (h : S.GivenCosts) (auto auto' : Nat → Nat → Int) (t : InputText) : S.Word auto t = S.Word auto' t := by
  funext x
  apply propext
  have key : ∀ a a' : Nat → Nat → Int, S.Word a t x → S.Word a' t x := by
    rintro a a' ⟨h1, h2, h3, d, w, c, g1, g2, g3, g4, g5, g6, g7⟩
    refine ⟨h1, h2, h3, d, w, c, g1, g2, g3, g4, g5, ?_, g7⟩
    unfold Cost at g6 ⊢
    have hn : ¬ (d ≠ 0 ∧ pyInt c.cost = .ok (-32768)) := fun ⟨a, b⟩ => h d w c g1 a b
    rw [if_neg hn] at g6 ⊢
    exact g6
  exact ⟨key _ _, key _ _⟩

theorem same_text (hp : cfg.PluginsOk) {g : Nat → CatSet} (hsame : SameSets cfg.catOf g) {mode0 : Mode} {text : PStr} {t t' : InputText}
    (h : (dict.tokenizer cfg [] mode0).buildInput text = .ok t)
    (h' : (dict'.tokenizer { cfg with catOf := g } [] mode0).buildInput text = .ok t') : SameText t t' := by
  have hpl : (dict.tokenizer cfg [] mode0).PluginsOk := ⟨hp.lower, hp.nfkc, hp.psm⟩
  obtain ⟨bd, e1, e2⟩ := rewriteInput_kept hpl.lower hpl.nfkc hpl.psm (Builder.Valid.init text)
  unfold Tokenizer.buildInput at h h'
  have e1' : rewriteInput (dict'.tokenizer { cfg with catOf := g } [] mode0).lower (dict'.tokenizer { cfg with catOf := g } [] mode0).nfkc
    (dict'.tokenizer { cfg with catOf := g } [] mode0).inputPlugins (Builder.init text) = .ok bd := e1
  simp only [bind, Except.bind, e1] at h
  simp only [bind, Except.bind, e1'] at h'
  exact hsame.text (built e2.valid.len h) (built e2.valid.len h')

theorem GivenCosts.candidate (h : S.GivenCosts) {f g : Nat → CatSet} (hsame : SameSets f g) {t t' : InputText} (hst : SameText t t')
    (auto auto' : Nat → Nat → Int) (ps : List OovPlugin) : S.Candidate auto' g ps t' = S.Candidate auto f ps t := by
  funext x
  rw [← propext (candidate_same hsame hst (auto := auto) x)]
  unfold Candidate
  rw [h.word auto auto']

/-- **C85** Whether a text is tokenized does not depend on the order. -/
theorem C85_both_succeed (hD : cfg.D.Ok) {g : Nat → CatSet} (hsame : SameSets cfg.catOf g) (h : S.Installed cfg dict)
    (h' : S.Installed { cfg with catOf := g } dict') (hgiven : S.GivenCosts) (hp : cfg.PluginsOk) {n : Nat}
    {entries : List (Int × Int × Int)} (hmat : S.Matrix n entries) (hids : S.IdsInRange n) (hfew : S.users.length ≤ 7)
    (hshort : ∀ p ∈ cfg.oov, p.Short) (hoov : ∀ p ∈ cfg.oov, ∀ o, p.Entry o → InRange n o.leftId ∧ InRange n o.rightId) (mode0 : Mode)
    (L L' : Lattice) (text : PStr) (mode : Option Mode) (t t' : InputText) (hL : (dict.tokenizer cfg [] mode0).CleanHistory L)
    (hL' : (dict'.tokenizer { cfg with catOf := g } [] mode0).CleanHistory L') (hm : mode.getD mode0 = .C) (hne : text ≠ [])
    (hti : (dict.tokenizer cfg [] mode0).buildInput text = .ok t)
    (hti' : (dict'.tokenizer { cfg with catOf := g } [] mode0).buildInput text = .ok t') (hsafe : SafeLength t.bytes.length) :
    (∃ ml, ((dict.tokenizer cfg [] mode0).tokenize L text mode).2 = .ok ml) ↔
      ∃ ml, ((dict'.tokenizer { cfg with catOf := g } [] mode0).tokenize L' text mode).2 = .ok ml := by
  have hp' : ({ cfg with catOf := g } : DictConfig).PluginsOk := ⟨hp.lower, hp.nfkc, hp.psm⟩
  obtain ⟨auto, _, hall⟩ := C79_succeeds_iff hD h hp hmat hids hfew hshort hoov
  obtain ⟨auto', _, hall'⟩ := C79_succeeds_iff (cfg := { cfg with catOf := g }) hD h' hp' hmat hids hfew hshort hoov
  have hst := same_text hp hsame hti hti'
  have hb : ∀ k, BowChar (t.modified.map g) k ↔ BowChar (t.modified.map cfg.catOf) k := fun k => ⟨hsame.symm.bowChar, hsame.bowChar⟩
  rw [hall mode0 L text mode t hL hm hne hti hsafe, hall' mode0 L' text mode t' hL' hm hne hti' (by rw [hst.bytes]; exact hsafe)]
  dsimp only
  rw [hgiven.candidate hsame hst auto auto', hst.bytes, hst.modified]
  simp only [hb]

/-- **C85** Partial: two runs with different orders give results of the same cost, which are equal, or differ, read from the end, first
in two unknown words of the same characters, made because of two different categories of the first of these characters.  Missing: they
are always equal, which is false (`C85_order_matters`).  For installations without costs to be computed, without path rewriting plugins,
in mode C. -/
theorem C85_same_cost_partial (hD : cfg.D.Ok) {g : Nat → CatSet} (hsame : SameSets cfg.catOf g) (h : S.Installed cfg dict)
    (h' : S.Installed { cfg with catOf := g } dict') (hgiven : S.GivenCosts) (hp : cfg.PluginsOk) {n : Nat}
    {entries : List (Int × Int × Int)} (hmat : S.Matrix n entries) (hids : S.IdsInRange n) (hshort : ∀ p ∈ cfg.oov, p.Short)
    (hoov : ∀ p ∈ cfg.oov, ∀ o, p.Entry o → InRange n o.leftId ∧ InRange n o.rightId) (mode0 : Mode) (L L1 L' L1' : Lattice)
    (text : PStr) (mode : Option Mode) (ml ml' : MorphemeList) (t : InputText) (hL : (dict.tokenizer cfg [] mode0).CleanHistory L)
    (hL' : (dict'.tokenizer { cfg with catOf := g } [] mode0).CleanHistory L') (hm : mode.getD mode0 = .C) (hne : text ≠ [])
    (ht : (dict.tokenizer cfg [] mode0).tokenize L text mode = (L1, .ok ml))
    (ht' : (dict'.tokenizer { cfg with catOf := g } [] mode0).tokenize L' text mode = (L1', .ok ml'))
    (hti : ml.input = some t) (hsafe : SafeLength t.bytes.length) :
    ∃ cost, pathCost (conn entries) 0 ml.path = some cost ∧ pathCost (conn entries) 0 ml'.path = some cost ∧
      (ml'.path = ml.path ∨ ∃ q q' x x' s k, ml.path = q ++ x :: s ∧ ml'.path = q' ++ x' :: s ∧
        OfTwoCategories t.modified cfg.catOf cfg.oov k x x') := by
  have hp' : ({ cfg with catOf := g } : DictConfig).PluginsOk := ⟨hp.lower, hp.nfkc, hp.psm⟩
  obtain ⟨auto, _, hall⟩ := C84_sources hD h hp hmat hids hshort hoov
  obtain ⟨auto', _, hall'⟩ := C84_sources (cfg := { cfg with catOf := g }) hD h' hp' hmat hids hshort hoov
  obtain ⟨t1, b1, b2, b3⟩ := hall mode0 L L1 text mode ml hL hm hne ht
  obtain ⟨t', c1, c2, c3⟩ := hall' mode0 L' L1' text mode ml' hL' hm hne ht'
  rw [hti] at b2
  cases b2
  have hst := same_text hp hsame b1 c1
  have hw := hgiven.word auto auto'
  have hC := hgiven.candidate hsame hst auto auto' cfg.oov
  have hB : S.Before auto' g cfg.oov t' = S.Before auto g cfg.oov t' := by
    unfold Before
    rw [hw]
  obtain ⟨cost, p1, p2⟩ := b3 hsafe
  obtain ⟨cost', q1, q2⟩ := c3 (by rw [hst.bytes]; exact hsafe)
  dsimp only at q1 q2
  rw [hst.bytes, hC] at q1 q2
  rw [hB] at q2
  refine ⟨cost, p1.2.2, ?_⟩
  rcases p2 _ _ q1 with r1 | ⟨r1, r2⟩ <;> rcases q2 _ _ p1 with s1 | ⟨s1, s2⟩
  · omega
  · omega
  · omega
  · refine ⟨by rw [r1]; exact q1.2.2, ?_⟩
    rcases r2 with r2 | r2
    · exact .inl r2
    rcases s2 with s2 | s2
    · exact .inl s2.symm
    · exact .inr (preferred_two hsame hst r2 s2)

/-- **C85** If no character has two categories with entries of a provider, then the order does not matter. -/
theorem C85_one_category (hD : cfg.D.Ok) {g : Nat → CatSet} (hsame : SameSets cfg.catOf g) (h : S.Installed cfg dict)
    (h' : S.Installed { cfg with catOf := g } dict') (hgiven : S.GivenCosts) (hp : cfg.PluginsOk) {n : Nat}
    {entries : List (Int × Int × Int)} (hmat : S.Matrix n entries) (hids : S.IdsInRange n) (hshort : ∀ p ∈ cfg.oov, p.Short)
    (hoov : ∀ p ∈ cfg.oov, ∀ o, p.Entry o → InRange n o.leftId ∧ InRange n o.rightId)
    (hone : ∀ categories oovList, OovPlugin.mecab categories oovList ∈ cfg.oov → ∀ ch ty ty' o o', ty ∈ cfg.catOf ch → ty' ∈ cfg.catOf ch →
      (ty, o) ∈ oovList → (ty', o') ∈ oovList → ty = ty')
    (mode0 : Mode) (L L1 L' L1' : Lattice) (text : PStr) (mode : Option Mode) (ml ml' : MorphemeList) (t : InputText)
    (hL : (dict.tokenizer cfg [] mode0).CleanHistory L)
    (hL' : (dict'.tokenizer { cfg with catOf := g } [] mode0).CleanHistory L') (hm : mode.getD mode0 = .C) (hne : text ≠ [])
    (ht : (dict.tokenizer cfg [] mode0).tokenize L text mode = (L1, .ok ml))
    (ht' : (dict'.tokenizer { cfg with catOf := g } [] mode0).tokenize L' text mode = (L1', .ok ml'))
    (hti : ml.input = some t) (hsafe : SafeLength t.bytes.length) : ml'.path = ml.path := by
  obtain ⟨_, _, _, h1 | ⟨_, _, _, _, _, _, _, _, _, _, _, _, ch, ty, ty', o, o', categories, oovList, _, _, g1, g2, g3, g4, g5, g6, _⟩⟩ :=
    C85_same_cost_partial hD hsame h h' hgiven hp hmat hids hshort hoov mode0 L L1 L' L1' text mode ml ml' t hL hL' hm hne ht ht' hti hsafe
  · exact h1
  · exact absurd (hone categories oovList g4 ch ty ty' o o' g1 g2 g5 g6) g3

end Sources

/-- **C85** If no character has two categories with entries of a provider, then loading the dictionaries gives the same, whatever the
order: the same dictionaries with the same computed costs, or the same exception. -/
theorem C85_one_category_load {cfg : DictConfig} {g : Nat → CatSet} (hsame : SameSets cfg.catOf g) (hf : ∀ ch, (cfg.catOf ch).Nodup)
    (hg : ∀ ch, (g ch).Nodup) (hone : ∀ p ∈ cfg.oov, OneCategory cfg.catOf p) (system : Bytes) (users : List Bytes) :
    Dict.load { cfg with catOf := g } system users = Dict.load cfg system users := by
  unfold Dict.load
  simp only [readUsers_cats hsame hf hg hone]

/-- **C85** If no character has two categories with entries of a provider, then tokenizing gives the same, whatever the order: for every
text, in every mode, with any plugins, and whatever was tokenized before.  The lattice that stays behind is the same, an exception is the
same, and the morphemes are the same; only the order of the sets kept with the text differs. -/
theorem C85_one_category_tokenize {T : Tokenizer} {g : Nat → CatSet} (hsame : SameSets T.catOf g) (hf : ∀ ch, (T.catOf ch).Nodup)
    (hg : ∀ ch, (g ch).Nodup) (hone : ∀ p ∈ T.oov, OneCategory T.catOf p) (L : Lattice) (text : PStr) (mode : Option Mode) :
    ({ T with catOf := g }.tokenize L text mode).1 = (T.tokenize L text mode).1 ∧
    (∀ e, (T.tokenize L text mode).2 = .error e → ({ T with catOf := g }.tokenize L text mode).2 = .error e) ∧
    ∀ ml, (T.tokenize L text mode).2 = .ok ml → ∃ ml', ({ T with catOf := g }.tokenize L text mode).2 = .ok ml' ∧
      ml' = ml.withCats g ∧ ∀ i, ml'.getBegin i = ml.getBegin i ∧ ml'.getEnd i = ml.getEnd i ∧ ml'.getSurface i = ml.getSurface i ∧
        ml'.getWordInfo T.lex i = ml.getWordInfo T.lex i ∧ ml'.isOov i = ml.isOov i := by
  rw [tokenize_cats hsame hf hg hone]
  refine ⟨rfl, fun e he => ?_, fun ml hm => ⟨ml.withCats g, ?_, rfl, fun i => ?_⟩⟩
  · dsimp only
    rw [he]
    rfl
  · dsimp only
    rw [hm]
    rfl
  · obtain ⟨input, path⟩ := ml
    cases input <;> exact ⟨rfl, rfl, rfl, rfl, rfl⟩

namespace Sample

/-- The system dictionary alone; with a MeCab provider. -/
def alone : Sources := ⟨⟨header, rows, matrix⟩, [], sysDict⟩
def configTwo (f : Nat → CatSet) (p : OovPlugin) : DictConfig := ⟨SimpleTrie.trie, 9, 100, f, id, id, [], [p], []⟩

/-- Entries for one of the two categories only. -/
def oneOov : OovPlugin := .mecab [(.ALPHA, ⟨true, false, 1⟩), (.USER1, ⟨true, false, 1⟩)] [(.ALPHA, ⟨0, 0, 100, 1⟩)]

/-- Loading and tokenizing `x`: the parts of speech of the unknown words. -/
def runTwo (f : Nat → CatSet) (p : OovPlugin) : Res (List (Option Int)) :=
  match Dict.load (configTwo f p) systemFile [] with
  | .error e => .error e
  | .ok dict => ((dict.tokenizer (configTwo f p) [] .C).tokenize Lattice.init [120] none).2.map fun ml =>
      ml.path.map fun x => x.extra.map (·.posId)

theorem run_first : runTwo Demo.twoCats Demo.twoOov = .ok [some 1] := by decide +kernel
theorem run_second : runTwo Demo.twoCats' Demo.twoOov = .ok [some 2] := by decide +kernel
theorem run_one : runTwo Demo.twoCats oneOov = .ok [some 1] := by decide +kernel
theorem run_one' : runTwo Demo.twoCats' oneOov = .ok [some 1] := by decide +kernel

theorem same_sets : SameSets Demo.twoCats Demo.twoCats' := by
  intro ch c
  simp only [Demo.twoCats, Demo.twoCats', List.mem_cons, List.not_mem_nil, or_false]
  exact Or.comm

theorem alone_rows {d w : Nat} {c : Cols} (h : alone.Row d w c) : d = 0 ∧ sources.Row d w c := by
  obtain ⟨src, h1, h2⟩ := h
  match d with
  | 0 =>
    cases h1
    exact ⟨rfl, _, rfl, h2⟩
  | d + 1 => cases h1

theorem alone_given : alone.GivenCosts := fun _ _ _ h hd => absurd (alone_rows h).1 hd
theorem alone_ids : alone.IdsInRange 2 := fun d w c h => ids_in_range d w c (alone_rows h).2
theorem alone_matrix : alone.Matrix 2 entries := matrix_two

section
attribute [local irreducible] sysDict systemFile

theorem two_installed {f : Nat → CatSet} {p : OovPlugin} {r : List (Option Int)} (h : runTwo f p = .ok r) :
    ∃ dict L ml, alone.Installed (configTwo f p) dict ∧
      (dict.tokenizer (configTwo f p) [] .C).tokenize Lattice.init [120] none = (L, .ok ml) ∧ ml.path.map (fun x => x.extra.map (·.posId)) = r := by
  unfold runTwo at h
  split at h
  · cases h
  rename_i dict hl
  cases ht : ((dict.tokenizer (configTwo f p) [] .C).tokenize Lattice.init [120] none).2 with
  | error e => rw [ht] at h; cases h
  | ok ml =>
    rw [ht] at h
    obtain ⟨ds, hd, hs⟩ := system_reads
    exact ⟨dict, _, ml, ⟨systemFile, [], ds, 9, system_builds, hd, hs, rfl, fun k src b h1 => (by cases h1), hl⟩, Prod.ext rfl ht,
      Except.ok.inj h⟩

end

theorem two_text {dict : Dict} {f : Nat → CatSet} {p : OovPlugin} {t : InputText}
    (h : (dict.tokenizer (configTwo f p) [] .C).buildInput [120] = .ok t) : t.bytes.length = 1 := by
  have h : (Builder.init [120]).build f = .ok t := h
  have B := Sudachi.built (Builder.Valid.init [120]).len h
  rw [B.bytes]
  decide

theorem two_plugins (f : Nat → CatSet) (p : OovPlugin) : (configTwo f p).PluginsOk :=
  ⟨fun _ h => (by cases h), fun _ h => h, fun _ _ h => (by cases h)⟩

theorem two_short (f : Nat → CatSet) : ∀ p ∈ (configTwo f Demo.twoOov).oov, p.Short := by
  intro p hp
  rw [List.mem_singleton.1 hp]
  have : ∀ p ∈ [(Cat.ALPHA, (⟨0, 0, 100, 1⟩ : OovEntry)), (.USER1, ⟨0, 0, 100, 2⟩)], Short p.2.cost := by unfold Short; decide
  exact this

theorem two_entries (f : Nat → CatSet) : ∀ p ∈ (configTwo f Demo.twoOov).oov, ∀ o, p.Entry o →
    Sources.InRange 2 o.leftId ∧ Sources.InRange 2 o.rightId := by
  intro p hp o ho
  rw [List.mem_singleton.1 hp] at ho
  obtain ⟨ty, ho⟩ := ho
  have : ∀ p ∈ [(Cat.ALPHA, (⟨0, 0, 100, 1⟩ : OovEntry)), (.USER1, ⟨0, 0, 100, 2⟩)], (0 ≤ p.2.leftId ∧ p.2.leftId < 2) ∧ 0 ≤ p.2.rightId ∧
    p.2.rightId < 2 := by decide
  exact this _ ho

theorem one_short (f : Nat → CatSet) : ∀ p ∈ (configTwo f oneOov).oov, p.Short := by
  intro p hp
  rw [List.mem_singleton.1 hp]
  have : ∀ p ∈ [(Cat.ALPHA, (⟨0, 0, 100, 1⟩ : OovEntry))], Short p.2.cost := by unfold Short; decide
  exact this

theorem one_entries (f : Nat → CatSet) : ∀ p ∈ (configTwo f oneOov).oov, ∀ o, p.Entry o →
    Sources.InRange 2 o.leftId ∧ Sources.InRange 2 o.rightId := by
  intro p hp o ho
  rw [List.mem_singleton.1 hp] at ho
  obtain ⟨ty, ho⟩ := ho
  have : ∀ p ∈ [(Cat.ALPHA, (⟨0, 0, 100, 1⟩ : OovEntry))], (0 ≤ p.2.leftId ∧ p.2.leftId < 2) ∧ 0 ≤ p.2.rightId ∧
    p.2.rightId < 2 := by decide
  exact this _ ho

end Sample

/-- The sample dictionary with two categories for every character, each with an entry of the same cost, in both orders: the cost is the
same, the unknown words are not. -/
example : ∃ dict dict' L L' ml ml' cost, Sample.alone.Installed (Sample.configTwo Demo.twoCats Demo.twoOov) dict ∧
    Sample.alone.Installed (Sample.configTwo Demo.twoCats' Demo.twoOov) dict' ∧
    (dict.tokenizer (Sample.configTwo Demo.twoCats Demo.twoOov) [] .C).tokenize Lattice.init [120] none = (L, .ok ml) ∧
    (dict'.tokenizer (Sample.configTwo Demo.twoCats' Demo.twoOov) [] .C).tokenize Lattice.init [120] none = (L', .ok ml') ∧
    pathCost (Sources.conn Sample.entries) 0 ml.path = some cost ∧ pathCost (Sources.conn Sample.entries) 0 ml'.path = some cost ∧
    ml'.path ≠ ml.path := by
  obtain ⟨dict, L, ml, h1, h2, h3⟩ := Sample.two_installed Sample.run_first
  obtain ⟨dict', L', ml', h1', h2', h3'⟩ := Sample.two_installed Sample.run_second
  obtain ⟨auto, _, hall⟩ := Sources.C84_sources (cfg := Sample.configTwo Demo.twoCats Demo.twoOov) SimpleTrie.ok h1
    (Sample.two_plugins _ _) Sample.alone_matrix Sample.alone_ids (Sample.two_short _) (Sample.two_entries _)
  obtain ⟨t, g1, g2, _⟩ := hall .C Lattice.init L [120] none ml .fresh rfl (by decide) h2
  obtain ⟨cost, c1, c2, _⟩ := Sources.C85_same_cost_partial (cfg := Sample.configTwo Demo.twoCats Demo.twoOov) SimpleTrie.ok Sample.same_sets
    h1 h1' Sample.alone_given (Sample.two_plugins _ _) Sample.alone_matrix Sample.alone_ids (Sample.two_short _) (Sample.two_entries _) .C
    Lattice.init L Lattice.init L' [120] none ml ml' t .fresh .fresh rfl (by decide) h2 h2' g2
    (by rw [Sample.two_text g1]; unfold SafeLength; decide)
  refine ⟨dict, dict', L, L', ml, ml', cost, h1, h1', h2, h2', c1, c2, fun h => ?_⟩
  rw [h, h3] at h3'
  exact absurd h3' (by decide)

/-- With entries for one of the categories only, the results are the same. -/
example : ∃ dict dict' L L' ml ml', Sample.alone.Installed (Sample.configTwo Demo.twoCats Sample.oneOov) dict ∧
    Sample.alone.Installed (Sample.configTwo Demo.twoCats' Sample.oneOov) dict' ∧
    (dict.tokenizer (Sample.configTwo Demo.twoCats Sample.oneOov) [] .C).tokenize Lattice.init [120] none = (L, .ok ml) ∧
    (dict'.tokenizer (Sample.configTwo Demo.twoCats' Sample.oneOov) [] .C).tokenize Lattice.init [120] none = (L', .ok ml') ∧
    ml'.path = ml.path ∧ ml.path.map (fun x => x.extra.map (·.posId)) = [some 1] := by
  obtain ⟨dict, L, ml, h1, h2, h3⟩ := Sample.two_installed Sample.run_one
  obtain ⟨dict', L', ml', h1', h2', h3'⟩ := Sample.two_installed Sample.run_one'
  obtain ⟨auto, _, hall⟩ := Sources.C84_sources (cfg := Sample.configTwo Demo.twoCats Sample.oneOov) SimpleTrie.ok h1
    (Sample.two_plugins _ _) Sample.alone_matrix Sample.alone_ids (Sample.one_short _) (Sample.one_entries _)
  obtain ⟨t, g1, g2, _⟩ := hall .C Lattice.init L [120] none ml .fresh rfl (by decide) h2
  refine ⟨dict, dict', L, L', ml, ml', h1, h1', h2, h2', ?_, h3⟩
  refine Sources.C85_one_category (cfg := Sample.configTwo Demo.twoCats Sample.oneOov) SimpleTrie.ok Sample.same_sets
    h1 h1' Sample.alone_given (Sample.two_plugins _ _) Sample.alone_matrix Sample.alone_ids (Sample.one_short _) (Sample.one_entries _) ?_ .C
    Lattice.init L Lattice.init L' [120] none ml ml' t .fresh .fresh rfl (by decide) h2 h2' g2
    (by rw [Sample.two_text g1]; unfold SafeLength; decide)
  intro categories oovList hmem ch ty ty' o o' _ _ h5 h6
  have e : OovPlugin.mecab categories oovList = Sample.oneOov := List.mem_singleton.1 hmem
  injection e with e1 e2
  subst e2
  exact (congrArg Prod.fst (List.mem_singleton.1 h5)).trans (congrArg Prod.fst (List.mem_singleton.1 h6)).symm

namespace Sample

/-- Two categories for every character, of which one has entries; user dictionaries with a cost to be computed; a plugin that joins
unknown words. -/
def configJoin (f : Nat → CatSet) : DictConfig :=
  ⟨SimpleTrie.trie, 9, 100, f, id, id, [], [.mecab [(.KATAKANA, ⟨true, false, 1⟩), (.USER1, ⟨true, false, 1⟩)] [(.KATAKANA, ⟨0, 0, 100, 1⟩)]],
    [.katakana ⟨7, 2⟩]⟩
def joinCats : Nat → CatSet := fun _ => [.KATAKANA, .USER1]
def joinCats' : Nat → CatSet := fun _ => [.USER1, .KATAKANA]

theorem join_same : SameSets joinCats joinCats' := by
  intro ch c
  simp only [joinCats, joinCats', List.mem_cons, List.not_mem_nil, or_false]
  exact Or.comm

theorem join_nodup (ch : Nat) : (joinCats ch).Nodup := by unfold joinCats; decide
theorem join_nodup' (ch : Nat) : (joinCats' ch).Nodup := by unfold joinCats'; decide

theorem join_one (f : Nat → CatSet) : ∀ p ∈ (configJoin f).oov, OneCategory joinCats p := by
  intro p hp categories oovList he ch ty ty' o o' _ _ h5 h6
  rw [List.mem_singleton.1 hp] at he
  injection he with e1 e2
  subst e2
  exact (congrArg Prod.fst (List.mem_singleton.1 h5)).trans (congrArg Prod.fst (List.mem_singleton.1 h6)).symm

/-- Loading, and tokenizing `xy` in mode A: the parts of speech of the unknown words. -/
def runJoin (f : Nat → CatSet) : Res (List (Option Int)) :=
  match Dict.load (configJoin f) systemFile [userFile2, userFile1] with
  | .error e => .error e
  | .ok dict => ((dict.tokenizer (configJoin f) (configJoin f).pathPlugins .A).tokenize Lattice.init [120, 121] none).2.map fun ml =>
      ml.path.map fun x => x.extra.map (·.posId)

theorem run_join : runJoin joinCats = .ok [some 7] := by decide +kernel

end Sample

/-- The other order: the same dictionaries, and the two unknown words joined alike. -/
example : Sample.runJoin Sample.joinCats' = .ok [some 7] := by
  have h := Sample.run_join
  unfold Sample.runJoin at h ⊢
  have hf := Sample.join_nodup
  have hg := Sample.join_nodup'
  rw [show Sample.configJoin Sample.joinCats' = { Sample.configJoin Sample.joinCats with catOf := Sample.joinCats' } from rfl,
    C85_one_category_load (cfg := Sample.configJoin Sample.joinCats) Sample.join_same hf hg (Sample.join_one Sample.joinCats)]
  split at h
  · cases h
  rename_i dict hl
  cases ht : ((dict.tokenizer (Sample.configJoin Sample.joinCats) (Sample.configJoin Sample.joinCats).pathPlugins .A).tokenize
    Lattice.init [120, 121] none).2 with
  | error e => rw [ht] at h; cases h
  | ok ml =>
    rw [ht] at h
    obtain ⟨_, _, h3⟩ := C85_one_category_tokenize
      (T := dict.tokenizer (Sample.configJoin Sample.joinCats) (Sample.configJoin Sample.joinCats).pathPlugins .A) Sample.join_same hf hg
      (Sample.join_one Sample.joinCats) Lattice.init [120, 121] none
    obtain ⟨ml', h4, rfl, _⟩ := h3 ml ht
    exact (congrArg (Except.map _) h4).trans h

end Sudachi
