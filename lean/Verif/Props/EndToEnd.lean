/-
Properties of whole installations, from the sources of the dictionaries to the morphemes: C61 to C64.
-/
import Verif.Lemmas.Installed3
import Verif.Lemmas.SampleInstall
namespace Sudachi
open Sources

variable {S : Sources} {cfg : DictConfig} {dict : Dict}

/-! ## C61 -/

/-- **C61** Whatever the sources: if the dictionaries could be built and loaded, every result in mode C is a partition of the text. -/
theorem C61_mode_c (hD : cfg.D.Ok) (h : S.Installed cfg dict) (hp : cfg.PluginsOk) (ps : List PathPlugin) (mode0 : Mode) {L L' : Lattice}
    (hL : (dict.tokenizer cfg ps mode0).History L) {text : PStr} {mode : Option Mode} (hm : mode.getD mode0 = .C) {ml : MorphemeList}
    (ht : (dict.tokenizer cfg ps mode0).tokenize L text mode = (L', .ok ml)) :
    ∃ spans, ml.Shows spans ∧ Partition text 0 spans ∧ (spans.map (·.2.2)).flatten = text :=
  C01_partition _ ⟨hp.lower, hp.nfkc, hp.psm⟩ (h.lexOk hD) L hL text mode hm L' ml ht

/-- **C61** If the strings fit and the splits of the sources add up, so is every result in modes A and B. -/
theorem C61_all_modes (hD : cfg.D.Ok) (h : S.Installed cfg dict) (hp : cfg.PluginsOk) (hf : S.Fit) (hadd : S.SplitsAddUp)
    (ps : List PathPlugin) (mode0 : Mode) {L L' : Lattice} (hL : (dict.tokenizer cfg ps mode0).History L) {text : PStr} {mode : Option Mode}
    {ml : MorphemeList} (ht : (dict.tokenizer cfg ps mode0).tokenize L text mode = (L', .ok ml)) :
    ∃ spans, ml.Shows spans ∧ Partition text 0 spans ∧ (spans.map (·.2.2)).flatten = text := by
  obtain ⟨spans, h1, h2⟩ := tokenize_partition (T := dict.tokenizer cfg ps mode0) ⟨hp.lower, hp.nfkc, hp.psm⟩ (h.lexOk hD) hL
    (.inr (h.splitsOk hD hf hadd)) ht
  exact ⟨spans, h1, h2, by rw [h2.concat]; rfl⟩

/-! ## C62 -/

/-- **C62** With complete sources and settings, no tokenization of an encodable non-empty text that is not too long raises an
exception, in any mode. -/
theorem C62_no_exception (hD : cfg.D.Ok) (h : S.Installed cfg dict) {n : Nat} {entries : List (Int × Int × Int)}
    (hS : S.Complete n entries cfg.depth) (hcfg : cfg.Complete n) (ps : List PathPlugin) (mode0 : Mode) {L : Lattice}
    (hL : (dict.tokenizer cfg ps mode0).CleanHistory L) {text : PStr} (hne : text ≠ []) (henc : ∀ c ∈ text, encodable c = true)
    (hlen : ∀ t, (dict.tokenizer cfg ps mode0).buildInput text = .ok t → SafeLength t.bytes.length) (mode : Option Mode) :
    (∃ ml, ((dict.tokenizer cfg ps mode0).tokenize L text mode).2 = .ok ml) ∨
      ((dict.tokenizer cfg ps mode0).tokenize L text mode).2 = .error .outOfFuel :=
  C21_no_exception _ _ _ (h.complete hD hS hcfg ps mode0) L hL text hne henc hlen mode
    (.inr (h.unitsReadable hD hS.fit hS.chains hS.few))

/-- **C62** If moreover words of numerals have no separators and JoinNumericPlugin, if it is there, comes first, every such
tokenization returns a result. -/
theorem C62_succeeds (hD : cfg.D.Ok) (h : S.Installed cfg dict) {n : Nat} {entries : List (Int × Int × Int)}
    (hS : S.Complete n entries cfg.depth) (hcfg : cfg.Complete n) (hsep : S.NoSeparators cfg.catOf)
    (hchars : ∀ c, c = 44 ∨ c = 46 → Cat.NUMERIC ∉ cfg.catOf c ∧ Cat.KANJINUMERIC ∉ cfg.catOf c) (ps : List PathPlugin)
    (hnf : NumericFirst ps) (mode0 : Mode) {L : Lattice} (hL : (dict.tokenizer cfg ps mode0).CleanHistory L) {text : PStr} (hne : text ≠ [])
    (henc : ∀ c ∈ text, encodable c = true)
    (hlen : ∀ t, (dict.tokenizer cfg ps mode0).buildInput text = .ok t →
      SafeLength t.bytes.length ∧ 3 * (t.bytes.length + 1) * (t.bytes.length + 1) ≤ cfg.fuel) (mode : Option Mode) :
    ∃ ml, ((dict.tokenizer cfg ps mode0).tokenize L text mode).2 = .ok ml :=
  C21_succeeds _ _ _ (h.complete hD hS hcfg ps mode0) hnf (h.noSeparators hD hS.fit hsep hchars ps mode0) (set_honest _ _ _) L hL text hne
    henc hlen mode (.inr (h.unitsReadable hD hS.fit hS.chains hS.few))

/-- The sample installation: every hypothesis holds, so the text `aabx` is tokenized in every mode. -/
theorem Sample.tokenizes {dict : Dict} (h : Sample.sources.Installed Sample.config dict) (mode : Mode) :
    ∃ L' ml, (dict.tokenizer Sample.config [] .C).tokenize Lattice.init [97, 97, 98, 120] (some mode) = (L', .ok ml) := by
  obtain ⟨ml, hml⟩ := C62_succeeds SimpleTrie.ok h Sample.sources_complete Sample.config_complete Sample.no_separators
    (fun c _ => ⟨fun h => (by cases List.mem_singleton.1 h), fun h => (by cases List.mem_singleton.1 h)⟩) [] (by trivial) .C .fresh (text := [97, 97, 98, 120]) (by decide) (by decide)
    (fun t ht => by rw [Sample.short_text ht]; exact ⟨by unfold SafeLength; decide, by decide⟩) (some mode)
  exact ⟨_, ml, Prod.ext rfl hml⟩

/-- A word that looks up nothing and words of all dictionaries are partitioned in modes A, B and C. -/
example (mode : Mode) : ∃ (dict : Dict) (L' : Lattice) (ml : MorphemeList) (spans : List (Nat × Nat × PStr)),
    Sample.sources.Installed Sample.config dict ∧
    (dict.tokenizer Sample.config [] .C).tokenize Lattice.init [97, 97, 98, 120] (some mode) = (L', .ok ml) ∧
    ml.Shows spans ∧ (spans.map (·.2.2)).flatten = [97, 97, 98, 120] := by
  obtain ⟨dict, h⟩ := Sample.installed
  obtain ⟨L', ml, ht⟩ := Sample.tokenizes h mode
  obtain ⟨spans, h1, _, h2⟩ := C61_all_modes SimpleTrie.ok h Sample.plugins_ok Sample.sources_fit Sample.splits_add_up [] .C .fresh ht
  exact ⟨dict, L', ml, spans, h, ht, h1, h2⟩

/-! ## C63 -/

/-- **C63** In every result, in any mode and after any history, a morpheme is an unknown word or a joined one (it has its own
word info), or it shows a row of a source. -/
theorem C63_morphemes (hD : cfg.D.Ok) (h : S.Installed cfg dict) (hp : cfg.PluginsOk) (hf : S.Fit) (ps : List PathPlugin) (mode0 : Mode)
    {L L' : Lattice} (hL : (dict.tokenizer cfg ps mode0).History L) {text : PStr} {mode : Option Mode} {ml : MorphemeList}
    (ht : (dict.tokenizer cfg ps mode0).tokenize L text mode = (L', .ok ml)) {i : Nat} {n : NodeData} (hn : pyGet ml.path i = .ok n) :
    (∃ info, n.extra = some info) ∨ ∃ d w c, S.Row d w c ∧ S.Shown cfg dict ml i d w c := by
  have hpl : (dict.tokenizer cfg ps mode0).PluginsOk := ⟨hp.lower, hp.nfkc, hp.psm⟩
  have key : ∀ d w c, S.Row d w c → n.oov = false → n.extra = none → n.defined = true → n.wordId = (combinedId d w : Nat) →
      S.Shown cfg dict ml i d w c := by
    intro d w c hc h1 h2 h3 h4
    have hw := h.row_lt hD hc
    have hinfo : ml.getWordInfo (dict.set.toLex cfg.D cfg.depth) i = dict.set.wordInfo cfg.depth (combinedId d w : Nat) := by
      unfold MorphemeList.getWordInfo
      rw [hn]
      show nodeWordInfo _ n = _
      unfold nodeWordInfo
      rw [h3, h2, h4]
      rfl
    refine ⟨?_, ?_, ?_, ?_, ?_⟩
    · unfold MorphemeList.isOov; rw [hn]; exact congrArg Except.ok h1
    · unfold MorphemeList.wordId; rw [hn]; exact congrArg Except.ok h4
    · unfold MorphemeList.dictionaryId
      rw [hn]
      show Except.ok (nodeDictionaryId n) = _
      unfold nodeDictionaryId
      rw [h3, h2, h4]
      exact congrArg Except.ok (dictionaryIdOf_combined hw)
    · intro info hi
      rw [hinfo] at hi
      exact h.infoSays hD hf hc hi
    · intro hch
      rw [hinfo]
      exact h.readable hD hf hch hc
  have hrow : ∀ bytes i ws w e, (dict.set.toLex cfg.D cfg.depth).lookup bytes i = .ok ws → (w, e) ∈ ws →
      ∃ d w0 c, w = combinedId d w0 ∧ S.Row d w0 c := by
    intro bytes i ws w e hws hm
    obtain ⟨found, h1, h2⟩ := h.lookup hD bytes i
    have hws : dict.set.lookup cfg.D bytes i = .ok ws := hws
    rw [h1] at hws
    cases hws
    obtain ⟨d, w0, c, e1, e2, _⟩ := (h2 w e).1 hm
    exact ⟨d, w0, c, e1, e2⟩
  have hmem : n ∈ ml.path := pyGet_path hn
  rcases tokenize_run hpl ht with ⟨_, _, rfl⟩ | ⟨_, hr⟩
  · cases hmem
  obtain ⟨t, path, _, _, _, _, _, hplain, _, hsplit⟩ := run_spec (h.lexOk hD) (hL.sane hpl (h.lexOk hD)) hr
  have hone : ∀ x ∈ path, x = n → (∃ info, n.extra = some info) ∨ ∃ d w c, S.Row d w c ∧ S.Shown cfg dict ml i d w c := by
    rintro x hx rfl
    obtain ⟨h1, ⟨h2, h3, bytes, i, ws, w, e, h4, h5, _, h6, _⟩ | ⟨w, h2, _⟩⟩ := hplain x hx
    · obtain ⟨d, w0, c, rfl, hc⟩ := hrow bytes i ws w e h4 h5
      exact .inr ⟨d, w0, c, hc, key d w0 c hc h2 h3 h1 h6⟩
    · exact .inl ⟨w, h2⟩
  unfold splitPath at hsplit
  split at hsplit
  · cases hsplit
    exact hone n hmem rfl
  · have hnodes : ∀ (path nodes : List NodeData), splitNodes (dict.tokenizer cfg ps mode0).lex (mode.getD mode0) path = .ok nodes →
        n ∈ nodes → ∃ x ∈ path, ∃ ns, splitNode (dict.tokenizer cfg ps mode0).lex (mode.getD mode0) x = .ok ns ∧ n ∈ ns := by
      intro path
      induction path with
      | nil => intro nodes hs hm; cases hs; cases hm
      | cons x path ih =>
        intro nodes hs hm
        unfold splitNodes at hs
        obtain ⟨a, ha, hs⟩ := bind_ok hs
        obtain ⟨b, hb, hs⟩ := bind_ok hs
        cases hs
        rcases List.mem_append.1 hm with hm | hm
        · exact ⟨x, by simp, a, ha, hm⟩
        · obtain ⟨y, hy, r⟩ := ih b hb hm
          exact ⟨y, by simp [hy], r⟩
    obtain ⟨x, hx, ns, hs, hm⟩ := hnodes path _ hsplit hmem
    unfold splitNode at hs
    obtain ⟨wi, hwi, hs⟩ := bind_ok hs
    split at hs
    · cases hs
      exact hone x hx (List.mem_singleton.1 hm).symm
    · rename_i hlen
      obtain ⟨infos, _, _, h3, h4⟩ := splitUnits_spec hs
      obtain ⟨g1, g2, g3⟩ := h4 n hm
      have hu : n.wordId ∈ unitsOf (mode.getD mode0) wi := by rw [← h3]; exact List.mem_map_of_mem hm
      rcases (hplain x hx).info hwi with ⟨_, _, k1, bytes, j, ws, w, e, k2, k3, _, k5, _⟩ | ⟨_, k2, k3⟩
      · obtain ⟨d, w0, c, rfl, hc⟩ := hrow bytes j ws w e k2 k3
        rw [k5] at k1
        obtain ⟨src, wi', table, hs', h5, _, _, _, _, _, h6, h7, _⟩ := h.info hD hc (hf d w0 c hc) k1
        have hunit : ∀ (col : PStr) (ids : List Int), SplitMeans (S.against d) src.rows col ids → n.wordId ∈ ids.map (ownUnit d) →
            ∃ d' w' c', S.Row d' w' c' ∧ n.wordId = (combinedId d' w' : Nat) := by
          intro col ids hm hu
          obtain ⟨u0, h8, h9⟩ := List.mem_map.1 hu
          obtain ⟨q1, c', q2⟩ := h.unitRow hD hs' (DictBuilder.SplitMeans.exists (h.againstOk hD d) hm u0 h8)
          exact ⟨_, _, c', q2, by rw [← h9]; exact q1⟩
        have : ∃ d' w' c', S.Row d' w' c' ∧ n.wordId = (combinedId d' w' : Nat) := by
          unfold unitsOf at hu
          split at hu
          · rw [h6] at hu
            exact hunit _ _ h5.aSplit hu
          · rw [h7] at hu
            exact hunit _ _ h5.bSplit hu
        obtain ⟨d', w', c', r1, r2⟩ := this
        exact .inr ⟨d', w', c', r1, key d' w' c' r1 g1 g2 g3 r2⟩
      · exfalso
        unfold unitsOf at hu
        split at hu
        · rw [k2] at hu; cases hu
        · rw [k3] at hu; cases hu

/-- The sample, in mode A: its first morpheme is a row of a source or an unknown word. -/
example : ∃ (dict : Dict) (L' : Lattice) (ml : MorphemeList),
    (dict.tokenizer Sample.config [] .C).tokenize Lattice.init [97, 97, 98, 120] (some .A) = (L', .ok ml) ∧ ml.path ≠ [] ∧
    ∀ i n, pyGet ml.path i = .ok n →
      (∃ info, n.extra = some info) ∨ ∃ d w c, Sample.sources.Row d w c ∧ Sample.sources.Shown Sample.config dict ml i d w c := by
  obtain ⟨dict, h⟩ := Sample.installed
  obtain ⟨L', ml, ht⟩ := Sample.tokenizes h .A
  refine ⟨dict, L', ml, ht, ?_, fun i n hn => C63_morphemes SimpleTrie.ok h Sample.plugins_ok Sample.sources_fit [] .C .fresh ht hn⟩
  intro hnil
  obtain ⟨spans, h1, _, h2⟩ := C61_all_modes SimpleTrie.ok h Sample.plugins_ok Sample.sources_fit Sample.splits_add_up [] .C .fresh ht
  have : spans.length = 0 := by rw [← h1.1]; unfold MorphemeList.len; rw [hnil]; rfl
  rw [List.length_eq_zero_iff.1 this] at h2
  cases h2

/-- **C63** After successful calls only, in mode C: a dictionary word in a result is a row whose headword stands at its place in the
normalised text, at possible word boundaries, with the ids and the cost of the row. -/
theorem C63_words (hD : cfg.D.Ok) (h : S.Installed cfg dict) (hp : cfg.PluginsOk) : ∃ auto, S.AutoCosts cfg auto ∧
    ∀ (ps : List PathPlugin) (mode0 : Mode) (L L' : Lattice) (text : PStr) (mode : Option Mode) (ml : MorphemeList),
      (dict.tokenizer cfg ps mode0).CleanHistory L → mode.getD mode0 = .C → text ≠ [] →
      (dict.tokenizer cfg ps mode0).tokenize L text mode = (L', .ok ml) →
      ∃ t, (dict.tokenizer cfg ps mode0).buildInput text = .ok t ∧ ml.input = some t ∧
        ∀ n ∈ ml.path, (∃ info, n.extra = some info) ∨ S.Word auto t n := by
  refine ⟨loadedCost dict, h.autoCosts hD hp, ?_⟩
  intro ps mode0 L L' text mode ml hL hm hne ht
  have hpl : (dict.tokenizer cfg ps mode0).PluginsOk := ⟨hp.lower, hp.nfkc, hp.psm⟩
  have hclean := hL.clean hpl (h.lexOk hD)
  rcases tokenize_run hpl ht with ⟨h0, _⟩ | ⟨_, ⟨bd, t, L1, path0, path, path', hti, hv, ho, hne', B, hb, hp0, hrw, hcl, hsp, rfl⟩⟩
  · exact absurd h0 hne
  obtain ⟨h1, h2⟩ := run_path (h.lexOk hD) (hL.history.sane hpl (h.lexOk hD)) B hb hp0 hrw
  have hins := bestPath_cands (h.lexOk hD) B hclean hb hp0
  have hall := rewritePath_inserted (C := Inserted (dict.set.toLex cfg.D cfg.depth) cfg.oov t bd.modified)
    (buildLattice_endsRight hclean hb) hins.2 hrw
    ((hL.history.sane hpl (h.lexOk hD)).bestPath B (h.lexOk hD) hb hp0).1 (fun d hd => .inl (hins.1 d hd))
  have hpath : path' = path := by
    unfold splitPath at hsp
    rw [show mode.getD (dict.tokenizer cfg ps mode0).mode = .C from hm, if_pos rfl] at hsp
    exact (Except.ok.inj hsp).symm
  subst hpath
  refine ⟨t, hti, rfl, fun n hn => ?_⟩
  obtain ⟨g1, ⟨g2, g3, _⟩ | ⟨w, g2, _⟩⟩ := h2 n hn
  · rcases hall n hn with hi | ⟨w, hw⟩
    · exact .inr (h.word hD hi.offered g2 g1 hi.bow (hi.eow g2))
    · exact .inl ⟨w, hw⟩
  · exact .inl ⟨w, g2⟩

/-! ## C64 -/

/-- **C64** Without path rewriting plugins, after successful calls only, in mode C, for a text that is not too long: the result is
a segmentation of the normalised text into words of the sources and unknown words, and with the costs of the sources no
segmentation into words of the sources is cheaper. -/
theorem C64_optimal (hD : cfg.D.Ok) (h : S.Installed cfg dict) (hp : cfg.PluginsOk) {n : Nat} {entries : List (Int × Int × Int)}
    (hmat : S.Matrix n entries) (hids : S.IdsInRange n) (hshort : ∀ p ∈ cfg.oov, p.Short)
    (hoov : ∀ p ∈ cfg.oov, ∀ o, p.Entry o → InRange n o.leftId ∧ InRange n o.rightId) : ∃ auto, S.AutoCosts cfg auto ∧
    ∀ (mode0 : Mode) (L L' : Lattice) (text : PStr) (mode : Option Mode) (ml : MorphemeList),
      (dict.tokenizer cfg [] mode0).CleanHistory L → mode.getD mode0 = .C → text ≠ [] →
      (dict.tokenizer cfg [] mode0).tokenize L text mode = (L', .ok ml) →
      ∃ t, (dict.tokenizer cfg [] mode0).buildInput text = .ok t ∧ ml.input = some t ∧ (SafeLength t.bytes.length →
        ∃ cost, IsPath (conn entries) (fun x => S.Word auto t x ∨ x.oov = true) t.bytes.length ml.path cost ∧
          ∀ p' cost', IsPath (conn entries) (S.Word auto t) t.bytes.length p' cost' → cost ≤ cost') := by
  refine ⟨loadedCost dict, h.autoCosts hD hp, ?_⟩
  intro mode0 L L' text mode ml hL hm hne ht
  have hpl : (dict.tokenizer cfg [] mode0).PluginsOk := ⟨hp.lower, hp.nfkc, hp.psm⟩
  have hclean := hL.clean hpl (h.lexOk hD)
  rcases tokenize_run hpl ht with ⟨h0, _⟩ | ⟨_, ⟨bd, t, L1, path0, path, path', hti, hv, ho, hne', B, hb, hp0, hrw, hcl, hsp, rfl⟩⟩
  · exact absurd h0 hne
  obtain ⟨bd, hv, _, hb', B, _⟩ := buildInput_built hpl hti
  have hpath0 : path = path0 := (Except.ok.inj hrw).symm
  have hpath : path' = path := by
    unfold splitPath at hsp
    rw [show mode.getD (dict.tokenizer cfg [] mode0).mode = .C from hm, if_pos rfl] at hsp
    exact (Except.ok.inj hsp).symm
  subst hpath
  subst hpath0
  refine ⟨t, hti, rfl, fun hsafe => ?_⟩
  have hn0 : InRange n 0 := ⟨Int.le_refl _, by have := h.matrix_pos hD hmat; omega⟩
  obtain ⟨cost, ⟨c1, c2, c3⟩, c4⟩ := C14_cheapest_path bd hv cfg.catOf t hb' dict.grammar.cell (h.connShort hD) _ (h.lexOk hD) cfg.oov hshort
    hsafe L L1 hclean hb path' hp0
  have hins := bestPath_cands (h.lexOk hD) B hclean hb hp0
  have hknown := ((hL.history.sane hpl (h.lexOk hD)).bestPath B (h.lexOk hD) hb hp0).2
  have hwords : ∀ x ∈ path', (S.Word (loadedCost dict) t x ∨ x.oov = true) ∧ InRange n x.leftId ∧ InRange n x.rightId := by
    intro x hx
    have hi := hins.1 x hx
    obtain ⟨k1, ⟨k2, _⟩ | ⟨k2, _⟩⟩ := hknown x hx
    · have hw := h.word hD hi.offered k2 k1 hi.bow (hi.eow k2)
      exact ⟨.inl hw, hw.inRange hids⟩
    · refine ⟨.inr k2, ?_⟩
      rcases hi.offered with ⟨f1, _⟩ | ⟨_, p, hpm, has, ns, f2, f3⟩
      · rw [f1] at k2; cases k2
      · obtain ⟨k, j, q1, q2, q3, _⟩ := hi.onChars
        rw [q3] at f2
        obtain ⟨o, o1, o2, o3⟩ := getOov_entry B (by omega) f2 x f3
        rw [o2, o3]
        exact hoov p hpm o o1
  have hcongr : ∀ l r, InRange n l → InRange n r → dict.grammar.cell l r = conn entries l r := fun l r hl hr => h.cell hD hmat hl hr
  refine ⟨cost, ⟨c1, fun x hx => (hwords x hx).1, ?_⟩, ?_⟩
  · rw [← pathCost_congr hn0 hcongr hn0 fun x hx => (hwords x hx).2]
    exact c3
  · rintro p' cost' ⟨d1, d2, d3⟩
    refine c4 p' cost' ⟨d1, h.cands hD hv hb' hclean hb d1 d2 (.inl rfl), ?_⟩
    rw [pathCost_congr hn0 hcongr hn0 fun x hx => (d2 x hx).inRange hids]
    exact d3

namespace Sample

/-- The nodes of `a` and `ab` in the text `aab`. -/
def nodeA : NodeData := ⟨0, 1, 1, 1, 5, 0, false, none, true⟩
def nodeAb : NodeData := ⟨1, 3, 0, 1, -3, 1, false, none, true⟩

def textAab : Res InputText := (Builder.init [97, 97, 98]).build config.catOf

theorem words_aab {auto : Nat → Nat → Int} {t : InputText} (ht : textAab = .ok t) :
    IsPath (conn entries) (sources.Word auto t) t.bytes.length [nodeA, nodeAb] 7 := by
  have hb : textAab.map (fun t => (t.bytes, t.canBow 0, t.canBow 1)) = .ok ([97, 97, 98], .ok true, .ok true) := by decide +kernel
  rw [ht] at hb
  have hb := Except.ok.inj hb
  simp only [Prod.mk.injEq] at hb
  obtain ⟨h1, h2, h3⟩ := hb
  refine ⟨?_, ?_, ?_⟩
  · rw [h1]; exact ⟨rfl, by decide, rfl, by decide, rfl⟩
  · intro d hd
    rcases List.mem_cons.1 hd with rfl | hd
    · exact ⟨rfl, rfl, rfl, 0, 0, cols0, ⟨_, rfl, row0⟩, by decide, rfl, by decide +kernel, by decide +kernel,
        (by unfold Cost; rw [if_neg (by simp)]; decide +kernel), by decide, by rw [h1]; decide, h2, .inr h3⟩
    · rw [List.mem_singleton.1 hd]
      exact ⟨rfl, rfl, rfl, 0, 1, cols1, ⟨_, rfl, row1⟩, by decide, rfl, by decide +kernel, by decide +kernel,
        (by unfold Cost; rw [if_neg (by simp)]; decide +kernel), by decide, by rw [h1]; decide, h3, .inl (by rw [h1]; rfl)⟩
  · decide

end Sample

/-- On the sample installation the text `aab` can be segmented into `a` and `ab` with cost 7, so the result is not dearer. -/
example {dict : Dict} (h : Sample.sources.Installed Sample.config dict) {L' : Lattice} {ml : MorphemeList}
    (ht : (dict.tokenizer Sample.config [] .C).tokenize Lattice.init [97, 97, 98] none = (L', .ok ml)) :
    ∃ cost, pathCost (conn Sample.entries) 0 ml.path = some cost ∧ cost ≤ 7 := by
  obtain ⟨auto, _, hall⟩ := C64_optimal SimpleTrie.ok h Sample.plugins_ok Sample.matrix_two Sample.ids_in_range
    Sample.config_complete.oovShort Sample.config_complete.oovIds
  obtain ⟨t, h1, _, h2⟩ := hall .C Lattice.init L' [97, 97, 98] none ml .fresh rfl (by decide) ht
  have h1 : Sample.textAab = .ok t := h1
  have hb : Sample.textAab.map (fun t => t.bytes.length) = .ok 3 := by decide +kernel
  rw [h1] at hb
  have hb : t.bytes.length = 3 := Except.ok.inj hb
  obtain ⟨cost, ⟨_, _, h3⟩, h4⟩ := h2 (by rw [hb]; unfold SafeLength; decide)
  exact ⟨cost, h3, h4 _ _ (Sample.words_aab h1)⟩

end Sudachi
