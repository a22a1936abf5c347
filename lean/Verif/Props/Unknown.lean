import Verif.Lemmas.Unknown

/-!
# C79: the cheapest segmentation, unknown words included
-/

namespace Sudachi
namespace Sources

variable {S : Sources} {cfg : DictConfig} {dict : Dict}

theorem Installed.lattice_iff (hD : cfg.D.Ok) (h : S.Installed cfg dict) (hp : cfg.PluginsOk) {ps : List PathPlugin} {mode0 : Mode}
    {L L' : Lattice} {text : PStr} {t : InputText} (hclean : L.Clean) (ht : (dict.tokenizer cfg ps mode0).buildInput text = .ok t)
    (hbl : buildLattice dict.grammar.cell (dict.set.toLex cfg.D cfg.depth) cfg.oov t L = (L', .ok ())) (x : NodeData) :
    L'.Cand x ↔ ∃ before, Tiles 0 x.begin_ before ∧ (∀ y ∈ before, S.Candidate (loadedCost dict) cfg.catOf cfg.oov t y) ∧
      S.Candidate (loadedCost dict) cfg.catOf cfg.oov t x := by
  have hpl : (dict.tokenizer cfg ps mode0).PluginsOk := ⟨hp.lower, hp.nfkc, hp.psm⟩
  obtain ⟨bd, hv, _, hb, B, _⟩ := buildInput_built hpl ht
  have key := h.cand_iff hD hv hb hclean hbl
  have hlt : ∀ x, L'.Cand x → x.begin_ < x.end_ := by
    intro x hx
    obtain ⟨L1, h1, h2⟩ := Sudachi.buildLattice_ok hbl
    obtain ⟨k1, _⟩ := buildLoop_cands B (h.lexOk hD) hclean h1
    obtain ⟨g1, _, ds, g3, g4⟩ := k1 x ((cand_congr (connectEos_frame h2).1 x).1 hx)
    exact (posNodes_inserted B (h.lexOk hD) g1 g3 x g4).2.1
  constructor
  · have : ∀ n x, x.begin_ < n → L'.Cand x → ∃ before, Tiles 0 x.begin_ before ∧
        (∀ y ∈ before, S.Candidate (loadedCost dict) cfg.catOf cfg.oov t y) ∧ S.Candidate (loadedCost dict) cfg.catOf cfg.oov t x := by
      intro n
      induction n with
      | zero => intro x hx; omega
      | succ n ih =>
        intro x hx hc
        obtain ⟨h1, h0 | ⟨d, h2, h3⟩⟩ := (key x).1 hc
        · exact ⟨[], h0.symm, fun y hy => (by cases hy), h1⟩
        · have hd := hlt d h2
          obtain ⟨before, b1, b2, b3⟩ := ih d (by omega) h2
          refine ⟨before ++ [d], by rw [← h3]; exact tiles_snoc b1 hd, fun y hy => ?_, h1⟩
          rcases List.mem_append.1 hy with hy | hy
          · exact b2 y hy
          · rw [List.mem_singleton.1 hy]; exact b3
    exact this _ x (Nat.lt_succ_self _)
  · rintro ⟨before, b1, b2, b3⟩
    have hall := h.all_cands hD hv hb hclean hbl b1 b2 (.inl rfl)
    refine (key x).2 ⟨b3, ?_⟩
    rcases List.eq_nil_or_concat before with rfl | ⟨l, d, rfl⟩
    · exact .inl (Eq.symm b1)
    · refine .inr ⟨d, hall d (by simp), ?_⟩
      exact tiles_last (by simpa using b1)

/-- **C79** On an installation, the lattice of a text holds exactly the words of the text, of the sources and unknown, that can be
reached from its beginning. -/
theorem C79_lattice (hD : cfg.D.Ok) (h : S.Installed cfg dict) (hp : cfg.PluginsOk) : ∃ auto, S.AutoCosts cfg auto ∧
    ∀ (ps : List PathPlugin) (mode0 : Mode) (L L' : Lattice) (text : PStr) (t : InputText),
      (dict.tokenizer cfg ps mode0).CleanHistory L → (dict.tokenizer cfg ps mode0).buildInput text = .ok t →
      buildLattice dict.grammar.cell (dict.set.toLex cfg.D cfg.depth) cfg.oov t L = (L', .ok ()) →
      ∀ x, L'.Cand x ↔ ∃ before, Tiles 0 x.begin_ before ∧ (∀ y ∈ before, S.Candidate auto cfg.catOf cfg.oov t y) ∧
        S.Candidate auto cfg.catOf cfg.oov t x := by
  refine ⟨loadedCost dict, h.autoCosts hD hp, ?_⟩
  intro ps mode0 L L' text t hL ht hbl x
  exact h.lattice_iff hD hp (hL.clean ⟨hp.lower, hp.nfkc, hp.psm⟩ (h.lexOk hD)) ht hbl x

/-- **C79** Without path rewriting plugins, after successful calls only, in mode C, for a text that is not too long: the result is a
cheapest segmentation of the normalised text into words of the sources and unknown words. -/
theorem C79_cheapest (hD : cfg.D.Ok) (h : S.Installed cfg dict) (hp : cfg.PluginsOk) {n : Nat} {entries : List (Int × Int × Int)}
    (hmat : S.Matrix n entries) (hids : S.IdsInRange n) (hshort : ∀ p ∈ cfg.oov, p.Short)
    (hoov : ∀ p ∈ cfg.oov, ∀ o, p.Entry o → InRange n o.leftId ∧ InRange n o.rightId) : ∃ auto, S.AutoCosts cfg auto ∧
    ∀ (mode0 : Mode) (L L' : Lattice) (text : PStr) (mode : Option Mode) (ml : MorphemeList),
      (dict.tokenizer cfg [] mode0).CleanHistory L → mode.getD mode0 = .C → text ≠ [] →
      (dict.tokenizer cfg [] mode0).tokenize L text mode = (L', .ok ml) →
      ∃ t, (dict.tokenizer cfg [] mode0).buildInput text = .ok t ∧ ml.input = some t ∧ (SafeLength t.bytes.length →
        ∃ cost, IsPath (conn entries) (S.Candidate auto cfg.catOf cfg.oov t) t.bytes.length ml.path cost ∧
          ∀ p' cost', IsPath (conn entries) (S.Candidate auto cfg.catOf cfg.oov t) t.bytes.length p' cost' → cost ≤ cost') := by
  refine ⟨loadedCost dict, h.autoCosts hD hp, ?_⟩
  intro mode0 L L' text mode ml hL hm hne ht
  have hpl : (dict.tokenizer cfg [] mode0).PluginsOk := ⟨hp.lower, hp.nfkc, hp.psm⟩
  have hclean := hL.clean hpl (h.lexOk hD)
  rcases tokenize_run hpl ht with ⟨h0, _⟩ | ⟨_, ⟨bd, t, L1, path0, path, path', hti, hv, ho, hne', B, hb, hp0, hrw, hcl, hsp, rfl⟩⟩
  · exact absurd h0 hne
  obtain ⟨bd, hv, _, hb', B, _⟩ := buildInput_built hpl hti
  have hpath0 : path = path0 := (Except.ok.inj hrw).symm
  have hpath : path' = path := by
    unfold splitPath at hsp
    rw [show mode.getD (dict.tokenizer cfg [] mode0).mode = .C from hm, if_pos rfl] at hsp
    exact (Except.ok.inj hsp).symm
  subst hpath
  subst hpath0
  refine ⟨t, hti, rfl, fun hsafe => ?_⟩
  have hn0 : InRange n 0 := ⟨Int.le_refl _, by have := h.matrix_pos hD hmat; omega⟩
  obtain ⟨cost, ⟨c1, c2, c3⟩, c4⟩ := C14_cheapest_path bd hv cfg.catOf t hb' dict.grammar.cell (h.connShort hD) _ (h.lexOk hD) cfg.oov hshort
    hsafe L L1 hclean hb path' hp0
  have hcongr : ∀ l r, InRange n l → InRange n r → dict.grammar.cell l r = conn entries l r := fun l r hl hr => h.cell hD hmat hl hr
  have hwords : ∀ x ∈ path', S.Candidate (loadedCost dict) cfg.catOf cfg.oov t x := fun x hx =>
    ((h.cand_iff hD hv hb' hclean hb x).1 (c2 x hx)).1
  refine ⟨cost, ⟨c1, hwords, ?_⟩, ?_⟩
  · rw [← pathCost_congr hn0 hcongr hn0 fun x hx => Candidate.inRange hids hoov (hwords x hx)]
    exact c3
  · rintro p' cost' ⟨d1, d2, d3⟩
    refine c4 p' cost' ⟨d1, h.all_cands hD hv hb' hclean hb d1 d2 (.inl rfl), ?_⟩
    rw [pathCost_congr hn0 hcongr hn0 fun x hx => Candidate.inRange hids hoov (d2 x hx)]
    exact d3

/-- **C79** A call that is not given too long a text, in mode C without path rewriting plugins, succeeds exactly if the normalised text
has a segmentation into words whose connections are all allowed, and there is a word at every place where words can begin that is
reached by words. -/
theorem C79_succeeds_iff (hD : cfg.D.Ok) (h : S.Installed cfg dict) (hp : cfg.PluginsOk) {n : Nat} {entries : List (Int × Int × Int)}
    (hmat : S.Matrix n entries) (hids : S.IdsInRange n) (hfew : S.users.length ≤ 7) (hshort : ∀ p ∈ cfg.oov, p.Short)
    (hoov : ∀ p ∈ cfg.oov, ∀ o, p.Entry o → InRange n o.leftId ∧ InRange n o.rightId) : ∃ auto, S.AutoCosts cfg auto ∧
    ∀ (mode0 : Mode) (L : Lattice) (text : PStr) (mode : Option Mode) (t : InputText),
      (dict.tokenizer cfg [] mode0).CleanHistory L → mode.getD mode0 = .C → text ≠ [] →
      (dict.tokenizer cfg [] mode0).buildInput text = .ok t → SafeLength t.bytes.length →
      ((∃ ml, ((dict.tokenizer cfg [] mode0).tokenize L text mode).2 = .ok ml) ↔
        (∃ p cost, IsPath (conn entries) (S.Candidate auto cfg.catOf cfg.oov t) t.bytes.length p cost) ∧
        ∀ k before, k < t.modified.length → BowChar (t.modified.map cfg.catOf) k → Tiles 0 (bytePos t.modified k) before →
          (∀ y ∈ before, S.Candidate auto cfg.catOf cfg.oov t y) →
          ∃ x, S.Candidate auto cfg.catOf cfg.oov t x ∧ x.begin_ = bytePos t.modified k) := by
  refine ⟨loadedCost dict, h.autoCosts hD hp, ?_⟩
  intro mode0 L text mode t hL hm hne hti hsafe
  have hpl : (dict.tokenizer cfg [] mode0).PluginsOk := ⟨hp.lower, hp.nfkc, hp.psm⟩
  have hclean := hL.clean hpl (h.lexOk hD)
  obtain ⟨bd, hv, _, hb, B, _⟩ := buildInput_built hpl hti
  have hmod : t.modified = bd.modified := B.modif
  have hn0 : InRange n 0 := ⟨Int.le_refl _, by have := h.matrix_pos hD hmat; omega⟩
  have hcongr : ∀ l r, InRange n l → InRange n r → dict.grammar.cell l r = conn entries l r := fun l r hl hr => h.cell hD hmat hl hr
  have hpaths : ∀ {L'}, buildLattice dict.grammar.cell (dict.set.toLex cfg.D cfg.depth) cfg.oov t L = (L', .ok ()) →
      ∀ p cost, IsPath dict.grammar.cell L'.Cand t.bytes.length p cost ↔
        IsPath (conn entries) (S.Candidate (loadedCost dict) cfg.catOf cfg.oov t) t.bytes.length p cost := by
    intro L' hbl p cost
    constructor
    · rintro ⟨d1, d2, d3⟩
      have hw : ∀ x ∈ p, S.Candidate (loadedCost dict) cfg.catOf cfg.oov t x := fun x hx => ((h.cand_iff hD hv hb hclean hbl x).1 (d2 x hx)).1
      refine ⟨d1, hw, ?_⟩
      rw [← pathCost_congr hn0 hcongr hn0 fun x hx => Candidate.inRange hids hoov (hw x hx)]
      exact d3
    · rintro ⟨d1, d2, d3⟩
      refine ⟨d1, h.all_cands hD hv hb hclean hbl d1 d2 (.inl rfl), ?_⟩
      rw [pathCost_congr hn0 hcongr hn0 fun x hx => Candidate.inRange hids hoov (d2 x hx)]
      exact d3
  constructor
  · rintro ⟨ml, hml⟩
    have htok : (dict.tokenizer cfg [] mode0).tokenize L text mode = (((dict.tokenizer cfg [] mode0).tokenize L text mode).1, .ok ml) :=
      Prod.ext rfl hml
    rcases tokenize_run hpl htok with
      ⟨h0, _⟩ | ⟨_, ⟨bd', t', L1, path0, path, path', hti', hv', _, _, _, hbl, hp0, _, _, _, _⟩⟩
    · exact absurd h0 hne
    rw [hti] at hti'
    cases hti'
    have hbl : buildLattice dict.grammar.cell (dict.set.toLex cfg.D cfg.depth) cfg.oov t L = (L1, .ok ()) := hbl
    constructor
    · obtain ⟨p, cost, hpc⟩ := (C16_fails_iff_no_path bd hv cfg.catOf t hb dict.grammar.cell (h.connShort hD) _ (h.lexOk hD) cfg.oov hshort
        hsafe L L1 hclean hbl).2.1 ⟨path0, hp0⟩
      exact ⟨p, cost, (hpaths hbl p cost).1 hpc⟩
    · intro k before hk hbc h1 h2
      rw [hmod] at hk hbc h1 ⊢
      have hbow : t.canBow (bytePos bd.modified k) = .ok true := by
        rw [B.bytePos_wpos]
        exact canBow_of B hk (by rw [B.cats]; exact hbc)
      have hall := h.all_cands hD hv hb hclean hbl h1 h2 (.inl rfl)
      obtain ⟨L2, g1, g2⟩ := Sudachi.buildLattice_ok hbl
      obtain ⟨_, k2⟩ := buildLoop_cands B (h.lexOk hD) hclean g1
      have hends : L2.Ends (bytePos bd.modified k) := by
        rcases List.eq_nil_or_concat before with rfl | ⟨l, d, rfl⟩
        · exact .inl (Eq.symm h1)
        · refine .inr ⟨d, (cand_congr (connectEos_frame g2).1 d).1 (hall d (by simp)), ?_⟩
          exact tiles_last (by simpa using h1)
      obtain ⟨ds, hds, hall2⟩ := k2 _ hbow hends
      have hdne := posNodes_ne hds
      cases ds with
      | nil => exact absurd rfl hdne
      | cons x xs =>
        have hx : L1.Cand x := (cand_congr (connectEos_frame g2).1 x).2 (hall2 x List.mem_cons_self)
        exact ⟨x, ((h.cand_iff hD hv hb hclean hbl x).1 hx).1, (posNodes_inserted B (h.lexOk hD) hbow hds x List.mem_cons_self).1⟩
  · rintro ⟨⟨p, cost, hpc⟩, hall⟩
    rw [hmod] at hall
    obtain ⟨L1, hbl⟩ := h.buildLattice_ok hD hv hb hfew hmat hids hoov hshort (fun k hk hbc ⟨before, h1, h2⟩ => hall k before hk hbc h1 h2) hclean
    obtain ⟨path, hpath⟩ := (C16_fails_iff_no_path bd hv cfg.catOf t hb dict.grammar.cell (h.connShort hD) _ (h.lexOk hD) cfg.oov hshort
        hsafe L L1 hclean hbl).2.2 ⟨p, cost, (hpaths hbl p cost).2 hpc⟩
    have hs := hclean.sane dict.grammar.cell (dict.set.toLex cfg.D cfg.depth)
    obtain ⟨hs1, _, _⟩ := hs.buildLattice B (h.lexOk hD) hbl
    obtain ⟨L2, hcl, _⟩ := hs1.clear
    have hb1 : buildLattice (dict.tokenizer cfg [] mode0).conn (dict.tokenizer cfg [] mode0).lex (dict.tokenizer cfg [] mode0).oov t L =
      (L1, .ok ()) := hbl
    have hm' : mode.getD (dict.tokenizer cfg [] mode0).mode = .C := hm
    have hrw : rewritePath (dict.tokenizer cfg [] mode0).lex (dict.tokenizer cfg [] mode0).fuel t L1
      (dict.tokenizer cfg [] mode0).pathPlugins path = .ok path := rfl
    unfold Tokenizer.tokenize
    rw [if_neg (by cases text with | nil => exact absurd rfl hne | cons => simp), hti]
    simp only [hb1, Tokenizer.bestPath, hpath, bind, Except.bind, hrw, hcl, hm', splitPath, if_true]
    exact ⟨_, rfl⟩

end Sources

namespace Sample

/-- The unknown word `x` in the text `aabx`. -/
def nodeX : NodeData := unknownWord [97, 97, 98, 120] 3 4 ⟨0, 0, 30000, 0⟩

def textAabx : Res InputText := (Builder.init [97, 97, 98, 120]).build config.catOf

theorem candidates_aabx {auto : Nat → Nat → Int} {t : InputText} (ht : textAabx = .ok t) :
    IsPath (Sources.conn entries) (sources.Candidate auto config.catOf config.oov t) t.bytes.length [nodeA, nodeAb, nodeX] 30007 := by
  have hb : textAabx.map (fun t => (t.bytes, t.modified, t.canBow 0, t.canBow 1, t.canBow 3)) =
    .ok ([97, 97, 98, 120], [97, 97, 98, 120], .ok true, .ok true, .ok true) := by decide +kernel
  rw [ht] at hb
  have hb := Except.ok.inj hb
  simp only [Prod.mk.injEq] at hb
  obtain ⟨h1, h0, h2, h3, h4⟩ := hb
  refine ⟨?_, ?_, ?_⟩
  · rw [h1]; exact ⟨rfl, by decide, rfl, by decide, by decide, by decide, rfl⟩
  · intro d hd
    rcases List.mem_cons.1 hd with rfl | hd
    · exact .inl ⟨rfl, rfl, rfl, 0, 0, cols0, ⟨_, rfl, row0⟩, by decide, rfl, by decide +kernel, by decide +kernel,
        (by unfold Sources.Cost; rw [if_neg (by simp)]; decide +kernel), by decide, by rw [h1]; decide, h2, .inr h3⟩
    rcases List.mem_cons.1 hd with rfl | hd
    · exact .inl ⟨rfl, rfl, rfl, 0, 1, cols1, ⟨_, rfl, row1⟩, by decide, rfl, by decide +kernel, by decide +kernel,
        (by unfold Sources.Cost; rw [if_neg (by simp)]; decide +kernel), by decide, by rw [h1]; decide, h3, .inr h4⟩
    · rw [List.mem_singleton.1 hd]
      refine .inr ⟨3, ?_, ?_⟩
      · rw [h0]; exact .inr ⟨_, _, rfl, rfl, .inl (by unfold Alphabetic; decide)⟩
      rw [h0]
      refine ⟨120, rfl, .inl ⟨by decide, .inl ⟨?_, 4, by decide, by decide, .inl rfl, by omega, rfl⟩⟩⟩
      rintro ⟨y, ⟨_, _, _, d, w, c, hc, _, _, _, _, _, he, hs, _⟩, hy⟩
      have hy : y.begin_ = 3 := hy
      rw [he, hy, h1] at hs
      rcases rows_are hc with ⟨_, _, rfl⟩ | ⟨_, _, rfl⟩ | ⟨_, _, rfl⟩ | ⟨_, _, rfl⟩ | ⟨_, _, rfl⟩ <;> revert hs <;> decide
  · decide

end Sample

/-- On the sample installation the text `aabx` is a result, and its cost is at most that of `a`, `ab` and the unknown word `x`. -/
example {dict : Dict} (h : Sample.sources.Installed Sample.config dict) : ∃ L' ml cost,
    (dict.tokenizer Sample.config [] .C).tokenize Lattice.init [97, 97, 98, 120] (some .C) = (L', .ok ml) ∧
    pathCost (Sources.conn Sample.entries) 0 ml.path = some cost ∧ cost ≤ 30007 := by
  obtain ⟨auto, _, hall⟩ := Sources.C79_cheapest SimpleTrie.ok h Sample.plugins_ok Sample.matrix_two Sample.ids_in_range
    Sample.config_complete.oovShort Sample.config_complete.oovIds
  obtain ⟨L', ml, ht⟩ := Sample.tokenizes h .C
  obtain ⟨t, h1, _, h2⟩ := hall .C Lattice.init L' _ (some .C) ml .fresh rfl (by decide) ht
  have hb : Sample.textAabx = .ok t := h1
  obtain ⟨cost, ⟨_, _, h3⟩, h4⟩ := h2 (by rw [Sample.short_text h1]; unfold SafeLength; decide)
  exact ⟨L', ml, cost, ht, h3, h4 _ _ (Sample.candidates_aabx hb)⟩

/-- On the sample installation there is a word at every place of the text `aabx` that is reached by words: the text is tokenized. -/
example {dict : Dict} (h : Sample.sources.Installed Sample.config dict) {t : InputText}
    (ht : (dict.tokenizer Sample.config [] .C).buildInput [97, 97, 98, 120] = .ok t) : ∃ auto, Sample.sources.AutoCosts Sample.config auto ∧
    ∀ k before, k < t.modified.length → BowChar (t.modified.map Sample.config.catOf) k → Tiles 0 (bytePos t.modified k) before →
      (∀ y ∈ before, Sample.sources.Candidate auto Sample.config.catOf Sample.config.oov t y) →
      ∃ x, Sample.sources.Candidate auto Sample.config.catOf Sample.config.oov t x ∧ x.begin_ = bytePos t.modified k := by
  obtain ⟨auto, h0, hall⟩ := Sources.C79_succeeds_iff SimpleTrie.ok h Sample.plugins_ok Sample.matrix_two Sample.ids_in_range (by decide)
    Sample.config_complete.oovShort Sample.config_complete.oovIds
  obtain ⟨L', ml, hml⟩ := Sample.tokenizes h .C
  exact ⟨auto, h0, ((hall .C Lattice.init _ (some .C) t .fresh rfl (by decide) ht (by rw [Sample.short_text ht]; unfold SafeLength; decide)).1
    ⟨ml, congrArg Prod.snd hml⟩).2⟩

end Sudachi
