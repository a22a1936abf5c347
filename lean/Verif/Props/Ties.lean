import Verif.Lemmas.Ties5
import Verif.Props.Unknown

/-!
# C84: which of several cheapest segmentations is the result
-/

namespace Sudachi

/-- **C84** The path found is, of the cheapest ones, the one preferred: read from the end, where it first differs from another one of the
same cost, its word comes first in the list of the words that end there. -/
theorem C84_first (bd : Builder) (hv : bd.Valid) (catOf : Nat → CatSet) (t : InputText) (hb : bd.build catOf = .ok t) (conn : Conn)
    (hconn : conn.Short) (lex : Lex) (hlex : lex.Ok) (plugins : List OovPlugin) (hpl : ∀ p ∈ plugins, p.Short)
    (hs : SafeLength t.bytes.length) (L L' : Lattice) (hL : L.Clean) (h : buildLattice conn lex plugins t L = (L', .ok ()))
    (p : List NodeData) (hp : L'.getBestPath = .ok p) : ∃ cost, IsPath conn L'.Cand t.bytes.length p cost ∧
      ∀ p' cost', IsPath conn L'.Cand t.bytes.length p' cost' → cost < cost' ∨ (cost = cost' ∧ (p' = p ∨ Preferred L'.Listed p p')) := by
  have B := built hv.len hb
  obtain ⟨cost, c1, c2⟩ := C14_cheapest_path bd hv catOf t hb conn hconn lex hlex plugins hpl hs L L' hL h p hp
  refine ⟨cost, c1, fun p' cost' hp' => ?_⟩
  have hle := c2 p' cost' hp'
  rcases Int.lt_or_eq_of_le hle with hlt | heq
  · exact .inl hlt
  refine .inr ⟨heq, ?_⟩
  obtain ⟨L1, h1, h2⟩ := buildLattice_ok h
  obtain ⟨_, heos, _, _, _, hinv⟩ := buildLoop_spec B hlex hL h1
  have e1 := (connectEos_frame h2).1
  have hC : L'.Cand = L1.Cand := funext fun d => propext (cand_congr e1 d)
  have hLi : L'.Listed = L1.Listed := by unfold Lattice.Listed; rw [e1]
  rw [hC] at c1 hp'
  rw [hLi]
  exact first_eos (hinv hconn hs hpl) ((buildLoop_order B hlex hL h1).2 hconn hs hpl) hconn hs heos h2 hp c1 hp' (by omega)

namespace Demo

/-- As `params`, but 東京 is as expensive as to make 東京 + 都 cost what 東 + 京都 costs. -/
def params2 : Nat → Res (Int × Int × Int) := fun w => if w = 3 then .ok (1, 1, 700) else params w
def lex2 : Lex := ⟨lookup, params2, fun _ => .ok WordInfo.unk⟩
def conn2 : Conn := fun _ _ => .ok 0

theorem lex2_ok : lex2.Ok := by
  constructor
  · exact lex_ok.lookup_inside
  · intro w l r c h
    simp only [lex2, params2] at h
    split at h
    · cases h; simp [Short]
    · exact lex_ok.params_short w l r c h

end Demo

/-- 東京 + 都 and 東 + 京都 both cost 800; the longer last word wins. -/
example : ∃ L', buildLattice Demo.conn2 Demo.lex2 Demo.plugins Demo.input Lattice.init = (L', .ok ()) ∧
    L'.getBestPath = .ok [⟨0, 3, 1, 1, 500, 0, false, none, true⟩, ⟨3, 9, 1, 1, 300, 4, false, none, true⟩] ∧
    pathCost Demo.conn2 0 [⟨0, 3, 1, 1, 500, 0, false, none, true⟩, ⟨3, 9, 1, 1, 300, 4, false, none, true⟩] = some 800 ∧
    pathCost Demo.conn2 0 [⟨0, 6, 1, 1, 700, 3, false, none, true⟩, ⟨6, 9, 2, 2, 100, 2, false, none, true⟩] = some 800 :=
  ⟨_, rfl, by decide, by decide, by decide⟩

namespace Sources
variable {S : Sources} {cfg : DictConfig} {dict : Dict}

/-- **C84** On an installation, without path rewriting plugins, after successful calls only, in mode C, for a text that is not too long:
every other segmentation of the normalised text is more expensive than the result; or it has the same cost, and, where the two first
differ from the end, the word of the result is the longer one, or as long and `S.Before` the other one (a word of a user dictionary, of
an earlier dictionary, of an earlier row, no unknown word, made by an earlier provider, for an earlier category, from an earlier entry). -/
theorem C84_sources (hD : cfg.D.Ok) (h : S.Installed cfg dict) (hp : cfg.PluginsOk) {n : Nat} {entries : List (Int × Int × Int)}
    (hmat : S.Matrix n entries) (hids : S.IdsInRange n) (hshort : ∀ p ∈ cfg.oov, p.Short)
    (hoov : ∀ p ∈ cfg.oov, ∀ o, p.Entry o → InRange n o.leftId ∧ InRange n o.rightId) : ∃ auto, S.AutoCosts cfg auto ∧
    ∀ (mode0 : Mode) (L L' : Lattice) (text : PStr) (mode : Option Mode) (ml : MorphemeList),
      (dict.tokenizer cfg [] mode0).CleanHistory L → mode.getD mode0 = .C → text ≠ [] →
      (dict.tokenizer cfg [] mode0).tokenize L text mode = (L', .ok ml) →
      ∃ t, (dict.tokenizer cfg [] mode0).buildInput text = .ok t ∧ ml.input = some t ∧ (SafeLength t.bytes.length →
        ∃ cost, IsPath (conn entries) (S.Candidate auto cfg.catOf cfg.oov t) t.bytes.length ml.path cost ∧
          ∀ p' cost', IsPath (conn entries) (S.Candidate auto cfg.catOf cfg.oov t) t.bytes.length p' cost' →
            cost < cost' ∨ (cost = cost' ∧ (p' = ml.path ∨ Preferred (S.Before auto cfg.catOf cfg.oov t) ml.path p'))) := by
  refine ⟨loadedCost dict, h.autoCosts hD hp, ?_⟩
  intro mode0 L L' text mode ml hL hm hne ht
  have hpl : (dict.tokenizer cfg [] mode0).PluginsOk := ⟨hp.lower, hp.nfkc, hp.psm⟩
  have hclean := hL.clean hpl (h.lexOk hD)
  rcases tokenize_run hpl ht with ⟨h0, _⟩ | ⟨_, ⟨bd, t, L1, path0, path, path', hti, hv, ho, hne', B, hb, hp0, hrw, hcl, hsp, rfl⟩⟩
  · exact absurd h0 hne
  obtain ⟨bd, hv, _, hb', B, _⟩ := buildInput_built hpl hti
  have hpath0 : path = path0 := (Except.ok.inj hrw).symm
  have hpath : path' = path := by
    unfold splitPath at hsp
    rw [show mode.getD (dict.tokenizer cfg [] mode0).mode = .C from hm, if_pos rfl] at hsp
    exact (Except.ok.inj hsp).symm
  subst hpath
  subst hpath0
  refine ⟨t, hti, rfl, fun hsafe => ?_⟩
  have hn0 : InRange n 0 := ⟨Int.le_refl _, by have := h.matrix_pos hD hmat; omega⟩
  obtain ⟨cost, ⟨c1, c2, c3⟩, c4⟩ := C84_first bd hv cfg.catOf t hb' dict.grammar.cell (h.connShort hD) _ (h.lexOk hD) cfg.oov hshort
    hsafe L L1 hclean hb path' hp0
  have hcongr : ∀ l r, InRange n l → InRange n r → dict.grammar.cell l r = conn entries l r := fun l r hl hr => h.cell hD hmat hl hr
  have hwords : ∀ x ∈ path', S.Candidate (loadedCost dict) cfg.catOf cfg.oov t x := fun x hx =>
    ((h.cand_iff hD hv hb' hclean hb x).1 (c2 x hx)).1
  refine ⟨cost, ⟨c1, hwords, ?_⟩, ?_⟩
  · rw [← pathCost_congr hn0 hcongr hn0 fun x hx => Candidate.inRange hids hoov (hwords x hx)]
    exact c3
  · rintro p' cost' ⟨d1, d2, d3⟩
    have hcands := h.all_cands hD hv hb' hclean hb d1 d2 (.inl rfl)
    rcases c4 p' cost' ⟨d1, hcands, by
      rw [pathCost_congr hn0 hcongr hn0 fun x hx => Candidate.inRange hids hoov (d2 x hx)]; exact d3⟩ with hlt | ⟨heq, hpr⟩
    · exact .inl hlt
    refine .inr ⟨heq, hpr.imp_right ?_⟩
    rintro ⟨q, q', x, x', s, rfl, rfl, e1, e2, e3⟩
    refine ⟨q, q', x, x', s, rfl, rfl, e1, e2, ?_⟩
    have hends := buildLattice_endsRight hclean hb
    obtain ⟨L2, g1, g2⟩ := Sudachi.buildLattice_ok hb
    have f := (connectEos_frame g2).1
    have hLi : L1.Listed = L2.Listed := by unfold Lattice.Listed; rw [f]
    rw [hLi] at e3
    unfold Lattice.EndsRight at hends
    rw [f] at hends
    exact h.listed_before hD hv hb' hclean g1 ((cand_congr f x).1 (c2 x (by simp))) ((cand_congr f x').1 (hcands x' (by simp)))
      hends e1 e2 e3

/-- **C84** So the result is determined: no two segmentations are each cheaper than, or preferred to, all the others. -/
theorem C84_determined {S : Sources} {auto : Nat → Nat → Int} {catOf : Nat → CatSet} {providers : List OovPlugin} {t : InputText}
    {entries : List (Int × Int × Int)} {p q : List NodeData} {c d : Int}
    (hp : IsPath (conn entries) (S.Candidate auto catOf providers t) t.bytes.length p c)
    (hq : IsPath (conn entries) (S.Candidate auto catOf providers t) t.bytes.length q d)
    (hpb : ∀ p' c', IsPath (conn entries) (S.Candidate auto catOf providers t) t.bytes.length p' c' →
      c < c' ∨ (c = c' ∧ (p' = p ∨ Preferred (S.Before auto catOf providers t) p p')))
    (hqb : ∀ p' c', IsPath (conn entries) (S.Candidate auto catOf providers t) t.bytes.length p' c' →
      d < c' ∨ (d = c' ∧ (p' = q ∨ Preferred (S.Before auto catOf providers t) q p'))) : p = q ∧ c = d := by
  rcases hpb q d hq with h1 | ⟨h1, h2⟩ <;> rcases hqb p c hp with h3 | ⟨h3, h4⟩
  · omega
  · omega
  · omega
  · refine ⟨?_, h1⟩
    rcases h2 with h2 | h2
    · exact h2.symm
    rcases h4 with h4 | h4
    · exact h4
    · exact (h2.asymm (fun x y g1 g2 g3 g4 => Before.asymm g3 g4 g1 g2) h4).elim

end Sources

/-- On the sample installation the text `aabx` has a result, it costs at most 30007, and if that then it is preferred to `a`, `ab` and
the unknown word `x`, or is that. -/
example {dict : Dict} (h : Sample.sources.Installed Sample.config dict) : ∃ auto L' ml t cost,
    (dict.tokenizer Sample.config [] .C).tokenize Lattice.init [97, 97, 98, 120] (some .C) = (L', .ok ml) ∧
    pathCost (Sources.conn Sample.entries) 0 ml.path = some cost ∧ (cost < 30007 ∨ (cost = 30007 ∧
      ([Sample.nodeA, Sample.nodeAb, Sample.nodeX] = ml.path ∨
       Preferred (Sample.sources.Before auto Sample.config.catOf Sample.config.oov t) ml.path [Sample.nodeA, Sample.nodeAb, Sample.nodeX]))) := by
  obtain ⟨auto, _, hall⟩ := Sources.C84_sources SimpleTrie.ok h Sample.plugins_ok Sample.matrix_two Sample.ids_in_range
    Sample.config_complete.oovShort Sample.config_complete.oovIds
  obtain ⟨L', ml, ht⟩ := Sample.tokenizes h .C
  obtain ⟨t, h1, _, h2⟩ := hall .C Lattice.init L' _ (some .C) ml .fresh rfl (by decide) ht
  have hb : Sample.textAabx = .ok t := h1
  obtain ⟨cost, ⟨_, _, h3⟩, h4⟩ := h2 (by rw [Sample.short_text h1]; unfold SafeLength; decide)
  exact ⟨auto, L', ml, t, cost, ht, h3, h4 _ _ (Sample.candidates_aabx hb)⟩

/-- The preference decides: a longer last word, a word of a user dictionary, an earlier row. -/
example : Preferred (fun x y => x.begin_ < y.begin_) [⟨0, 3, 1, 1, 500, 0, false, none, true⟩, ⟨3, 9, 1, 1, 300, 4, false, none, true⟩]
    [⟨0, 6, 1, 1, 700, 3, false, none, true⟩, ⟨6, 9, 2, 2, 100, 2, false, none, true⟩] :=
  ⟨[_], [_], _, _, [], rfl, rfl, by decide, rfl, by decide⟩

example : WordBefore ⟨0, 3, 1, 1, 500, 268435456 + 5, false, none, true⟩ ⟨0, 3, 1, 1, 500, 3, false, none, true⟩ ∧
    WordBefore ⟨0, 3, 1, 1, 500, 3, false, none, true⟩ ⟨0, 3, 1, 1, 500, 4, false, none, true⟩ :=
  ⟨⟨1, 5, 0, 3, by decide, by decide, by decide, by decide, .inr ⟨by decide, .inl rfl⟩⟩,
   ⟨0, 3, 0, 4, by decide, by decide, by decide, by decide, .inl ⟨rfl, by decide⟩⟩⟩

end Sudachi
