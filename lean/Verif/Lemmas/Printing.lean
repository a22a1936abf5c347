/-
The words that are not rows of a dictionary.
-/
import Verif.Spec.Printing
import Verif.Lemmas.Installed3
import Verif.Props.EndToEnd
namespace Sudachi

variable {bd : Builder} {catOf : Nat → CatSet} {t : InputText}

theorem getOov_info (B : Built bd catOf t) {k : Nat} (hk : k < bd.modified.length)
    {p : OovPlugin} {has : Bool} {ns : List NodeData} (hg : p.getOov t (wpos bd.modified k) has = .ok ns) :
    ∀ d ∈ ns, ∃ o s info, p.Entry o ∧ d.extra = some info ∧ t.getSubstring d.begin_ d.end_ = .ok s ∧ UnknownInfo s o.posId info := by
  have key : ∀ j o, k < j → j ≤ bd.modified.length → ∃ s info, (charsNode bd.modified k j o).extra = some info ∧
      t.getSubstring (charsNode bd.modified k j o).begin_ (charsNode bd.modified k j o).end_ = .ok s ∧ UnknownInfo s o.posId info := by
    intro j o h1 h2
    refine ⟨_, _, rfl, ?_, ⟨rfl, rfl, rfl, rfl, rfl, rfl, rfl, rfl, rfl, rfl⟩⟩
    have := wpos_lt B.enc h1 h2
    show t.getSubstring (wpos bd.modified k) (wpos bd.modified k + (wpos bd.modified j - wpos bd.modified k)) = _
    rw [Nat.add_sub_cancel' (Nat.le_of_lt this)]
    exact B.substring (by omega) h2
  intro d hd
  have hg := (getOov_iff.mp hg).1
  cases p with
  | mecab categories oovList =>
    obtain ⟨b, ns', hR, hb, hg', hm⟩ := B.mecab_spec hk categories oovList has
    rw [hg] at hg'
    cases hg'
    obtain ⟨ty, _, cinfo, o, _, ho, _, ⟨_, rfl⟩ | ⟨m, h1, _, _, rfl⟩⟩ := (hm d).mp hd
    · obtain ⟨s, info, q⟩ := key b o (by obtain ⟨_, _, _, _, h⟩ := hR; exact h) hb
      exact ⟨o, s, info, ⟨ty, ho⟩, q⟩
    · obtain ⟨s, info, q⟩ := key (min (k + m) bd.modified.length) o (by omega) (by omega)
      exact ⟨o, s, info, ⟨ty, ho⟩, q⟩
  | simple o =>
    cases has with
    | true => rw [simple_has o _] at hg; cases hg; cases hd
    | false =>
      obtain ⟨j, h1, h2, _, _, h5⟩ := B.simple_spec hk o
      rw [hg] at h5
      cases h5
      rw [List.mem_singleton.mp hd]
      obtain ⟨s, info, q⟩ := key j o h1 h2
      exact ⟨o, s, info, rfl, q⟩

theorem Inserted.own {T : Tokenizer} (B : Built bd catOf t) {d : NodeData} (h : Inserted T.lex T.oov t bd.modified d) {info : WordInfo}
    (he : d.extra = some info) : OwnInfo T t d info := by
  rcases h.offered with ⟨_, h2, _⟩ | ⟨h1, p, hp, has, ns, h2, h3⟩
  · rw [h2] at he; cases he
  · obtain ⟨k, hk, hb, _⟩ := B.bow_char h.bow
    rw [hb] at h2
    obtain ⟨o, s, info', e1, e2, e3, e4⟩ := getOov_info B hk h2 d h3
    rw [he] at e2
    cases e2
    exact .unknown p o s hp e1 h1 e3 e4

theorem rewritePath_own {T : Tokenizer} {L : Lattice} (hL : L.EndsRight) (hC : ∀ d, L.Cand d → ∀ info, d.extra = some info → OwnInfo T t d info)
    {fuel : Nat} {ps : List PathPlugin} : ∀ {path path' : List NodeData} {n : Nat}, (∀ p ∈ ps, p ∈ T.pathPlugins) →
      rewritePath T.lex fuel t L ps path = .ok path' → Tiles 0 n path →
      (∀ d ∈ path, ∀ info, d.extra = some info → OwnInfo T t d info) → ∀ d ∈ path', ∀ info, d.extra = some info → OwnInfo T t d info := by
  induction ps with
  | nil => intro path path' n _ h _ h2; cases h; exact h2
  | cons p ps ih =>
    intro path path' n hps h h1 h2
    simp only [rewritePath, bind, Except.bind] at h
    cases hp : p.rewrite T.lex fuel t L path with
    | error e => rw [hp] at h; cases h
    | ok q =>
      rw [hp] at h
      have ht := (PathPlugin.coarsens hL hp).tiles (fun b n hj => by rcases hj with h | h <;> exact h.1) h1
      refine ih (fun x hx => hps x (by simp [hx])) h ht ?_
      intro d hd info hinfo
      cases p with
      | numeric cfg =>
        rcases (C29_only_coarsens cfg T.lex fuel t path q hp).mem d hd with hm | ⟨b, hj⟩
        · exact h2 d hm info hinfo
        · obtain ⟨_, infos, norm, _, _, hc, _⟩ := hj
          obtain ⟨w, g1, _, _, g2, _, _, _, g3, g4, g5, g6, g7⟩ := hc.info
          rw [hinfo] at g1
          cases g1
          exact .number cfg (hps _ (by simp)) hc.notOov g2 g3 g4 g5 g6 g7
      | katakana cfg =>
        rcases (C31_only_coarsens cfg T.lex t L hL path q hp).mem d hd with hm | ⟨b, hj⟩
        · exact h2 d hm info hinfo
        · rcases hj.node with ⟨ns, g1, bf, x, af, g2, rfl, _⟩ | ⟨_, ho, _, infos, w, _, g1, g2, _, g3, g4, g5, g6, g7, g8, g9, g10, g11⟩
          · obtain ⟨all, k1, k2⟩ := getNodes_mem g1
            exact hC _ ⟨_, all, x, by have := ht.mem _ hd; omega, k1, (k2 x (by rw [g2]; simp)).1, rfl⟩ info hinfo
          · rw [hinfo] at g1
            cases g1
            exact .katakana cfg _ (hps _ (by simp)) ho ⟨rfl, g3, g4, g5, g7, g6, g8, g9, g10, g11⟩

theorem splitPath_mem {lex : Lex} {mode : Mode} {path path' : List NodeData} (h : splitPath lex mode path = .ok path') {d : NodeData}
    (hd : d ∈ path') : d ∈ path ∨ (d.oov = false ∧ d.extra = none ∧ d.defined = true) := by
  unfold splitPath at h
  split at h
  · cases h; exact .inl hd
  · have hnodes : ∀ (path nodes : List NodeData), splitNodes lex mode path = .ok nodes →
        d ∈ nodes → ∃ x ∈ path, ∃ ns, splitNode lex mode x = .ok ns ∧ d ∈ ns := by
      intro path
      induction path with
      | nil => intro nodes hs hm; cases hs; cases hm
      | cons x path ih =>
        intro nodes hs hm
        unfold splitNodes at hs
        obtain ⟨a, ha, hs⟩ := bind_ok hs
        obtain ⟨b, hb, hs⟩ := bind_ok hs
        cases hs
        rcases List.mem_append.1 hm with hm | hm
        · exact ⟨x, by simp, a, ha, hm⟩
        · obtain ⟨y, hy, r⟩ := ih b hb hm
          exact ⟨y, by simp [hy], r⟩
    obtain ⟨x, hx, ns, hs, hm⟩ := hnodes path _ h hd
    unfold splitNode at hs
    obtain ⟨wi, hwi, hs⟩ := bind_ok hs
    split at hs
    · cases hs
      rw [List.mem_singleton.1 hm]
      exact .inl hx
    · obtain ⟨infos, _, _, h3, h4⟩ := splitUnits_spec hs
      exact .inr (h4 d hm)

/-- The nodes of a result are defined, in any mode. -/
theorem tokenize_defined {T : Tokenizer} (hp : T.PluginsOk) (hlex : T.lex.Ok) {L L' : Lattice} (hL : T.History L) {text : PStr}
    {mode : Option Mode} {ml : MorphemeList} (h : T.tokenize L text mode = (L', .ok ml)) {n : NodeData} (hn : n ∈ ml.path) :
    n.defined = true := by
  rcases tokenize_run hp h with ⟨_, _, rfl⟩ | ⟨_, hr⟩
  · cases hn
  · obtain ⟨t, path, _, _, _, _, _, hplain, _, hsplit⟩ := run_spec hlex (hL.sane hp hlex) hr
    rcases splitPath_mem hsplit hn with hm | hm
    · exact (hplain n hm).1
    · exact hm.2.2

theorem posString_index {g : Grammar} {id : Int} (h : PosIndex g.posList.length id) : ∃ pos, g.posString id = .ok pos := by
  obtain ⟨h1, h2⟩ := h
  have key : ∀ i, i < g.posList.length → ∃ pos, pyGet g.posList i = .ok pos := by
    intro i hi
    unfold pyGet
    rw [List.getElem?_eq_getElem hi]
    exact ⟨_, rfl⟩
  unfold Grammar.posString
  by_cases h0 : id < 0
  · rw [if_pos h0, if_neg (by omega)]
    exact key _ (by omega)
  · rw [if_neg h0]
    exact key _ (by omega)

end Sudachi
