import Verif.Lemmas.Installed2
import Verif.Props.Lattice
namespace Sudachi
namespace Sources
variable {S : Sources} {cfg : DictConfig} {dict : Dict}

theorem Installed.infoSays (hD : cfg.D.Ok) (h : S.Installed cfg dict) (hf : S.Fit) {d w : Nat} {c : Cols} (hc : S.Row d w c) {depth : Nat}
    {info : WordInfo} (hi : dict.set.wordInfo depth (combinedId d w : Nat) = .ok info) : S.InfoSays dict d w c info := by
  have hw := h.row_lt hD hc
  have hc0 := hc
  obtain ⟨src, hs, hc⟩ := hc
  obtain ⟨x, table, F⟩ := h.facts hD hs
  have hfit := hf d w c hc0
  obtain ⟨wi, h1, h2, h3⟩ := F.infos w c hc hfit
  have hpos := F.pos w c hc hfit depth info hi
  obtain ⟨wi', h4, h5⟩ := C46_info dict.set F.lexicon (by rw [pow28]; exact hw) hi
  have h6 := wordInfo_stored h1 h4
  have hdf : info.dictionaryForm = wi'.dictionaryForm := by rw [h5]
  have hform : ∀ v, c.DicForm v → (v < 0 ∨ v = w → wi'.dictionaryForm = c.surface) ∧
      ∀ (v' : Nat) (c' : Cols), v = v' → v' ≠ w → S.Row d v' c' → wi'.dictionaryForm = c'.surface := by
    intro v hv
    have hid : wi.dictionaryFormWordId = v := dicForm_unique h2.dicForm hv
    cases depth with
    | zero => cases h4
    | succ depth =>
      refine ⟨fun hend => ?_, fun v' c' hv' hne hc' => ?_⟩
      · rw [wordInfo_own h1 (by rw [hid]; exact hend)] at h4
        cases h4
        exact h3
      · rw [wordInfo_other h1 (by rw [hid, hv']) hne] at h4
        obtain ⟨src', hs', hc''⟩ := id hc'
        rw [hs] at hs'
        cases hs'
        obtain ⟨wi2, g1, g2, _⟩ := F.infos v' c' hc'' (hf d v' c' hc')
        cases hw2 : x.wordInfo depth v' with
        | error e => rw [hw2] at h4; cases h4
        | ok info2 =>
          rw [hw2] at h4
          cases h4
          show info2.surface = _
          rw [wordInfo_stored g1 hw2]
          exact g2.surface
  rw [h6] at h5
  refine ⟨?_, ?_, hpos, ?_, ?_, ?_, ?_, ?_⟩
  · rw [h5]; exact h2.surface
  · rw [h5]; exact h2.headWordLength
  · rw [h5]; exact h2.normalized
  · rw [h5]; exact h2.reading
  · intro v hv hend
    rw [hdf]
    exact (hform v hv).1 hend
  · intro v c' hv hne hc'
    rw [hdf]
    exact (hform v hv).2 v c' rfl hne hc'
  · rw [h5]; exact h2.synonyms

/-- The costs of the words as loaded. -/
def loadedCost (dict : Dict) (d w : Nat) : Int :=
  match dict.set.nodeParams (combinedId d w) with
  | .ok (_, _, v) => v
  | .error _ => 0

theorem Installed.rowParams (hD : cfg.D.Ok) (h : S.Installed cfg dict) {d w : Nat} {c : Cols} (hc : S.Row d w c) :
    ∃ l r v, pyInt c.left = .ok l ∧ pyInt c.right = .ok r ∧ dict.set.nodeParams (combinedId d w) = .ok (l, r, v) ∧
      Cost (loadedCost dict) d w c v := by
  obtain ⟨l, r, v, h1, h2, h3, h4⟩ := h.params hD hc
  refine ⟨l, r, v, h1, h2, h3, ?_⟩
  unfold Cost
  split
  · unfold loadedCost; rw [h3]
  · rename_i hn
    exact h4 hn

theorem cost_unique {auto : Nat → Nat → Int} {d w : Nat} {c : Cols} {v v' : Int} (h : Cost auto d w c v) (h' : Cost auto d w c v') : v = v' := by
  unfold Cost at h h'
  split at h
  · rename_i hc
    rw [if_pos hc] at h'
    rw [h, h']
  · rename_i hc
    rw [if_neg hc, h] at h'
    exact Except.ok.inj h'

theorem Installed.prefix (h : S.Installed cfg dict) {k : Nat} {mid : Dict} {file : Bytes} {files : List Bytes} {ds : BinDict} {depth : Nat}
    (h1 : S.system.Builds cfg.D none file) (h2 : readDictionary file = .ok ds) (h3 : S.sys = ds.toSysDict cfg.D depth)
    (h4 : files.length = S.users.length)
    (h5 : ∀ (k : Nat) (src : DictSource) (b : Bytes), S.users[k]? = some src → files[k]? = some b → src.Builds cfg.D (some S.sys) b)
    (h6 : Dict.load cfg file (files.take k) = .ok mid) : Installed { S with users := S.users.take k } cfg mid := by
  refine ⟨file, files.take k, ds, depth, h1, h2, h3, by simp [h4], ?_, h6⟩
  intro j src b hj hb
  have hj : (S.users.take k)[j]? = some src := hj
  rw [List.getElem?_take] at hj hb
  split at hj
  · rename_i hlt
    rw [if_pos hlt] at hb
    exact h5 j src b hj hb
  · cases hj

theorem Installed.autoCosts (hD : cfg.D.Ok) (h : S.Installed cfg dict) (hp : cfg.PluginsOk) : S.AutoCosts cfg (loadedCost dict) := by
  intro k w c hc hcost hfit
  have hw := h.row_lt hD hc
  obtain ⟨l, r, v0, p1, p2, p3, _⟩ := h.params hD hc
  obtain ⟨src, hs, hc⟩ := hc
  obtain ⟨x, table, F⟩ := h.facts hD hs
  obtain ⟨file, files, ds, depth, hb, hr, hsy, hlen, husers, hload⟩ := id h
  have hk : S.users[k]? = some src := hs
  have hk' : k < files.length := by
    have := (List.getElem?_eq_some_iff.1 hk).1
    omega
  have hbk := List.getElem?_eq_getElem hk'
  have hB := husers k src _ hk hbk
  obtain ⟨_, _, _, _, _, _, _, _, _, huser⟩ := load_user hload
  obtain ⟨_, du, _, _, _, u1, _⟩ := huser k _ hbk
  obtain ⟨mid, y, a1, a2, a3⟩ := C50_automatic hD hload hbk u1 hB.1 (hB.compiled (user_read u1)) hc hfit hcost
  have hmid := Installed.prefix h hb hr hsy hlen husers a1
  obtain ⟨ms, v, b1, b2, b3⟩ := a3 ⟨hp.lower, hp.nfkc, hp.psm⟩ (hmid.lexOk hD)
  refine ⟨mid, ms, hmid, b1, ?_⟩
  have hxy : x = y := Option.some.inj (F.lexicon.symm.trans a2)
  subst hxy
  have hq := (C46_parameters dict.set F.lexicon (by rw [pow28]; exact hw) ((F.left w c hc).trans p1) ((F.right w c hc).trans p2) b3).2
  unfold loadedCost
  rw [hq]
  exact b2

/-! ### Nodes -/

/-- A dictionary word that lookup offers, at word boundaries, is a word of the sources. -/
theorem Installed.word (hD : cfg.D.Ok) (h : S.Installed cfg dict) {t : InputText} {n : NodeData}
    (ho : Offered (dict.set.toLex cfg.D cfg.depth) cfg.oov t n) (hoov : n.oov = false) (hdef : n.defined = true)
    (hbow : t.canBow n.begin_ = .ok true) (heow : n.end_ = t.bytes.length ∨ t.canBow n.end_ = .ok true) :
    S.Word (loadedCost dict) t n := by
  rcases ho with ⟨_, h2, ws, w, h3, h4, h5, h6⟩ | ⟨h1, _⟩
  · obtain ⟨found, f1, f2⟩ := h.lookup hD t.bytes n.begin_
    have h3 : dict.set.lookup cfg.D t.bytes n.begin_ = .ok ws := h3
    rw [f1] at h3
    cases h3
    obtain ⟨d, w0, c, rfl, hc, hleft, he, hsl⟩ := (f2 w n.end_).1 h4
    obtain ⟨l, r, v, p1, p2, p3, p4⟩ := h.rowParams hD hc
    have h6 : dict.set.nodeParams (combinedId d w0) = .ok (n.leftId, n.rightId, n.cost) := h6
    rw [p3] at h6
    injection h6 with h6
    injection h6 with e1 h6
    injection h6 with e2 e3
    rw [e1] at p1
    rw [e2] at p2
    rw [e3] at p4
    exact ⟨hoov, h2, hdef, d, w0, c, hc, hleft, h5, p1, p2, p4, he, hsl, hbow, heow⟩
  · rw [hoov] at h1; cases h1

theorem Word.lt {auto : Nat → Nat → Int} (hD : cfg.D.Ok) (h : S.Installed cfg dict) {t : InputText} {n : NodeData} (hn : S.Word auto t n) :
    n.begin_ < n.end_ := by
  obtain ⟨_, _, _, d, w, c, ⟨src, hs, hc⟩, _, _, _, _, _, he, _⟩ := hn
  obtain ⟨x, table, F⟩ := h.facts hD hs
  have := utf8_ne (F.rowsOk w c hc).headword
  unfold headBytes at he
  omega

/-- The lattice of a text holds every word of the sources that can be reached. -/
theorem Installed.cand (hD : cfg.D.Ok) (h : S.Installed cfg dict) {bd : Builder} (hv : bd.Valid) {t : InputText}
    (hb : bd.build cfg.catOf = .ok t) {L L' : Lattice} (hL : L.Clean)
    (hbl : buildLattice dict.grammar.cell (dict.set.toLex cfg.D cfg.depth) cfg.oov t L = (L', .ok ())) {n : NodeData}
    (hn : S.Word (loadedCost dict) t n) (hreach : n.begin_ = 0 ∨ ∃ d, L'.Cand d ∧ d.end_ = n.begin_) : L'.Cand n := by
  obtain ⟨h1, _⟩ := C57_all_words_considered bd hv cfg.catOf t hb dict.grammar.cell _ (h.lexOk hD) cfg.oov L L' hL hbl
  obtain ⟨o1, o2, o3, d, w, c, hc, hleft, o4, o5, o6, o7, o8, o9, o10, o11⟩ := hn
  obtain ⟨found, f1, f2⟩ := h.lookup hD t.bytes n.begin_
  obtain ⟨l, r, v, k1, k2⟩ := h1 n.begin_ found (combinedId d w) n.end_ o10 hreach f1 ((f2 _ _).2 ⟨d, w, c, rfl, hc, hleft, o8, o9⟩) o11
  obtain ⟨l', r', v', p1, p2, p3, p4⟩ := h.rowParams hD hc
  have k1 : dict.set.nodeParams (combinedId d w) = .ok (l, r, v) := k1
  rw [p3] at k1
  injection k1 with k1
  injection k1 with e1 k1
  injection k1 with e2 e3
  rw [o5] at p1
  rw [o6] at p2
  have e4 := Except.ok.inj p1
  have e5 := Except.ok.inj p2
  have e6 := cost_unique o7 p4
  have : n = ⟨n.begin_, n.end_, l, r, v, (combinedId d w : Nat), false, none, true⟩ := by
    obtain ⟨a1, a2, a3, a4, a5, a6, a7, a8, a9⟩ := n
    dsimp only at *
    subst o1 o2 o3 o4 e4 e5 e6 e1 e2 e3
    rfl
  rw [this]
  exact k2

theorem Installed.cands (hD : cfg.D.Ok) (h : S.Installed cfg dict) {bd : Builder} (hv : bd.Valid) {t : InputText}
    (hb : bd.build cfg.catOf = .ok t) {L L' : Lattice} (hL : L.Clean)
    (hbl : buildLattice dict.grammar.cell (dict.set.toLex cfg.D cfg.depth) cfg.oov t L = (L', .ok ())) {e : Nat} :
    ∀ {p : List NodeData} {a : Nat}, Tiles a e p → (∀ d ∈ p, S.Word (loadedCost dict) t d) → (a = 0 ∨ ∃ d, L'.Cand d ∧ d.end_ = a) →
      ∀ d ∈ p, L'.Cand d
  | [], _, _, _, _ => fun d hd => by cases hd
  | n :: p, a, ht, hw, hr => by
    obtain ⟨t1, t2, t3⟩ := ht
    have hn := h.cand hD hv hb hL hbl (hw n (by simp)) (by rw [t1]; exact hr)
    intro d hd
    rcases List.mem_cons.1 hd with rfl | hd
    · exact hn
    · exact Installed.cands hD h hv hb hL hbl t3 (fun d hd => hw d (by simp [hd])) (.inr ⟨n, hn, rfl⟩) d hd

/-! ### Costs -/

theorem linkCost_congr {conn conn' : Conn} {r l : Int} (h : conn l r = conn' l r) : linkCost conn r l = linkCost conn' r l := by
  unfold linkCost; rw [h]

theorem pathCost_congr {conn conn' : Conn} {ok : Int → Prop} (h0 : ok 0) (h : ∀ l r, ok l → ok r → conn l r = conn' l r) :
    ∀ {p : List NodeData} {r : Int}, ok r → (∀ d ∈ p, ok d.leftId ∧ ok d.rightId) → pathCost conn r p = pathCost conn' r p
  | [], r, hr, _ => linkCost_congr (h 0 r h0 hr)
  | d :: p, r, hr, hp => by
    unfold pathCost
    rw [linkCost_congr (h d.leftId r (hp d (by simp)).1 hr), pathCost_congr h0 h (hp d (by simp)).2 fun x hx => hp x (by simp [hx])]

theorem Word.inRange {auto : Nat → Nat → Int} {n : Nat} (hids : S.IdsInRange n) {t : InputText} {x : NodeData} (hn : S.Word auto t x) :
    InRange n x.leftId ∧ InRange n x.rightId := by
  obtain ⟨_, _, _, d, w, c, hc, hleft, _, h1, h2, _⟩ := hn
  exact hids d w c hc hleft _ _ h1 h2

/-- The path before the rewriting plugins, on a clean lattice. -/
theorem bestPath_cands {conn : Conn} {lex : Lex} (hlex : lex.Ok) {plugins : List OovPlugin} {bd : Builder} {catOf : Nat → CatSet}
    {t : InputText} (B : Built bd catOf t) {L L' : Lattice} (hL : L.Clean) (h : buildLattice conn lex plugins t L = (L', .ok ()))
    {p : List NodeData} (hp : L'.getBestPath = .ok p) :
    (∀ d ∈ p, Inserted lex plugins t bd.modified d) ∧ ∀ d, L'.Cand d → Inserted lex plugins t bd.modified d := by
  obtain ⟨L1, h1, h2⟩ := buildLattice_ok h
  obtain ⟨hch, heos, _⟩ := buildLoop_spec B hlex hL h1
  refine ⟨?_, fun d hd => ?_⟩
  · rcases getBestPath_chain hch heos h2 with he | ⟨q, cost, hq, a1, a2, a3⟩
    · rw [hp] at he; cases he
    · rw [hp] at hq
      cases hq
      exact a2
  · exact cand_chain hch ((cand_congr (connectEos_frame h2).1 d).1 hd)

theorem rewritePath_inserted {lex : Lex} {fuel : Nat} {t : InputText} {L : Lattice} (hL : L.EndsRight) {C : NodeData → Prop} (hC : ∀ d, L.Cand d → C d)
    {ps : List PathPlugin} : ∀ {path path' : List NodeData} {n : Nat}, rewritePath lex fuel t L ps path = .ok path' → Tiles 0 n path →
      (∀ d ∈ path, C d ∨ ∃ w, d.extra = some w) → ∀ d ∈ path', C d ∨ ∃ w, d.extra = some w := by
  induction ps with
  | nil => intro path path' n h _ h2; cases h; exact h2
  | cons p ps ih =>
    intro path path' n h h1 h2
    simp only [rewritePath, bind, Except.bind] at h
    cases hp : p.rewrite lex fuel t L path with
    | error e => rw [hp] at h; cases h
    | ok q =>
      rw [hp] at h
      have hc := PathPlugin.coarsens hL hp
      have ht := hc.tiles (fun b n hj => by rcases hj with h | h <;> exact h.1) h1
      refine ih h ht ?_
      intro d hd
      rcases hc.mem d hd with hm | ⟨b, hj⟩
      · exact h2 d hm
      · rcases hj with ⟨_, h3, w, h4, _⟩ | ⟨_, ns, h3, x, h4, rfl⟩
        · exact .inr ⟨w, h4⟩
        · obtain ⟨all, g1, g2⟩ := getNodes_mem h3
          exact .inl (hC _ ⟨_, all, x, by have := ht.mem _ hd; omega, g1, (g2 x h4).1, rfl⟩)

/-- The unknown words are made from the entries of the provider. -/
theorem getOov_entry {bd : Builder} {catOf : Nat → CatSet} {t : InputText} (B : Built bd catOf t) {k : Nat} (hk : k < bd.modified.length)
    {p : OovPlugin} {has : Bool} {ns : List NodeData} (hg : p.getOov t (wpos bd.modified k) has = .ok ns) :
    ∀ d ∈ ns, ∃ o, p.Entry o ∧ d.leftId = o.leftId ∧ d.rightId = o.rightId := by
  intro d hd
  have hg := (getOov_iff.mp hg).1
  cases p with
  | mecab categories oovList =>
    obtain ⟨b, ns', _, hb, hg', hm⟩ := B.mecab_spec hk categories oovList has
    rw [hg] at hg'
    cases hg'
    obtain ⟨ty, _, cinfo, o, _, ho, _, ⟨_, rfl⟩ | ⟨m, h1, _, _, rfl⟩⟩ := (hm d).mp hd
    · exact ⟨o, ⟨ty, ho⟩, rfl, rfl⟩
    · exact ⟨o, ⟨ty, ho⟩, rfl, rfl⟩
  | simple o =>
    cases has with
    | true => rw [simple_has o _] at hg; cases hg; cases hd
    | false =>
      obtain ⟨j, h1, h2, _, _, h5⟩ := B.simple_spec hk o
      rw [hg] at h5
      cases h5
      rw [List.mem_singleton.mp hd]
      exact ⟨o, rfl, rfl, rfl⟩

end Sources
end Sudachi
