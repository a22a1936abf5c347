import Verif.Lemmas.Installed3
import Verif.Props.EndToEnd
import Verif.Spec.Unknown

/-!
# The words of a text: lemmas
-/

namespace Sudachi

/-! ### Runs -/

theorem IsRun.end_unique {cats : List CatSet} {i j j' : Nat} (h : IsRun cats i j) (h' : IsRun cats i j') : j = j' := by
  have key : ∀ {j j' : Nat}, IsRun cats i j → IsRun cats i j' → ¬ j < j' := by
    intro j j' h h' hlt
    have h1 := h.lt
    have h2 := h'.le
    rcases h'.common with hc | ⟨c, hc⟩
    · omega
    · rcases h.maximal with hm | hm
      · omega
      · exact hm ⟨c, fun k cs hk hk' hcs => hc k cs hk (by omega) hcs⟩
  have h1 := key h h'
  have h2 := key h' h
  omega

/-- The run starts, numbered. -/
def NthRun (cats : List CatSet) : Nat → Nat → Prop
  | 0, a => a = 0
  | n + 1, b => ∃ a, NthRun cats n a ∧ IsRun cats a b

theorem NthRun.unique {cats : List CatSet} : ∀ {n a a' : Nat}, NthRun cats n a → NthRun cats n a' → a = a'
  | 0, _, _, h, h' => h.trans h'.symm
  | _ + 1, _, _, ⟨a, h1, h2⟩, ⟨a', h1', h2'⟩ => by
    have := NthRun.unique h1 h1'
    subst this
    exact h2.end_unique h2'

theorem NthRun.mono {cats : List CatSet} : ∀ {d n a a' : Nat}, NthRun cats n a → NthRun cats (n + d) a' → a ≤ a'
  | 0, _, _, _, h, h' => Nat.le_of_eq (h.unique h')
  | d + 1, n, a, a', h, ⟨b, h1, h2⟩ => by
    have := NthRun.mono (d := d) h h1
    have := h2.lt
    omega

theorem RunStart.nth {cats : List CatSet} {a : Nat} (h : RunStart cats a) : ∃ n, NthRun cats n a := by
  induction h with
  | zero => exact ⟨0, rfl⟩
  | next _ hr ih => obtain ⟨n, hn⟩ := ih; exact ⟨n + 1, _, hn, hr⟩

/-- A character is in one run only. -/
theorem run_unique {cats : List CatSet} {a b a' b' k : Nat} (h1 : RunStart cats a) (h2 : IsRun cats a b) (h3 : a ≤ k) (h4 : k < b)
    (h1' : RunStart cats a') (h2' : IsRun cats a' b') (h3' : a' ≤ k) (h4' : k < b') : b = b' := by
  obtain ⟨n, hn⟩ := h1.nth
  obtain ⟨n', hn'⟩ := h1'.nth
  have key : ∀ {n n' a a' b : Nat}, NthRun cats n a → NthRun cats n' a' → IsRun cats a b → k < b → a' ≤ k → ¬ n < n' := by
    intro n n' a a' b hn hn' hr hb ha hlt
    obtain ⟨d, rfl⟩ : ∃ d, n' = n + 1 + d := ⟨n' - (n + 1), by omega⟩
    have := NthRun.mono (n := n + 1) ⟨a, hn, hr⟩ hn'
    omega
  have e1 := key hn hn' h2 h4 h3'
  have e2 := key hn' hn h2' h4' h3
  have : n = n' := by omega
  subst this
  have := hn.unique hn'
  subst this
  exact h2.end_unique h2'

/-! ### Providers -/

variable {bd : Builder} {catOf : Nat → CatSet} {t : InputText}

/-- What a provider makes at a character of the text is what the specification says. -/
theorem getOov_makes (hv : bd.Valid) (hb : bd.build catOf = .ok t) {k : Nat} (hk : k < bd.modified.length) {p : OovPlugin} {has : Bool}
    {ns : List NodeData} (h : p.getOov t (bytePos bd.modified k) has = .ok ns) :
    ∀ x, x ∈ ns ↔ p.Makes bd.modified catOf k (has = true) x := by
  have B := built hv.len hb
  have hnot : ∀ b : Bool, (b = false) ↔ ¬ (b = true) := by intro b; cases b <;> simp
  cases p with
  | mecab categories oovList =>
    obtain ⟨a, b, ns', h1, h2, h3, h4, h5, h5', h6⟩ := C23_mecab_candidates bd hv catOf t hb categories oovList k bd.modified[k]
      (List.getElem?_eq_getElem hk) has
    rw [B.cats] at h1 h2
    have hns : ns' = ns := by
      by_cases hall : ∀ d ∈ ns', CInt d.leftId ∧ CInt d.rightId ∧ CInt d.cost
      · have := h5 hall
        rw [h] at this
        cases this
        rfl
      · have : ∃ d ∈ ns', ¬ (CInt d.leftId ∧ CInt d.rightId ∧ CInt d.cost) :=
          Classical.byContradiction fun hn => hall fun d hd => Classical.byContradiction fun hc => hn ⟨d, hd, hc⟩
        rw [h5' this] at h
        cases h
    subst hns
    refine fun x => (h6 x).trans ?_
    constructor
    · rintro ⟨ty, cinfo, o, j, g1, g2, g3, g4, g5, g6⟩
      exact ⟨a, b, _, ty, cinfo, o, j, h1, h2, h3, h4, List.getElem?_eq_getElem hk, g1, g2, g3, g4.imp_right (hnot has).1, g5, g6⟩
    · rintro ⟨a', b', ch, ty, cinfo, o, j, r1, r2, r3, r4, hch, g1, g2, g3, g4, g5, g6⟩
      rw [List.getElem?_eq_getElem hk] at hch
      cases hch
      have := run_unique h1 h2 h3 h4 r1 r2 r3 r4
      subst this
      exact ⟨ty, cinfo, o, j, g1, g2, g3, g4.imp_right (hnot has).2, g5, g6⟩
  | simple o =>
    obtain ⟨h1, j, h2, h3, h4, h5, h6, h6'⟩ := C24_simple bd hv catOf t hb o k hk
    rw [B.cats] at h4 h5
    cases has with
    | true =>
      rw [h1] at h
      cases h
      intro x
      constructor
      · intro hx; cases hx
      · rintro ⟨hn, _⟩; exact absurd rfl hn
    | false =>
      by_cases hs : o.Stores
      rotate_left
      · rw [h6' hs] at h
        cases h
      rw [h6 hs] at h
      cases h
      intro x
      rw [List.mem_singleton]
      constructor
      · rintro rfl
        exact ⟨by simp, j, h2, h3, h4, h5, rfl⟩
      · rintro ⟨_, j', g2, g3, g4, g5, rfl⟩
        have : j' = j := by
          rcases Nat.lt_trichotomy j' j with h | h | h
          · rcases g4 with g4 | g4
            · omega
            · exact absurd g4 (h5 j' g2 h)
          · exact h
          · rcases h4 with h4 | h4
            · omega
            · exact absurd h4 (g5 j h2 h)
        subst this
        rfl

/-- A provider whose entries fit the nodes answers at every character. -/
theorem getOov_answers (hv : bd.Valid) (hb : bd.build catOf = .ok t) {k : Nat} (hk : k < bd.modified.length) {p : OovPlugin} (hp : p.Stores)
    (has : Bool) : ∃ ns, p.getOov t (bytePos bd.modified k) has = .ok ns := by
  have B := built hv.len hb
  rw [B.bytePos_wpos]
  exact getOov_stores B hk hp has

theorem Makes_congr {m : PStr} {k : Nat} {P Q : Prop} (h : P ↔ Q) {p : OovPlugin} {x : NodeData} :
    p.Makes m catOf k P x ↔ p.Makes m catOf k Q x := by rw [propext h]

theorem MadeBy_congr {m : PStr} {k : Nat} {P Q : Prop} (h : P ↔ Q) {ps : List OovPlugin} {x : NodeData} :
    MadeBy m catOf k P ps x ↔ MadeBy m catOf k Q ps x := by rw [propext h]

theorem oovNodes_answers (hv : bd.Valid) (hb : bd.build catOf = .ok t) {k : Nat} (hk : k < bd.modified.length) :
    ∀ (ps : List OovPlugin) (has : Bool), (∀ p ∈ ps, p.Stores) → ∃ ns, oovNodes t (bytePos bd.modified k) ps has = .ok ns
  | [], has, _ => ⟨[], rfl⟩
  | p :: ps, has, hs => by
    obtain ⟨ns, h1⟩ := getOov_answers hv hb hk (hs p List.mem_cons_self) has
    obtain ⟨ms, h3⟩ := oovNodes_answers hv hb hk ps (has || !ns.isEmpty) (fun q hq => hs q (List.mem_cons_of_mem _ hq))
    exact ⟨ns ++ ms, by rw [oovNodes, h1]; dsimp only; rw [h3]⟩

theorem oovNodes_madeBy (hv : bd.Valid) (hb : bd.build catOf = .ok t) {k : Nat} (hk : k < bd.modified.length) :
    ∀ (ps : List OovPlugin) (has : Bool) {ns : List NodeData}, oovNodes t (bytePos bd.modified k) ps has = .ok ns →
      ∀ x, x ∈ ns ↔ MadeBy bd.modified catOf k (has = true) ps x
  | [], has, ns, h => by
    cases h
    intro x
    simp [MadeBy]
  | p :: ps, has, ns0, h => by
    rw [oovNodes] at h
    split at h
    · cases h
    rename_i ns h1
    split at h
    · cases h
    rename_i ms h3
    cases h
    have h2 := getOov_makes hv hb hk h1
    have h4 := oovNodes_madeBy hv hb hk ps (has || !ns.isEmpty) h3
    intro x
    have hflag : (has || !ns.isEmpty) = true ↔ (has = true ∨ ∃ y, p.Makes bd.modified catOf k (has = true) y) := by
      rw [Bool.or_eq_true]
      refine or_congr Iff.rfl ?_
      constructor
      · intro h
        cases ns with
        | nil => simp at h
        | cons y ys => exact ⟨y, (h2 y).1 List.mem_cons_self⟩
      · rintro ⟨y, hy⟩
        have := (h2 y).2 hy
        cases ns with
        | nil => cases this
        | cons _ _ => rfl
    rw [List.mem_append, h2, h4, MadeBy_congr hflag]
    rfl

/-- The unknown words inserted at a character. -/
theorem unknown_nodes (hv : bd.Valid) (hb : bd.build catOf = .ok t) {k : Nat} (hk : k < bd.modified.length) {plugins : List OovPlugin}
    {has : Bool} {b c : List NodeData} (h1 : oovPartNodes plugins t (bytePos bd.modified k) has = .ok b)
    (h2 : defaultNodes plugins t (bytePos bd.modified k) (has || !b.isEmpty) = .ok c) (x : NodeData) :
    (x ∈ b ∨ x ∈ c) ↔ UnknownAt bd.modified catOf plugins (has = true) k x := by
  have B := built hv.len hb
  have hcat : t.charCategoryTypesAt (bytePos bd.modified k) = .ok (catOf bd.modified[k]) := by
    rw [B.bytePos_wpos]; exact B.cats_at hk
  have hch : bd.modified[k]? = some bd.modified[k] := List.getElem?_eq_getElem hk
  unfold oovPartNodes at h1
  rw [hcat] at h1
  dsimp only at h1
  -- the default
  have hdef : ∀ flag : Bool, defaultNodes plugins t (bytePos bd.modified k) flag = .ok c →
      (x ∈ c ↔ flag = false ∧ ∃ p, plugins.getLast? = some p ∧ p.Makes bd.modified catOf k False x) := by
    intro flag hc
    unfold defaultNodes at hc
    cases flag with
    | true =>
      rw [if_pos rfl] at hc
      cases hc
      simp
    | false =>
      rw [if_neg (by simp)] at hc
      split at hc
      · cases hc
      · rename_i p hp
        rw [getOov_makes hv hb hk hc, hp]
        constructor
        · intro h
          exact ⟨rfl, p, rfl, (Makes_congr (by simp)).1 h⟩
        · rintro ⟨_, q, hq, h⟩
          cases hq
          exact (Makes_congr (by simp)).2 h
  have hdef := hdef _ h2
  have hb0 : ∀ flag, (flag || !b.isEmpty) = false ↔ ¬ (flag = true) ∧ b = [] := by
    intro flag
    cases flag <;> cases b <;> simp
  rw [hdef, hb0]
  split at h1
  · rename_i hno
    cases h1
    constructor
    · rintro (h | ⟨⟨h3, _⟩, h4⟩)
      · cases h
      · exact ⟨_, hch, .inr ⟨h3, .inl hno, h4⟩⟩
    · rintro ⟨ch, hc, h⟩
      rw [hch] at hc
      cases hc
      rcases h with ⟨h, _⟩ | ⟨h3, _, h4⟩
      · exact absurd hno h
      · exact .inr ⟨⟨h3, rfl⟩, h4⟩
  · rename_i hno
    have g2 := oovNodes_madeBy hv hb hk plugins has h1
    constructor
    · rintro (h | ⟨⟨h3, h5⟩, h4⟩)
      · exact ⟨_, hch, .inl ⟨hno, (g2 x).1 h⟩⟩
      · exact ⟨_, hch, .inr ⟨h3, .inr (fun y hy => by have := (g2 y).2 hy; rw [h5] at this; cases this), h4⟩⟩
    · rintro ⟨ch, hc, h⟩
      rw [hch] at hc
      cases hc
      rcases h with ⟨_, h⟩ | ⟨h3, h5, h4⟩
      · exact .inl ((g2 x).2 h)
      · refine .inr ⟨⟨h3, ?_⟩, h4⟩
        rcases h5 with h5 | h5
        · exact absurd h5 hno
        · cases b with
          | nil => rfl
          | cons y ys => exact absurd ((g2 y).1 List.mem_cons_self) (h5 y)

theorem UnknownAt_congr {m : PStr} {k : Nat} {plugins : List OovPlugin} {P Q : Prop} (h : P ↔ Q) {x : NodeData} :
    UnknownAt m catOf plugins P k x ↔ UnknownAt m catOf plugins Q k x := by rw [propext h]

/-- Unknown words are marked so, and made from entries. -/
theorem OovPlugin.Makes.entry {m : PStr} {k : Nat} {P : Prop} {p : OovPlugin} {x : NodeData} (h : p.Makes m catOf k P x) :
    x.oov = true ∧ x.begin_ = bytePos m k ∧ ∃ o, p.Entry o ∧ x.leftId = o.leftId ∧ x.rightId = o.rightId := by
  cases p with
  | mecab categories oovList =>
    obtain ⟨a, b, ch, ty, cinfo, o, j, _, _, _, _, _, _, _, g, _, rfl, _⟩ := h
    exact ⟨rfl, rfl, o, ⟨ty, g⟩, rfl, rfl⟩
  | simple o =>
    obtain ⟨_, j, _, _, _, _, rfl⟩ := h
    exact ⟨rfl, rfl, o, rfl, rfl, rfl⟩

theorem MadeBy.entry {m : PStr} {k : Nat} {x : NodeData} : ∀ {ps : List OovPlugin} {P : Prop}, MadeBy m catOf k P ps x →
    x.oov = true ∧ x.begin_ = bytePos m k ∧ ∃ p ∈ ps, ∃ o, p.Entry o ∧ x.leftId = o.leftId ∧ x.rightId = o.rightId
  | [], _, h => h.elim
  | p :: ps, _, .inl h => by
    obtain ⟨h1, h2, h3⟩ := h.entry
    exact ⟨h1, h2, p, List.mem_cons_self, h3⟩
  | p :: ps, _, .inr h => by
    obtain ⟨h1, h2, q, hq, h3⟩ := MadeBy.entry h
    exact ⟨h1, h2, q, List.mem_cons_of_mem _ hq, h3⟩

theorem UnknownAt.entry {m : PStr} {k : Nat} {P : Prop} {ps : List OovPlugin} {x : NodeData} (h : UnknownAt m catOf ps P k x) :
    x.oov = true ∧ x.begin_ = bytePos m k ∧ ∃ p ∈ ps, ∃ o, p.Entry o ∧ x.leftId = o.leftId ∧ x.rightId = o.rightId := by
  obtain ⟨ch, _, ⟨_, h⟩ | ⟨_, _, p, hp, h⟩⟩ := h
  · exact h.entry
  · obtain ⟨h1, h2, h3⟩ := h.entry
    exact ⟨h1, h2, p, List.mem_of_getLast? hp, h3⟩

/-! ### Candidates -/

namespace Sources
variable {S : Sources} {cfg : DictConfig} {dict : Dict}

/-- The nodes of the words found at a position. -/
theorem Installed.words_at (hD : cfg.D.Ok) (h : S.Installed cfg dict) (hv : bd.Valid) (hb : bd.build cfg.catOf = .ok t) {k : Nat}
    (hk : k < bd.modified.length) (hbow : t.canBow (bytePos bd.modified k) = .ok true) {ws : List (Nat × Nat)} {a : List NodeData}
    (p1 : (dict.set.toLex cfg.D cfg.depth).lookup t.bytes (bytePos bd.modified k) = .ok ws)
    (p2 : wordNodes (dict.set.toLex cfg.D cfg.depth) t (bytePos bd.modified k) ws = .ok a) (y : NodeData) :
    y ∈ a ↔ S.Word (loadedCost dict) t y ∧ y.begin_ = bytePos bd.modified k := by
  have B := built hv.len hb
  constructor
  · intro hy
    obtain ⟨w, e, h2, h3, h4⟩ := wordNodes_mem p2 y hy
    obtain ⟨l, r, c, hpar, _, rfl⟩ := wordNode_eq h4
    have hi : bytePos bd.modified k < t.bytes.length := by
      rw [B.bytePos_wpos, B.blen]; exact wpos_lt B.enc hk (Nat.le_refl _)
    obtain ⟨_, hle⟩ := (h.lexOk hD).lookup_inside _ _ _ hi p1 w e h2
    have heow : e = t.bytes.length ∨ t.canBow e = .ok true := by
      unfold skipEnd at h3
      split at h3
      · cases hc : t.canBow e with
        | error x => simp [hc, bind, Except.bind] at h3
        | ok b => simp [hc, bind, Except.bind, pure, Except.pure] at h3; subst h3; exact .inr rfl
      · left; omega
    exact ⟨h.word hD (.inl ⟨rfl, rfl, ws, w, p1, h2, rfl, hpar⟩) rfl rfl hbow heow, rfl⟩
  · rintro ⟨hw, hbeg⟩
    obtain ⟨o1, o2, o3, d, w, c, hc, hleft, o4, o5, o6, o7, o8, o9, o10, o11⟩ := hw
    obtain ⟨found, f1, f2⟩ := h.lookup hD t.bytes y.begin_
    have p1 : dict.set.lookup cfg.D t.bytes (bytePos bd.modified k) = .ok ws := p1
    rw [← hbeg, f1] at p1
    cases p1
    have hsk : skipEnd t y.end_ = .ok false := by
      unfold skipEnd
      rcases o11 with he | he
      · rw [if_neg (by omega)]; rfl
      · split
        · simp [he, bind, Except.bind, pure, Except.pure]
        · rfl
    obtain ⟨d', hd, hdn⟩ := wordNodes_complete p2 (combinedId d w) y.end_ ((f2 _ _).2 ⟨d, w, c, rfl, hc, hleft, o8, o9⟩) hsk
    obtain ⟨l, r, v, k1, _, hd'⟩ := wordNode_eq hdn
    obtain ⟨l', r', v', q1, q2, q3, q4⟩ := h.rowParams hD hc
    have k1 : dict.set.nodeParams (combinedId d w) = .ok (l, r, v) := k1
    rw [q3] at k1
    injection k1 with k1
    injection k1 with e1 k1
    injection k1 with e2 e3
    rw [o5] at q1
    rw [o6] at q2
    have e4 := Except.ok.inj q1
    have e5 := Except.ok.inj q2
    have e6 := cost_unique o7 q4
    have : y = d' := by
      rw [hd', ← hbeg]
      obtain ⟨a1, a2, a3, a4, a5, a6, a7, a8, a9⟩ := y
      dsimp only at *
      subst o1 o2 o3 o4 e4 e5 e6 e1 e2 e3
      rfl
    rw [this]
    exact hd

/-- What is inserted at a position: the words of the sources there, and the unknown ones. -/
theorem Installed.at_position (hD : cfg.D.Ok) (h : S.Installed cfg dict) (hv : bd.Valid) (hb : bd.build cfg.catOf = .ok t) {k : Nat}
    (hk : k < bd.modified.length) (hbow : t.canBow (bytePos bd.modified k) = .ok true) {ds : List NodeData}
    (hds : posNodes (dict.set.toLex cfg.D cfg.depth) cfg.oov t (bytePos bd.modified k) = .ok ds) (x : NodeData) :
    x ∈ ds ↔ (S.Word (loadedCost dict) t x ∧ x.begin_ = bytePos bd.modified k) ∨
      UnknownAt bd.modified cfg.catOf cfg.oov (∃ y, S.Word (loadedCost dict) t y ∧ y.begin_ = bytePos bd.modified k) k x := by
  obtain ⟨ws, a, b, c, p1, p2, p3, p4, p5⟩ := posNodes_parts hds
  have hword := h.words_at hD hv hb hk hbow p1 p2
  have hflag : (!a.isEmpty) = true ↔ ∃ y, S.Word (loadedCost dict) t y ∧ y.begin_ = bytePos bd.modified k := by
    constructor
    · intro ha
      cases a with
      | nil => simp at ha
      | cons y ys => exact ⟨y, (hword y).1 List.mem_cons_self⟩
    · rintro ⟨y, hy⟩
      have := (hword y).2 hy
      cases a with
      | nil => cases this
      | cons _ _ => rfl
  rw [p5, List.mem_append, List.mem_append, hword, unknown_nodes hv hb hk p3 p4, UnknownAt_congr hflag]

/-- The lattice of a text: the words, of the sources and unknown, that can be reached. -/
theorem Installed.cand_iff (hD : cfg.D.Ok) (h : S.Installed cfg dict) (hv : bd.Valid) (hb : bd.build cfg.catOf = .ok t) {L L' : Lattice}
    (hL : L.Clean) (hbl : buildLattice dict.grammar.cell (dict.set.toLex cfg.D cfg.depth) cfg.oov t L = (L', .ok ())) (x : NodeData) :
    L'.Cand x ↔ S.Candidate (loadedCost dict) cfg.catOf cfg.oov t x ∧ (x.begin_ = 0 ∨ ∃ d, L'.Cand d ∧ d.end_ = x.begin_) := by
  have B := built hv.len hb
  obtain ⟨L1, h1, h2⟩ := buildLattice_ok hbl
  obtain ⟨k1, k2⟩ := buildLoop_cands B (h.lexOk hD) hL h1
  have e1 := (connectEos_frame h2).1
  have hC : L'.Cand = L1.Cand := funext fun d => propext (cand_congr e1 d)
  rw [hC]
  have hmod : t.modified = bd.modified := B.modif
  unfold Candidate
  rw [hmod]
  constructor
  · intro hx
    obtain ⟨g1, g2, ds, g3, g4⟩ := k1 x hx
    obtain ⟨k, hk, hkb, hbc⟩ := B.bow_char g1
    rw [← B.bytePos_wpos] at hkb
    rw [hkb] at g1 g3
    rcases (h.at_position hD hv hb hk g1 g3 x).1 g4 with ⟨hw, _⟩ | hu
    · exact ⟨.inl hw, g2⟩
    · exact ⟨.inr ⟨k, by rw [← B.cats]; exact hbc, hu⟩, g2⟩
  · rintro ⟨hw | ⟨k, hbc, hu⟩, hreach⟩
    · obtain ⟨_, _, _, d, w, c, hc, hleft, o4, o5, o6, o7, o8, o9, o10, o11⟩ := id hw
      obtain ⟨k, hk, hkb, _⟩ := B.bow_char o10
      rw [← B.bytePos_wpos] at hkb
      rw [hkb] at o10 hreach
      obtain ⟨ds, g1, g2⟩ := k2 _ o10 hreach
      exact g2 x ((h.at_position hD hv hb hk o10 g1 x).2 (.inl ⟨hw, hkb⟩))
    · have hk : k < bd.modified.length := by
        obtain ⟨ch, hch, _⟩ := hu
        exact (List.getElem?_eq_some_iff.1 hch).1
      have hbow : t.canBow (bytePos bd.modified k) = .ok true := by
        rw [B.bytePos_wpos]
        exact canBow_of B hk (by rw [B.cats]; exact hbc)
      rw [hu.entry.2.1] at hreach
      obtain ⟨ds, g1, g2⟩ := k2 _ hbow hreach
      exact g2 x ((h.at_position hD hv hb hk hbow g1 x).2 (.inr hu))

theorem Installed.all_cands (hD : cfg.D.Ok) (h : S.Installed cfg dict) (hv : bd.Valid) (hb : bd.build cfg.catOf = .ok t) {L L' : Lattice}
    (hL : L.Clean) (hbl : buildLattice dict.grammar.cell (dict.set.toLex cfg.D cfg.depth) cfg.oov t L = (L', .ok ())) {e : Nat} :
    ∀ {p : List NodeData} {a : Nat}, Tiles a e p → (∀ d ∈ p, S.Candidate (loadedCost dict) cfg.catOf cfg.oov t d) →
      (a = 0 ∨ ∃ d, L'.Cand d ∧ d.end_ = a) → ∀ d ∈ p, L'.Cand d
  | [], _, _, _, _ => fun d hd => by cases hd
  | n :: p, a, ht, hw, hr => by
    obtain ⟨t1, t2, t3⟩ := ht
    have hn := (h.cand_iff hD hv hb hL hbl n).2 ⟨hw n (by simp), by rw [t1]; exact hr⟩
    intro d hd
    rcases List.mem_cons.1 hd with rfl | hd
    · exact hn
    · exact Installed.all_cands hD h hv hb hL hbl t3 (fun d hd => hw d (by simp [hd])) (.inr ⟨n, hn, rfl⟩) d hd

theorem Candidate.inRange {auto : Nat → Nat → Int} {n : Nat} (hids : S.IdsInRange n) {catOf : Nat → CatSet} {oov : List OovPlugin}
    (hoov : ∀ p ∈ oov, ∀ o, p.Entry o → InRange n o.leftId ∧ InRange n o.rightId) {t : InputText} {x : NodeData}
    (hx : S.Candidate auto catOf oov t x) : InRange n x.leftId ∧ InRange n x.rightId := by
  rcases hx with hx | ⟨k, _, hx⟩
  · exact Word.inRange hids hx
  · obtain ⟨_, _, p, hp, o, ho, e1, e2⟩ := hx.entry
    rw [e1, e2]
    exact hoov p hp o ho

/-- A byte position where words can begin, reached by words. -/
def Reached (S : Sources) (auto : Nat → Nat → Int) (catOf : Nat → CatSet) (oov : List OovPlugin) (t : InputText) (i : Nat) : Prop :=
  ∃ before, Tiles 0 i before ∧ ∀ y ∈ before, S.Candidate auto catOf oov t y

theorem tiles_snoc {d : NodeData} : ∀ {p : List NodeData} {a : Nat}, Tiles a d.begin_ p → d.begin_ < d.end_ → Tiles a d.end_ (p ++ [d])
  | [], _, h1, h2 => ⟨Eq.symm h1, h2, rfl⟩
  | _ :: _, _, h1, h2 => ⟨h1.1, h1.2.1, tiles_snoc h1.2.2 h2⟩

theorem tiles_last {d : NodeData} {e : Nat} : ∀ {p : List NodeData} {a : Nat}, Tiles a e (p ++ [d]) → d.end_ = e
  | [], _, h => h.2.2
  | _ :: _, _, h => tiles_last h.2.2

theorem posNodes_ne {lex : Lex} {plugins : List OovPlugin} {i : Nat} {ds : List NodeData} (h1 : posNodes lex plugins t i = .ok ds) : ds ≠ [] := by
  unfold posNodes at h1
  repeat' split at h1
  all_goals first
    | cases h1; done
    | (rename_i hh
       cases h1
       intro he
       simp only [List.append_eq_nil_iff] at he
       apply hh
       simp [he.1, he.2.1, he.2.2])

/-- Where there is a word, the words of the position are found without an exception. -/
theorem Installed.posNodes_ok (hD : cfg.D.Ok) (h : S.Installed cfg dict) (hv : bd.Valid) (hb : bd.build cfg.catOf = .ok t)
    (hfew : S.users.length ≤ 7) {n : Nat} (hids : S.IdsInRange n) (hst : ∀ p ∈ cfg.oov, p.Stores) {k : Nat}
    (hk : k < bd.modified.length) (hbow : t.canBow (bytePos bd.modified k) = .ok true) {x : NodeData}
    (hx : (S.Word (loadedCost dict) t x ∧ x.begin_ = bytePos bd.modified k) ∨
      UnknownAt bd.modified cfg.catOf cfg.oov (∃ y, S.Word (loadedCost dict) t y ∧ y.begin_ = bytePos bd.modified k) k x) :
    ∃ ds, posNodes (dict.set.toLex cfg.D cfg.depth) cfg.oov t (bytePos bd.modified k) = .ok ds := by
  have B := built hv.len hb
  have hi : bytePos bd.modified k < t.bytes.length := by rw [B.bytePos_wpos, B.blen]; exact wpos_lt B.enc hk (Nat.le_refl _)
  obtain ⟨ws, hws, hw⟩ := h.lookup hD t.bytes (bytePos bd.modified k)
  have hws : (dict.set.toLex cfg.D cfg.depth).lookup t.bytes (bytePos bd.modified k) = .ok ws := hws
  obtain ⟨a, ha, _⟩ := wordNodes_ok (left := InRange n) (right := InRange n) B (lex := dict.set.toLex cfg.D cfg.depth)
    (i := bytePos bd.modified k) (ws := ws) (fun w e hm => by
      obtain ⟨d, w0, c, rfl, hc, hleft, _⟩ := (hw w e).1 hm
      obtain ⟨l, r, v, p1, p2, p3, _⟩ := h.params hD hc
      obtain ⟨q1, q2⟩ := hids d w0 c hc hleft l r p1 p2
      exact ⟨combined_small (by have := hc.dict_lt; omega) (h.row_lt hD hc), ⟨l, r, v, p3, q1, q2⟩,
        (h.lexOk hD).lookup_inside _ _ _ hi hws _ e hm⟩)
  have hword := h.words_at hD hv hb hk hbow hws ha
  obtain ⟨b, hbn⟩ : ∃ b, oovPartNodes cfg.oov t (bytePos bd.modified k) (!a.isEmpty) = .ok b := by
    unfold oovPartNodes
    rw [B.bytePos_wpos, B.cats_at hk]
    dsimp only
    split
    · exact ⟨[], rfl⟩
    · rw [← B.bytePos_wpos]
      exact oovNodes_answers hv hb hk cfg.oov (!a.isEmpty) hst
  have hnil : a = [] → UnknownAt bd.modified cfg.catOf cfg.oov False k x := by
    intro ha0
    have hno : ¬ ∃ y, S.Word (loadedCost dict) t y ∧ y.begin_ = bytePos bd.modified k := by
      rintro ⟨y, hy⟩
      have := (hword y).2 hy
      rw [ha0] at this
      cases this
    rcases hx with hx | hx
    · exact absurd ⟨x, hx⟩ hno
    · exact (UnknownAt_congr ⟨fun h => hno h, False.elim⟩).1 hx
  obtain ⟨c, hc⟩ : ∃ c, defaultNodes cfg.oov t (bytePos bd.modified k) (!a.isEmpty || !b.isEmpty) = .ok c := by
    unfold defaultNodes
    split
    · exact ⟨[], rfl⟩
    · rename_i hflag
      cases hl : cfg.oov.getLast? with
      | some p =>
        exact getOov_answers hv hb hk (hst p (List.mem_of_getLast? hl)) false
      | none =>
        exfalso
        have ha0 : a = [] := by cases a with | nil => rfl | cons _ _ => simp at hflag
        obtain ⟨_, _, p, hp, _⟩ := (hnil ha0).entry
        rw [List.getLast?_eq_none_iff.1 hl] at hp
        cases hp
  have hne : (a.isEmpty && b.isEmpty && c.isEmpty) = false := by
    cases a with
    | cons => rfl
    | nil =>
      have := (unknown_nodes hv hb hk hbn hc x).2 ((UnknownAt_congr (by simp)).1 (hnil rfl))
      cases b with
      | cons => rfl
      | nil =>
        cases c with
        | cons => rfl
        | nil => rcases this with h | h <;> cases h
  refine ⟨a ++ (b ++ c), ?_⟩
  unfold posNodes
  simp only [hws, ha, hbn, hc, hne]
  rfl

/-- Where something ends after insertions. -/
theorem insertAll_ends {conn : Conn} : ∀ {ds : List NodeData} {L L' : Lattice}, insertAll conn L ds = (L', .ok ()) →
    ∀ e ns, L'.endLists[e]? = some ns → ns ≠ [] → (∃ ns0, L.endLists[e]? = some ns0 ∧ ns0 ≠ []) ∨ ∃ d ∈ ds, d.end_ = e
  | [], L, L', h => by
    cases h
    exact fun e ns h1 h2 => .inl ⟨ns, h1, h2⟩
  | d :: ds, L, L', h => by
    intro e ns h1 h2
    simp only [insertAll] at h
    split at h
    · rename_i L1 hi
      rcases insertAll_ends h e ns h1 h2 with ⟨ns0, h3, h4⟩ | ⟨d', h3, h4⟩
      · unfold Lattice.insert at hi
        repeat' split at hi
        all_goals first
          | (injection hi with _ hi; cases hi; done)
          | skip
        injection hi with hi _
        subst hi
        simp only [Lattice.append, List.getElem?_modify] at h3
        by_cases he : d.end_ = e
        · exact .inr ⟨d, by simp, he⟩
        · simp only [if_neg he] at h3
          cases hl : L.endLists[e]? with
          | none => rw [hl] at h3; cases h3
          | some old =>
            rw [hl] at h3
            exact .inl ⟨old, rfl, (Option.some.inj h3 : old = ns0) ▸ h4⟩
      · exact .inr ⟨d', by simp [h3], h4⟩
    · cases h

/-- If there is a word at every position that is reached, the lattice is built without an exception. -/
theorem Installed.buildLattice_ok (hD : cfg.D.Ok) (h : S.Installed cfg dict) (hv : bd.Valid) (hb : bd.build cfg.catOf = .ok t)
    (hfew : S.users.length ≤ 7) {n : Nat} {entries : List (Int × Int × Int)} (hmat : S.Matrix n entries) (hids : S.IdsInRange n)
    (hoov : ∀ p ∈ cfg.oov, ∀ o, p.Entry o → InRange n o.leftId ∧ InRange n o.rightId) (hshort : ∀ p ∈ cfg.oov, p.Short)
    (hall : ∀ k, k < bd.modified.length → BowChar (bd.modified.map cfg.catOf) k →
      S.Reached (loadedCost dict) cfg.catOf cfg.oov t (bytePos bd.modified k) →
      ∃ x, S.Candidate (loadedCost dict) cfg.catOf cfg.oov t x ∧ x.begin_ = bytePos bd.modified k) {L : Lattice} (hL : L.Clean) :
    ∃ L', buildLattice dict.grammar.cell (dict.set.toLex cfg.D cfg.depth) cfg.oov t L = (L', .ok ()) := by
  have B := built hv.len hb
  have hmod : t.modified = bd.modified := B.modif
  have hj : ∀ l r, InRange n l → InRange n r → ∃ c, dict.grammar.cell l r = .ok c := fun l r hl hr => ⟨_, h.cell hD hmat hl hr⟩
  have hn0 : InRange n 0 := ⟨Int.le_refl _, by have := h.matrix_pos hD hmat; omega⟩
  have hloop : ∀ {is : List Nat} {L : Lattice}, (∀ i ∈ is, i < t.bytes.length) → Roomy (InRange n) t.bytes.length L →
      (∀ e ns, L.endLists[e]? = some ns → ns ≠ [] → S.Reached (loadedCost dict) cfg.catOf cfg.oov t e) →
      ∃ L', buildLoop dict.grammar.cell (dict.set.toLex cfg.D cfg.depth) cfg.oov t is L = (L', .ok ()) ∧ Roomy (InRange n) t.bytes.length L' := by
    intro is
    induction is with
    | nil => intro L _ hL _; exact ⟨L, rfl, hL⟩
    | cons i is ih =>
      intro L hi hL hr
      have hin := hi i (by simp)
      have hroom := hL.room
      have ih' := fun {L : Lattice} => ih (L := L) (fun j hj => hi j (by simp [hj]))
      unfold buildLoop
      obtain ⟨b, hbw, _⟩ := B.canBow_spec hin
      have hlist := List.getElem?_eq_getElem (show i < L.endLists.length by omega)
      have hprev : L.hasPreviousNode i = .ok (!(L.endLists[i]'(by omega)).isEmpty) := by
        unfold Lattice.hasPreviousNode
        rw [pyGet, hlist]
        rfl
      unfold skipPos
      simp only [hbw, hprev, bind, Except.bind, pure, Except.pure]
      cases b with
      | false => exact ih' hL hr
      | true =>
        simp only [Bool.not_true, Bool.false_eq_true, if_false]
        cases hemp : (L.endLists[i]'(by omega)).isEmpty with
        | true => exact ih' hL hr
        | false =>
          have hreach := hr i _ hlist (by intro h0; rw [h0] at hemp; cases hemp)
          obtain ⟨k, hk, hkb, hbc⟩ := B.bow_char hbw
          rw [← B.bytePos_wpos] at hkb
          rw [hkb] at hreach
          rw [B.cats] at hbc
          have hbow : t.canBow (bytePos bd.modified k) = .ok true := by rw [← hkb]; exact hbw
          obtain ⟨x, hx, hxb⟩ := hall k hk hbc hreach
          have hx' : (S.Word (loadedCost dict) t x ∧ x.begin_ = bytePos bd.modified k) ∨
              UnknownAt bd.modified cfg.catOf cfg.oov (∃ y, S.Word (loadedCost dict) t y ∧ y.begin_ = bytePos bd.modified k) k x := by
            rcases hx with hx | ⟨k', _, hx⟩
            · exact .inl ⟨hx, hxb⟩
            · right
              rw [hmod] at hx
              have hk' : k' < bd.modified.length := by
                obtain ⟨ch, hch, _⟩ := hx
                exact (List.getElem?_eq_some_iff.1 hch).1
              have e := hx.entry.2.1
              rw [hxb, B.bytePos_wpos, B.bytePos_wpos] at e
              have : k' = k := by
                rcases Nat.lt_trichotomy k' k with hlt | heq | hlt
                · have := wpos_lt B.enc hlt (Nat.le_of_lt hk); omega
                · exact heq
                · have := wpos_lt B.enc hlt (Nat.le_of_lt hk'); omega
              subst this
              exact hx
          obtain ⟨ds, hds⟩ := h.posNodes_ok hD hv hb hfew hids (stores_of_ids (h.matrix_small hD hmat) hshort hoov) hk hbow hx'
          have hins := posNodes_inserted B (h.lexOk hD) hbow hds
          have hcand : ∀ d ∈ ds, S.Candidate (loadedCost dict) cfg.catOf cfg.oov t d := by
            intro d hd
            rcases (h.at_position hD hv hb hk hbow hds d).1 hd with hw | hw
            · exact .inl hw.1
            · exact .inr ⟨k, by rw [hmod]; exact hbc, by rw [hmod]; exact hw⟩
          obtain ⟨L1, h3, h4⟩ := Roomy.insertAll hj (ds := ds) hL (fun d hd => by
            obtain ⟨g1, g2, g3, _⟩ := hins d hd
            have hle : d.end_ ≤ t.bytes.length := by
              obtain ⟨k1, j, _, q2, _, q4⟩ := g3.onChars
              rw [q4, B.blen]
              exact wpos_mono _ q2
            have hr := Candidate.inRange hids hoov (hcand d hd)
            exact ⟨by omega, hle, hr.1, hr.2⟩)
          rw [hkb, buildPos_of hds h3]
          refine ih' h4 fun e ns he hne => ?_
          rcases insertAll_ends h3 e ns he hne with ⟨ns0, h5, h6⟩ | ⟨d, h5, rfl⟩
          · exact hr e ns0 h5 h6
          · obtain ⟨before, b1, b2⟩ := hreach
            obtain ⟨g1, g2, _⟩ := hins d h5
            refine ⟨before ++ [d], tiles_snoc (by rw [g1]; exact b1) (by omega), fun y hy => ?_⟩
            rcases List.mem_append.1 hy with hy | hy
            · exact b2 y hy
            · rw [List.mem_singleton.1 hy]; exact hcand d h5
  obtain ⟨r1, r2, r3, r4, r5, _⟩ := resize_frame L t.bytes.length hL.room hL.size
  have hc := hL.resize t.bytes.length
  have hroomy : Roomy (InRange n) t.bytes.length (L.resize t.bytes.length) := by
    refine ⟨r1, ?_⟩
    intro e ns x hns hx
    by_cases he : e = 0
    · subst he
      rw [hc.bos] at hns
      cases hns
      rw [List.mem_singleton.mp hx]
      exact hn0
    · rw [hc.empty e ns (by omega) hns] at hx
      cases hx
  obtain ⟨L1, h1, h2⟩ := hloop (is := List.range' 0 t.bytes.length) (fun i hi => by
    rw [List.mem_range'_1] at hi; omega) hroomy (fun e ns hns hne => by
      by_cases he : e = 0
      · subst he
        exact ⟨[], rfl, fun y hy => by cases hy⟩
      · exact absurd (hc.empty e ns (by omega) hns) hne)
  obtain ⟨_, heos, _⟩ := buildLoop_spec B (h.lexOk hD) hL h1
  obtain ⟨L', h3⟩ := connectEos_ok hj hn0 h2 heos
  refine ⟨L', ?_⟩
  unfold buildLattice
  rw [List.range_eq_range', h1]
  exact h3

end Sources
end Sudachi
