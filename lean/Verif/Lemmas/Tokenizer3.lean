import Verif.Lemmas.Tokenizer2
namespace Sudachi

variable {conn : Conn} {bd : Builder} {catOf : Nat → CatSet} {t : InputText}

/-! ### The path -/

theorem Sane.endsRight {lex : Lex} {L : Lattice} (h : Sane conn lex L) : L.EndsRight := by
  intro e ns hns x hx
  have hc := h.chain e ns x hns hx
  cases x with
  | bos d =>
    have he := hc.1
    subst he
    rw [h.bos] at hns
    injection hns with hns
    subst hns
    rw [List.mem_singleton.mp hx]; rfl
  | lone d _ => exact hc.1
  | link d _ _ => exact hc.1

theorem Sane.bestPath {lex : Lex} (B : Built bd catOf t) (hlex : lex.Ok) {plugins : List OovPlugin} {L L' : Lattice}
    (h : Sane conn lex L) (hb : Sudachi.buildLattice conn lex plugins t L = (L', .ok ())) {p : List NodeData} (hp : L'.getBestPath = .ok p) :
    Tiles 0 t.bytes.length p ∧ ∀ d ∈ p, Known lex d := by
  obtain ⟨h1, h2, h3, h4⟩ := h.resize t.bytes.length
  obtain ⟨g1, _, g2, g3, g4, g5⟩ := (simulates_sane (conn := conn) (lex := lex) t.bytes.length).buildLoop (lex := lex) (plugins := plugins) (t := t)
    (is := List.range t.bytes.length) (fun i hi => ⟨List.mem_range.mp hi, fun hbow => B.goodAt hlex plugins hbow⟩) ⟨rfl, h1, h2, h3, h4⟩
  unfold Sudachi.buildLattice at hb
  generalize buildLoop conn lex plugins t (List.range t.bytes.length) (L.resize t.bytes.length) = x at *
  obtain ⟨x1, x2⟩ := x
  dsimp only at g2 g3 g4 g5 hb
  cases x2 with
  | error e => cases hb
  | ok u =>
    rcases getBestPath_chain g2.chain g5 hb with he | ⟨q, cost, hq, a1, a2, a3⟩
    · rw [hp] at he; cases he
    · rw [hp] at hq
      cases hq
      exact ⟨a1, a2⟩

theorem Coarsens.mem {J : List NodeData → NodeData → Prop} {p p' : List NodeData} (h : Coarsens J p p') :
    ∀ d ∈ p', d ∈ p ∨ ∃ b, J b d := by
  induction h with
  | nil => intro d hd; cases hd
  | keep x _ ih =>
    intro d hd
    rcases List.mem_cons.mp hd with rfl | hd
    · exact .inl (by simp)
    · rcases ih d hd with h | h
      · exact .inl (by simp [h])
      · exact .inr h
  | join block n hj _ ih =>
    intro d hd
    rcases List.mem_cons.mp hd with rfl | hd
    · exact .inr ⟨_, hj⟩
    · rcases ih d hd with h | h
      · exact .inl (by simp [h])
      · exact .inr h

theorem Coarsens.tiles {J : List NodeData → NodeData → Prop} (hJ : ∀ b n, J b n → Spans b n) {p p' : List NodeData}
    (h : Coarsens J p p') : ∀ {a b : Nat}, Tiles a b p → Tiles a b p' := by
  induction h with
  | nil => intro a b ht; exact ht
  | keep d _ ih => intro a b ht; exact ⟨ht.1, ht.2.1, ih ht.2.2⟩
  | @join p p' block n hj _ ih =>
    intro a b ht
    obtain ⟨f, l, hf, hl, h1, h2⟩ := hJ _ _ hj
    have key : ∀ (block : List NodeData) (f l : NodeData) (a : Nat), block.head? = some f → block.getLast? = some l →
        Tiles a b (block ++ p) → f.begin_ = a ∧ a < l.end_ ∧ Tiles l.end_ b p := by
      intro block
      induction block with
      | nil => intro f l a hf; cases hf
      | cons d ds ih =>
        intro f l a hf hl ht
        injection hf with hf
        subst hf
        obtain ⟨t1, t2, t3⟩ := ht
        cases ds with
        | nil =>
          simp at hl
          subst hl
          exact ⟨t1, by omega, t3⟩
        | cons d' ds =>
          have hl' : (d' :: ds).getLast? = some l := by rw [← hl, List.getLast?_cons_cons]
          obtain ⟨g1, g2, g3⟩ := ih d' l d.end_ rfl hl' t3
          exact ⟨t1, by omega, g3⟩
    obtain ⟨g1, g2, g3⟩ := key block f l a hf hl ht
    exact ⟨by omega, by omega, by rw [h2]; exact ih g3⟩

theorem Tiles.mem {a b : Nat} {p : List NodeData} : Tiles a b p → ∀ d ∈ p, a ≤ d.begin_ ∧ d.begin_ < d.end_ ∧ d.end_ ≤ b := by
  intro h
  induction p generalizing a with
  | nil => intro d hd; cases hd
  | cons x xs ih =>
    obtain ⟨h1, h2, h3⟩ := h
    intro d hd
    rcases List.mem_cons.mp hd with rfl | hd
    · exact ⟨by omega, h2, h3.le⟩
    · have := ih h3 d hd; omega

/-- The nodes of a final mode-C path: dictionary words, or nodes with their own word info without splits. -/
def Plain (lex : Lex) (d : NodeData) : Prop :=
  d.defined = true ∧
  ((d.oov = false ∧ d.extra = none ∧ ∃ bytes i ws w e, lex.lookup bytes i = .ok ws ∧ (w, e) ∈ ws ∧
      d.end_ - d.begin_ = e - i ∧ d.wordId = (w : Nat) ∧ w < 2 ^ 31) ∨
   (∃ w, d.extra = some w ∧ w.aUnitSplit = [] ∧ w.bUnitSplit = []))

theorem Known.plain {lex : Lex} {d : NodeData} (h : Known lex d) : Plain lex d := by
  obtain ⟨h1, h2 | ⟨_, w, h3, h4, h5, _⟩⟩ := h
  · exact ⟨h1, .inl h2⟩
  · exact ⟨h1, .inr ⟨w, h3, h4, h5⟩⟩

theorem PathPlugin.coarsens {lex : Lex} {fuel : Nat} {L : Lattice} {p : PathPlugin} {path path' : List NodeData} (hL : L.EndsRight)
    (h : p.rewrite lex fuel t L path = .ok path') :
    Coarsens (fun b n => Spans b n ∧ n.defined = true ∧ (∃ w, n.extra = some w ∧ w.aUnitSplit = [] ∧ w.bUnitSplit = []) ∨
      Spans b n ∧ ∃ ns, L.getNodes n.begin_ n.end_ = .ok ns ∧ ∃ x ∈ ns, x.data = n) path path' := by
  cases p with
  | numeric cfg =>
    refine (loop_coarsens fuel (JNInv.start cfg lex path .init) h).mono ?_
    intro b n hj
    obtain ⟨h1, infos, norm, _, _, ⟨_, hd, w, h2, _, _, _, _, _, _, _, h3, h4, _⟩, _⟩ := hj
    exact .inl ⟨h1, hd, w, h2, h3, h4⟩
  | katakana cfg =>
    have h' : cfg.rewrite lex t L path = .ok path' := h
    obtain ⟨R', hR', hK⟩ := katLoop_exact hL path.length (R := path) (A := []) (Nat.le_refl _) (fun d hd => by cases hd) h'
    have hR'' : path' = R' := hR'
    subst hR''
    refine hK.coarsens.mono ?_
    intro b n hj
    rcases hj.node with ⟨ns, h1, bf, x, af, h2, h3, _⟩ | ⟨_, _, hd, infos, w, _, h2, _, _, _, _, _, _, _, h3, h4, _⟩
    · exact .inr ⟨hj.spans, ns, h1, x, by rw [h2]; exact List.mem_append_right _ List.mem_cons_self, h3⟩
    · exact .inl ⟨hj.spans, hd, w, h2, h3, h4⟩

theorem getNodes_mem {L : Lattice} {b e : Nat} {ns : List LNode} (h : L.getNodes b e = .ok ns) :
    ∃ all, L.endLists[e]? = some all ∧ ∀ x ∈ ns, x ∈ all ∧ x.data.begin_ = b := by
  unfold Lattice.getNodes at h
  simp only [bind, Except.bind, pure, Except.pure] at h
  split at h
  · cases h
  · rename_i all hall
    injection h with h
    subst h
    refine ⟨all, (pyGet_ok hall).2, ?_⟩
    intro x hx
    rw [List.mem_filter] at hx
    exact ⟨hx.1, of_decide_eq_true hx.2⟩

theorem Sane.node {lex : Lex} {L : Lattice} (h : Sane conn lex L) {b e : Nat} {ns : List LNode} (hn : L.getNodes b e = .ok ns) (he : 0 < e)
    {x : LNode} (hx : x ∈ ns) : Known lex x.data := by
  obtain ⟨all, h1, h2⟩ := getNodes_mem hn
  have hc := h.chain _ _ _ h1 (h2 x hx).1
  cases x with
  | bos d => have := hc.1; omega
  | lone d _ => exact hc.2.2
  | link d _ _ => exact hc.2.2.1

theorem rewritePath_keeps {lex : Lex} {fuel : Nat} {L : Lattice} (hL : Sane conn lex L) {ps : List PathPlugin} :
    ∀ {path path' : List NodeData} {n : Nat}, rewritePath lex fuel t L ps path = .ok path' → Tiles 0 n path → (∀ d ∈ path, Plain lex d) →
    Tiles 0 n path' ∧ ∀ d ∈ path', Plain lex d := by
  induction ps with
  | nil => intro path path' n h h1 h2; cases h; exact ⟨h1, h2⟩
  | cons p ps ih =>
    intro path path' n h h1 h2
    simp only [rewritePath, bind, Except.bind] at h
    cases hp : p.rewrite lex fuel t L path with
    | error e => rw [hp] at h; cases h
    | ok q =>
      rw [hp] at h
      have hc := PathPlugin.coarsens hL.endsRight hp
      have ht := hc.tiles (fun b n hj => by rcases hj with h | h <;> exact h.1) h1
      refine ih h ht ?_
      intro d hd
      rcases hc.mem d hd with hm | ⟨b, hj⟩
      · exact h2 d hm
      · rcases hj with ⟨_, h3, h4⟩ | ⟨_, ns, h3, x, h4, rfl⟩
        · exact ⟨h3, .inr h4⟩
        · exact (hL.node h3 (by have := ht.mem _ hd; omega) h4).plain

/-! ### One call -/

/-- The parts of a successful call on a non-empty text. -/
structure Run (T : Tokenizer) (L : Lattice) (text : PStr) (mode : Mode) (L' : Lattice) (ml : MorphemeList) : Prop where
  run : ∃ bd t L1 path0 path path', T.buildInput text = .ok t ∧ bd.Valid ∧ bd.original = text ∧ bd.modified ≠ [] ∧ Built bd T.catOf t ∧
    buildLattice T.conn T.lex T.oov t L = (L1, .ok ()) ∧ L1.getBestPath = .ok path0 ∧
    rewritePath T.lex T.fuel t L1 T.pathPlugins path0 = .ok path ∧ L1.clear = (L', .ok ()) ∧ splitPath T.lex mode path = .ok path' ∧
    ml = ⟨some t, path'⟩

theorem bestPath_parts {T : Tokenizer} {L1 : Lattice} {path : List NodeData} (h : T.bestPath t L1 = .ok path) :
    ∃ path0, L1.getBestPath = .ok path0 ∧ rewritePath T.lex T.fuel t L1 T.pathPlugins path0 = .ok path := by
  unfold Tokenizer.bestPath at h
  simp only [bind, Except.bind] at h
  split at h
  · cases h
  · rename_i path0 hp0
    exact ⟨path0, hp0, h⟩

theorem tokenize_run {T : Tokenizer} (hp : T.PluginsOk) {L L' : Lattice} {text : PStr} {mode : Option Mode} {ml : MorphemeList}
    (h : T.tokenize L text mode = (L', .ok ml)) :
    (text = [] ∧ L' = L ∧ ml = .empty) ∨ (text ≠ [] ∧ Run T L text (mode.getD T.mode) L' ml) := by
  unfold Tokenizer.tokenize at h
  cases text with
  | nil => cases h; exact .inl ⟨rfl, rfl, rfl⟩
  | cons c cs =>
    right
    refine ⟨by simp, ?_⟩
    rw [if_neg (by simp)] at h
    cases ht : T.buildInput (c :: cs) with
    | error x => rw [ht] at h; cases h
    | ok t =>
      rw [ht] at h
      obtain ⟨bd, b1, b2, _, b4, b5⟩ := buildInput_built hp ht
      dsimp only at h
      cases hb : buildLattice T.conn T.lex T.oov t L with
      | mk L1 r1 =>
        rw [hb] at h
        cases r1 with
        | error x => cases h
        | ok u =>
          dsimp only at h
          cases hpth : T.bestPath t L1 with
          | error x => rw [hpth] at h; cases h
          | ok path =>
            rw [hpth] at h
            dsimp only at h
            obtain ⟨path0, hp0, hrw⟩ := bestPath_parts hpth
            cases hcl : L1.clear with
            | mk L2 r2 =>
              rw [hcl] at h
              cases r2 with
              | error x => cases h
              | ok u =>
                dsimp only at h
                cases hsp : splitPath T.lex (mode.getD T.mode) path with
                | error x => rw [hsp] at h; cases h
                | ok path' =>
                  rw [hsp] at h
                  cases h
                  exact ⟨bd, t, L1, path0, path, path', ht, b1, b2, b5 (by simp), b4, hb, hp0, hrw, hcl, hsp, rfl⟩

/-- Whatever the outcome, the lattice stays sane. -/
theorem tokenize_sane {T : Tokenizer} (hp : T.PluginsOk) (hlex : T.lex.Ok) {L L' : Lattice} {text : PStr} {mode : Option Mode}
    {r : Res MorphemeList} (hL : Sane T.conn T.lex L) (h : T.tokenize L text mode = (L', r)) : Sane T.conn T.lex L' := by
  unfold Tokenizer.tokenize at h
  cases text with
  | nil => cases h; exact hL
  | cons c cs =>
    rw [if_neg (by simp)] at h
    cases ht : T.buildInput (c :: cs) with
    | error x => rw [ht] at h; cases h; exact hL
    | ok t =>
      rw [ht] at h
      obtain ⟨bd, b1, b2, _, b4, _⟩ := buildInput_built hp ht
      dsimp only at h
      cases hb : buildLattice T.conn T.lex T.oov t L with
      | mk L1 r1 =>
        rw [hb] at h
        obtain ⟨hL1, _, _⟩ := hL.buildLattice b4 hlex hb
        cases r1 with
        | error x => cases h; exact hL1
        | ok u =>
          dsimp only at h
          cases hpth : T.bestPath t L1 with
          | error x => rw [hpth] at h; cases h; exact hL1
          | ok path =>
            rw [hpth] at h
            dsimp only at h
            obtain ⟨L2, hcl, hL2, _⟩ := hL1.clear
            rw [hcl] at h
            dsimp only at h
            cases hsp : splitPath T.lex (mode.getD T.mode) path with
            | error x => rw [hsp] at h; cases h; exact hL2
            | ok path' => rw [hsp] at h; cases h; exact hL2

theorem init_sane (conn : Conn) (lex : Lex) : Sane conn lex Lattice.init := by
  have : Lattice.init.Clean := by
    refine ⟨rfl, ?_, by decide, by decide⟩
    intro e ns he hns
    cases e with
    | zero => omega
    | succ e => simp [Lattice.init] at hns
  exact this.sane conn lex

theorem Tokenizer.History.sane {T : Tokenizer} (hp : T.PluginsOk) (hlex : T.lex.Ok) {L : Lattice} (h : T.History L) :
    Sane T.conn T.lex L := by
  induction h with
  | fresh => exact init_sane _ _
  | call text mode _ heq ih => exact tokenize_sane hp hlex ih heq

theorem Tokenizer.CleanHistory.history {T : Tokenizer} {L : Lattice} (h : T.CleanHistory L) : T.History L := by
  induction h with
  | fresh => exact .fresh
  | call text mode _ heq ih => exact .call text mode ih heq

/-- The path of a successful call before splitting. -/
theorem run_path {T : Tokenizer} (hlex : T.lex.Ok) {L L1 : Lattice} (hL : Sane T.conn T.lex L)
    (B : Built bd catOf t) {path0 path : List NodeData} (hb : buildLattice T.conn T.lex T.oov t L = (L1, .ok ()))
    (hp0 : L1.getBestPath = .ok path0) (hrw : rewritePath T.lex T.fuel t L1 T.pathPlugins path0 = .ok path) :
    Tiles 0 t.bytes.length path ∧ ∀ d ∈ path, Plain T.lex d := by
  obtain ⟨h1, h2⟩ := hL.bestPath B hlex hb hp0
  exact rewritePath_keeps (hL.buildLattice B hlex hb).1 hrw h1 (fun d hd => (h2 d hd).plain)

/-! ### Splitting -/

/-- The words of `p` cover `[a, b)` without gap or overlap; words may be empty. -/
def Covers : Nat → Nat → List NodeData → Prop
  | a, b, [] => a = b
  | a, b, d :: ds => d.begin_ = a ∧ d.begin_ ≤ d.end_ ∧ Covers d.end_ b ds

theorem Tiles.covers {a b : Nat} {p : List NodeData} (h : Tiles a b p) : Covers a b p := by
  induction p generalizing a with
  | nil => exact h
  | cons d ds ih => exact ⟨h.1, Nat.le_of_lt h.2.1, ih h.2.2⟩

theorem Covers.le {a b : Nat} {p : List NodeData} (h : Covers a b p) : a ≤ b := by
  induction p generalizing a with
  | nil => exact Nat.le_of_eq h
  | cons d ds ih => have := ih h.2.2; have := h.1; have := h.2.1; omega

theorem Covers.append {a b c : Nat} {p q : List NodeData} (h : Covers a b p) (h' : Covers b c q) : Covers a c (p ++ q) := by
  induction p generalizing a with
  | nil => have : a = b := h; subst this; exact h'
  | cons d ds ih => exact ⟨h.1, h.2.1, ih h.2.2⟩

theorem splitUnits_spec {lex : Lex} : ∀ {wids : List Int} {o : Nat} {nodes : List NodeData}, splitUnits lex o wids = .ok nodes →
    ∃ infos : List WordInfo, wids.map lex.wordInfo = infos.map Except.ok ∧ Covers o (o + (infos.map (·.headWordLength)).sum) nodes ∧
      nodes.map (·.wordId) = wids ∧ ∀ d ∈ nodes, d.oov = false ∧ d.extra = none ∧ d.defined = true := by
  intro wids
  induction wids with
  | nil => intro o nodes h; cases h; exact ⟨[], rfl, rfl, rfl, fun d hd => by cases hd⟩
  | cons wid wids ih =>
    intro o nodes h
    simp only [splitUnits, bind, Except.bind, pure, Except.pure] at h
    split at h
    · cases h
    · rename_i n hn
      split at h
      · cases h
      · rename_i wi hwi
        split at h
        · cases h
        · rename_i rest hrest
          injection h with h
          subst h
          obtain ⟨infos, h1, h2, h3, h4⟩ := ih hrest
          unfold unitNode at hn
          split at hn
          · cases hn
          · injection hn with hn
            subst hn
            refine ⟨wi :: infos, ?_, ?_, ?_, ?_⟩
            · have hwi' : lex.wordInfo wid = .ok wi := hwi
              rw [List.map_cons, List.map_cons, h1, hwi']
            · refine ⟨rfl, Nat.le_add_right _ _, ?_⟩
              rw [List.map_cons, List.sum_cons, ← Nat.add_assoc]
              exact h2
            · rw [List.map_cons, h3]
            · intro d hd
              rcases List.mem_cons.mp hd with rfl | hd
              · exact ⟨rfl, rfl, rfl⟩
              · exact h4 d hd

theorem Plain.info {lex : Lex} {d : NodeData} (h : Plain lex d) {wi : WordInfo} (hw : nodeWordInfo lex d = .ok wi) :
    (d.extra = none ∧ d.oov = false ∧ lex.wordInfo d.wordId = .ok wi ∧ ∃ bytes i ws w e, lex.lookup bytes i = .ok ws ∧ (w, e) ∈ ws ∧
      d.end_ - d.begin_ = e - i ∧ d.wordId = (w : Nat) ∧ w < 2 ^ 31) ∨ (d.extra = some wi ∧ wi.aUnitSplit = [] ∧ wi.bUnitSplit = []) := by
  obtain ⟨h1, h2⟩ := h
  unfold nodeWordInfo at hw
  rw [h1] at hw
  simp only [Bool.not_true, Bool.false_eq_true, if_false] at hw
  rcases h2 with ⟨g1, g2, g3⟩ | ⟨w, g1, g2, g3⟩
  · rw [g2] at hw
    exact .inl ⟨g2, g1, hw, g3⟩
  · rw [g1] at hw
    cases hw
    exact .inr ⟨g1, g2, g3⟩

theorem splitNode_covers {lex : Lex} (hs : lex.SplitsOk) {mode : Mode} {d : NodeData} {nodes : List NodeData} (hd : Plain lex d)
    (hlt : d.begin_ < d.end_) (h : splitNode lex mode d = .ok nodes) : Covers d.begin_ d.end_ nodes := by
  unfold splitNode at h
  simp only [bind, Except.bind, pure, Except.pure] at h
  split at h
  · cases h
  · rename_i wi hwi
    split at h
    · cases h; exact ⟨rfl, Nat.le_of_lt hlt, rfl⟩
    · rename_i hlen
      obtain ⟨infos, h1, h2, _⟩ := splitUnits_spec h
      rcases hd.info hwi with ⟨_, _, g1, bytes, i, ws, w, e, g2, g3, g4, g5, _⟩ | ⟨_, g2, g3⟩
      · have hhead := hs.head bytes i ws w e wi g2 g3 (by rw [← g5]; exact g1)
        have hsum : (infos.map (·.headWordLength)).sum = wi.headWordLength := by
          unfold unitsOf at h1 hlen
          split at h1
          · rename_i hm
            rw [if_pos hm] at hlen
            exact hs.a bytes i ws w e wi g2 g3 (by rw [← g5]; exact g1) (by omega) infos h1
          · rename_i hm
            rw [if_neg hm] at hlen
            exact hs.b bytes i ws w e wi g2 g3 (by rw [← g5]; exact g1) (by omega) infos h1
        rw [hsum, hhead, ← g4] at h2
        rw [show d.begin_ + (d.end_ - d.begin_) = d.end_ by omega] at h2
        exact h2
      · exfalso
        apply hlen
        unfold unitsOf
        split
        · rw [g2]; exact Nat.zero_le _
        · rw [g3]; exact Nat.zero_le _

theorem splitNodes_covers {lex : Lex} (hs : lex.SplitsOk) {mode : Mode} : ∀ {path nodes : List NodeData} {a b : Nat},
    (∀ d ∈ path, Plain lex d) → Tiles a b path → splitNodes lex mode path = .ok nodes → Covers a b nodes := by
  intro path
  induction path with
  | nil => intro nodes a b _ ht h; cases h; exact ht
  | cons d ds ih =>
    intro nodes a b hp ht h
    simp only [splitNodes, bind, Except.bind, pure, Except.pure] at h
    split at h
    · cases h
    · rename_i x hx
      split at h
      · cases h
      · rename_i y hy
        injection h with h
        subst h
        have h1 := splitNode_covers hs (hp d (by simp)) ht.2.1 hx
        have h2 := ih (fun d hd => hp d (by simp [hd])) ht.2.2 hy
        rw [ht.1] at h1
        exact h1.append h2

/-! ### From covered bytes to the original text -/

theorem ValidMap.get {m : List Nat} {n orig i : Nat} (h : ValidMap m n orig) (hi : i ≤ n) : ∃ o, m[i]? = some o ∧ o ≤ orig := by
  have hl := h.len
  have h1 : i < m.length := by omega
  have h2 := h.last
  have h3 : n < m.length := by omega
  refine ⟨m[i], List.getElem?_eq_getElem h1, ?_⟩
  rw [List.getElem?_eq_getElem h3] at h2
  injection h2 with h2
  rw [← h2]
  exact h.mono i n h1 h3 hi

theorem ValidMap.le {m : List Nat} {n orig i j x y : Nat} (h : ValidMap m n orig) (hij : i ≤ j) (hx : m[i]? = some x) (hy : m[j]? = some y) :
    x ≤ y := by
  have h1 : i < m.length := by
    rcases Nat.lt_or_ge i m.length with h | h
    · exact h
    · rw [List.getElem?_eq_none h] at hx; cases hx
  have h2 : j < m.length := by
    rcases Nat.lt_or_ge j m.length with h | h
    · exact h
    · rw [List.getElem?_eq_none h] at hy; cases hy
  rw [List.getElem?_eq_getElem h1] at hx
  rw [List.getElem?_eq_getElem h2] at hy
  injection hx with hx
  injection hy with hy
  subst hx hy
  exact h.mono i j h1 h2 hij

theorem shows_of_nodes (t : InputText) : ∀ (p : List NodeData) (spans : List (Nat × Nat × PStr)), p.length = spans.length →
    (∀ (i : Nat) (d : NodeData) (b e : Nat) (s : PStr), p[i]? = some d → spans[i]? = some (b, e, s) → t.offsets[d.begin_]? = some b ∧ t.offsets[d.end_]? = some e ∧
      s = pySlice t.original b e) → MorphemeList.Shows ⟨some t, p⟩ spans := by
  intro p spans hl h
  refine ⟨hl, ?_⟩
  intro i b e s hi
  have hlt : i < p.length := by
    rcases Nat.lt_or_ge i spans.length with h' | h'
    · omega
    · rw [List.getElem?_eq_none h'] at hi; cases hi
  have hd : p[i]? = some p[i] := List.getElem?_eq_getElem hlt
  obtain ⟨h1, h2, h3⟩ := h i _ b e s hd hi
  have hb : MorphemeList.getBegin ⟨some t, p⟩ i = .ok b := by
    simp only [MorphemeList.getBegin, MorphemeList.inputText, bind, Except.bind, pyGet, hd, InputText.getOriginalIndex, h1]
  have he : MorphemeList.getEnd ⟨some t, p⟩ i = .ok e := by
    simp only [MorphemeList.getEnd, MorphemeList.inputText, bind, Except.bind, pyGet, hd, InputText.getOriginalIndex, h2]
  refine ⟨hb, he, ?_⟩
  simp only [MorphemeList.getSurface, hb, he, bind, Except.bind, MorphemeList.inputText, pure, Except.pure, h3]

theorem covers_partition {n : Nat} (hv : ValidMap t.offsets n t.original.length) : ∀ (p : List NodeData) (a oa : Nat),
    Covers a n p → t.offsets[a]? = some oa →
    ∃ spans, Partition t.original oa spans ∧ p.length = spans.length ∧
      (∀ (i : Nat) (d : NodeData) (b e : Nat) (s : PStr), p[i]? = some d → spans[i]? = some (b, e, s) → t.offsets[d.begin_]? = some b ∧ t.offsets[d.end_]? = some e ∧
      s = pySlice t.original b e) := by
  intro p
  induction p with
  | nil =>
    intro a oa hc ha
    have : a = n := hc
    subst this
    rw [hv.last] at ha
    injection ha with ha
    exact ⟨[], ha.symm, rfl, fun i d b e s h => by simp at h⟩
  | cons d ds ih =>
    intro a oa hc ha
    obtain ⟨h1, h2, h3⟩ := hc
    obtain ⟨oe, he, hle⟩ := hv.get h3.le
    obtain ⟨spans, g1, g2, g3⟩ := ih d.end_ oe h3 he
    refine ⟨(oa, oe, pySlice t.original oa oe) :: spans, ⟨rfl, hv.le (by omega) ha he, hle, rfl, g1⟩, by simp [g2], ?_⟩
    intro i d' b e s hd hs
    cases i with
    | zero =>
      simp at hd hs
      obtain ⟨rfl, rfl, rfl⟩ := hs
      subst hd
      exact ⟨by rw [h1]; exact ha, he, rfl⟩
    | succ i => exact g3 i d' b e s (by simpa using hd) (by simpa using hs)

theorem Partition.concat {text : PStr} : ∀ {spans : List (Nat × Nat × PStr)} {a : Nat}, Partition text a spans →
    (spans.map (·.2.2)).flatten = text.drop a := by
  intro spans
  induction spans with
  | nil => intro a h; have : a = text.length := h; subst this; simp
  | cons x xs ih =>
    obtain ⟨b, e, s⟩ := x
    intro a h
    obtain ⟨rfl, h2, h3, rfl, h5⟩ := h
    rw [List.map_cons, List.flatten_cons, ih h5]
    have : text.drop b = (text.take e ++ text.drop e).drop b := by rw [List.take_append_drop]
    rw [this, List.drop_append_of_le_length (by rw [List.length_take]; omega)]

end Sudachi
