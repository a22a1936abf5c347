import Verif.Lemmas.Tokenizer3
namespace Sudachi

variable {conn : Conn} {bd : Builder} {catOf : Nat → CatSet} {t : InputText}

/-! ### Two lattices that agree on the positions of the text -/

structure SameUpTo (n : Nat) (L L' : Lattice) : Prop where
  lists : ∀ e, e ≤ n → L.endLists[e]? = L'.endLists[e]?
  eos : L.eos = L'.eos

theorem SameUpTo.append {n e : Nat} {L L' : Lattice} (h : SameUpTo n L L') (x : LNode) : SameUpTo n (L.append e x) (L'.append e x) := by
  refine ⟨?_, h.eos⟩
  intro e' he'
  simp only [Lattice.append]
  rw [List.getElem?_modify, List.getElem?_modify, h.lists e' he']

theorem SameUpTo.insert {n : Nat} {L L' : Lattice} (h : SameUpTo n L L') {d : NodeData} (hlt : d.begin_ < d.end_) (hle : d.end_ ≤ n) :
    (L.insert conn d).2 = (L'.insert conn d).2 ∧ SameUpTo n (L.insert conn d).1 (L'.insert conn d).1 := by
  unfold Lattice.insert
  rw [h.lists d.end_ hle, h.lists d.begin_ (by omega)]
  cases L'.endLists[d.end_]? with
  | none => exact ⟨rfl, h⟩
  | some _ =>
    dsimp only
    cases L'.endLists[d.begin_]? with
    | none => exact ⟨rfl, h.append _⟩
    | some prevs =>
      dsimp only
      cases connectNode conn d prevs with
      | ok x => exact ⟨rfl, h.append _⟩
      | error x => exact ⟨rfl, h.append _⟩

theorem simulates_same {conn : Conn} {lex : Lex} (n : Nat) : Simulates conn n (Fits lex n) (SameUpTo n) := by
  constructor
  · intro L L' d h hd; exact h.insert hd.1 hd.2.1
  · intro L L' i h hi
    unfold Lattice.hasPreviousNode pyGet
    rw [h.lists i (by omega)]

theorem SameUpTo.buildLattice {lex : Lex} (B : Built bd catOf t) (hlex : lex.Ok) {plugins : List OovPlugin} {L L' : Lattice}
    (h : SameUpTo t.bytes.length (L.resize t.bytes.length) (L'.resize t.bytes.length)) :
    Agree (SameUpTo t.bytes.length) (Sudachi.buildLattice conn lex plugins t L) (Sudachi.buildLattice conn lex plugins t L') := by
  have hs := (simulates_same (conn := conn) (lex := lex) t.bytes.length).buildLoop (lex := lex) (plugins := plugins) (t := t)
    (is := List.range t.bytes.length) (fun i hi => ⟨List.mem_range.mp hi, fun hbow => B.goodAt hlex plugins hbow⟩) h
  have heos : ∀ L : Lattice, (buildLoop conn lex plugins t (List.range t.bytes.length) (L.resize t.bytes.length)).1.eos =
      some (.lone { NodeData.blank with begin_ := t.bytes.length, end_ := t.bytes.length } 0) := by
    intro L
    have S : Simulates conn t.bytes.length (Fits lex t.bytes.length) (fun L L' => L = L' ∧
        L.eos = some (.lone { NodeData.blank with begin_ := t.bytes.length, end_ := t.bytes.length } 0)) := by
      constructor
      · rintro L _ d ⟨rfl, h3⟩ hd
        obtain ⟨f1, f2, f3, f4⟩ := insert_frame (conn := conn) (L := L) (d := d) (L' := (L.insert conn d).1) (r := (L.insert conn d).2) rfl
        exact ⟨rfl, rfl, by rw [f3]; exact h3⟩
      · rintro L _ i ⟨rfl, _⟩ _; rfl
    exact (S.buildLoop (lex := lex) (plugins := plugins) (t := t)
      (is := List.range t.bytes.length) (fun i hi => ⟨List.mem_range.mp hi, fun hbow => B.goodAt hlex plugins hbow⟩) (L := L.resize _) ⟨rfl, rfl⟩).2.2
  have he := heos L
  have he' := heos L'
  obtain ⟨h1, h2⟩ := hs
  unfold Sudachi.buildLattice
  generalize buildLoop conn lex plugins t (List.range t.bytes.length) (L.resize t.bytes.length) = x at *
  generalize buildLoop conn lex plugins t (List.range t.bytes.length) (L'.resize t.bytes.length) = y at *
  obtain ⟨x1, x2⟩ := x
  obtain ⟨y1, y2⟩ := y
  dsimp only at h1 h2 he he'
  subst h1
  cases x2 with
  | error e => exact ⟨rfl, h2⟩
  | ok u =>
    dsimp only
    unfold Lattice.connectEos
    rw [he, he']
    dsimp only [LNode.data]
    rw [h2.lists _ (Nat.le_refl _)]
    cases y1.endLists[t.bytes.length]? with
    | none => exact ⟨rfl, h2⟩
    | some prevs =>
      dsimp only
      cases connectNode conn { NodeData.blank with begin_ := t.bytes.length, end_ := t.bytes.length } prevs with
      | ok x => exact ⟨rfl, h2.lists, rfl⟩
      | error x => exact ⟨rfl, h2⟩

theorem Lattice.Clean.resize_lists {L : Lattice} (h : L.Clean) {n e : Nat} (he : e ≤ n) :
    (L.resize n).endLists[e]? = if e = 0 then some [bosNode] else some [] := by
  have hr := ((h.sane (fun _ _ => .ok 0) ⟨fun _ _ => .ok [], fun _ => .ok (0,0,0), fun _ => .error .index⟩).resize n)
  have hlt : e < (L.resize n).endLists.length := by have := hr.2.1; omega
  split
  · rename_i h0; subst h0; exact hr.1.bos
  · rename_i h0
    have : ∀ ns, (L.resize n).endLists[e]? = some ns → ns = [] := by
      intro ns hns
      unfold Lattice.resize Lattice.expand at hns
      dsimp only at hns
      split at hns
      · dsimp only at hns
        rcases Nat.lt_or_ge e L.endLists.length with he' | he'
        · rw [List.getElem?_append_left he'] at hns; exact h.empty e ns (by omega) hns
        · rw [List.getElem?_append_right he', List.getElem?_replicate] at hns
          split at hns
          · injection hns with hns; exact hns.symm
          · cases hns
      · exact h.empty e ns (by omega) hns
    rw [List.getElem?_eq_getElem hlt] at this ⊢
    rw [this _ rfl]

theorem Lattice.Clean.same {L L' : Lattice} (h : L.Clean) (h' : L'.Clean) (n : Nat) : SameUpTo n (L.resize n) (L'.resize n) :=
  ⟨fun e he => by rw [h.resize_lists he, h'.resize_lists he], rfl⟩

/-! ### Path rewriting reads only those positions -/

theorem SameUpTo.getMinimumNode {n : Nat} {L L' : Lattice} (h : SameUpTo n L L') (b : Nat) {e : Nat} (he : e ≤ n) :
    L.getMinimumNode b e = L'.getMinimumNode b e := by
  unfold Lattice.getMinimumNode Lattice.getNodes pyGet
  rw [h.lists e he]

theorem pyGet_mem {α : Type} {l : List α} {i : Nat} {x : α} (h : pyGet l i = .ok x) : x ∈ l :=
  List.mem_of_getElem? (pyGet_ok h).2

theorem SameUpTo.concatenateOov {n : Nat} {L L' : Lattice} (h : SameUpTo n L L') {lex : Lex} {path : List NodeData}
    (hp : ∀ d ∈ path, d.end_ ≤ n) (b e : Nat) (pos : Int) :
    Sudachi.concatenateOov lex L path b e pos = Sudachi.concatenateOov lex L' path b e pos := by
  unfold Sudachi.concatenateOov
  split
  · rfl
  · cases hl : pyGet path (e - 1) with
    | error x => rfl
    | ok l =>
      cases hf : pyGet path b with
      | error x => rfl
      | ok f =>
        simp only [bind, Except.bind]
        rw [h.getMinimumNode _ (hp l (pyGet_mem hl))]

theorem SameUpTo.katakanaStep {n : Nat} {L L' : Lattice} (h : SameUpTo n L L') {lex : Lex} {cfg : JoinKatakana} {path : List NodeData}
    (hp : ∀ d ∈ path, d.end_ ≤ n) (i : Nat) : cfg.step lex t L path i = cfg.step lex t L' path i := by
  unfold JoinKatakana.step
  simp only [h.concatenateOov hp]

theorem concatenateOov_ends {n : Nat} {L : Lattice} (hL : L.EndsRight) {lex : Lex} {path path' : List NodeData}
    (hp : ∀ d ∈ path, d.end_ ≤ n) {b e : Nat} {pos : Int} (h : concatenateOov lex L path b e pos = .ok path') : ∀ d ∈ path', d.end_ ≤ n := by
  obtain ⟨h1, h2, m, rfl, h3⟩ := concatenateOov_spec h
  have hm : m.end_ ≤ n := by
    rcases h3 with ⟨f, l, hf, hl, ns, hns, hfc⟩ | ⟨⟨f, l, hf, hl, g1, g2⟩, _⟩
    · obtain ⟨x, hx, rfl⟩ := hfc.mem
      obtain ⟨all, a1, a2⟩ := getNodes_mem hns
      rw [hL _ _ a1 x (a2 x hx).1]
      exact hp l (List.mem_of_getElem? hl)
    · rw [g2]
      have := List.mem_of_getLast? hl
      exact hp l (List.mem_of_mem_take (List.mem_of_mem_drop this))
  intro d hd
  rcases List.mem_append.mp hd with hd | hd
  · exact hp d (List.mem_of_mem_take hd)
  · rcases List.mem_cons.mp hd with rfl | hd
    · exact hm
    · exact hp d (List.mem_of_mem_drop hd)

theorem SameUpTo.katakanaLoop {n : Nat} {L L' : Lattice} (h : SameUpTo n L L') (hL : L'.EndsRight) {lex : Lex} {cfg : JoinKatakana} :
    ∀ (fuel : Nat) (path : List NodeData) (i : Nat), (∀ d ∈ path, d.end_ ≤ n) →
    cfg.loop lex t L fuel path i = cfg.loop lex t L' fuel path i := by
  intro fuel
  induction fuel with
  | zero => intro path i hp; unfold JoinKatakana.loop; rfl
  | succ fuel ih =>
    intro path i hp
    unfold JoinKatakana.loop
    split
    · dsimp only
      rw [h.katakanaStep hp]
      split
      · rfl
      · rename_i path' i' hs
        refine ih path' i' ?_
        obtain ⟨d, _, h1⟩ := katStep_spec hs
        rcases h1 with ⟨rfl, _⟩ | ⟨_, b0, b, e, _, _, _, h2⟩
        · exact hp
        · rcases h2 with ⟨rfl, _⟩ | ⟨_, _, h3⟩
          · exact hp
          · exact concatenateOov_ends hL hp h3
    · rfl

theorem SameUpTo.rewritePath {n : Nat} {L L' : Lattice} (h : SameUpTo n L L') {lex : Lex} (hL : Sane conn lex L') {fuel : Nat} :
    ∀ {ps : List PathPlugin} {path : List NodeData}, Tiles 0 n path → (∀ d ∈ path, Plain lex d) →
    Sudachi.rewritePath lex fuel t L ps path = Sudachi.rewritePath lex fuel t L' ps path := by
  intro ps
  induction ps with
  | nil => intro path _ _; rfl
  | cons p ps ih =>
    intro path ht hp
    have hp' : p.rewrite lex fuel t L path = p.rewrite lex fuel t L' path := by
      cases p with
      | numeric cfg => rfl
      | katakana cfg => exact h.katakanaLoop hL.endsRight _ _ _ (fun d hd => (ht.mem d hd).2.2)
    simp only [Sudachi.rewritePath, bind, Except.bind]
    rw [hp']
    cases hq : p.rewrite lex fuel t L' path with
    | error x => rfl
    | ok q =>
      dsimp only
      have hq1 : Sudachi.rewritePath lex fuel t L' [p] path = .ok q := by simp only [Sudachi.rewritePath, bind, Except.bind, hq]
      obtain ⟨h1, h2⟩ := rewritePath_keeps hL hq1 ht hp
      exact ih h1 h2

/-- Two clean lattices give the same outcome. -/
theorem tokenize_same {T : Tokenizer} (hp : T.PluginsOk) (hlex : T.lex.Ok) {L L' : Lattice} (hL : L.Clean) (hL' : L'.Clean)
    (text : PStr) (mode : Option Mode) : (T.tokenize L text mode).2 = (T.tokenize L' text mode).2 := by
  unfold Tokenizer.tokenize
  split
  · rfl
  · cases ht : T.buildInput text with
    | error x => rfl
    | ok t =>
      dsimp only
      obtain ⟨bd, b1, b2, _, B, _⟩ := buildInput_built hp ht
      obtain ⟨h1, h2⟩ := (hL.same hL' t.bytes.length).buildLattice (conn := T.conn) B hlex (plugins := T.oov)
      cases hb : buildLattice T.conn T.lex T.oov t L with
      | mk L1 r1 =>
        cases hb' : buildLattice T.conn T.lex T.oov t L' with
        | mk L1' r1' =>
          rw [hb, hb'] at h1 h2
          dsimp only at h1 h2
          subst h1
          have s1 := (hL.sane T.conn T.lex).buildLattice B hlex hb
          have s1' := (hL'.sane T.conn T.lex).buildLattice B hlex hb'
          cases r1 with
          | error x => rfl
          | ok u =>
            dsimp only
            have hbp : T.bestPath t L1 = T.bestPath t L1' := by
              unfold Tokenizer.bestPath
              have : L1.getBestPath = L1'.getBestPath := by unfold Lattice.getBestPath; rw [h2.eos]
              rw [this]
              cases hp0 : L1'.getBestPath with
              | error x => rfl
              | ok path0 =>
                obtain ⟨g1, g2⟩ := (hL'.sane T.conn T.lex).bestPath B hlex hb' hp0
                exact h2.rewritePath s1'.1 g1 (fun d hd => (g2 d hd).plain)
            rw [hbp]
            cases T.bestPath t L1' with
            | error x => rfl
            | ok path =>
              dsimp only
              obtain ⟨L2, hc, _⟩ := s1.1.clear
              obtain ⟨L2', hc', _⟩ := s1'.1.clear
              rw [hc, hc']
              dsimp only
              cases splitPath T.lex (mode.getD T.mode) path <;> rfl

/-- A build from a clean lattice leaves the positions past the end of the text empty. -/
theorem build_beyond {lex : Lex} (B : Built bd catOf t) (hlex : lex.Ok) {plugins : List OovPlugin} {L L' : Lattice} {r : Res Unit}
    (hL : L.Clean) (hb : Sudachi.buildLattice conn lex plugins t L = (L', r)) :
    ∀ e ns, t.bytes.length < e → L'.endLists[e]? = some ns → ns = [] := by
  have S : Simulates conn t.bytes.length (Fits lex t.bytes.length) (fun L L' => L = L' ∧
      ∀ e ns, t.bytes.length < e → L.endLists[e]? = some ns → ns = []) := by
    constructor
    · rintro L _ d ⟨rfl, h⟩ hd
      refine ⟨rfl, rfl, ?_⟩
      have happ : ∀ x, ∀ e ns, t.bytes.length < e → (L.append d.end_ x).endLists[e]? = some ns → ns = [] := by
        intro x e ns he hns
        simp only [Lattice.append] at hns
        rw [List.getElem?_modify] at hns
        have hne : d.end_ ≠ e := by have := hd.2.1; omega
        cases hx : L.endLists[e]? with
        | none => rw [hx] at hns; cases hns
        | some a =>
          rw [hx] at hns
          simp only [Option.map_eq_map, Option.map_some] at hns
          rw [if_neg hne] at hns
          injection hns with hns
          rw [← hns]
          exact h e a he hx
      unfold Lattice.insert
      split
      · exact h
      · split
        · exact happ _
        · split <;> exact happ _
    · rintro L _ i ⟨rfl, _⟩ _; rfl
  have hr : ∀ e ns, t.bytes.length < e → (L.resize t.bytes.length).endLists[e]? = some ns → ns = [] := by
    intro e ns he hns
    unfold Lattice.resize Lattice.expand at hns
    dsimp only at hns
    split at hns
    · dsimp only at hns
      rcases Nat.lt_or_ge e L.endLists.length with he' | he'
      · rw [List.getElem?_append_left he'] at hns; exact hL.empty e ns (by omega) hns
      · rw [List.getElem?_append_right he', List.getElem?_replicate] at hns
        split at hns
        · injection hns with hns; exact hns.symm
        · cases hns
    · exact hL.empty e ns (by omega) hns
  obtain ⟨_, _, g⟩ := S.buildLoop (lex := lex) (plugins := plugins) (t := t)
    (is := List.range t.bytes.length) (fun i hi => ⟨List.mem_range.mp hi, fun hbow => B.goodAt hlex plugins hbow⟩) ⟨rfl, hr⟩
  unfold Sudachi.buildLattice at hb
  generalize buildLoop conn lex plugins t (List.range t.bytes.length) (L.resize t.bytes.length) = x at *
  obtain ⟨x1, x2⟩ := x
  dsimp only at g hb
  cases x2 with
  | error e => cases hb; exact g
  | ok u =>
    obtain ⟨f1, f2, f3⟩ := connectEos_frame hb
    rw [f1]
    exact g

/-- A successful call leaves a clean lattice clean. -/
theorem tokenize_clean {T : Tokenizer} (hp : T.PluginsOk) (hlex : T.lex.Ok) {L L' : Lattice} (hL : L.Clean)
    {text : PStr} {mode : Option Mode} {ml : MorphemeList} (h : T.tokenize L text mode = (L', .ok ml)) : L'.Clean := by
  rcases tokenize_run hp h with ⟨_, rfl, _⟩ | ⟨_, ⟨bd, t, L1, path0, path, path', _, _, _, _, B, hb, _, _, hc, _⟩⟩
  · exact hL
  · have s1 := (hL.sane T.conn T.lex).buildLattice B hlex hb
    obtain ⟨L2, hc', s2, z1, z2, z3, z4, z5, z6⟩ := s1.1.clear
    rw [hc] at hc'
    cases hc'
    refine ⟨s2.bos, ?_, s2.room, s2.size⟩
    intro e ns he hns
    rcases Nat.lt_or_ge L1.size e with h1 | h1
    · rw [z6 e (.inr h1)] at hns
      exact build_beyond B hlex hL hb e ns (by rw [← s1.2.1]; exact h1) hns
    · rw [z5 e he h1] at hns
      injection hns with hns
      exact hns.symm

theorem init_clean : Lattice.init.Clean := by
  refine ⟨rfl, ?_, by decide, by decide⟩
  intro e ns he hns
  cases e with
  | zero => omega
  | succ e => simp [Lattice.init] at hns

theorem Tokenizer.CleanHistory.clean {T : Tokenizer} (hp : T.PluginsOk) (hlex : T.lex.Ok) {L : Lattice} (h : T.CleanHistory L) : L.Clean := by
  induction h with
  | fresh => exact init_clean
  | call text mode _ heq ih => exact tokenize_clean hp hlex ih heq

end Sudachi
