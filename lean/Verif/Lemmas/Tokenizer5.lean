import Verif.Lemmas.Tokenizer4
namespace Sudachi

/-! ### Every node of a result -/

/-- The nodes of any result. -/
structure Sound (d : NodeData) : Prop where
  order : d.begin_ ≤ d.end_
  defined : d.defined = true
  oov : d.oov = true → d.extra.isSome = true

theorem Plain.sound {lex : Lex} {d : NodeData} (h : Plain lex d) (hlt : d.begin_ < d.end_) : Sound d := by
  obtain ⟨h1, ⟨h2, _⟩ | ⟨w, h2, _⟩⟩ := h
  · exact ⟨Nat.le_of_lt hlt, h1, fun h => by rw [h2] at h; cases h⟩
  · exact ⟨Nat.le_of_lt hlt, h1, fun _ => by rw [h2]; rfl⟩

theorem Covers.order {a b : Nat} {p : List NodeData} (h : Covers a b p) : ∀ d ∈ p, d.begin_ ≤ d.end_ := by
  induction p generalizing a with
  | nil => intro d hd; cases hd
  | cons x xs ih =>
    intro d hd
    rcases List.mem_cons.mp hd with rfl | hd
    · exact h.2.1
    · exact ih h.2.2 d hd

theorem splitNode_sound {lex : Lex} {mode : Mode} {d : NodeData} {nodes : List NodeData} (hd : Sound d)
    (h : splitNode lex mode d = .ok nodes) : nodes ≠ [] ∧ ∀ x ∈ nodes, Sound x := by
  unfold splitNode at h
  simp only [bind, Except.bind, pure, Except.pure] at h
  split at h
  · cases h
  · split at h
    · cases h
      exact ⟨by simp, fun x hx => by rw [List.mem_singleton.mp hx]; exact hd⟩
    · rename_i hlen
      obtain ⟨infos, h1, h2, h3, h4⟩ := splitUnits_spec h
      refine ⟨?_, ?_⟩
      · intro hn
        rw [hn] at h3
        rw [← h3] at hlen
        simp at hlen
      · intro x hx
        obtain ⟨g1, g2, g3⟩ := h4 x hx
        exact ⟨h2.order x hx, g3, fun h => by rw [g1] at h; cases h⟩

theorem splitNodes_sound {lex : Lex} {mode : Mode} : ∀ {path nodes : List NodeData}, (∀ d ∈ path, Sound d) →
    splitNodes lex mode path = .ok nodes → (path ≠ [] → nodes ≠ []) ∧ ∀ x ∈ nodes, Sound x := by
  intro path
  induction path with
  | nil => intro nodes _ h; cases h; exact ⟨fun h => absurd rfl h, fun x hx => by cases hx⟩
  | cons d ds ih =>
    intro nodes hp h
    simp only [splitNodes, bind, Except.bind, pure, Except.pure] at h
    split at h
    · cases h
    · rename_i x hx
      split at h
      · cases h
      · rename_i y hy
        injection h with h
        subst h
        obtain ⟨h1, h2⟩ := splitNode_sound (hp d (by simp)) hx
        obtain ⟨_, h3⟩ := ih (fun d hd => hp d (by simp [hd])) hy
        refine ⟨fun _ hn => h1 (List.append_eq_nil_iff.mp hn).1, ?_⟩
        intro z hz
        rcases List.mem_append.mp hz with hz | hz
        · exact h2 z hz
        · exact h3 z hz

theorem Built.bytes_pos {bd : Builder} {catOf : Nat → CatSet} {t : InputText} (B : Built bd catOf t) (h : bd.modified ≠ []) :
    0 < t.bytes.length := by
  rw [B.blen]
  exact wpos_lt B.enc (a := 0) (List.length_pos_iff.mpr h) (Nat.le_refl _)

/-- What is known of any successful call on a non-empty text. -/
theorem run_spec {T : Tokenizer} (hlex : T.lex.Ok) {L L' : Lattice} (hL : Sane T.conn T.lex L) {text : PStr} {mode : Mode}
    {ml : MorphemeList} (h : Run T L text mode L' ml) : ∃ t path, T.buildInput text = .ok t ∧
      ValidMap t.offsets t.bytes.length t.original.length ∧ t.original = text ∧ ml.input = some t ∧
      Tiles 0 t.bytes.length path ∧ (∀ d ∈ path, Plain T.lex d) ∧ path ≠ [] ∧ splitPath T.lex mode path = .ok ml.path := by
  obtain ⟨bd, t, L1, path0, path, path', ht, hv, ho, hne, B, hb, hp0, hrw, hcl, hsp, rfl⟩ := h
  obtain ⟨h1, h2⟩ := run_path hlex hL B hb hp0 hrw
  refine ⟨t, path, ht, B.validOffsets hv, by rw [B.orig, ho], rfl, h1, h2, ?_, hsp⟩
  rintro rfl
  have : 0 = t.bytes.length := h1
  have := B.bytes_pos hne
  omega

theorem run_sound {T : Tokenizer} (hlex : T.lex.Ok) {L L' : Lattice} (hL : Sane T.conn T.lex L) {text : PStr} {mode : Mode}
    {ml : MorphemeList} (h : Run T L text mode L' ml) : ml.path ≠ [] ∧ ∀ d ∈ ml.path, Sound d := by
  obtain ⟨t, path, _, _, _, _, h1, h2, h3, h4⟩ := run_spec hlex hL h
  have hs : ∀ d ∈ path, Sound d := fun d hd => (h2 d hd).sound (h1.mem d hd).2.1
  unfold splitPath at h4
  split at h4
  · cases h4; exact ⟨h3, hs⟩
  · obtain ⟨g1, g2⟩ := splitNodes_sound hs h4
    exact ⟨g1 h3, g2⟩

/-- The bytes are covered in mode C, and in the other modes when the splits are consistent. -/
theorem run_covers {T : Tokenizer} (hlex : T.lex.Ok) {L L' : Lattice} (hL : Sane T.conn T.lex L) {text : PStr} {mode : Mode}
    {ml : MorphemeList} (hm : mode = .C ∨ T.lex.SplitsOk) (h : Run T L text mode L' ml) : ∃ t,
      ValidMap t.offsets t.bytes.length t.original.length ∧ t.original = text ∧ ml.input = some t ∧
      Covers 0 t.bytes.length ml.path := by
  obtain ⟨t, path, _, h0, h00, h000, h1, h2, h3, h4⟩ := run_spec hlex hL h
  refine ⟨t, h0, h00, h000, ?_⟩
  unfold splitPath at h4
  split at h4
  · cases h4; exact h1.covers
  · rename_i hne
    rcases hm with hm | hm
    · exact absurd hm hne
    · exact splitNodes_covers hm h2 h1 h4

theorem tokenize_partition {T : Tokenizer} (hp : T.PluginsOk) (hlex : T.lex.Ok) {L L' : Lattice} (hL : T.History L) {text : PStr}
    {mode : Option Mode} (hm : mode.getD T.mode = .C ∨ T.lex.SplitsOk) {ml : MorphemeList} (h : T.tokenize L text mode = (L', .ok ml)) :
    ∃ spans, ml.Shows spans ∧ Partition text 0 spans := by
  rcases tokenize_run hp h with ⟨rfl, _, rfl⟩ | ⟨_, hr⟩
  · exact ⟨[], ⟨rfl, fun i b e s h => by simp at h⟩, rfl⟩
  · obtain ⟨t, h1, rfl, h3, h4⟩ := run_covers hlex (hL.sane hp hlex) hm hr
    obtain ⟨spans, g1, g2, g3⟩ := covers_partition h1 ml.path 0 0 h4 h1.first
    obtain ⟨input, path⟩ := ml
    dsimp only at h3
    subst h3
    exact ⟨spans, shows_of_nodes t path spans g2 g3, g1⟩

theorem pyGet_path {ml : MorphemeList} {i : Nat} {d : NodeData} (h : pyGet ml.path i = .ok d) : d ∈ ml.path := pyGet_mem h

/-! ### Splitting twice -/

theorem iter_nodes (input : Option InputText) (nodes : List NodeData) :
    (MorphemeList.iter ⟨input, nodes⟩).map (MorphemeList.node ⟨input, nodes⟩) = nodes.map (fun d => (input, some d)) := by
  apply List.ext_getElem?
  intro i
  simp only [MorphemeList.iter, List.getElem?_map]
  rcases Nat.lt_or_ge i nodes.length with h | h
  · rw [List.getElem?_range h, List.getElem?_eq_getElem h]
    simp [MorphemeList.node, List.getElem?_eq_getElem h]
  · rw [List.getElem?_eq_none (by simpa using h), List.getElem?_eq_none h]; rfl

/-- The two computations, `a` giving nodes and `b` giving morphemes, have the same outcome. -/
def SameSplit (input : Option InputText) (a : Res (List NodeData)) (b : Res (List (MorphemeList × Nat))) : Prop :=
  match a, b with
  | .ok nodes, .ok ms => ms.map (fun m => m.1.node m.2) = nodes.map (fun d => (input, some d))
  | .error x, .error y => x = y
  | _, _ => False

theorem getItem_nat {ml : MorphemeList} {i : Nat} {d : NodeData} (h : ml.path[i]? = some d) : ml.getItem (i : Int) = .ok i := by
  have hlt : i < ml.path.length := by
    rcases Nat.lt_or_ge i ml.path.length with h' | h'
    · exact h'
    · rw [List.getElem?_eq_none h'] at h; cases h
  unfold MorphemeList.getItem
  rw [if_neg (by omega), if_neg (by omega)]
  simp

theorem split_same {lex : Lex} {ml : MorphemeList} {mode : Mode} (hm : mode ≠ .C) {i : Nat} {d : NodeData} (h : ml.path[i]? = some d) :
    SameSplit ml.input (splitNode lex mode d) (ml.split lex mode i) := by
  have hself : SameSplit ml.input (.ok [d]) (Except.ok [(ml, i)]) := by
    simp only [SameSplit, List.map_cons, List.map_nil, MorphemeList.node, h]
  unfold splitNode MorphemeList.split MorphemeList.getWordInfo
  simp only [bind, Except.bind, pure, Except.pure, pyGet, h, getItem_nat h]
  cases nodeWordInfo lex d with
  | error x => rfl
  | ok wi =>
    dsimp only
    have key : ∀ wids : List Int, SameSplit ml.input (if wids.length ≤ 1 then .ok [d] else splitUnits lex d.begin_ wids)
        (if wids.length = 0 ∨ wids.length = 1 then Except.ok [(ml, i)] else
          (splitUnits lex d.begin_ wids).bind
            (fun nodes => .ok ((MorphemeList.iter ⟨ml.input, nodes⟩).map (fun i => (⟨ml.input, nodes⟩, i))))) := by
      intro wids
      by_cases hl : wids.length ≤ 1
      · rw [if_pos hl, if_pos (by omega)]; exact hself
      · rw [if_neg hl, if_neg (by omega)]
        cases splitUnits lex d.begin_ wids with
        | error x => rfl
        | ok nodes =>
          simp only [SameSplit, Except.bind, List.map_map]
          exact iter_nodes ml.input nodes
    cases mode with
    | C => exact absurd rfl hm
    | A => simp only [unitsOf, if_true]; exact key wi.aUnitSplit
    | B => simp only [unitsOf, if_neg (show Mode.B ≠ Mode.A by decide)]; exact key wi.bUnitSplit

theorem splitAll_same {lex : Lex} {ml : MorphemeList} {mode : Mode} (hm : mode ≠ .C) : ∀ (m k : Nat), k + m = ml.path.length →
    SameSplit ml.input (splitNodes lex mode (ml.path.drop k)) (ml.splitAll lex mode (List.range' k m)) := by
  intro m
  induction m with
  | zero =>
    intro k hk
    rw [List.drop_eq_nil_of_le (by omega)]
    rfl
  | succ m ih =>
    intro k hk
    have hlt : k < ml.path.length := by omega
    rw [List.drop_eq_getElem_cons hlt, List.range'_succ]
    simp only [splitNodes, MorphemeList.splitAll, bind, Except.bind, pure, Except.pure]
    have h1 := split_same (lex := lex) (ml := ml) (mode := mode) hm (List.getElem?_eq_getElem hlt)
    have h2 := ih (k + 1) (by omega)
    generalize splitNode lex mode ml.path[k] = a at h1 ⊢
    generalize ml.split lex mode k = b at h1 ⊢
    generalize splitNodes lex mode (ml.path.drop (k + 1)) = a' at h2 ⊢
    generalize ml.splitAll lex mode (List.range' (k + 1) m) = b' at h2 ⊢
    cases a <;> cases b <;> try (exact h1.elim)
    · exact h1
    · cases a' <;> cases b' <;> try (exact h2.elim)
      · exact h2
      · dsimp only [SameSplit] at h1 h2 ⊢
        rw [List.map_append, List.map_append, h1, h2]

/-- In mode C each morpheme is its own split. -/
theorem splitAll_C {lex : Lex} {ml : MorphemeList} : ∀ (m k : Nat), k + m = ml.path.length →
    ∀ ms, ml.splitAll lex .C (List.range' k m) = .ok ms → ms.map (fun m => m.1.node m.2) = (List.range' k m).map ml.node := by
  intro m
  induction m with
  | zero => intro k _ ms h; cases h; rfl
  | succ m ih =>
    intro k hk ms h
    have hlt : k < ml.path.length := by omega
    rw [List.range'_succ] at h ⊢
    simp only [MorphemeList.splitAll, MorphemeList.split, getItem_nat (List.getElem?_eq_getElem hlt), bind, Except.bind, pure, Except.pure] at h
    split at h
    · cases h
    · rename_i a ha
      split at h
      · cases h
      · rename_i b hb
        injection h with h
        subst h
        split at ha
        · cases ha
        · injection ha with ha
          subst ha
          rw [List.map_append, ih (k + 1) (by omega) b hb]
          rfl

/-- The call in another mode differs only in the last step. -/
theorem tokenize_modes {T : Tokenizer} (L : Lattice) (text : PStr) (m : Mode) :
    (T.tokenize L text (some m)).1 = (T.tokenize L text (some .C)).1 ∧
    (T.tokenize L text (some m)).2 = (T.tokenize L text (some .C)).2.bind (fun ml => (splitPath T.lex m ml.path).map (fun p => ⟨ml.input, p⟩)) := by
  unfold Tokenizer.tokenize
  by_cases h : text.isEmpty
  · rw [if_pos h, if_pos h]
    refine ⟨rfl, ?_⟩
    cases m <;> rfl
  · rw [if_neg h, if_neg h]
    cases T.buildInput text with
    | error x => exact ⟨rfl, rfl⟩
    | ok t =>
      dsimp only
      generalize buildLattice T.conn T.lex T.oov t L = x
      obtain ⟨L1, r1⟩ := x
      cases r1 with
      | error x => exact ⟨rfl, rfl⟩
      | ok u =>
        dsimp only
        cases T.bestPath t L1 with
        | error x => exact ⟨rfl, rfl⟩
        | ok path =>
          dsimp only
          generalize L1.clear = y
          obtain ⟨L2, r2⟩ := y
          cases r2 with
          | error x => exact ⟨rfl, rfl⟩
          | ok u =>
            dsimp only [Option.getD]
            have hC : splitPath T.lex .C path = .ok path := rfl
            rw [hC]
            dsimp only [Except.bind]
            cases splitPath T.lex m path with
            | error x => exact ⟨rfl, rfl⟩
            | ok p => exact ⟨rfl, rfl⟩

end Sudachi
