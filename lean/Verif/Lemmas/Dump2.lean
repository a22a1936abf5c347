/-
The dump of a call of `tokenize`.
-/
import Verif.Lemmas.Dump
namespace Sudachi

/-! ### The dump of two lattices that agree on the positions of the text -/

theorem SameUpTo.dumpNodes {n : Nat} {L L' : Lattice} (h : SameUpTo n L L') {conn : Conn} {g : Grammar} {lex : Lex} :
    ∀ {ns : List LNode} {k : Nat}, (∀ x ∈ ns, x.data.begin_ ≤ n) → Sudachi.dumpNodes conn g lex L k ns = Sudachi.dumpNodes conn g lex L' k ns
  | [], k, _ => rfl
  | x :: ns, k, hb => by
    have e : dumpNode conn g lex L (k + 1) x.data = dumpNode conn g lex L' (k + 1) x.data := by
      unfold dumpNode pyGet
      rw [h.lists _ (hb x (by simp))]
    unfold Sudachi.dumpNodes
    rw [e, h.dumpNodes (fun y hy => hb y (by simp [hy]))]

theorem SameUpTo.dumpEnds {n : Nat} {L L' : Lattice} (h : SameUpTo n L L') {conn : Conn} {g : Grammar} {lex : Lex}
    (hb : ∀ e ns, e ≤ n → L.endLists[e]? = some ns → ∀ x ∈ ns, x.data.begin_ ≤ n) :
    ∀ {e k : Nat}, e ≤ n + 1 → Sudachi.dumpEnds conn g lex L e k = Sudachi.dumpEnds conn g lex L' e k
  | 0, k, _ => rfl
  | e + 1, k, he => by
    unfold Sudachi.dumpEnds
    have e1 : pyGet L.endLists e = pyGet L'.endLists e := by unfold pyGet; rw [h.lists e (by omega)]
    rw [← e1]
    cases hp : pyGet L.endLists e with
    | error x => rfl
    | ok ns =>
      have hns : L.endLists[e]? = some ns := by
        unfold pyGet at hp
        split at hp
        · rename_i h'; cases hp; exact h'
        · cases hp
      dsimp only
      rw [h.dumpNodes (hb e ns (by omega) hns), h.dumpEnds hb (by omega : e ≤ n + 1)]

theorem SameUpTo.dump {n : Nat} {L L' : Lattice} (h : SameUpTo n L L') {conn : Conn} {g : Grammar} {lex : Lex} (hs : L.size = n)
    (hs' : L'.size = n) (he : ∀ x, L.eos = some x → x.data.begin_ ≤ n)
    (hb : ∀ e ns, e ≤ n → L.endLists[e]? = some ns → ∀ x ∈ ns, x.data.begin_ ≤ n) : L.dump conn g lex = L'.dump conn g lex := by
  unfold Lattice.dump
  rw [← h.eos, hs, hs']
  cases hx : L.eos with
  | none => rfl
  | some x =>
    dsimp only
    rw [h.dumpNodes (ns := [x]) (fun y hy => by rw [List.mem_singleton.mp hy]; exact he x hx), h.dumpEnds hb (Nat.le_refl _)]

variable {bd : Builder} {catOf : Nat → CatSet} {t : InputText}

/-- The lattice of a text. -/
structure LatticeFacts (lex : Lex) (plugins : List OovPlugin) (bd : Builder) (t : InputText) (L : Lattice) : Prop where
  size : L.size = t.bytes.length
  room : L.size < L.endLists.length
  eos : ∃ x, L.eos = some x ∧ x.data = { NodeData.blank with begin_ := t.bytes.length, end_ := t.bytes.length }
  nodes : ∀ e ns, L.endLists[e]? = some ns → ∀ x ∈ ns, (e = 0 ∧ x.data.rightId = 0 ∧ x = .bos x.data) ∨
    (x.data.end_ = e ∧ x.data.begin_ < e ∧ Inserted lex plugins t bd.modified x.data)

theorem lattice_facts {conn : Conn} {lex : Lex} (hlex : lex.Ok) {plugins : List OovPlugin} (B : Built bd catOf t) {L L' : Lattice}
    (hL : L.Clean) (h : buildLattice conn lex plugins t L = (L', .ok ())) : LatticeFacts lex plugins bd t L' := by
  obtain ⟨L1, h1, h2⟩ := buildLattice_ok h
  obtain ⟨hch, heos, hs, hc, hr, _⟩ := buildLoop_spec B hlex hL h1
  obtain ⟨f1, f2, f3⟩ := connectEos_frame h2
  refine ⟨by rw [f2]; exact hs, by rw [f1, f2]; omega, ?_, ?_⟩
  · unfold Lattice.connectEos at h2
    rw [heos] at h2
    dsimp only at h2
    split at h2
    · cases h2
    · split at h2
      · rename_i prevs _ x hx
        injection h2 with h2 _
        subst h2
        refine ⟨x, rfl, ?_⟩
        unfold connectNode at hx
        split at hx
        · cases hx
        · cases hx; rfl
        · cases hx; rfl
      · cases h2
  · rw [f1]
    intro e ns hns x hx
    have := hch e ns x hns hx
    cases x with
    | bos d => exact .inl ⟨this.1, this.2, rfl⟩
    | lone d _ => exact .inr this
    | link d _ _ => exact .inr ⟨this.1, this.2.1, this.2.2.1⟩

theorem build_dump_same {conn : Conn} {g : Grammar} {lex : Lex} (hlex : lex.Ok) {plugins : List OovPlugin} (B : Built bd catOf t) {L L' L1 : Lattice}
    (hL : L.Clean) (hL' : L'.Clean) (h : buildLattice conn lex plugins t L = (L1, .ok ())) :
    ∃ L1', buildLattice conn lex plugins t L' = (L1', .ok ()) ∧ L1'.dump conn g lex = L1.dump conn g lex ∧
      L1'.getBestPath = L1.getBestPath := by
  obtain ⟨h1, h2⟩ := (hL.same hL' t.bytes.length).buildLattice (conn := conn) B hlex (plugins := plugins)
  cases hb' : buildLattice conn lex plugins t L' with
  | mk L1' r1' =>
    rw [h, hb'] at h1 h2
    dsimp only at h1 h2
    subst h1
    have F := lattice_facts hlex B hL h
    have F' := lattice_facts hlex B hL' hb'
    refine ⟨L1', rfl, (h2.dump F.size F'.size ?_ ?_).symm, by unfold Lattice.getBestPath; rw [h2.eos]⟩
    · intro x hx
      obtain ⟨y, hy, hd⟩ := F.eos
      rw [hx] at hy
      cases hy
      rw [hd]
      exact Nat.le_refl _
    · intro e ns he hns x hx
      rcases F.nodes e ns hns x hx with ⟨h1, _, h3⟩ | ⟨_, h3, _⟩
      · have hc := (hL.sane conn lex).buildLattice B hlex h
        have := hc.1.bos
        rw [h1] at hns
        rw [hns] at this
        cases this
        rw [List.mem_singleton.mp hx]
        exact Nat.zero_le _
      · omega

/-! ### The call -/

/-- The parts of a call with a dump. -/
structure DumpParts (T : Tokenizer) (g : Grammar) (L : Lattice) (text : PStr) (mode : Mode) (dump : List PStr) (L' : Lattice) (ml : MorphemeList) :
    Prop where
  parts : ∃ t L1 path0 path path' o1 o2 o3, T.buildInput text = .ok t ∧ buildLattice T.conn T.lex T.oov t L = (L1, .ok ()) ∧
    L1.dump T.conn g T.lex = (o1, .ok ()) ∧ L1.getBestPath = .ok path0 ∧ dumpPath T.lex 0 path0 = (o2, .ok ()) ∧
    rewritePath T.lex T.fuel t L1 T.pathPlugins path0 = .ok path ∧ L1.clear = (L', .ok ()) ∧ splitPath T.lex mode path = .ok path' ∧
    dumpPath T.lex 0 path' = (o3, .ok ()) ∧ ml = ⟨some t, path'⟩ ∧
    dump = [inputTitle, t.modified, latticeTitle] ++ o1 ++ beforeTitle :: o2 ++ afterTitle :: o3 ++ [endTitle]

theorem tokenizeDump_ok {T : Tokenizer} {g : Grammar} {L L' : Lattice} {text : PStr} {mode : Option Mode} {dump : List PStr}
    {ml : MorphemeList} : T.tokenizeDump g L text mode = (dump, L', .ok ml) ↔
      (text = [] ∧ dump = [] ∧ L' = L ∧ ml = .empty) ∨ (text ≠ [] ∧ DumpParts T g L text (mode.getD T.mode) dump L' ml) := by
  cases text with
  | nil =>
    constructor
    · intro h; cases h; exact .inl ⟨rfl, rfl, rfl, rfl⟩
    · rintro (⟨_, rfl, rfl, rfl⟩ | ⟨h, _⟩)
      · rfl
      · exact absurd rfl h
  | cons c cs =>
    constructor
    · intro h
      refine .inr ⟨by simp, ?_⟩
      unfold Tokenizer.tokenizeDump at h
      rw [if_neg (by simp)] at h
      split at h
      · cases h
      · rename_i t ht
        split at h
        · cases h
        · rename_i L1 hb
          split at h
          · cases h
          · rename_i o1 hd
            split at h
            · cases h
            · rename_i path0 hp0
              split at h
              · cases h
              · rename_i o2 hd2
                split at h
                · cases h
                · rename_i path hrw
                  split at h
                  · cases h
                  · rename_i L2 hcl
                    split at h
                    · cases h
                    · rename_i path' hsp
                      split at h
                      · cases h
                      · rename_i o3 hd3
                        cases h
                        exact ⟨t, L1, path0, path, path', o1, o2, o3, ht, hb, hd, hp0, hd2, hrw, hcl, hsp, hd3, rfl, rfl⟩
    · rintro (⟨h, _⟩ | ⟨_, ⟨t, L1, path0, path, path', o1, o2, o3, ht, hb, hd, hp0, hd2, hrw, hcl, hsp, hd3, rfl, rfl⟩⟩)
      · cases h
      · unfold Tokenizer.tokenizeDump
        rw [if_neg (by simp), ht]
        dsimp only
        rw [hb]
        dsimp only
        rw [hd]
        dsimp only
        rw [hp0]
        dsimp only
        rw [hd2]
        dsimp only
        rw [hrw]
        dsimp only
        rw [hcl]
        dsimp only
        rw [hsp]
        dsimp only
        rw [hd3]

theorem DumpParts.tokenize {T : Tokenizer} {g : Grammar} {L L' : Lattice} {text : PStr} {mode : Option Mode} {dump : List PStr}
    {ml : MorphemeList} (hne : text ≠ []) (h : DumpParts T g L text (mode.getD T.mode) dump L' ml) : T.tokenize L text mode = (L', .ok ml) := by
  obtain ⟨t, L1, path0, path, path', o1, o2, o3, ht, hb, hd, hp0, hd2, hrw, hcl, hsp, hd3, rfl, rfl⟩ := h
  unfold Tokenizer.tokenize
  rw [if_neg (by cases text with | nil => exact absurd rfl hne | cons c cs => simp), ht]
  dsimp only
  rw [hb]
  dsimp only
  have : T.bestPath t L1 = .ok path := by
    unfold Tokenizer.bestPath
    rw [hp0]
    exact hrw
  rw [this]
  dsimp only
  rw [hcl]
  dsimp only
  rw [hsp]

end Sudachi
