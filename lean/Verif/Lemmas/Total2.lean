import Verif.Lemmas.Total
namespace Sudachi
open Lattice

variable {bd : Builder} {catOf : Nat → CatSet} {t : InputText} {conn : Conn} {left right : Int → Prop}

/-! ### Inserting never fails -/

/-- The lattice has room for `n` bytes, and everything in it may be followed. -/
structure Roomy (right : Int → Prop) (n : Nat) (L : Lattice) : Prop where
  room : n < L.endLists.length
  ids : ∀ (e : Nat) (ns : List LNode) (x : LNode), L.endLists[e]? = some ns → x ∈ ns → right x.data.rightId

theorem connectLoop_ok {leftId : Int} : ∀ (ls : List LNode) (total : Int) (best : Option LNode),
    (∀ x ∈ ls, ∃ c, conn leftId x.data.rightId = .ok c) → ∃ r, connectLoop conn leftId ls total best = .ok r := by
  intro ls
  induction ls with
  | nil => intro total best _; exact ⟨_, rfl⟩
  | cons l ls ih =>
    intro total best h
    have ih' := fun total best => ih total best (fun x hx => h x (by simp [hx]))
    unfold connectLoop
    obtain ⟨c, hc⟩ := h l (by simp)
    rw [hc]
    dsimp only
    split
    · split
      · exact ih' _ _
      · split
        · exact ih' _ _
        · exact ih' _ _
    · exact ih' _ _

theorem connectNode_ok {d : NodeData} {ls : List LNode} (h : ∀ x ∈ ls, ∃ c, conn d.leftId x.data.rightId = .ok c) :
    ∃ x, connectNode conn d ls = .ok x ∧ x.data = d := by
  obtain ⟨⟨total, best⟩, hr⟩ := connectLoop_ok ls intMax none h
  unfold connectNode
  rw [hr]
  cases best with
  | none => exact ⟨_, rfl, rfl⟩
  | some p => exact ⟨_, rfl, rfl⟩

theorem Joinable.connected (hj : Joinable conn left right) (l r : Int) (hl : left l) (hr : right r) : ∃ c, conn l r = .ok c :=
  let ⟨c, hc, _⟩ := hj.link l r hl hr
  ⟨c, hc⟩

theorem Roomy.insert {n : Nat} {L : Lattice} (hL : Roomy right n L) (hj : ∀ l r, left l → right r → ∃ c, conn l r = .ok c) {d : NodeData}
    (hb : d.begin_ ≤ n) (he : d.end_ ≤ n) (hl : left d.leftId) (hr : right d.rightId) :
    ∃ L', L.insert conn d = (L', .ok ()) ∧ Roomy right n L' := by
  have hroom := hL.room
  have h1 := List.getElem?_eq_getElem (show d.end_ < L.endLists.length by omega)
  have h2 := List.getElem?_eq_getElem (show d.begin_ < L.endLists.length by omega)
  obtain ⟨x, hx, hxd⟩ := connectNode_ok (conn := conn) (d := d) (ls := L.endLists[d.begin_]) (fun y hy => by
    exact hj d.leftId y.data.rightId hl (hL.ids _ _ _ h2 hy))
  refine ⟨L.append d.end_ x, ?_, ?_, ?_⟩
  · unfold Lattice.insert
    rw [h1, h2]
    dsimp only
    rw [hx]
  · simp only [Lattice.append, List.length_modify]; exact hroom
  · intro e ns y hns hy
    simp only [Lattice.append, List.getElem?_modify] at hns
    cases hle : L.endLists[e]? with
    | none => rw [hle] at hns; cases hns
    | some old =>
      rw [hle] at hns
      simp only [Option.map_eq_map, Option.map_some, Option.some.injEq] at hns
      split at hns
      · subst hns
        rcases List.mem_append.mp hy with hy | hy
        · exact hL.ids _ _ _ hle hy
        · rw [List.mem_singleton.mp hy, hxd]; exact hr
      · subst hns
        exact hL.ids _ _ _ hle hy

theorem Roomy.insertAll {n : Nat} (hj : ∀ l r, left l → right r → ∃ c, conn l r = .ok c) : ∀ {ds : List NodeData} {L : Lattice}, Roomy right n L →
    (∀ d ∈ ds, d.begin_ ≤ n ∧ d.end_ ≤ n ∧ left d.leftId ∧ right d.rightId) →
    ∃ L', Sudachi.insertAll conn L ds = (L', .ok ()) ∧ Roomy right n L' := by
  intro ds
  induction ds with
  | nil => intro L hL _; exact ⟨L, rfl, hL⟩
  | cons d ds ih =>
    intro L hL hd
    obtain ⟨h1, h2, h3, h4⟩ := hd d (by simp)
    obtain ⟨L1, e1, e2⟩ := hL.insert hj h1 h2 h3 h4
    obtain ⟨L2, e3, e4⟩ := ih e2 (fun x hx => hd x (by simp [hx]))
    refine ⟨L2, ?_, e4⟩
    unfold Sudachi.insertAll
    rw [e1]
    exact e3

theorem insertAll_split {a b : List NodeData} {L L' : Lattice} (h : insertAll conn L (a ++ b) = (L', .ok ())) :
    ∃ L1, insertAll conn L a = (L1, .ok ()) ∧ insertAll conn L1 b = (L', .ok ()) := by
  rw [insertAll_append] at h
  split at h
  · rename_i L1 h1
    exact ⟨L1, h1, h⟩
  · cases h

/-! ### Building one position from its nodes -/

theorem wordLoop_of {lex : Lex} {i : Nat} {ws : List (Nat × Nat)} : ∀ {L L' : Lattice} {has : Bool} {ds : List NodeData},
    wordNodes lex t i ws = .ok ds → insertAll conn L ds = (L', .ok ()) →
    wordLoop conn lex t i ws L has = (L', .ok (has || !ds.isEmpty)) := by
  induction ws with
  | nil => intro L L' has ds h1 h2; cases h1; cases h2; simp [wordLoop]
  | cons we rest ih =>
    obtain ⟨w, e⟩ := we
    intro L L' has ds h1 h2
    unfold wordNodes at h1
    unfold wordLoop
    split at h1
    · cases h1
    · rename_i hs
      rw [hs]
      exact ih h1 h2
    · rename_i hs
      rw [hs]
      dsimp only
      split at h1
      · cases h1
      rename_i d hd
      rw [hd]
      dsimp only
      split at h1
      · cases h1
      rename_i ds' hds
      cases h1
      obtain ⟨L1, e1, e2⟩ := insertAll_split (a := [d]) (b := ds') h2
      have e1' : L.insert conn d = (L1, .ok ()) := by
        unfold insertAll at e1
        split at e1
        · rename_i L2 h
          unfold insertAll at e1
          cases e1
          exact h
        · cases e1
      rw [e1']
      dsimp only
      rw [ih hds e2]
      simp

theorem oovLoop_of {i : Nat} {ps : List OovPlugin} : ∀ {L L' : Lattice} {has : Bool} {ds : List NodeData},
    oovNodes t i ps has = .ok ds → insertAll conn L ds = (L', .ok ()) →
    oovLoop conn t i ps L has = (L', .ok (has || !ds.isEmpty)) := by
  induction ps with
  | nil => intro L L' has ds h1 h2; cases h1; cases h2; simp [oovLoop]
  | cons p ps ih =>
    intro L L' has ds h1 h2
    unfold oovNodes at h1
    unfold oovLoop
    split at h1
    · cases h1
    rename_i ns hns
    rw [hns]
    dsimp only
    split at h1
    · cases h1
    rename_i ms hms
    cases h1
    obtain ⟨L1, e1, e2⟩ := insertAll_split h2
    rw [e1]
    dsimp only
    rw [ih hms e2]
    cases ns <;> simp

theorem oovPart_of {plugins : List OovPlugin} {i : Nat} {L L' : Lattice} {has : Bool} {ds : List NodeData}
    (h1 : oovPartNodes plugins t i has = .ok ds) (h2 : insertAll conn L ds = (L', .ok ())) :
    oovPart conn plugins t i L has = (L', .ok (has || !ds.isEmpty)) := by
  unfold oovPartNodes at h1
  unfold oovPart
  split at h1
  · cases h1
  rename_i cats hc
  rw [hc]
  dsimp only
  split at h1
  · rename_i hm
    cases h1; cases h2
    rw [if_pos hm]; simp
  · rename_i hm
    rw [if_neg hm]
    exact oovLoop_of h1 h2

theorem defaultPart_of {plugins : List OovPlugin} {i : Nat} {L L' : Lattice} {has : Bool} {ds : List NodeData}
    (h1 : defaultNodes plugins t i has = .ok ds) (h2 : insertAll conn L ds = (L', .ok ())) :
    defaultPart conn plugins t i L has = (L', .ok (has || !ds.isEmpty)) := by
  unfold defaultNodes at h1
  unfold defaultPart
  split at h1
  · rename_i hh
    cases h1; cases h2
    rw [if_pos hh, hh]; simp
  · rename_i hh
    rw [if_neg hh]
    split at h1
    · cases h1
    rename_i p hp
    rw [hp]
    dsimp only
    have hh' : has = false := by simpa using hh
    rw [hh']
    refine oovLoop_of (ps := [p]) ?_ h2
    unfold oovNodes
    rw [h1]
    simp [oovNodes]

theorem buildPos_of {lex : Lex} {plugins : List OovPlugin} {i : Nat} {L L' : Lattice} {ds : List NodeData}
    (h1 : posNodes lex plugins t i = .ok ds) (h2 : insertAll conn L ds = (L', .ok ())) :
    buildPos conn lex plugins t L i = (L', .ok ()) := by
  have hne : ds ≠ [] := by
    unfold posNodes at h1
    repeat' split at h1
    all_goals first
      | cases h1; done
      | (rename_i hh
         cases h1
         intro he
         simp only [List.append_eq_nil_iff] at he
         apply hh
         simp [he.1, he.2.1, he.2.2])
  obtain ⟨ws, a, b, c, h3, h4, h5, h6, rfl⟩ := posNodes_parts h1
  obtain ⟨L1, e1, e2⟩ := insertAll_split h2
  obtain ⟨L2, e3, e4⟩ := insertAll_split e2
  unfold buildPos
  rw [h3]
  dsimp only
  rw [wordLoop_of h4 e1]
  simp only [Bool.false_or]
  rw [oovPart_of h5 e3]
  dsimp only
  rw [defaultPart_of h6 e4]
  have : (!a.isEmpty || !b.isEmpty || !c.isEmpty) = true := by
    cases a <;> cases b <;> cases c <;> simp at hne ⊢
  rw [this]

/-! ### The nodes at one position -/

/-- What is put in at position `i` of a text of `n` bytes. -/
structure GoodNode (left right : Int → Prop) (t : InputText) (i : Nat) (d : NodeData) : Prop where
  begins : d.begin_ = i
  lt : i < d.end_
  le : d.end_ ≤ t.bytes.length
  left : left d.leftId
  right : right d.rightId
  bow : d.end_ = t.bytes.length ∨ t.canBow d.end_ = .ok true

theorem canBow_of (B : Built bd catOf t) {k : Nat} (hk : k < bd.modified.length) (h : BowChar t.charCats k) :
    t.canBow (wpos bd.modified k) = .ok true := by
  have hi : wpos bd.modified k < t.bytes.length := by rw [B.blen]; exact wpos_lt B.enc hk (Nat.le_refl _)
  obtain ⟨b, h1, h2⟩ := B.canBow_spec hi
  rw [h1, h2.mpr ⟨k, hk, rfl, h⟩]

theorem skipEnd_ok (B : Built bd catOf t) (e : Nat) : ∃ b, skipEnd t e = .ok b ∧
    (b = false → t.bytes.length ≤ e ∨ t.canBow e = .ok true) := by
  unfold skipEnd
  split
  · rename_i he
    obtain ⟨b, h1, _⟩ := B.canBow_spec he
    rw [h1]
    refine ⟨!b, rfl, fun h => .inr ?_⟩
    cases b
    · cases h
    · rfl
  · exact ⟨false, rfl, fun _ => .inl (by omega)⟩

theorem wordNodes_ok (B : Built bd catOf t) {lex : Lex} {i : Nat} : ∀ {ws : List (Nat × Nat)},
    (∀ w e, (w, e) ∈ ws → w < 2 ^ 31 ∧ (∃ l r c, lex.params w = .ok (l, r, c) ∧ left l ∧ right r) ∧ i < e ∧ e ≤ t.bytes.length) →
    ∃ ds, wordNodes lex t i ws = .ok ds ∧ ∀ d ∈ ds, GoodNode left right t i d := by
  intro ws
  induction ws with
  | nil => intro _; exact ⟨[], rfl, fun d hd => by cases hd⟩
  | cons we rest ih =>
    obtain ⟨w, e⟩ := we
    intro h
    obtain ⟨ds, h1, h2⟩ := ih (fun w e hm => h w e (by simp [hm]))
    obtain ⟨hw, ⟨l, r, c, hp, hl, hr⟩, hlt, hle⟩ := h w e (by simp)
    obtain ⟨b, hb, hb'⟩ := skipEnd_ok B e
    unfold wordNodes
    rw [hb]
    cases b with
    | true => exact ⟨ds, h1, h2⟩
    | false =>
      have hn : wordNode lex i w e = .ok ⟨i, e, l, r, c, w, false, none, true⟩ := by
        unfold wordNode
        simp only [hp, bind, Except.bind, pure, Except.pure]
        rw [if_neg (by omega)]
      simp only [hn, h1]
      refine ⟨_, rfl, ?_⟩
      intro d hd
      rcases List.mem_cons.mp hd with rfl | hd
      · exact ⟨rfl, hlt, hle, hl, hr, (hb' rfl).elim (fun h => .inl (by show e = _; omega)) .inr⟩
      · exact h2 d hd

section
variable {T : Tokenizer}

theorem getOov_good (hT : T.Complete left right) (B : Built bd T.catOf t) {p : OovPlugin} (hp : p ∈ T.oov) {k : Nat}
    (hk : k < bd.modified.length) (has : Bool) :
    ∃ ns, p.getOov t (wpos bd.modified k) has = .ok ns ∧ ∀ d ∈ ns, GoodNode left right t (wpos bd.modified k) d := by
  obtain ⟨ns, h1⟩ := getOov_stores B hk (hT.oovStores p hp) has
  refine ⟨ns, h1, ?_⟩
  intro d hd
  obtain ⟨j, o, h2, h3, rfl, ho, hbow⟩ := oov_end B hT.single (fun c l hc => hT.prefixes c l (hc ▸ hp)) hk h1 d hd
  obtain ⟨hl, hr⟩ := hT.oovIds p hp o ho
  have hlt := wpos_lt B.enc h2 h3
  have he : (charsNode bd.modified k j o).end_ = wpos bd.modified j := by simp only [charsNode, oovNode]; omega
  refine ⟨rfl, by omega, by rw [he]; exact B.wpos_le h3, hl, hr, ?_⟩
  rw [he]
  by_cases hj : j = bd.modified.length
  · left; rw [hj, B.blen]
  · right
    exact canBow_of B (by omega) (hbow.resolve_left hj)

theorem oovNodes_good (hT : T.Complete left right) (B : Built bd T.catOf t) {k : Nat} (hk : k < bd.modified.length) :
    ∀ {ps : List OovPlugin} (_ : ∀ p ∈ ps, p ∈ T.oov) (has : Bool),
    ∃ ns, oovNodes t (wpos bd.modified k) ps has = .ok ns ∧ ∀ d ∈ ns, GoodNode left right t (wpos bd.modified k) d := by
  intro ps
  induction ps with
  | nil => intro _ has; exact ⟨[], rfl, fun d hd => by cases hd⟩
  | cons p ps ih =>
    intro hps has
    obtain ⟨ns, h1, h2⟩ := getOov_good hT B (hps p (by simp)) hk has
    obtain ⟨ms, h3, h4⟩ := ih (fun q hq => hps q (by simp [hq])) (has || !ns.isEmpty)
    unfold oovNodes
    simp only [h1, h3]
    refine ⟨_, rfl, ?_⟩
    intro d hd
    rcases List.mem_append.mp hd with hd | hd
    · exact h2 d hd
    · exact h4 d hd

theorem posNodes_good (hT : T.Complete left right) (B : Built bd T.catOf t) {i : Nat} (hbow : t.canBow i = .ok true) :
    ∃ ds, posNodes T.lex T.oov t i = .ok ds ∧ ds ≠ [] ∧ ∀ d ∈ ds, GoodNode left right t i d := by
  obtain ⟨k, hk, rfl, _⟩ := B.bow_char hbow
  have hi : wpos bd.modified k < t.bytes.length := by rw [B.blen]; exact wpos_lt B.enc hk (Nat.le_refl _)
  obtain ⟨ws, hws, hw⟩ := hT.answers.lookup t.bytes _ hi
  obtain ⟨a, ha, ha'⟩ := wordNodes_ok (left := left) (right := right) B (lex := T.lex) (i := wpos bd.modified k) (ws := ws) (fun w e hm => by
    obtain ⟨h1, h2⟩ := hw w e hm
    exact ⟨h1, h2, hT.lexOk.lookup_inside _ _ _ hi hws w e hm⟩)
  obtain ⟨b, hb, hb'⟩ : ∃ b, oovPartNodes T.oov t (wpos bd.modified k) (!a.isEmpty) = .ok b ∧ ∀ d ∈ b, GoodNode left right t (wpos bd.modified k) d := by
    unfold oovPartNodes
    rw [B.cats_at hk]
    dsimp only
    split
    · exact ⟨[], rfl, fun d hd => by cases hd⟩
    · exact oovNodes_good hT B hk (fun p hp => hp) _
  obtain ⟨o, ho⟩ := hT.simpleLast
  obtain ⟨c, hc, hc', hcn⟩ : ∃ c, defaultNodes T.oov t (wpos bd.modified k) (!a.isEmpty || !b.isEmpty) = .ok c ∧
      (∀ d ∈ c, GoodNode left right t (wpos bd.modified k) d) ∧ ((!a.isEmpty || !b.isEmpty) = false → c ≠ []) := by
    unfold defaultNodes
    split
    · rename_i h
      exact ⟨[], rfl, fun d hd => (by cases hd), fun h' => by rw [h'] at h; cases h⟩
    · rw [ho]
      dsimp only
      obtain ⟨ns, h1, h2⟩ := getOov_good hT B (List.mem_of_getLast? ho) hk false
      refine ⟨ns, h1, h2, fun _ hn => ?_⟩
      obtain ⟨j, _, _, _, _, h5⟩ := B.simple_spec hk o
      rw [(getOov_iff.mp h1).1, hn] at h5
      cases h5
  have hne : (a.isEmpty && b.isEmpty && c.isEmpty) = false := by
    cases a with
    | cons => rfl
    | nil =>
      cases b with
      | cons => rfl
      | nil =>
        cases c with
        | cons => rfl
        | nil => exact absurd rfl (hcn rfl)
  refine ⟨a ++ (b ++ c), ?_, ?_, ?_⟩
  · unfold posNodes
    simp only [hws, ha, hb, hc, hne]
    rfl
  · intro he
    simp only [List.append_eq_nil_iff] at he
    rw [he.1, he.2.1, he.2.2] at hne
    cases hne
  · intro d hd
    rcases List.mem_append.mp hd with hd | hd
    · exact ha' d hd
    · rcases List.mem_append.mp hd with hd | hd
      · exact hb' d hd
      · exact hc' d hd

/-! ### The loop -/

theorem buildLoop_ok (hT : T.Complete left right) (B : Built bd T.catOf t) : ∀ {is : List Nat} {L : Lattice},
    (∀ i ∈ is, i < t.bytes.length) → Roomy right t.bytes.length L →
    ∃ L', buildLoop T.conn T.lex T.oov t is L = (L', .ok ()) ∧ Roomy right t.bytes.length L' := by
  intro is
  induction is with
  | nil => intro L _ hL; exact ⟨L, rfl, hL⟩
  | cons i is ih =>
    intro L hi hL
    have hin := hi i (by simp)
    have ih' := fun {L : Lattice} => ih (L := L) (fun j hj => hi j (by simp [hj]))
    unfold buildLoop
    obtain ⟨b, hb, _⟩ := B.canBow_spec hin
    have hprev : L.hasPreviousNode i = .ok (!(L.endLists[i]'(by have := hL.room; omega)).isEmpty) := by
      unfold Lattice.hasPreviousNode
      rw [pyGet, List.getElem?_eq_getElem (by have := hL.room; omega)]
      rfl
    unfold skipPos
    simp only [hb, hprev, bind, Except.bind, pure, Except.pure]
    cases b with
    | false => exact ih' hL
    | true =>
      simp only [Bool.not_true, Bool.false_eq_true, if_false]
      cases (L.endLists[i]'(by have := hL.room; omega)).isEmpty with
      | true => exact ih' hL
      | false =>
        obtain ⟨ds, h1, _, h2⟩ := posNodes_good hT B hb
        obtain ⟨L1, h3, h4⟩ := Roomy.insertAll hT.joinable.connected (ds := ds) hL (fun d hd => by
          have g := h2 d hd
          exact ⟨by rw [g.begins]; omega, g.le, g.left, g.right⟩)
        rw [buildPos_of h1 h3]
        exact ih' h4

theorem connectEos_ok (hj : ∀ l r, left l → right r → ∃ c, conn l r = .ok c) (h0 : left 0) {L : Lattice} {n : Nat} (hL : Roomy right n L)
    (heos : L.eos = some (.lone { NodeData.blank with begin_ := n, end_ := n } 0)) : ∃ L', L.connectEos conn = (L', .ok ()) := by
  unfold Lattice.connectEos
  rw [heos]
  have h1 := List.getElem?_eq_getElem hL.room
  simp only [LNode.data]
  rw [h1]
  dsimp only
  obtain ⟨x, hx, _⟩ := connectNode_ok (conn := conn) (d := { NodeData.blank with begin_ := n, end_ := n }) (ls := L.endLists[n]'hL.room) (fun y hy => by
    exact hj 0 y.data.rightId h0 (hL.ids _ _ _ h1 hy))
  rw [hx]
  exact ⟨_, rfl⟩

theorem joinable_linkCost (hj : Joinable conn left right) {l r : Int} (hl : left l) (hr : right r) : ∃ k, linkCost conn r l = some k := by
  obtain ⟨c, hc, hne⟩ := hj.link l r hl hr
  unfold linkCost
  rw [hc]
  dsimp only
  rw [if_neg hne]
  exact ⟨c, rfl⟩

theorem pathCost_some (hj : Joinable conn left right) : ∀ (p : List NodeData) (r : Int), right r →
    (∀ d ∈ p, left d.leftId ∧ right d.rightId) → ∃ k, pathCost conn r p = some k := by
  intro p
  induction p with
  | nil => intro r hr _; exact joinable_linkCost hj hj.eos hr
  | cons d ds ih =>
    intro r hr h
    obtain ⟨h1, h2⟩ := h d (by simp)
    obtain ⟨k, hk⟩ := joinable_linkCost hj h1 hr
    obtain ⟨k', hk'⟩ := ih d.rightId h2 (fun x hx => h x (by simp [hx]))
    unfold pathCost
    rw [hk, hk']
    exact ⟨_, rfl⟩

/-- From every position reached there is a way to the end. -/
theorem way_to_end (hT : T.Complete left right) (B : Built bd T.catOf t) {L1 : Lattice}
    (hc : ∀ i, t.canBow i = .ok true → L1.Ends i → ∃ ds, posNodes T.lex T.oov t i = .ok ds ∧ ∀ d ∈ ds, L1.Cand d) :
    ∀ (m i : Nat), t.bytes.length - i ≤ m → (i = t.bytes.length ∨ t.canBow i = .ok true) → L1.Ends i →
    ∃ p, Tiles i t.bytes.length p ∧ ∀ d ∈ p, L1.Cand d ∧ left d.leftId ∧ right d.rightId := by
  intro m
  induction m with
  | zero =>
    intro i hm hb he
    rcases hb with hb | hb
    · exact ⟨[], hb, fun d hd => by cases hd⟩
    · obtain ⟨k, hk, rfl, _⟩ := B.bow_char hb
      have : wpos bd.modified k < t.bytes.length := by rw [B.blen]; exact wpos_lt B.enc hk (Nat.le_refl _)
      omega
  | succ m ih =>
    intro i hm hb he
    rcases hb with hb | hb
    · exact ⟨[], hb, fun d hd => by cases hd⟩
    · obtain ⟨ds, h1, h2⟩ := hc i hb he
      obtain ⟨ds', h3, h4, h5⟩ := posNodes_good hT B hb
      rw [h1] at h3
      cases h3
      cases ds with
      | nil => exact absurd rfl h4
      | cons d ds =>
        have g := h5 d (by simp)
        obtain ⟨p, p1, p2⟩ := ih d.end_ (by have := g.lt; have := g.le; omega) g.bow (.inr ⟨d, h2 d (by simp), rfl⟩)
        refine ⟨d :: p, ⟨g.begins, by rw [g.begins]; exact g.lt, p1⟩, ?_⟩
        intro x hx
        rcases List.mem_cons.mp hx with rfl | hx
        · exact ⟨h2 x (by simp), g.left, g.right⟩
        · exact p2 x hx

/-- Building the lattice and finding the best path never fail. -/
theorem lattice_total (hT : T.Complete left right) (B : Built bd T.catOf t) (hne : bd.modified ≠ [])
    (hs : SafeLength t.bytes.length) {L : Lattice} (hL : L.Clean) :
    ∃ L' p, buildLattice T.conn T.lex T.oov t L = (L', .ok ()) ∧ L'.getBestPath = .ok p := by
  obtain ⟨r1, r2, r3, r4, r5, _⟩ := resize_frame L t.bytes.length hL.room hL.size
  have hc := hL.resize t.bytes.length
  have hroomy : Roomy right t.bytes.length (L.resize t.bytes.length) := by
    refine ⟨r1, ?_⟩
    intro e ns x hns hx
    by_cases he : e = 0
    · subst he
      rw [hc.bos] at hns
      cases hns
      rw [List.mem_singleton.mp hx]
      exact hT.joinable.bos
    · rw [hc.empty e ns (by omega) hns] at hx
      cases hx
  obtain ⟨L1, h1, h2⟩ := buildLoop_ok hT B (is := List.range' 0 t.bytes.length) (fun i hi => by
    rw [List.mem_range'_1] at hi; omega) hroomy
  obtain ⟨_, heos, _, _, _, hinv⟩ := buildLoop_spec B hT.lexOk hL h1
  obtain ⟨L', h3⟩ := connectEos_ok hT.joinable.connected hT.joinable.eos h2 heos
  have hb : buildLattice T.conn T.lex T.oov t L = (L', .ok ()) := by
    unfold buildLattice
    rw [List.range_eq_range', h1]
    exact h3
  obtain ⟨_, hcand⟩ := buildLoop_cands B hT.lexOk hL h1
  have hpos : 0 < bd.modified.length := List.length_pos_iff.mpr hne
  have hbow0 : t.canBow 0 = .ok true := by
    have := canBow_of B hpos (.inl rfl)
    rwa [wpos_zero] at this
  obtain ⟨p, p1, p2⟩ := way_to_end hT B hcand t.bytes.length 0 (by omega) (.inr hbow0) (.inl rfl)
  obtain ⟨k, hk⟩ := pathCost_some hT.joinable p 0 hT.joinable.bos (fun d hd => (p2 d hd).2)
  obtain ⟨e1, _, _, e2⟩ := eos_spec (hinv hT.connShort hs hT.oovShort) hT.connShort hs heos h3
  rcases e2 with ⟨q, cost, hq, _, _⟩ | ⟨_, hno⟩
  · exact ⟨L', q, hb, hq⟩
  · exact absurd ⟨p1, fun d hd => (p2 d hd).1, hk⟩ (hno p k)

end
end Sudachi
