import Verif.Lemmas.Oov
namespace Sudachi
open Lattice

/-! ### Structure of the lattice, without any assumption about costs -/

/-- A node ending at `e` whose chain of best predecessors goes back to the sentence begin, word by word, over allowed
connections, through nodes satisfying `C`. -/
def Chain (conn : Conn) (C : NodeData → Prop) : Nat → LNode → Prop
  | e, .bos d => e = 0 ∧ d.rightId = 0
  | e, .lone d _ => d.end_ = e ∧ d.begin_ < e ∧ C d
  | e, .link d _ prev => d.end_ = e ∧ d.begin_ < e ∧ C d ∧ prev.connected = true ∧ Chain conn C d.begin_ prev ∧
      linkCost conn prev.data.rightId d.leftId ≠ none

/-- Every node in the end lists is such a node. -/
def AllChain (conn : Conn) (C : NodeData → Prop) (L : Lattice) : Prop :=
  ∀ (e : Nat) ns x, L.endLists[e]? = some ns → x ∈ ns → Chain conn C e x

theorem connectLoop_mem {conn : Conn} {leftId : Int} :
    ∀ (ls : List LNode) (total : Int) (best : Option LNode) (total' : Int) (b : LNode),
      connectLoop conn leftId ls total best = .ok (total', some b) →
      best = some b ∨ (b ∈ ls ∧ b.connected = true ∧ linkCost conn b.data.rightId leftId ≠ none) := by
  intro ls
  induction ls with
  | nil =>
    intro total best total' b h
    simp only [connectLoop, Except.ok.injEq, Prod.mk.injEq] at h
    exact .inl h.2
  | cons l ls ih =>
    intro total best total' b h
    have lift : ∀ {o : Option LNode}, (o = some b ∨ (b ∈ ls ∧ b.connected = true ∧
        linkCost conn b.data.rightId leftId ≠ none)) →
        o = some b ∨ (b ∈ l :: ls ∧ b.connected = true ∧ linkCost conn b.data.rightId leftId ≠ none) := by
      rintro o (h | ⟨h1, h2⟩)
      · exact .inl h
      · exact .inr ⟨by simp [h1], h2⟩
    simp only [connectLoop] at h
    split at h
    · rename_i hcon
      split at h
      · cases h
      · rename_i c hc
        split at h
        · exact lift (ih _ _ _ _ h)
        · rename_i hin
          split at h
          · rcases ih _ _ _ _ h with h' | ⟨h1, h2⟩
            · cases h'
              refine .inr ⟨by simp, hcon, ?_⟩
              rw [linkCost_some.mpr ⟨hc, hin⟩]
              simp
            · exact .inr ⟨by simp [h1], h2⟩
          · exact lift (ih _ _ _ _ h)
    · exact lift (ih _ _ _ _ h)

theorem connectNode_mem {conn : Conn} {d : NodeData} {ls : List LNode} {x : LNode} (h : connectNode conn d ls = .ok x) :
    (∃ t, x = .lone d t) ∨ ∃ t b, x = .link d t b ∧ b ∈ ls ∧ b.connected = true ∧
      linkCost conn b.data.rightId d.leftId ≠ none := by
  unfold connectNode at h
  split at h
  · cases h
  · cases h; exact .inl ⟨_, rfl⟩
  · rename_i total p hl
    cases h
    rcases connectLoop_mem _ _ _ _ _ hl with h | h
    · cases h
    · exact .inr ⟨_, _, rfl, h⟩

theorem AllChain.insert {conn : Conn} {C : NodeData → Prop} {L L' : Lattice} {d : NodeData} (h : AllChain conn C L)
    (hlt : d.begin_ < d.end_) (hC : C d) (hi : L.insert conn d = (L', .ok ())) : AllChain conn C L' := by
  unfold Lattice.insert at hi
  split at hi
  · simp at hi
  split at hi
  · simp at hi
  rename_i prevs hprevs
  split at hi
  case h_2 => simp at hi
  rename_i y hy
  injection hi with hi _
  subst hi
  have hchain : Chain conn C d.end_ y := by
    rcases connectNode_mem hy with ⟨t, rfl⟩ | ⟨t, b, rfl, hb, hc, hl⟩
    · exact ⟨rfl, hlt, hC⟩
    · exact ⟨rfl, hlt, hC, hc, h _ _ _ hprevs hb, hl⟩
  intro e ns x hns hx
  obtain ⟨ns', hns', h' | h'⟩ := getElem?_modify_append hns
  · rw [h'.2] at hx
    rcases List.mem_append.mp hx with hx | hx
    · exact h e ns' x hns' hx
    · rw [List.mem_singleton.mp hx, ← h'.1]; exact hchain
  · rw [h'.2] at hx
    exact h e ns' x hns' hx

theorem AllChain.insertAll {conn : Conn} {C : NodeData → Prop} : ∀ {ds : List NodeData} {L L' : Lattice},
    AllChain conn C L → (∀ d ∈ ds, d.begin_ < d.end_ ∧ C d) → Sudachi.insertAll conn L ds = (L', .ok ()) →
    AllChain conn C L' := by
  intro ds
  induction ds with
  | nil => intro L L' h _ hi; simp only [Sudachi.insertAll, Prod.mk.injEq] at hi; rw [← hi.1]; exact h
  | cons d ds ih =>
    intro L L' h hd hi
    simp only [Sudachi.insertAll] at hi
    split at hi
    · rename_i L1 h1
      exact ih (h.insert (hd d (by simp)).1 (hd d (by simp)).2 h1) (fun x hx => hd x (by simp [hx])) hi
    · simp at hi

theorem Lattice.Clean.allChain {L : Lattice} (h : L.Clean) (conn : Conn) (C : NodeData → Prop) : AllChain conn C L := by
  intro e ns x hns hx
  by_cases he : e = 0
  · subst he
    rw [h.bos] at hns
    cases hns
    rw [List.mem_singleton.mp hx]
    exact ⟨rfl, rfl⟩
  · rw [h.empty e ns (by omega) hns] at hx
    simp at hx

/-- `p` (last word first) is an allowed sequence of `C` words tiling `[0, e)` whose last right id is `r`. -/
theorem Chain.backtrace {conn : Conn} {C : NodeData → Prop} {x : LNode} : ∀ {e : Nat}, Chain conn C e x →
    x.connected = true → ∃ q c, backtrace x = .ok q ∧ Reach conn C e x.data.rightId c q.reverse := by
  induction x with
  | bos d =>
    intro e h _
    obtain ⟨rfl, hr⟩ := h
    refine ⟨[], 0, rfl, ?_⟩
    simp only [LNode.data, hr]
    exact Reach.bos
  | lone d t => intro e _ hc; simp [LNode.connected] at hc
  | link d t prev ih =>
    intro e h _
    obtain ⟨rfl, h2, h3, h4, h5, h6⟩ := h
    obtain ⟨q, c, hq, hr⟩ := ih h5 h4
    cases hl : linkCost conn prev.data.rightId d.leftId with
    | none => exact absurd hl h6
    | some k =>
      refine ⟨d :: q, c + k + d.cost, by simp [Lattice.backtrace, hq, bind, Except.bind, pure, Except.pure], ?_⟩
      simpa [LNode.data] using Reach.step d hr h3 h2 hl

/-! ### What is inserted -/

/-- The characters of the text a node spans. -/
def OnChars (s : PStr) (d : NodeData) : Prop :=
  ∃ k j, k < j ∧ j ≤ s.length ∧ d.begin_ = wpos s k ∧ d.end_ = wpos s j

/-- Everything we know about a node inserted into the lattice for the text `t`. -/
structure Inserted (lex : Lex) (plugins : List OovPlugin) (t : InputText) (s : PStr) (d : NodeData) : Prop where
  onChars : OnChars s d
  bow : t.canBow d.begin_ = .ok true
  eow : d.oov = false → d.end_ = t.bytes.length ∨ t.canBow d.end_ = .ok true
  offered : Offered lex plugins t d

variable {bd : Builder} {catOf : Nat → CatSet} {t : InputText}

theorem Built.bow_char (B : Built bd catOf t) {i : Nat} (h : t.canBow i = .ok true) :
    ∃ k, k < bd.modified.length ∧ i = wpos bd.modified k ∧ BowChar t.charCats k := by
  have hi : i < t.bytes.length := by
    rcases Nat.lt_or_ge i t.bytes.length with h' | h'
    · exact h'
    · simp [InputText.canBow, pyGet, List.getElem?_eq_none h', bind, Except.bind] at h
  obtain ⟨b, h1, h2⟩ := B.canBow_spec hi
  rw [h] at h1
  cases h1
  exact h2.mp rfl

theorem charsNode_onChars (B : Built bd catOf t) {k j : Nat} (h : k < j) (hj : j ≤ bd.modified.length) (o : OovEntry) :
    OnChars bd.modified (charsNode bd.modified k j o) ∧ (charsNode bd.modified k j o).begin_ = wpos bd.modified k ∧
    (charsNode bd.modified k j o).oov = true ∧ (charsNode bd.modified k j o).cost = o.cost := by
  have := wpos_lt B.enc h hj
  refine ⟨⟨k, j, h, hj, rfl, ?_⟩, rfl, rfl, rfl⟩
  simp only [charsNode, oovNode]
  omega

/-- Every provider finds unknown words at every character, and they span characters from there. -/
theorem provideOov_spec (B : Built bd catOf t) {k : Nat} (hk : k < bd.modified.length) (p : OovPlugin) (has : Bool) :
    ∃ ns, p.provideOov t (wpos bd.modified k) has = .ok ns ∧ ∀ d ∈ ns, ∃ j o, k < j ∧ j ≤ bd.modified.length ∧
      d = charsNode bd.modified k j o ∧ (p.Short → Short d.cost) ∧ (p.Stores → o.Stores) := by
  cases p with
  | mecab categories oovList =>
    obtain ⟨b, ns, ⟨a, _, _, _, hkb⟩, hb, hg, hm⟩ := B.mecab_spec hk categories oovList has
    refine ⟨ns, hg, fun d hd => ?_⟩
    obtain ⟨ty, _, cinfo, o, _, ho, _, ⟨_, rfl⟩ | ⟨m, h1, _, _, rfl⟩⟩ := (hm d).mp hd
    · exact ⟨b, o, hkb, hb, rfl, fun hs => hs _ ho, fun hs => hs _ ho⟩
    · exact ⟨_, o, by omega, by omega, rfl, fun hs => hs _ ho, fun hs => hs _ ho⟩
  | simple o =>
    cases has with
    | true => exact ⟨[], simple_has o _, by simp⟩
    | false =>
      obtain ⟨j, h1, h2, _, _, h5⟩ := B.simple_spec hk o
      refine ⟨_, h5, fun d hd => ?_⟩
      rw [List.mem_singleton.mp hd]
      exact ⟨j, o, h1, h2, rfl, fun hs => hs, fun hs => hs⟩

/-- A provider whose entries fit the nodes answers. -/
theorem getOov_stores (B : Built bd catOf t) {k : Nat} (hk : k < bd.modified.length) {p : OovPlugin} (hp : p.Stores) (has : Bool) :
    ∃ ns, p.getOov t (wpos bd.modified k) has = .ok ns := by
  obtain ⟨ns, h1, h2⟩ := provideOov_spec B hk p has
  refine ⟨ns, getOov_iff.mpr ⟨h1, fun d hd => ?_⟩⟩
  obtain ⟨j, o, _, _, rfl, _, h3⟩ := h2 d hd
  exact stores_charsNode.mpr (h3 hp)

/-- The nodes a provider gives span characters from there. -/
theorem getOov_spec (B : Built bd catOf t) {k : Nat} (hk : k < bd.modified.length) {p : OovPlugin} {has : Bool} {ns : List NodeData}
    (h : p.getOov t (wpos bd.modified k) has = .ok ns) : ∀ d ∈ ns, ∃ j o, k < j ∧ j ≤ bd.modified.length ∧
      d = charsNode bd.modified k j o ∧ (p.Short → Short d.cost) := by
  obtain ⟨ns', h1, h2⟩ := provideOov_spec B hk p has
  rw [(getOov_iff.mp h).1] at h1
  cases h1
  intro d hd
  obtain ⟨j, o, g1, g2, g3, g4, _⟩ := h2 d hd
  exact ⟨j, o, g1, g2, g3, g4⟩

theorem wordNodes_mem {lex : Lex} {i : Nat} {ws : List (Nat × Nat)} : ∀ {ds : List NodeData},
    wordNodes lex t i ws = .ok ds → ∀ d ∈ ds, ∃ w e, (w, e) ∈ ws ∧ skipEnd t e = .ok false ∧ wordNode lex i w e = .ok d := by
  induction ws with
  | nil => intro ds h d hd; simp only [wordNodes, Except.ok.injEq] at h; subst h; simp at hd
  | cons we rest ih =>
    obtain ⟨w, e⟩ := we
    intro ds h d hd
    simp only [wordNodes] at h
    split at h
    · cases h
    · obtain ⟨w', e', h1, h2⟩ := ih h d hd
      exact ⟨w', e', by simp [h1], h2⟩
    · rename_i hs
      split at h
      · cases h
      rename_i d0 hd0
      split at h
      · cases h
      rename_i ds' hds'
      cases h
      rcases List.mem_cons.mp hd with rfl | hd
      · exact ⟨w, e, by simp, hs, hd0⟩
      · obtain ⟨w', e', h1, h2⟩ := ih hds' d hd
        exact ⟨w', e', by simp [h1], h2⟩

theorem wordNode_eq {lex : Lex} {i w e : Nat} {d : NodeData} (h : wordNode lex i w e = .ok d) :
    ∃ l r c, lex.params w = .ok (l, r, c) ∧ w < 2 ^ 31 ∧ d = ⟨i, e, l, r, c, w, false, none, true⟩ := by
  unfold wordNode at h
  cases hp : lex.params w with
  | error x => simp [hp, bind, Except.bind] at h
  | ok lrc =>
    obtain ⟨l, r, c⟩ := lrc
    simp only [hp, bind, Except.bind] at h
    split at h
    · cases h
    · cases h
      exact ⟨l, r, c, rfl, by omega, rfl⟩

theorem oovNodes_mem {i : Nat} {ps : List OovPlugin} : ∀ {has : Bool} {ds : List NodeData},
    oovNodes t i ps has = .ok ds → ∀ d ∈ ds, ∃ p ∈ ps, ∃ has' ns, p.getOov t i has' = .ok ns ∧ d ∈ ns := by
  induction ps with
  | nil => intro has ds h d hd; simp only [oovNodes, Except.ok.injEq] at h; subst h; simp at hd
  | cons p ps ih =>
    intro has ds h d hd
    simp only [oovNodes] at h
    split at h
    · cases h
    rename_i ns hns
    split at h
    · cases h
    rename_i ms hms
    cases h
    rcases List.mem_append.mp hd with hd | hd
    · exact ⟨p, by simp, has, ns, hns, hd⟩
    · obtain ⟨p', h1, h2⟩ := ih hms d hd
      exact ⟨p', by simp [h1], h2⟩

theorem posNodes_mem {lex : Lex} {plugins : List OovPlugin} {i : Nat} {ds : List NodeData}
    (h : posNodes lex plugins t i = .ok ds) : ds ≠ [] ∧ ∀ d ∈ ds,
      (∃ ws w e, lex.lookup t.bytes i = .ok ws ∧ (w, e) ∈ ws ∧ skipEnd t e = .ok false ∧ wordNode lex i w e = .ok d) ∨
      (∃ p ∈ plugins, ∃ has ns, p.getOov t i has = .ok ns ∧ d ∈ ns) := by
  unfold posNodes at h
  split at h
  · cases h
  rename_i ws hws
  split at h
  · cases h
  rename_i a ha
  split at h
  · cases h
  rename_i b hb
  split at h
  · cases h
  rename_i c hc
  split at h
  · cases h
  rename_i hne
  cases h
  constructor
  · intro hn
    simp only [List.append_eq_nil_iff] at hn
    simp [hn.1, hn.2.1, hn.2.2] at hne
  intro d hd
  rcases List.mem_append.mp hd with hd | hd
  · obtain ⟨w, e, h1, h2, h3⟩ := wordNodes_mem ha d hd
    exact .inl ⟨ws, w, e, hws, h1, h2, h3⟩
  · right
    rcases List.mem_append.mp hd with hd | hd
    · unfold oovPartNodes at hb
      split at hb
      · cases hb
      · split at hb
        · cases hb; simp at hd
        · exact oovNodes_mem hb d hd
    · unfold defaultNodes at hc
      split at hc
      · cases hc; simp at hd
      · split at hc
        · cases hc
        · rename_i p hp
          exact ⟨p, List.mem_of_getLast? hp, false, c, hc, hd⟩

theorem posNodes_inserted (B : Built bd catOf t) {lex : Lex} (hlex : lex.Ok) {plugins : List OovPlugin} {i : Nat}
    {ds : List NodeData} (hbow : t.canBow i = .ok true) (h : posNodes lex plugins t i = .ok ds) :
    ∀ d ∈ ds, d.begin_ = i ∧ i < d.end_ ∧ Inserted lex plugins t bd.modified d ∧
      ((∀ p ∈ plugins, p.Short) → NewAt t.bytes.length i d) := by
  intro d hd
  obtain ⟨k, hk, rfl, hbowk⟩ := B.bow_char hbow
  have hi : wpos bd.modified k < t.bytes.length := by rw [B.blen]; exact wpos_lt B.enc hk (Nat.le_refl _)
  rcases (posNodes_mem h).2 d hd with ⟨ws, w, e, h1, h2, h3, h4⟩ | ⟨p, hp, has, ns, h1, h2⟩
  · obtain ⟨l, r, c, hpar, hw, rfl⟩ := wordNode_eq h4
    obtain ⟨hlt, hle⟩ := hlex.lookup_inside _ _ _ hi h1 w e h2
    have heow : e = t.bytes.length ∨ t.canBow e = .ok true := by
      unfold skipEnd at h3
      split at h3
      · cases hc : t.canBow e with
        | error x => simp [hc, bind, Except.bind] at h3
        | ok b => simp [hc, bind, Except.bind, pure, Except.pure] at h3; subst h3; exact .inr rfl
      · left; omega
    have hon : ∃ j, j ≤ bd.modified.length ∧ e = wpos bd.modified j := by
      rcases heow with h | h
      · exact ⟨_, Nat.le_refl _, by rw [h, B.blen]⟩
      · obtain ⟨j, h1, h2, _⟩ := B.bow_char h
        exact ⟨j, by omega, h2⟩
    obtain ⟨j, hj, rfl⟩ := hon
    have hkj : k < j := by
      rcases Nat.lt_or_ge k j with h | h
      · exact h
      · have := wpos_mono bd.modified h; omega
    refine ⟨rfl, hlt, ⟨⟨k, j, hkj, hj, rfl, rfl⟩, hbow, fun _ => heow, .inl ⟨rfl, rfl, ws, w, h1, h2, rfl, hpar⟩⟩, ?_⟩
    intro _
    exact ⟨rfl, hlt, hle, hlex.params_short _ _ _ _ hpar⟩
  · have h3 := getOov_spec B hk h1
    obtain ⟨j, o, hkj, hj, hdeq, hsh⟩ := h3 d h2
    obtain ⟨c1, c2, c3, c4⟩ := charsNode_onChars B hkj hj o
    rw [← hdeq] at c1 c2 c3 c4
    have hend : d.end_ = wpos bd.modified j := by
      rw [hdeq]; simp only [charsNode, oovNode]; have := wpos_lt B.enc hkj hj; omega
    have hlt := wpos_lt B.enc hkj hj
    refine ⟨c2, by omega, ⟨c1, by rw [c2]; exact hbow, fun h => ?_, .inr ⟨c3, p, hp, has, ns, by rw [c2]; exact h1, h2⟩⟩, ?_⟩
    · rw [c3] at h; cases h
    · intro hs
      refine ⟨c2, by omega, ?_, hsh (hs p hp)⟩
      rw [hend, B.blen]; exact wpos_mono _ hj

/-! ### The whole lattice -/

theorem buildLattice_ok {conn : Conn} {lex : Lex} {plugins : List OovPlugin} {L L' : Lattice}
    (h : buildLattice conn lex plugins t L = (L', .ok ())) :
    ∃ L1, buildLoop conn lex plugins t (List.range' 0 t.bytes.length) (L.resize t.bytes.length) = (L1, .ok ()) ∧
      L1.connectEos conn = (L', .ok ()) := by
  unfold buildLattice at h
  rw [List.range_eq_range'] at h
  split at h
  · simp at h
  · rename_i L1 h1
    exact ⟨L1, h1, h⟩

theorem connectEos_frame {conn : Conn} {L L' : Lattice} {r : Res Unit} (h : L.connectEos conn = (L', r)) :
    L'.endLists = L.endLists ∧ L'.size = L.size ∧ L'.capacity = L.capacity := by
  unfold Lattice.connectEos at h
  repeat' split at h
  all_goals
    injection h with h _
    subst h
    exact ⟨rfl, rfl, rfl⟩

theorem cand_congr {L L' : Lattice} (h : L'.endLists = L.endLists) (d : NodeData) : L'.Cand d ↔ L.Cand d := by
  unfold Lattice.Cand; rw [h]

theorem cand_chain {conn : Conn} {C : NodeData → Prop} {L : Lattice} (h : AllChain conn C L) {d : NodeData}
    (hd : L.Cand d) : C d := by
  obtain ⟨e, ns, x, he, hns, hx, rfl⟩ := hd
  have := h e ns x hns hx
  cases x with
  | bos d => obtain ⟨rfl, _⟩ := this; omega
  | lone d _ => exact this.2.2
  | link d _ _ => exact this.2.2.1

/-- The lattice after the loop over positions, for a lattice that was clean before. -/
theorem buildLoop_spec (B : Built bd catOf t) {conn : Conn} {lex : Lex} (hlex : lex.Ok) {plugins : List OovPlugin}
    {L L1 : Lattice} (hL : L.Clean)
    (h : buildLoop conn lex plugins t (List.range' 0 t.bytes.length) (L.resize t.bytes.length) = (L1, .ok ())) :
    AllChain conn (Inserted lex plugins t bd.modified) L1 ∧
    L1.eos = some (.lone { NodeData.blank with begin_ := t.bytes.length, end_ := t.bytes.length } 0) ∧
    L1.size = t.bytes.length ∧ L1.size ≤ L1.capacity ∧ L1.capacity < L1.endLists.length ∧
    (conn.Short → SafeLength t.bytes.length → (∀ p ∈ plugins, p.Short) → Inv conn t.bytes.length t.bytes.length L1) := by
  obtain ⟨r1, r2, r3, r4, r5, _⟩ := resize_frame L t.bytes.length hL.room hL.size
  have key := buildLoop_induct (conn := conn) (lex := lex) (plugins := plugins) (t := t)
    (fun i L1 => AllChain conn (Inserted lex plugins t bd.modified) L1 ∧
      L1.eos = some (.lone { NodeData.blank with begin_ := t.bytes.length, end_ := t.bytes.length } 0) ∧
      L1.size = t.bytes.length ∧ L1.size ≤ L1.capacity ∧ L1.capacity < L1.endLists.length ∧
      (conn.Short → SafeLength t.bytes.length → (∀ p ∈ plugins, p.Short) → Inv conn t.bytes.length i L1)) ?_ ?_
    t.bytes.length 0 _ _ h
    ⟨(hL.resize _).allChain conn _, r3, r2, r4, r5, fun _ _ _ => hL.inv conn _⟩
  · simpa using key
  · rintro i La ds Lb ⟨a1, a2, a3, a4, a5, a6⟩ hbow _ hpos hins
    have hnew := posNodes_inserted B hlex hbow hpos
    obtain ⟨f1, f2, f3, f4⟩ := insertAll_frame hins
    refine ⟨a1.insertAll (fun d hd => ?_) hins, by rw [f3, a2], by rw [f1, a3], by rw [f1, f2]; exact a4,
      by rw [f2, f4]; exact a5, fun h1 h2 h3 => ?_⟩
    · obtain ⟨b1, b2, b3, _⟩ := hnew d hd
      exact ⟨by omega, b3⟩
    · exact ((a6 h1 h2 h3).insertAll h1 h2 (fun d hd => (hnew d hd).2.2.2 h3) hins).mono (by omega)
  · rintro i La ⟨a1, a2, a3, a4, a5, a6⟩ _
    exact ⟨a1, a2, a3, a4, a5, fun h1 h2 h3 => (a6 h1 h2 h3).mono (by omega)⟩

theorem getBestPath_chain {conn : Conn} {C : NodeData → Prop} {L1 L' : Lattice} {n : Nat} (hch : AllChain conn C L1)
    (heos : L1.eos = some (.lone { NodeData.blank with begin_ := n, end_ := n } 0))
    (hc : L1.connectEos conn = (L', .ok ())) :
    (L'.getBestPath = .error .attribute ∨ ∃ p cost, L'.getBestPath = .ok p ∧ IsPath conn C n p cost) := by
  unfold Lattice.connectEos at hc
  rw [heos] at hc
  simp only [LNode.data] at hc
  split at hc
  · simp at hc
  rename_i prevs hprevs
  split at hc
  case h_2 => simp at hc
  rename_i x hx
  injection hc with hL _
  subst hL
  rcases connectNode_mem hx with ⟨t, rfl⟩ | ⟨t, b, rfl, hb, hcon, hl⟩
  · exact .inl rfl
  · right
    obtain ⟨q, c, hq, hr⟩ := (hch _ _ _ hprevs hb).backtrace hcon
    cases hlc : linkCost conn b.data.rightId (NodeData.blank).leftId with
    | none => exact absurd hlc hl
    | some k =>
      refine ⟨q.reverse, c + k, ?_, isPath_iff_reach.mpr ⟨_, _, k, hr, hlc, rfl⟩⟩
      simp [Lattice.getBestPath, hq, bind, Except.bind, pure, Except.pure]

end Sudachi
