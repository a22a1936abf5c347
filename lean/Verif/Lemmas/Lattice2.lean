import Verif.Lemmas.Lattice
namespace Sudachi
open Lattice

/-- A node of the lattice is correctly connected with respect to the candidates `C`. -/
def NodeOk (conn : Conn) (C : NodeData → Prop) : LNode → Prop
  | .bos _ => False
  | .lone d _ => ∀ r c p, Reach conn C d.begin_ r c p → linkCost conn r d.leftId = none
  | .link d t prev => (∃ q, backtrace prev = .ok q ∧ Reach conn C d.end_ d.rightId t (q.reverse ++ [d])) ∧
      ∀ r c p k, Reach conn C d.begin_ r c p → linkCost conn r d.leftId = some k → t ≤ c + k + d.cost

/-- The state of the lattice while position `i` is processed (text of `n` bytes). -/
structure Inv (conn : Conn) (n i : Nat) (L : Lattice) : Prop where
  len : n < L.endLists.length
  bos : L.endLists[0]? = some [bosNode]
  node : ∀ e ns x, 0 < e → L.endLists[e]? = some ns → x ∈ ns →
    x.data.end_ = e ∧ x.data.begin_ < e ∧ x.data.begin_ ≤ i ∧ e ≤ n ∧ Short x.data.cost ∧ NodeOk conn L.Cand x

theorem Inv.mono {conn : Conn} {n i j : Nat} {L : Lattice} (h : Inv conn n i L) (hij : i ≤ j) : Inv conn n j L :=
  ⟨h.len, h.bos, fun e ns x he hns hx => by
    obtain ⟨a, b, c, d⟩ := h.node e ns x he hns hx
    exact ⟨a, b, by omega, d⟩⟩

theorem Inv.cand {conn : Conn} {n i : Nat} {L : Lattice} (h : Inv conn n i L) {d : NodeData} (hd : L.Cand d) :
    d.begin_ < d.end_ ∧ d.begin_ ≤ i ∧ d.end_ ≤ n ∧ Short d.cost := by
  obtain ⟨e, ns, x, he, hns, hx, rfl⟩ := hd
  obtain ⟨a, b, c, d, e', _⟩ := h.node e ns x he hns hx
  exact ⟨by omega, c, by omega, e'⟩

theorem Inv.sound {conn : Conn} {n i : Nat} {L : Lattice} (h : Inv conn n i L) {e : Nat} {ns : List LNode} {x : LNode}
    (hns : L.endLists[e]? = some ns) (hx : x ∈ ns) (hc : x.connected = true) :
    ∃ q, backtrace x = .ok q ∧ Reach conn L.Cand e x.data.rightId x.total q.reverse := by
  by_cases he : e = 0
  · subst he
    rw [h.bos] at hns
    injection hns with hns
    subst hns
    rw [List.mem_singleton.mp hx]
    exact ⟨[], rfl, Reach.bos⟩
  · obtain ⟨a, b, c, d, e', hok⟩ := h.node e ns x (by omega) hns hx
    match x, hok with
    | .lone _ _, _ => simp [LNode.connected] at hc
    | .link d t prev, hok =>
      obtain ⟨⟨q, hq, hr⟩, _⟩ := hok
      refine ⟨d :: q, ?_, ?_⟩
      · simp [backtrace, hq, bind, Except.bind, pure, Except.pure]
      · simp only [LNode.data] at a ⊢
        rw [← a]
        simpa [LNode.total] using hr

theorem Inv.complete {conn : Conn} {n i : Nat} {L : Lattice} (h : Inv conn n i L) {pos : Nat} {r c : Int}
    {p : List NodeData} (hr : Reach conn L.Cand pos r c p) :
    ∃ ns x, L.endLists[pos]? = some ns ∧ x ∈ ns ∧ x.connected = true ∧ x.data.rightId = r ∧ x.total ≤ c := by
  cases hr with
  | bos => exact ⟨_, bosNode, h.bos, by simp, rfl, rfl, by simp [bosNode, LNode.total]⟩
  | step d hr' hd hlt hk =>
    obtain ⟨e, ns, x, he, hns, hx, hxd⟩ := hd
    obtain ⟨a, _, _, _, _, hok⟩ := h.node e ns x he hns hx
    match x, hok with
    | .lone d' _, hok =>
      simp only [LNode.data] at hxd; subst hxd
      have := hok _ _ _ hr'
      rw [this] at hk; cases hk
    | .link d' t prev, hok =>
      simp only [LNode.data] at hxd a; subst hxd
      subst a
      exact ⟨ns, _, hns, hx, rfl, rfl, hok.2 _ _ _ _ hr' hk⟩

/-- The loop of `connect_node` cannot overflow at a position within the safe length. -/
theorem Inv.noOverflow {conn : Conn} {n i : Nat} {L : Lattice} (h : Inv conn n i L) (hconn : conn.Short)
    (hs : SafeLength n) {e : Nat} (he : e ≤ n) {ns : List LNode} (hns : L.endLists[e]? = some ns) {d : NodeData}
    (hd : Short d.cost) :
    ∀ l ∈ ns, l.connected = true → ∀ k, linkCost conn l.data.rightId d.leftId = some k →
        -2147483648 ≤ l.total + k ∧ l.total + k < 2147483647 ∧
        -2147483648 ≤ l.total + k + d.cost ∧ l.total + k + d.cost ≤ 2147483647 := by
  intro l hl hc k hk
  obtain ⟨q, _, hr⟩ := h.sound hns hl hc
  have hb := hr.bound hconn (fun d hd => (h.cand hd).2.2.2)
  have hk := hconn _ _ _ (linkCost_some.mp hk).1
  unfold SafeLength at hs
  unfold Short at hd hk
  omega

theorem getElem?_modify_append {L : List (List LNode)} {e e' : Nat} {x : LNode} {ns : List LNode}
    (h : (L.modify e (· ++ [x]))[e']? = some ns) :
    ∃ ns', L[e']? = some ns' ∧ ((e = e' ∧ ns = ns' ++ [x]) ∨ (e ≠ e' ∧ ns = ns')) := by
  rw [List.getElem?_modify] at h
  by_cases hee : e = e'
  · subst hee
    cases hL : L[e]? with
    | none => simp [hL] at h
    | some ns' => simp [hL] at h; exact ⟨ns', rfl, .inl ⟨rfl, h.symm⟩⟩
  · cases hL : L[e']? with
    | none => simp [hL] at h
    | some ns' => simp [hL, hee] at h; exact ⟨ns', rfl, .inr ⟨hee, h.symm⟩⟩

theorem cand_append {L : Lattice} {x : LNode} {e : Nat} {d : NodeData} (h : (L.append e x).Cand d) :
    L.Cand d ∨ d = x.data := by
  obtain ⟨e', ns, y, he', hns, hy, rfl⟩ := h
  obtain ⟨ns', hns', h | h⟩ := getElem?_modify_append hns
  · rw [h.2] at hy
    rcases List.mem_append.mp hy with hy | hy
    · exact .inl ⟨e', ns', y, he', hns', hy, rfl⟩
    · rw [List.mem_singleton.mp hy]; exact .inr rfl
  · rw [h.2] at hy
    exact .inl ⟨e', ns', y, he', hns', hy, rfl⟩

theorem cand_append_old {L : Lattice} {x : LNode} {e : Nat} {d : NodeData} (h : L.Cand d) : (L.append e x).Cand d := by
  obtain ⟨e', ns, y, he', hns, hy, rfl⟩ := h
  refine ⟨e', if e = e' then ns ++ [x] else ns, y, he', ?_, ?_, rfl⟩
  · simp only [Lattice.append, List.getElem?_modify, hns]
    split <;> simp
  · split
    · simp [hy]
    · exact hy

theorem cand_append_new {L : Lattice} {x : LNode} {e : Nat} (he : 0 < e) (hlen : e < L.endLists.length) :
    (L.append e x).Cand x.data := by
  refine ⟨e, L.endLists[e] ++ [x], x, he, ?_, by simp, rfl⟩
  simp [Lattice.append, hlen]

/-- A candidate for position `i`. -/
def NewAt (n i : Nat) (d : NodeData) : Prop := d.begin_ = i ∧ i < d.end_ ∧ d.end_ ≤ n ∧ Short d.cost

theorem Inv.insert {conn : Conn} {n i : Nat} {L L' : Lattice} (h : Inv conn n i L) (hconn : conn.Short)
    (hs : SafeLength n) {d : NodeData} (hd : NewAt n i d) (hins : L.insert conn d = (L', .ok ())) : Inv conn n i L' := by
  obtain ⟨hb, hlt, hen, hsh⟩ := hd
  unfold Lattice.insert at hins
  split at hins
  · simp at hins
  split at hins
  · simp at hins
  rename_i prevs hprevs
  split at hins
  case h_2 => simp at hins
  rename_i x hx
  injection hins with hL _
  subst hL
  have hspec := connectNode_spec hx (h.noOverflow hconn hs (by omega : d.begin_ ≤ n) hprevs hsh)
  have hxd : x.data = d := by
    rcases hspec with ⟨⟨t, rfl⟩, _⟩ | ⟨b, k, _, _, _, rfl, _⟩ <;> rfl
  have hres : ∀ y, (L.append d.end_ x).Cand y → L.Cand y ∨ i ≤ y.begin_ := by
    intro y hy
    rcases cand_append hy with hy | hy
    · exact .inl hy
    · right; rw [hy, hxd]; omega
  have hlen' : d.end_ < L.endLists.length := by have := h.len; omega
  have hnewC : (L.append d.end_ x).Cand d := by
    have := cand_append_new (L := L) (x := x) (e := d.end_) (by omega) hlen'
    rwa [hxd] at this
  have old : ∀ y, L.Cand y → (L.append d.end_ x).Cand y := fun y hy => cand_append_old hy
  refine ⟨?_, ?_, ?_⟩
  · simp [Lattice.append]; exact h.len
  · simp only [Lattice.append, List.getElem?_modify, h.bos]
    have : d.end_ ≠ 0 := by omega
    simp [this]
  · intro e ns y he hns hy
    have key : (y ∈ (L.endLists[e]?).getD [] ) ∨ (e = d.end_ ∧ y = x) := by
      obtain ⟨ns', hns', h' | h'⟩ := getElem?_modify_append hns
      · rw [h'.2] at hy
        rcases List.mem_append.mp hy with hy | hy
        · left; rw [hns']; exact hy
        · right; exact ⟨h'.1.symm, List.mem_singleton.mp hy⟩
      · left; rw [hns', ← h'.2]; exact hy
    rcases key with key | ⟨rfl, rfl⟩
    · cases hL : L.endLists[e]? with
      | none => rw [hL] at key; simp at key
      | some ns' =>
        rw [hL] at key
        obtain ⟨a1, a2, a3, a4, a5, hok⟩ := h.node e ns' y he hL key
        refine ⟨a1, a2, a3, a4, a5, ?_⟩
        match y, hok with
        | .lone d' t, hok =>
          intro r c p hr
          exact hok r c p (hr.restrict hres a3)
        | .link d' t prev, hok =>
          obtain ⟨⟨q, hq, hr⟩, hmin⟩ := hok
          refine ⟨⟨q, hq, hr.mono old⟩, ?_⟩
          intro r c p k hr' hk
          exact hmin r c p k (hr'.restrict hres a3) hk
    · refine ⟨by rw [hxd], by rw [hxd]; omega, by rw [hxd]; omega, hen, by rw [hxd]; exact hsh, ?_⟩
      rcases hspec with ⟨⟨t, rfl⟩, hnone⟩ | ⟨b, k, hbm, hbc, hbk, rfl, hmin⟩
      · intro r c p hr
        obtain ⟨ns', z, hz1, hz2, hz3, hz4, _⟩ := h.complete (hr.restrict hres (by omega))
        rw [hprevs] at hz1
        injection hz1 with hz1
        subst hz1
        rw [← hz4]
        exact hnone z hz2 hz3
      · obtain ⟨q, hq, hr⟩ := h.sound hprevs hbm hbc
        refine ⟨⟨q, hq, Reach.step d (hr.mono old) hnewC (by omega) hbk⟩, ?_⟩
        intro r c p k' hr' hk'
        obtain ⟨ns', z, hz1, hz2, hz3, hz4, hz5⟩ := h.complete (hr'.restrict hres (by omega))
        rw [hprevs] at hz1
        injection hz1 with hz1
        subst hz1
        rw [← hz4] at hk'
        have := hmin z hz2 hz3 k' hk'
        omega

theorem Inv.insertAll {conn : Conn} {n i : Nat} (hconn : conn.Short) (hs : SafeLength n) :
    ∀ {ds : List NodeData} {L L' : Lattice}, Inv conn n i L → (∀ d ∈ ds, NewAt n i d) →
      insertAll conn L ds = (L', .ok ()) → Inv conn n i L' := by
  intro ds
  induction ds with
  | nil =>
    intro L L' h _ hi
    simp only [Sudachi.insertAll, Prod.mk.injEq] at hi
    rw [← hi.1]; exact h
  | cons d ds ih =>
    intro L L' h hd hi
    simp only [Sudachi.insertAll] at hi
    split at hi
    · rename_i L1 hL1
      exact ih (h.insert hconn hs (hd d (by simp)) hL1) (fun x hx => hd x (by simp [hx])) hi
    · simp at hi

end Sudachi
