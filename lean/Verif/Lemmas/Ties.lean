import Verif.Spec.Ties
import Verif.Lemmas.Unknown
namespace Sudachi
open Lattice

/-- The loop of `connect_node` keeps the first of the cheapest predecessors. -/
theorem connectLoop_first {conn : Conn} {leftId : Int} :
    ∀ (ls : List LNode) (total : Int) (best : Option LNode) (total' : Int) (best' : Option LNode),
      connectLoop conn leftId ls total best = .ok (total', best') →
      (∀ l ∈ ls, l.connected = true → ∀ k, linkCost conn l.data.rightId leftId = some k →
        -2147483648 ≤ l.total + k ∧ l.total + k < 2147483647) →
      (best' = best ∧ total' = total) ∨ ∃ pre b post k, ls = pre ++ b :: post ∧ b.connected = true ∧ best' = some b ∧
        linkCost conn b.data.rightId leftId = some k ∧ total' = b.total + k ∧ total' < total ∧
        ∀ l ∈ pre, l.connected = true → ∀ k', linkCost conn l.data.rightId leftId = some k' → total' < l.total + k' := by
  intro ls
  induction ls with
  | nil =>
    intro total best total' best' h _
    simp only [connectLoop, Except.ok.injEq, Prod.mk.injEq] at h
    exact .inl ⟨h.2.symm, h.1.symm⟩
  | cons l ls ih =>
    intro total best total' best' h hb
    have hb' : ∀ l ∈ ls, l.connected = true → ∀ k, linkCost conn l.data.rightId leftId = some k →
        -2147483648 ≤ l.total + k ∧ l.total + k < 2147483647 := fun x hx => hb x (by simp [hx])
    have skip : (∀ k, l.connected = true → linkCost conn l.data.rightId leftId = some k → total ≤ l.total + k) →
        connectLoop conn leftId ls total best = .ok (total', best') →
        (best' = best ∧ total' = total) ∨ ∃ pre b post k, l :: ls = pre ++ b :: post ∧ b.connected = true ∧ best' = some b ∧
        linkCost conn b.data.rightId leftId = some k ∧ total' = b.total + k ∧ total' < total ∧
        ∀ l ∈ pre, l.connected = true → ∀ k', linkCost conn l.data.rightId leftId = some k' → total' < l.total + k' := by
      intro hl h
      rcases ih _ _ _ _ h hb' with h' | ⟨pre, b, post, k, rfl, a2, a3, a4, a5, a6, a7⟩
      · exact .inl h'
      · refine .inr ⟨l :: pre, b, post, k, rfl, a2, a3, a4, a5, a6, fun x hx hc k' hk' => ?_⟩
        rcases List.mem_cons.mp hx with rfl | hx
        · have := hl k' hc hk'; omega
        · exact a7 x hx hc k' hk'
    simp only [connectLoop] at h
    split at h
    · rename_i hcon
      split at h
      · cases h
      · rename_i c hc
        split at h
        · rename_i hin
          exact skip (fun k _ hk => by simp [linkCost, hc, hin, inhibited] at hk) h
        · rename_i hin
          have hl : linkCost conn l.data.rightId leftId = some c := linkCost_some.mpr ⟨hc, hin⟩
          have hr := hb l (by simp) hcon c hl
          rw [wrap32_of_range (by omega) (by omega)] at h
          split at h
          · rename_i hlt
            rcases ih _ _ _ _ h hb' with ⟨h1, h2⟩ | ⟨pre, b, post, k, rfl, a2, a3, a4, a5, a6, a7⟩
            · exact .inr ⟨[], l, ls, c, rfl, hcon, h1, hl, h2, by omega, by simp⟩
            · refine .inr ⟨l :: pre, b, post, k, rfl, a2, a3, a4, a5, by omega, fun x hx hc k' hk' => ?_⟩
              rcases List.mem_cons.mp hx with rfl | hx
              · rw [hl] at hk'; cases hk'; omega
              · exact a7 x hx hc k' hk'
          · rename_i hlt
            exact skip (fun k _ hk => by rw [hl] at hk; cases hk; omega) h
    · rename_i hcon
      exact skip (fun k hc _ => absurd hc hcon) h

/-- What `connect_node` remembers: the first of the cheapest predecessors. -/
def FirstOf (conn : Conn) (leftId : Int) (ns : List LNode) (b : LNode) (c : Int) : Prop :=
  ∃ pre post k, ns = pre ++ b :: post ∧ b.connected = true ∧ linkCost conn b.data.rightId leftId = some k ∧ c = b.total + k ∧
    ∀ l ∈ pre, l.connected = true → ∀ k', linkCost conn l.data.rightId leftId = some k' → c < l.total + k'

theorem FirstOf.append {conn : Conn} {leftId : Int} {ns ms : List LNode} {b : LNode} {c : Int}
    (h : FirstOf conn leftId ns b c) : FirstOf conn leftId (ns ++ ms) b c := by
  obtain ⟨pre, post, k, rfl, h'⟩ := h
  exact ⟨pre, post ++ ms, k, by simp, h'⟩

theorem connectNode_first {conn : Conn} {d : NodeData} {ls : List LNode} {x : LNode} (h : connectNode conn d ls = .ok x)
    (hb : ∀ l ∈ ls, l.connected = true → ∀ k, linkCost conn l.data.rightId d.leftId = some k →
        -2147483648 ≤ l.total + k ∧ l.total + k < 2147483647 ∧
        -2147483648 ≤ l.total + k + d.cost ∧ l.total + k + d.cost ≤ 2147483647) :
    x.data = d ∧ ∀ d' t b, x = .link d' t b → ∃ c, FirstOf conn d.leftId ls b c ∧ t = c + d.cost := by
  unfold connectNode at h
  split at h
  · cases h
  · cases h
    exact ⟨rfl, fun _ _ _ h => by cases h⟩
  · rename_i total p hl
    cases h
    refine ⟨rfl, fun d' t b h => ?_⟩
    cases h
    rcases connectLoop_first _ _ _ _ _ hl (fun l hl hc k hk => ⟨(hb l hl hc k hk).1, (hb l hl hc k hk).2.1⟩) with
      ⟨h, _⟩ | ⟨pre, b', post, k, rfl, a2, a3, a4, a5, a6, a7⟩
    · cases h
    · cases a3
      have := hb p (by simp) a2 k a4
      refine ⟨p.total + k, ⟨pre, post, k, rfl, a2, a4, rfl, fun l hl hc k' hk' => ?_⟩, ?_⟩
      · have := a7 l hl hc k' hk'; omega
      · rw [a5, wrap32_of_range (by omega) (by omega)]

/-- Every node of the lattice remembers the first of the cheapest nodes before it. -/
def FirstInv (conn : Conn) (L : Lattice) : Prop :=
  ∀ (e : Nat) ns d t b, L.endLists[e]? = some ns → LNode.link d t b ∈ ns →
    ∃ ms c, L.endLists[d.begin_]? = some ms ∧ FirstOf conn d.leftId ms b c ∧ t = c + d.cost

theorem FirstInv.insert {conn : Conn} {n i : Nat} {L L' : Lattice} (hF : FirstInv conn L) (h : Inv conn n i L)
    (hconn : conn.Short) (hs : SafeLength n) {d : NodeData} (hd : NewAt n i d) (hins : L.insert conn d = (L', .ok ())) :
    FirstInv conn L' := by
  obtain ⟨hb, hlt, hen, hsh⟩ := hd
  unfold Lattice.insert at hins
  split at hins
  · simp at hins
  split at hins
  · simp at hins
  rename_i prevs hprevs
  split at hins
  case h_2 => simp at hins
  rename_i x hx
  injection hins with hL _
  subst hL
  obtain ⟨hxd, hfirst⟩ := connectNode_first hx (h.noOverflow hconn hs (by omega : d.begin_ ≤ n) hprevs hsh)
  have grow : ∀ (e : Nat) (ms : List LNode), L.endLists[e]? = some ms →
      ∃ ms', (L.append d.end_ x).endLists[e]? = some (ms ++ ms') := by
    intro e ms hms
    simp only [Lattice.append, List.getElem?_modify, hms]
    by_cases hee : d.end_ = e
    · exact ⟨[x], by simp [hee]⟩
    · exact ⟨[], by simp [hee]⟩
  intro e ns d' t b hns hm
  have key : ∃ ms c, L.endLists[d'.begin_]? = some ms ∧ FirstOf conn d'.leftId ms b c ∧ t = c + d'.cost := by
    obtain ⟨ns', hns', hh | hh⟩ := getElem?_modify_append hns
    · rw [hh.2] at hm
      rcases List.mem_append.mp hm with hm | hm
      · exact hF e ns' d' t b hns' hm
      · have hx' := List.mem_singleton.mp hm
        obtain ⟨c, h1, h2⟩ := hfirst _ _ _ hx'.symm
        have hdd : d' = d := by rw [← hxd, ← hx']; rfl
        subst hdd
        exact ⟨prevs, c, hprevs, h1, h2⟩
    · rw [hh.2] at hm
      exact hF e ns' d' t b hns' hm
  obtain ⟨ms, c, h1, h2, h3⟩ := key
  obtain ⟨ms', h4⟩ := grow _ _ h1
  exact ⟨_, c, h4, h2.append, h3⟩

theorem FirstInv.insertAll {conn : Conn} {n i : Nat} (hconn : conn.Short) (hs : SafeLength n) :
    ∀ {ds : List NodeData} {L L' : Lattice}, FirstInv conn L → Inv conn n i L → (∀ d ∈ ds, NewAt n i d) →
      insertAll conn L ds = (L', .ok ()) → FirstInv conn L' := by
  intro ds
  induction ds with
  | nil =>
    intro L L' hF h _ hi
    simp only [Sudachi.insertAll, Prod.mk.injEq] at hi
    rw [← hi.1]; exact hF
  | cons d ds ih =>
    intro L L' hF h hd hi
    simp only [Sudachi.insertAll] at hi
    split at hi
    · rename_i L1 hL1
      exact ih (hF.insert h hconn hs (hd d (by simp)) hL1) (h.insert hconn hs (hd d (by simp)) hL1)
        (fun x hx => hd x (by simp [hx])) hi
    · simp at hi

theorem Lattice.Clean.firstInv {L : Lattice} (h : L.Clean) (conn : Conn) : FirstInv conn L := by
  intro e ns d t b hns hm
  by_cases he : e = 0
  · subst he
    rw [h.bos] at hns
    injection hns with hns
    subst hns
    simp [bosNode] at hm
  · rw [h.empty e ns (by omega) hns] at hm
    cases hm

/-! ### Which path is taken -/

theorem Preferred.snoc {before : NodeData → NodeData → Prop} {p p' : List NodeData} (h : Preferred before p p') (d : NodeData) :
    Preferred before (p ++ [d]) (p' ++ [d]) := by
  obtain ⟨q, q', x, x', s, rfl, rfl, h1, h2, h3⟩ := h
  exact ⟨q, q', x, x', s ++ [d], by simp, by simp, h1, h2, h3⟩

theorem Reach.zero {conn : Conn} {C : NodeData → Prop} {r c : Int} {p : List NodeData} {pos : Nat} (h : Reach conn C pos r c p)
    (h0 : pos = 0) : p = [] ∧ r = 0 ∧ c = 0 := by
  cases h with
  | bos => exact ⟨rfl, rfl, rfl⟩
  | step d _ _ hlt _ => omega

/-- A node with the last word of a way to its place is at least as cheap as that way. -/
theorem Inv.node_le {conn : Conn} {n i : Nat} {L : Lattice} (h : Inv conn n i L) {d : NodeData} {r c k : Int} {p : List NodeData}
    (hr : Reach conn L.Cand d.begin_ r c p) (hk : linkCost conn r d.leftId = some k) {e : Nat} {ns : List LNode} {w : LNode}
    (he : 0 < e) (hns : L.endLists[e]? = some ns) (hw : w ∈ ns) (hwd : w.data = d) :
    w.connected = true ∧ w.total ≤ c + k + d.cost := by
  obtain ⟨_, _, _, _, _, hok⟩ := h.node e ns w he hns hw
  match w, hok with
  | .lone d' _, hok =>
    simp only [LNode.data] at hwd; subst hwd
    have := hok _ _ _ hr
    rw [this] at hk; cases hk
  | .link d' t prev, hok =>
    simp only [LNode.data] at hwd; subst hwd
    exact ⟨rfl, hok.2 _ _ _ _ hr hk⟩

theorem first_prev {conn : Conn} {n i : Nat} {L : Lattice} (h : Inv conn n i L) {e : Nat} {ns : List LNode}
    (hns : L.endLists[e]? = some ns) {leftId : Int} {b : LNode} {c : Int} (hb : FirstOf conn leftId ns b c)
    {q : List NodeData} (hq : backtrace b = .ok q)
    (ih : ∀ r c p', Reach conn L.Cand e r c p' → p'.getLast? = q.head? → c ≤ b.total →
      p' = q.reverse ∨ Preferred L.Listed q.reverse p')
    {r c' k' : Int} {p' : List NodeData} (hr : Reach conn L.Cand e r c' p') (hk' : linkCost conn r leftId = some k')
    (hc : c' + k' ≤ c) : p' = q.reverse ∨ Preferred L.Listed q.reverse p' := by
  obtain ⟨pre, post, k, hsplit, hbc, hbk, hck, hpre⟩ := hb
  have hbm : b ∈ ns := by rw [hsplit]; simp
  by_cases he : e = 0
  · subst he
    rw [h.bos] at hns
    injection hns with hns
    rw [← hns] at hbm
    have hb := List.mem_singleton.mp hbm
    subst hb
    obtain ⟨h1, h2, h3⟩ := hr.zero rfl
    cases hq
    exact .inl h1
  have hbnode := h.node e ns b (by omega) hns hbm
  match b, hbnode with
  | .lone _ _, _ => simp [LNode.connected] at hbc
  | .bos _, hbnode => exact hbnode.2.2.2.2.2.elim
  | .link bd bt bp, hbnode =>
    have hqh : q.head? = some bd := by
      simp only [backtrace, bind, Except.bind, pure, Except.pure] at hq
      split at hq
      · cases hq
      · cases hq; rfl
    have hr0 := hr
    cases hr with
    | bos => exact absurd rfl he
    | @step y ry cy ky py hr' hy hlt hky =>
      have hnode : ∀ w ∈ ns, w.data = y → w.connected = true ∧ w.total ≤ cy + ky + y.cost :=
        fun w hw hwd => h.node_le hr' hky (by omega) hns hw hwd
      by_cases hyb : y = bd
      · have hrr : k' = k := by
          rw [hyb] at hk'
          rw [show bd.rightId = (LNode.link bd bt bp).data.rightId from rfl, hbk] at hk'
          cases hk'; rfl
        exact ih _ _ _ hr0 (by rw [hqh, List.getLast?_append, hyb]; rfl) (by omega)
      · right
        have hqr : ∃ q0, q = bd :: q0 := by
          cases q with
          | nil => simp at hqh
          | cons a q0 => simp at hqh; exact ⟨q0, by rw [hqh]⟩
        obtain ⟨q0, rfl⟩ := hqr
        refine ⟨q0.reverse, py, bd, y, [], by simp, rfl, fun h => hyb h.symm, hbnode.1, ns, ?_, pre.map LNode.data, post.map LNode.data, ?_, ?_⟩
        · have := hbnode.1
          simp only [LNode.data] at this
          rw [this]; exact hns
        · rw [hsplit]; simp [LNode.data]
        · intro hm
          obtain ⟨w, hw, hwd⟩ := List.mem_map.mp hm
          obtain ⟨w1, w2⟩ := hnode w (by rw [hsplit]; simp [hw]) hwd
          have := hpre w hw w1 k' (by rw [hwd]; exact hk')
          omega

theorem first_reach {conn : Conn} {n i : Nat} {L : Lattice} (h : Inv conn n i L) (hF : FirstInv conn L) :
    ∀ (x : LNode) (e : Nat) (ns : List LNode), L.endLists[e]? = some ns → x ∈ ns → ∀ q, backtrace x = .ok q →
      ∀ r c p', Reach conn L.Cand e r c p' → p'.getLast? = q.head? → c ≤ x.total →
        p' = q.reverse ∨ Preferred L.Listed q.reverse p' := by
  intro x
  induction x with
  | bos d =>
    intro e ns hns hx q hq r c p' hr hl hc
    cases hq
    simp only [List.head?_nil, List.getLast?_eq_none_iff] at hl
    exact .inl hl
  | lone d t => intro e ns hns hx q hq; cases hq
  | link d t b ih =>
    intro e ns hns hx q hq r c p' hr hl hc
    obtain ⟨ms, cb, hms, hfirst, ht⟩ := hF e ns d t b hns hx
    simp only [backtrace, bind, Except.bind, pure, Except.pure] at hq
    split at hq
    · cases hq
    rename_i q0 hq0
    cases hq
    cases hr with
    | bos => simp at hl
    | @step y ry cy ky py hr' hy hlt hky =>
      have hyd : y = d := by simpa using hl
      subst hyd
      have hbm : b ∈ ms := by
        obtain ⟨pre, post, k, hsplit, _⟩ := hfirst
        rw [hsplit]; simp
      simp only [LNode.total] at hc
      rcases first_prev h hms hfirst hq0 (ih _ ms hms hbm q0 hq0) hr' hky (by omega) with h' | h'
      · left; rw [h']; simp
      · right; rw [List.reverse_cons]; exact h'.snoc _

/-- The path through the end of the sentence. -/
theorem first_eos {conn : Conn} {n : Nat} {L L' : Lattice} (h : Inv conn n n L) (hF : FirstInv conn L) (hconn : conn.Short)
    (hs : SafeLength n) (heos : L.eos = some (.lone { NodeData.blank with begin_ := n, end_ := n } 0))
    (hc : L.connectEos conn = (L', .ok ())) {p : List NodeData} (hp : L'.getBestPath = .ok p) {cost : Int}
    (hpath : IsPath conn L.Cand n p cost) {p' : List NodeData} {cost' : Int} (hpath' : IsPath conn L.Cand n p' cost')
    (hle : cost' ≤ cost) : p' = p ∨ Preferred L.Listed p p' := by
  unfold Lattice.connectEos at hc
  rw [heos] at hc
  simp only [LNode.data] at hc
  split at hc
  · simp at hc
  rename_i prevs hprevs
  split at hc
  case h_2 => simp at hc
  rename_i x hx
  injection hc with hL _
  subst hL
  obtain ⟨hxd, hfirst⟩ := connectNode_first hx
    (h.noOverflow hconn hs (Nat.le_refl n) hprevs (d := { NodeData.blank with begin_ := n, end_ := n }) (by simp [Short, NodeData.blank]))
  cases x with
  | bos d => simp [Lattice.getBestPath] at hp
  | lone d t => simp [Lattice.getBestPath] at hp
  | link d t b =>
    obtain ⟨c, hfst, ht⟩ := hfirst _ _ _ rfl
    have hfst' := hfst
    obtain ⟨pre, post, k, hsplit, hbc, hbk, hck, _⟩ := hfst'
    have hbm : b ∈ prevs := by rw [hsplit]; simp
    obtain ⟨q, hq, hr⟩ := h.sound hprevs hbm hbc
    simp only [Lattice.getBestPath, hq, bind, Except.bind, pure, Except.pure, Except.ok.injEq] at hp
    subst hp
    have hcost : cost = c := by
      have h1 := (isPath_iff_reach.mpr ⟨_, _, k, hr, hbk, rfl⟩ : IsPath conn L.Cand n q.reverse (b.total + k)).2.2
      rw [hpath.2.2] at h1
      cases h1
      exact hck.symm
    obtain ⟨r', c', e', hr', he', hce⟩ := isPath_iff_reach.mp hpath'
    exact first_prev h hprevs hfst hq (first_reach h hF b n prevs hprevs hbm q hq) hr' he' (by omega)

end Sudachi
