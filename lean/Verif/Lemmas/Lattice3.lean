import Verif.Lemmas.Lattice2
namespace Sudachi
open Lattice

theorem insert_frame {conn : Conn} {L L' : Lattice} {d : NodeData} {r : Res Unit} (h : L.insert conn d = (L', r)) :
    L'.size = L.size ∧ L'.capacity = L.capacity ∧ L'.eos = L.eos ∧ L'.endLists.length = L.endLists.length := by
  unfold Lattice.insert at h
  repeat' split at h
  all_goals
    injection h with h _
    subst h
    simp [Lattice.append]

theorem insertAll_frame {conn : Conn} {ds : List NodeData} :
    ∀ {L L' : Lattice} {r : Res Unit}, insertAll conn L ds = (L', r) →
    L'.size = L.size ∧ L'.capacity = L.capacity ∧ L'.eos = L.eos ∧ L'.endLists.length = L.endLists.length := by
  induction ds with
  | nil => intro L L' r h; simp only [insertAll, Prod.mk.injEq] at h; rw [← h.1]; simp
  | cons d ds ih =>
    intro L L' r h
    simp only [insertAll] at h
    split at h
    · rename_i L1 h1
      have a := insert_frame h1
      have b := ih h
      exact ⟨b.1.trans a.1, b.2.1.trans a.2.1, b.2.2.1.trans a.2.2.1, b.2.2.2.trans a.2.2.2⟩
    · rename_i L1 e h1
      injection h with h2 _
      subst h2
      exact insert_frame h1

theorem insert_cand {conn : Conn} {L L' : Lattice} {d : NodeData} (h : L.insert conn d = (L', .ok ())) (hd : 0 < d.end_)
    (x : NodeData) : L'.Cand x ↔ L.Cand x ∨ x = d := by
  unfold Lattice.insert at h
  split at h
  · simp at h
  rename_i ns hns
  split at h
  · simp at h
  split at h
  case h_2 => simp at h
  rename_i y hy
  injection h with h _
  subst h
  have hyd : y.data = d := by
    unfold connectNode at hy
    split at hy <;> cases hy <;> rfl
  have hlen : d.end_ < L.endLists.length := by
    rcases List.getElem?_eq_some_iff.mp hns with ⟨h, _⟩; exact h
  constructor
  · intro hx
    rcases cand_append hx with hx | hx
    · exact .inl hx
    · exact .inr (by rw [hx, hyd])
  · intro hx
    rcases hx with hx | rfl
    · exact cand_append_old hx
    · have := cand_append_new (L := L) (x := y) hd hlen
      rwa [hyd] at this

theorem insertAll_cand {conn : Conn} {ds : List NodeData} :
    ∀ {L L' : Lattice}, insertAll conn L ds = (L', .ok ()) → (∀ d ∈ ds, 0 < d.end_) →
    ∀ x, L'.Cand x ↔ L.Cand x ∨ x ∈ ds := by
  induction ds with
  | nil => intro L L' h _ x; simp only [insertAll, Prod.mk.injEq] at h; rw [← h.1]; simp
  | cons d ds ih =>
    intro L L' h hd x
    simp only [insertAll] at h
    split at h
    · rename_i L1 h1
      rw [ih h (fun y hy => hd y (by simp [hy])) x, insert_cand h1 (hd d (by simp)) x, List.mem_cons, or_assoc]
    · simp at h

/-- The nodes of the dictionary words at a position. -/
def wordNodes (lex : Lex) (t : InputText) (i : Nat) : List (Nat × Nat) → Res (List NodeData)
  | [] => .ok []
  | (w, e) :: rest =>
    match skipEnd t e with
    | .error x => .error x
    | .ok true => wordNodes lex t i rest
    | .ok false =>
      match wordNode lex i w e with
      | .error x => .error x
      | .ok d =>
        match wordNodes lex t i rest with
        | .error x => .error x
        | .ok ds => .ok (d :: ds)

/-- The nodes a list of providers gives, starting with the flag `has`. -/
def oovNodes (t : InputText) (i : Nat) : List OovPlugin → Bool → Res (List NodeData)
  | [], _ => .ok []
  | p :: ps, has =>
    match p.getOov t i has with
    | .error x => .error x
    | .ok ns =>
      match oovNodes t i ps (has || !ns.isEmpty) with
      | .error x => .error x
      | .ok ms => .ok (ns ++ ms)

def oovPartNodes (plugins : List OovPlugin) (t : InputText) (i : Nat) (has : Bool) : Res (List NodeData) :=
  match t.charCategoryTypesAt i with
  | .error x => .error x
  | .ok cats => if Cat.NOOOVBOW ∈ cats then .ok [] else oovNodes t i plugins has

def defaultNodes (plugins : List OovPlugin) (t : InputText) (i : Nat) (has : Bool) : Res (List NodeData) :=
  if has then .ok []
  else
    match plugins.getLast? with
    | none => .error .attribute
    | some p => p.getOov t i false

/-- Everything inserted at a position. -/
def posNodes (lex : Lex) (plugins : List OovPlugin) (t : InputText) (i : Nat) : Res (List NodeData) :=
  match lex.lookup t.bytes i with
  | .error x => .error x
  | .ok ws =>
    match wordNodes lex t i ws with
    | .error x => .error x
    | .ok a =>
      match oovPartNodes plugins t i (!a.isEmpty) with
      | .error x => .error x
      | .ok b =>
        match defaultNodes plugins t i (!a.isEmpty || !b.isEmpty) with
        | .error x => .error x
        | .ok c => if a.isEmpty && b.isEmpty && c.isEmpty then .error .runtime else .ok (a ++ (b ++ c))

theorem insertAll_append {conn : Conn} {a b : List NodeData} : ∀ {L : Lattice},
    insertAll conn L (a ++ b) =
      match insertAll conn L a with
      | (L', .ok ()) => insertAll conn L' b
      | (L', .error e) => (L', .error e) := by
  induction a with
  | nil => intro L; simp [insertAll]
  | cons d ds ih =>
    intro L
    simp only [List.cons_append, insertAll]
    cases h : L.insert conn d with
    | mk L1 r =>
      cases r with
      | ok u => simp only [ih]
      | error e => rfl

theorem wordLoop_eq {conn : Conn} {lex : Lex} {t : InputText} {i : Nat} {ws : List (Nat × Nat)} :
    ∀ {L L' : Lattice} {has r : Bool},
    wordLoop conn lex t i ws L has = (L', .ok r) →
      ∃ ds, wordNodes lex t i ws = .ok ds ∧ insertAll conn L ds = (L', .ok ()) ∧ r = (has || !ds.isEmpty) := by
  induction ws with
  | nil =>
    intro L L' has r h
    simp only [wordLoop, Prod.mk.injEq, Except.ok.injEq] at h
    obtain ⟨rfl, rfl⟩ := h
    exact ⟨[], rfl, rfl, by simp⟩
  | cons we rest ih =>
    obtain ⟨w, e⟩ := we
    intro L L' has r h
    simp only [wordLoop] at h
    split at h
    · simp at h
    · rename_i hs
      obtain ⟨ds, a, b, c⟩ := ih h
      exact ⟨ds, by simp [wordNodes, hs, a], b, c⟩
    · rename_i hs
      split at h
      · simp at h
      rename_i d hd
      split at h
      · simp at h
      rename_i L1 hL1
      obtain ⟨ds, a, b, c⟩ := ih h
      refine ⟨d :: ds, by simp [wordNodes, hs, hd, a], ?_, by simp [c]⟩
      simp [insertAll, hL1, b]

theorem oovLoop_eq {conn : Conn} {t : InputText} {i : Nat} {ps : List OovPlugin} :
    ∀ {L L' : Lattice} {has r : Bool},
    oovLoop conn t i ps L has = (L', .ok r) →
      ∃ ds, oovNodes t i ps has = .ok ds ∧ insertAll conn L ds = (L', .ok ()) ∧ r = (has || !ds.isEmpty) := by
  induction ps with
  | nil =>
    intro L L' has r h
    simp only [oovLoop, Prod.mk.injEq, Except.ok.injEq] at h
    obtain ⟨rfl, rfl⟩ := h
    exact ⟨[], rfl, rfl, by simp⟩
  | cons p ps ih =>
    intro L L' has r h
    simp only [oovLoop] at h
    split at h
    · simp at h
    rename_i ns hns
    split at h
    · simp at h
    rename_i L1 hL1
    obtain ⟨ds, a, b, c⟩ := ih h
    refine ⟨ns ++ ds, by simp [oovNodes, hns, a], by simp [insertAll_append, hL1, b], ?_⟩
    rw [c]
    cases ns <;> simp

theorem oovPart_eq {conn : Conn} {plugins : List OovPlugin} {t : InputText} {i : Nat} {L L' : Lattice} {has r : Bool}
    (h : oovPart conn plugins t i L has = (L', .ok r)) :
    ∃ ds, oovPartNodes plugins t i has = .ok ds ∧ insertAll conn L ds = (L', .ok ()) ∧ r = (has || !ds.isEmpty) := by
  unfold oovPart at h
  unfold oovPartNodes
  split at h
  · simp at h
  · rename_i cats hc
    split at h
    · rename_i hm
      simp only [Prod.mk.injEq, Except.ok.injEq] at h
      obtain ⟨rfl, rfl⟩ := h
      exact ⟨[], by simp [hc, hm], rfl, by simp⟩
    · rename_i hm
      obtain ⟨ds, a, b⟩ := oovLoop_eq h
      exact ⟨ds, by simp [hc, hm, a], b⟩

theorem defaultPart_eq {conn : Conn} {plugins : List OovPlugin} {t : InputText} {i : Nat} {L L' : Lattice} {has r : Bool}
    (h : defaultPart conn plugins t i L has = (L', .ok r)) :
    ∃ ds, defaultNodes plugins t i has = .ok ds ∧ insertAll conn L ds = (L', .ok ()) ∧ r = (has || !ds.isEmpty) := by
  unfold defaultPart at h
  unfold defaultNodes
  split at h
  · rename_i hh
    simp only [Prod.mk.injEq, Except.ok.injEq] at h
    obtain ⟨rfl, rfl⟩ := h
    exact ⟨[], by simp [hh], rfl, by simp [hh]⟩
  · rename_i hh
    split at h
    · simp at h
    · rename_i p hp
      obtain ⟨ds, a, b, c⟩ := oovLoop_eq h
      simp only [oovNodes] at a
      split at a
      · cases a
      · rename_i ns hns
        simp only [List.append_nil, Except.ok.injEq] at a
        subst a
        simp only [Bool.not_eq_true] at hh
        subst hh
        exact ⟨ns, by simp [hp, hns], b, c⟩

theorem buildPos_eq {conn : Conn} {lex : Lex} {plugins : List OovPlugin} {t : InputText} {L L' : Lattice} {i : Nat}
    (h : buildPos conn lex plugins t L i = (L', .ok ())) :
    ∃ ds, posNodes lex plugins t i = .ok ds ∧ insertAll conn L ds = (L', .ok ()) := by
  unfold buildPos at h
  split at h
  · simp at h
  rename_i ws hws
  split at h
  · simp at h
  rename_i L1 h1 e1
  split at h
  · simp at h
  rename_i L2 h2 e2
  split at h
  · simp at h
  · rename_i L3 e3
    simp only [Prod.mk.injEq, and_true] at h
    subst h
    obtain ⟨a, a1, a2, a3⟩ := wordLoop_eq e1
    obtain ⟨b, b1, b2, b3⟩ := oovPart_eq e2
    obtain ⟨c, c1, c2, c3⟩ := defaultPart_eq e3
    subst a3
    simp only [Bool.false_or] at b1 b3
    subst b3
    refine ⟨a ++ (b ++ c), ?_, ?_⟩
    · simp only [posNodes, hws, a1, b1, c1]
      rw [if_neg]
      intro hh
      simp only [Bool.and_eq_true] at hh
      simp [hh.1.1, hh.1.2, hh.2] at c3
    · simp only [insertAll_append, a2, b2, c2]
  · simp at h

/-- The nodes inserted by the whole loop over positions, as a relation: `ds` are all insertions in order. -/
theorem buildLoop_induct {conn : Conn} {lex : Lex} {plugins : List OovPlugin} {t : InputText} (I : Nat → Lattice → Prop)
    (hstep : ∀ i L ds L', I i L → t.canBow i = .ok true → L.hasPreviousNode i = .ok true →
      posNodes lex plugins t i = .ok ds → insertAll conn L ds = (L', .ok ()) → I (i + 1) L')
    (hskip : ∀ i L, I i L → skipPos t L i = .ok true → I (i + 1) L) :
    ∀ m a L L', buildLoop conn lex plugins t (List.range' a m) L = (L', .ok ()) → I a L → I (a + m) L' := by
  intro m
  induction m with
  | zero =>
    intro a L L' h hI
    simp only [List.range'_zero, buildLoop, Prod.mk.injEq] at h
    rw [← h.1]
    exact hI
  | succ m ih =>
    intro a L L' h hI
    simp only [List.range'_succ, buildLoop] at h
    split at h
    · simp at h
    · rename_i hs
      have := ih _ _ _ h (hskip _ _ hI hs)
      rwa [show a + 1 + m = a + (m + 1) from by omega] at this
    · rename_i hs
      split at h
      · simp at h
      · rename_i L1 hL1
        obtain ⟨ds, hp, hi⟩ := buildPos_eq hL1
        have hcb : t.canBow a = .ok true ∧ L.hasPreviousNode a = .ok true := by
          unfold skipPos at hs
          cases hc : t.canBow a with
          | error e => simp [hc, bind, Except.bind] at hs
          | ok b =>
            cases b with
            | false => simp [hc, bind, Except.bind, pure, Except.pure] at hs
            | true =>
              cases hp : L.hasPreviousNode a with
              | error e => simp [hc, hp, bind, Except.bind] at hs
              | ok b =>
                cases b with
                | false => simp [hc, hp, bind, Except.bind, pure, Except.pure] at hs
                | true => exact ⟨rfl, rfl⟩
        have := ih _ _ _ h (hstep a L ds L1 hI hcb.1 hcb.2 hp hi)
        rwa [show a + 1 + m = a + (m + 1) from by omega] at this

theorem resize_frame (L : Lattice) (n : Nat) (hroom : L.capacity < L.endLists.length) (hsize : L.size ≤ L.capacity) :
    n < (L.resize n).endLists.length ∧ (L.resize n).size = n ∧
      (L.resize n).eos = some (.lone { NodeData.blank with begin_ := n, end_ := n } 0) ∧
      (L.resize n).size ≤ (L.resize n).capacity ∧ (L.resize n).capacity < (L.resize n).endLists.length ∧
      ∃ k, (L.resize n).endLists = L.endLists ++ List.replicate k [] := by
  unfold Lattice.resize Lattice.expand
  by_cases h : n > L.capacity
  · simp only [h, if_true, List.length_append, List.length_replicate]
    exact ⟨by omega, trivial, trivial, by omega, by omega, _, rfl⟩
  · simp only [h, if_false]
    exact ⟨by omega, trivial, trivial, by omega, hroom, 0, by simp⟩

theorem Lattice.Clean.resize {L : Lattice} (h : L.Clean) (n : Nat) : (L.resize n).Clean := by
  obtain ⟨h1, h2, h3, h4, h5, k, h6⟩ := resize_frame L n h.room h.size
  refine ⟨?_, ?_, h5, h4⟩
  · rw [h6, List.getElem?_append_left (by have := h.room; omega)]
    exact h.bos
  · intro e ns he hns
    rw [h6] at hns
    by_cases hlt : e < L.endLists.length
    · rw [List.getElem?_append_left hlt] at hns
      exact h.empty e ns he hns
    · rw [List.getElem?_append_right (by omega)] at hns
      exact (List.mem_replicate.mp (List.mem_of_getElem? hns)).2

theorem Lattice.Clean.inv {L : Lattice} (h : L.Clean) (conn : Conn) (n : Nat) : Inv conn n 0 (L.resize n) := by
  have hc := h.resize n
  refine ⟨(resize_frame L n h.room h.size).1, hc.bos, ?_⟩
  intro e ns x he hns hx
  rw [hc.empty e ns he hns] at hx
  simp at hx

/-- What connecting the sentence end to a correct lattice gives. -/
theorem eos_spec {conn : Conn} {n i : Nat} {L L' : Lattice} (h : Inv conn n i L) (hconn : conn.Short) (hs : SafeLength n)
    (heos : L.eos = some (.lone { NodeData.blank with begin_ := n, end_ := n } 0))
    (hc : L.connectEos conn = (L', .ok ())) :
    L'.endLists = L.endLists ∧ L'.size = L.size ∧ L'.capacity = L.capacity ∧
    ((∃ p cost, L'.getBestPath = .ok p ∧ IsPath conn L.Cand n p cost ∧
        ∀ p' cost', IsPath conn L.Cand n p' cost' → cost ≤ cost') ∨
     (L'.getBestPath = .error .attribute ∧ ∀ p' cost', ¬ IsPath conn L.Cand n p' cost')) := by
  unfold Lattice.connectEos at hc
  rw [heos] at hc
  simp only [LNode.data] at hc
  split at hc
  · simp at hc
  rename_i prevs hprevs
  split at hc
  case h_2 => simp at hc
  rename_i x hx
  injection hc with hL _
  subst hL
  refine ⟨rfl, rfl, rfl, ?_⟩
  have hsh : Short ({ NodeData.blank with begin_ := n, end_ := n } : NodeData).cost := by
    simp [Short, NodeData.blank]
  rcases connectNode_spec hx (h.noOverflow hconn hs (Nat.le_refl n) hprevs hsh) with
    ⟨⟨t, rfl⟩, hnone⟩ | ⟨b, k, hbm, hbc, hbk, rfl, hmin⟩
  · right
    refine ⟨rfl, ?_⟩
    intro p' cost' hp
    obtain ⟨r, c, e, hr, he, _⟩ := isPath_iff_reach.mp hp
    obtain ⟨ns', z, hz1, hz2, hz3, hz4, hz5⟩ := h.complete hr
    rw [hprevs] at hz1
    injection hz1 with hz1
    subst hz1
    have := hnone z hz2 hz3
    rw [hz4] at this
    simp only [NodeData.blank] at this
    rw [this] at he
    cases he
  · left
    obtain ⟨q, hq, hr⟩ := h.sound hprevs hbm hbc
    refine ⟨q.reverse, b.total + k, ?_, ?_, ?_⟩
    · simp [Lattice.getBestPath, hq, bind, Except.bind, pure, Except.pure]
    · exact isPath_iff_reach.mpr ⟨_, _, k, hr, hbk, rfl⟩
    · intro p' cost' hp
      obtain ⟨r, c, e, hr, he, hcost⟩ := isPath_iff_reach.mp hp
      obtain ⟨ns', z, hz1, hz2, hz3, hz4, hz5⟩ := h.complete hr
      rw [hprevs] at hz1
      injection hz1 with hz1
      subst hz1
      have := hmin z hz2 hz3 e (by rw [hz4]; exact he)
      omega

end Sudachi
