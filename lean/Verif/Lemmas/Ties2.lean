import Verif.Lemmas.Ties

/-!
# The order of the words in the lattice: lemmas
-/

namespace Sudachi
open Lattice

/-! ### First in a list -/

theorem FirstIn.mem {α : Type} {l : List α} {x y : α} (h : FirstIn l x y) : x ∈ l := by
  obtain ⟨pre, post, rfl, _⟩ := h
  simp

theorem FirstIn.append {α : Type} {l l' : List α} {x y : α} (h : FirstIn (l ++ l') x y) :
    FirstIn l x y ∨ (y ∉ l ∧ FirstIn l' x y) := by
  obtain ⟨pre, post, he, hy⟩ := h
  rcases List.append_eq_append_iff.mp he with ⟨a, rfl, rfl⟩ | ⟨c, rfl, hc⟩
  · exact .inr ⟨fun hm => hy (by simp [hm]), a, post, rfl, fun hm => hy (by simp [hm])⟩
  · cases c with
    | nil =>
      simp only [List.nil_append] at hc
      exact .inr ⟨by simpa using hy, [], post, hc.symm, by simp⟩
    | cons z c =>
      simp only [List.cons_append, List.cons.injEq] at hc
      obtain ⟨rfl, rfl⟩ := hc
      exact .inl ⟨pre, c, rfl, hy⟩

theorem FirstIn.flatMap {α β : Type} {f : α → List β} {x y : β} : ∀ {l : List α}, FirstIn (l.flatMap f) x y →
    ∃ (i : Nat) (a : α), l[i]? = some a ∧ FirstIn (f a) x y ∧ ∀ (i' : Nat) a', l[i']? = some a' → y ∈ f a' → i ≤ i'
  | [], h => by
    have := h.mem
    simp at this
  | a :: l, h => by
    rw [List.flatMap_cons] at h
    rcases h.append with h | ⟨hy, h⟩
    · exact ⟨0, a, rfl, h, fun i' _ _ _ => Nat.zero_le i'⟩
    · obtain ⟨i, b, h1, h2, h3⟩ := h.flatMap
      refine ⟨i + 1, b, by simpa using h1, h2, fun i' a' ha' hm => ?_⟩
      cases i' with
      | zero =>
        simp only [List.getElem?_cons_zero, Option.some.injEq] at ha'
        rw [← ha'] at hm
        exact absurd hm hy
      | succ i' => exact Nat.succ_le_succ (h3 i' a' (by simpa using ha') hm)

theorem FirstIn.filterMap {α β : Type} {p : α → Bool} {g : α → β} {x y : β} {l : List α} (h : FirstIn ((l.filter p).map g) x y) :
    ∃ (i : Nat) (a : α), l[i]? = some a ∧ p a = true ∧ g a = x ∧
      ∀ (i' : Nat) a', l[i']? = some a' → p a' = true → g a' = y → i ≤ i' := by
  have he : (l.filter p).map g = l.flatMap fun a => if p a then [g a] else [] := by
    clear h
    induction l with
    | nil => rfl
    | cons a l ih =>
      rw [List.flatMap_cons, ← ih]
      by_cases hp : p a = true
      · rw [List.filter_cons_of_pos hp, if_pos hp]; rfl
      · rw [List.filter_cons_of_neg hp, if_neg hp]; rfl
  rw [he] at h
  obtain ⟨i, a, h1, h2, h3⟩ := h.flatMap
  have hm := h2.mem
  by_cases hp : p a = true
  · rw [if_pos hp] at hm
    refine ⟨i, a, h1, hp, (List.mem_singleton.mp hm).symm, fun i' a' ha' hp' hg => h3 i' a' ha' ?_⟩
    rw [if_pos hp', hg]
    simp
  · rw [if_neg hp] at hm
    cases hm

theorem FirstIn.filter {α : Type} {p : α → Bool} {x y : α} (hy : p y = true) : ∀ {l : List α}, FirstIn (l.filter p) x y → FirstIn l x y
  | [], h => h
  | a :: l, h => by
    by_cases hp : p a = true
    · rw [List.filter_cons_of_pos hp] at h
      obtain ⟨pre, post, he, hn⟩ := h
      cases pre with
      | nil =>
        simp only [List.nil_append, List.cons.injEq] at he
        exact ⟨[], l, by simp [he.1], by simp⟩
      | cons z pre =>
        simp only [List.cons_append, List.cons.injEq] at he
        obtain ⟨rfl, he⟩ := he
        obtain ⟨pre', post', rfl, hn'⟩ := FirstIn.filter hy (l := l) ⟨pre, post, he, fun hm => hn (by simp [hm])⟩
        refine ⟨a :: pre', post', rfl, fun hm => ?_⟩
        rcases List.mem_cons.mp hm with rfl | hm
        · exact hn (by simp)
        · exact hn' hm
    · rw [List.filter_cons_of_neg hp] at h
      obtain ⟨pre', post', rfl, hn'⟩ := FirstIn.filter hy h
      refine ⟨a :: pre', post', rfl, fun hm => ?_⟩
      rcases List.mem_cons.mp hm with rfl | hm
      · exact hp hy
      · exact hn' hm

theorem FirstIn.pairwise {α : Type} {R : α → α → Prop} {l : List α} {x y : α} (h : FirstIn l x y) (hp : l.Pairwise R) (hne : x ≠ y)
    (hy : y ∈ l) : R x y := by
  obtain ⟨pre, post, rfl, hn⟩ := h
  have h1 := (List.pairwise_append.mp hp).2.1
  have hm : y ∈ post := by
    rcases List.mem_append.mp hy with hy | hy
    · exact absurd hy hn
    · rcases List.mem_cons.mp hy with rfl | hy
      · exact absurd rfl hne
      · exact hy
  exact (List.pairwise_cons.mp h1).1 y hm

/-! ### The end lists -/

theorem insertAll_list {conn : Conn} : ∀ {ds : List NodeData} {L L' : Lattice}, insertAll conn L ds = (L', .ok ()) →
    ∀ (e : Nat) ns, L'.endLists[e]? = some ns → ∃ ms, L.endLists[e]? = some ms ∧
      ns.map LNode.data = ms.map LNode.data ++ ds.filter (fun d => d.end_ = e) := by
  intro ds
  induction ds with
  | nil =>
    intro L L' h e ns hns
    simp only [insertAll, Prod.mk.injEq] at h
    rw [← h.1] at hns
    exact ⟨ns, hns, by simp⟩
  | cons d ds ih =>
    intro L L' h e ns hns
    simp only [insertAll] at h
    split at h
    · rename_i L1 hL1
      obtain ⟨ms, hms, hmap⟩ := ih h e ns hns
      unfold Lattice.insert at hL1
      split at hL1
      · simp at hL1
      split at hL1
      · simp at hL1
      rename_i prevs hprevs
      split at hL1
      case h_2 => simp at hL1
      rename_i x hx
      injection hL1 with hL _
      subst hL
      have hxd : x.data = d := by
        unfold connectNode at hx
        split at hx <;> cases hx <;> rfl
      obtain ⟨ns', hns', hh | hh⟩ := getElem?_modify_append hms
      · refine ⟨ns', hns', ?_⟩
        rw [hmap, hh.2, List.filter_cons_of_pos (by simp [hh.1])]
        simp [hxd]
      · refine ⟨ns', hns', ?_⟩
        rw [hmap, hh.2, List.filter_cons_of_neg (by simp [hh.1])]
    · simp at h

variable {bd : Builder} {catOf : Nat → CatSet} {t : InputText}

/-- The list of the words ending at a place: those of every position, in order. -/
def EndsInOrder (lex : Lex) (plugins : List OovPlugin) (t : InputText) (i : Nat) (L : Lattice) : Prop :=
  ∀ (e : Nat) ns, 0 < e → L.endLists[e]? = some ns → ∃ f : Nat → List NodeData,
    ns.map LNode.data = (List.range i).flatMap f ∧ ∀ j, f j = [] ∨ ∃ ds, t.canBow j = .ok true ∧ posNodes lex plugins t j = .ok ds ∧
      f j = ds.filter (fun d => d.end_ = e)

theorem buildLoop_order (B : Built bd catOf t) {conn : Conn} {lex : Lex} (hlex : lex.Ok) {plugins : List OovPlugin}
    {L L1 : Lattice} (hL : L.Clean)
    (h : buildLoop conn lex plugins t (List.range' 0 t.bytes.length) (L.resize t.bytes.length) = (L1, .ok ())) :
    EndsInOrder lex plugins t t.bytes.length L1 ∧
    (conn.Short → SafeLength t.bytes.length → (∀ p ∈ plugins, p.Short) → FirstInv conn L1) := by
  have key := buildLoop_induct (conn := conn) (lex := lex) (plugins := plugins) (t := t)
    (fun i L1 => EndsInOrder lex plugins t i L1 ∧
      (conn.Short → SafeLength t.bytes.length → (∀ p ∈ plugins, p.Short) → FirstInv conn L1 ∧ Inv conn t.bytes.length i L1)) ?_ ?_
    t.bytes.length 0 _ _ h ⟨?_, ?_⟩
  · rw [Nat.zero_add] at key
    exact ⟨key.1, fun h1 h2 h3 => (key.2 h1 h2 h3).1⟩
  · rintro i La ds Lb ⟨a1, a2⟩ hbow _ hpos hins
    have hnew := posNodes_inserted B hlex hbow hpos
    refine ⟨?_, fun h1 h2 h3 => ?_⟩
    · intro e ns he hns
      obtain ⟨ms, hms, hmap⟩ := insertAll_list hins e ns hns
      obtain ⟨f, f1, f2⟩ := a1 e ms he hms
      refine ⟨fun j => if j = i then ds.filter (fun d => d.end_ = e) else f j, ?_, fun j => ?_⟩
      · rw [List.range_succ, List.flatMap_append, hmap, f1]
        congr 1
        · rw [List.flatMap_def, List.flatMap_def]
          congr 1
          apply List.map_congr_left
          intro j hj
          have := List.mem_range.mp hj
          rw [if_neg (by omega)]
        · simp
      · dsimp only
        split
        · rename_i hj
          subst hj
          exact .inr ⟨ds, hbow, hpos, rfl⟩
        · exact f2 j
    · obtain ⟨b1, b2⟩ := a2 h1 h2 h3
      exact ⟨b1.insertAll h1 h2 b2 (fun d hd => (hnew d hd).2.2.2 h3) hins,
        (b2.insertAll h1 h2 (fun d hd => (hnew d hd).2.2.2 h3) hins).mono (by omega)⟩
  · rintro i La ⟨a1, a2⟩ _
    refine ⟨?_, fun h1 h2 h3 => ⟨(a2 h1 h2 h3).1, (a2 h1 h2 h3).2.mono (by omega)⟩⟩
    intro e ns he hns
    obtain ⟨f, f1, f2⟩ := a1 e ns he hns
    refine ⟨fun j => if j = i then [] else f j, ?_, fun j => ?_⟩
    · rw [List.range_succ, List.flatMap_append, f1]
      have : (List.range i).flatMap (fun j => if j = i then [] else f j) = (List.range i).flatMap f := by
        rw [List.flatMap_def, List.flatMap_def]
        congr 1
        apply List.map_congr_left
        intro j hj
        have := List.mem_range.mp hj
        rw [if_neg (by omega)]
      rw [this]
      simp
    · dsimp only
      split
      · exact .inl rfl
      · exact f2 j
  · intro e ns he hns
    refine ⟨fun _ => [], ?_, fun _ => .inl rfl⟩
    rw [(hL.resize _).empty e ns he hns]
    rfl
  · intro _ _ _
    exact ⟨(hL.resize _).firstInv conn, hL.inv conn _⟩

/-- Where words come in the list of those with their end. -/
theorem EndsInOrder.listed (B : Built bd catOf t) {lex : Lex} (hlex : lex.Ok) {plugins : List OovPlugin} {L : Lattice}
    (h : EndsInOrder lex plugins t t.bytes.length L) {x y : NodeData} (hx : 0 < x.end_) (hlist : L.Listed x y) (hend : x.end_ = y.end_)
    (hy : L.Cand y) (hye : ∀ (e : Nat) ns z, L.endLists[e]? = some ns → z ∈ ns → 0 < e → z.data.end_ = e) :
    t.canBow x.begin_ = .ok true ∧ (x.begin_ < y.begin_ ∨
      (x.begin_ = y.begin_ ∧ ∃ ds, posNodes lex plugins t x.begin_ = .ok ds ∧ FirstIn ds x y ∧ y ∈ ds)) := by
  obtain ⟨ns, hns, hfirst⟩ := hlist
  obtain ⟨f, f1, f2⟩ := h _ ns hx hns
  rw [f1] at hfirst
  obtain ⟨i, j, hj, hfj, hmin⟩ := hfirst.flatMap
  have hij : i = j := by
    have := List.getElem?_eq_some_iff.1 hj
    obtain ⟨h1, h2⟩ := this
    simpa using h2
  subst hij
  have hbeg : ∀ j d, d ∈ f j → d.begin_ = j ∧ t.canBow j = .ok true := by
    intro j d hd
    rcases f2 j with h0 | ⟨ds, g1, g2, g3⟩
    · rw [h0] at hd; cases hd
    · rw [g3] at hd
      exact ⟨(posNodes_inserted B hlex g1 g2 d (List.mem_filter.1 hd).1).1, g1⟩
  have hxj := hbeg i x hfj.mem
  refine ⟨by rw [hxj.1]; exact hxj.2, ?_⟩
  obtain ⟨e, ms, z, he, hms, hz, hzd⟩ := hy
  have hze := hye e ms z hms hz he
  rw [hzd, ← hend] at hze
  rw [← hze, hns] at hms
  cases hms
  have hym : y ∈ (List.range t.bytes.length).flatMap f := by
    rw [← f1, ← hzd]
    exact List.mem_map_of_mem hz
  obtain ⟨j', hj', hyj'⟩ := List.mem_flatMap.1 hym
  have hle : i ≤ j' := by
    refine hmin j' j' ?_ hyj'
    rw [List.getElem?_eq_getElem (by simpa using hj')]
    simp
  have hyb := (hbeg j' y hyj').1
  rw [hxj.1, hyb]
  rcases Nat.lt_or_eq_of_le hle with hlt | heq
  · exact .inl hlt
  · subst heq
    refine .inr ⟨rfl, ?_⟩
    rcases f2 i with h0 | ⟨ds, _, g2, g3⟩
    · rw [h0] at hyj'; cases hyj'
    · rw [g3] at hfj hyj'
      exact ⟨ds, g2, hfj.filter (by simp [hend]), (List.mem_filter.1 hyj').1⟩

end Sudachi
