import Verif.Spec.Lattice
namespace Sudachi

theorem wrap32_of_range {x : Int} (h1 : -2147483648 ≤ x) (h2 : x ≤ 2147483647) : wrap32 x = x := by
  unfold wrap32 Int.bmod
  dsimp only
  split <;> omega

/-- Segmentations of a prefix, built word by word from the left: position reached, right id of the last word,
cost so far, the words. -/
inductive Reach (conn : Conn) (C : NodeData → Prop) : Nat → Int → Int → List NodeData → Prop
  | bos : Reach conn C 0 0 0 []
  | step (d : NodeData) {r c k : Int} {p : List NodeData} :
      Reach conn C d.begin_ r c p → C d → d.begin_ < d.end_ → linkCost conn r d.leftId = some k →
      Reach conn C d.end_ d.rightId (c + k + d.cost) (p ++ [d])

theorem linkCost_some {conn : Conn} {r l k : Int} :
    linkCost conn r l = some k ↔ conn l r = .ok k ∧ k ≠ inhibited := by
  unfold linkCost inhibited
  split
  · split
    · rename_i h1 h2
      constructor
      · intro h; cases h
      · intro ⟨h, h'⟩; rw [h1] at h; cases h; exact absurd h2 h'
    · rename_i h1 h2
      constructor
      · intro h; cases h; exact ⟨h1, h2⟩
      · intro ⟨h, h'⟩; rw [h1] at h; cases h; rfl
  · rename_i h1
    constructor
    · intro h; cases h
    · intro ⟨h, _⟩; rw [h1] at h; cases h

theorem Tiles.append {a b : Nat} {p : List NodeData} {d : NodeData} (h : Tiles a d.begin_ p) (hd : d.begin_ < d.end_)
    (hb : d.end_ = b) : Tiles a b (p ++ [d]) := by
  induction p generalizing a with
  | nil => simp only [Tiles] at h; simp [Tiles, h, hb]; omega
  | cons x xs ih =>
    simp only [Tiles, List.cons_append] at h ⊢
    exact ⟨h.1, h.2.1, ih h.2.2⟩

theorem Tiles.le {a b : Nat} {p : List NodeData} (h : Tiles a b p) : a ≤ b := by
  induction p generalizing a with
  | nil => simp only [Tiles] at h; omega
  | cons x xs ih =>
    simp only [Tiles] at h
    have := ih h.2.2
    omega

/-- Exact cost up to (not including) the link to the next word, with the right id reached. -/
theorem Reach.tiles {conn : Conn} {C : NodeData → Prop} {pos : Nat} {r c : Int} {p : List NodeData}
    (h : Reach conn C pos r c p) : Tiles 0 pos p ∧ (∀ d ∈ p, C d) ∧
      ∀ (q : List NodeData) (k : Int), pathCost conn r q = some k → pathCost conn 0 (p ++ q) = some (c + k) := by
  induction h with
  | bos => exact ⟨rfl, by simp, by intro q k hk; simpa using hk⟩
  | step d h hd hlt hk ih =>
    obtain ⟨t, hC, hc⟩ := ih
    refine ⟨t.append hlt rfl, ?_, ?_⟩
    · intro x hx
      rcases List.mem_append.mp hx with hx | hx
      · exact hC x hx
      · rw [List.mem_singleton.mp hx]; exact hd
    · intro q k' hq
      rw [List.append_assoc]
      have := hc ([d] ++ q) _ (by simp only [List.cons_append, List.nil_append, pathCost, hk, hq]; rfl)
      rw [this]
      congr 1
      omega

/-- Completing a prefix segmentation. -/
theorem Reach.append {conn : Conn} {C : NodeData → Prop} {n : Nat} (q : List NodeData) :
    ∀ {pos : Nat} {r c : Int} {p : List NodeData} {k : Int}, Reach conn C pos r c p → Tiles pos n q → (∀ d ∈ q, C d) →
      pathCost conn r q = some k →
      ∃ r' c' e, Reach conn C n r' c' (p ++ q) ∧ linkCost conn r' 0 = some e ∧ c + k = c' + e := by
  induction q with
  | nil =>
    intro pos r c p k h ht _ hk
    simp only [Tiles] at ht
    subst ht
    exact ⟨r, c, k, by simpa using h, hk, rfl⟩
  | cons d ds ih =>
    intro pos r c p k h ht hC hk
    simp only [Tiles] at ht
    obtain ⟨hb, hlt, ht⟩ := ht
    simp only [pathCost] at hk
    cases h1 : linkCost conn r d.leftId with
    | none => rw [h1] at hk; cases hk
    | some k1 =>
      cases h2 : pathCost conn d.rightId ds with
      | none => rw [h1, h2] at hk; cases hk
      | some k2 =>
        rw [h1, h2] at hk
        injection hk with hk
        subst hb
        obtain ⟨r', c', e, a1, a2, a3⟩ := ih (Reach.step d h (hC d (by simp)) hlt h1) ht
          (fun x hx => hC x (by simp [hx])) h2
        refine ⟨r', c', e, by simpa using a1, a2, by omega⟩

theorem isPath_iff_reach {conn : Conn} {C : NodeData → Prop} {n : Nat} {p : List NodeData} {cost : Int} :
    IsPath conn C n p cost ↔ ∃ r c e, Reach conn C n r c p ∧ linkCost conn r 0 = some e ∧ cost = c + e := by
  constructor
  · intro ⟨h1, h2, h3⟩
    obtain ⟨r', c', e, a1, a2, a3⟩ := Reach.append p (Reach.bos (conn := conn) (C := C)) h1 h2 h3
    exact ⟨r', c', e, by simpa using a1, a2, by omega⟩
  · intro ⟨r, c, e, h1, h2, h3⟩
    obtain ⟨t, hC, hc⟩ := h1.tiles
    refine ⟨t, hC, ?_⟩
    have := hc [] e h2
    rw [List.append_nil] at this
    rw [this, h3]

theorem Reach.mono {conn : Conn} {C C' : NodeData → Prop} (hC : ∀ d, C d → C' d) {pos r c p}
    (h : Reach conn C pos r c p) : Reach conn C' pos r c p := by
  induction h with
  | bos => exact .bos
  | step d _ hd hlt hk ih => exact .step d ih (hC _ hd) hlt hk

/-- Words that begin at or after `i` do not matter for reaching positions up to `i`. -/
theorem Reach.restrict {conn : Conn} {C C' : NodeData → Prop} {i : Nat} (hC : ∀ d, C' d → C d ∨ i ≤ d.begin_) {pos r c p}
    (h : Reach conn C' pos r c p) (hp : pos ≤ i) : Reach conn C pos r c p := by
  induction h with
  | bos => exact .bos
  | step d _ hd hlt hk ih =>
    rcases hC d hd with h1 | h1
    · exact .step d (ih (by omega)) h1 hlt hk
    · omega

theorem Reach.bound {conn : Conn} {C : NodeData → Prop} (hconn : conn.Short) (hC : ∀ d, C d → Short d.cost) {pos r c p}
    (h : Reach conn C pos r c p) : -(65536 * (pos : Int)) ≤ c ∧ c ≤ 65536 * (pos : Int) := by
  induction h with
  | bos => simp
  | step d _ hd hlt hk ih =>
    have h1 := hC d hd
    have h2 := hconn _ _ _ (linkCost_some.mp hk).1
    unfold Short at h1 h2
    omega

/-- What the loop of `connect_node` computes when nothing overflows. -/
theorem connectLoop_spec {conn : Conn} {leftId : Int} :
    ∀ (ls : List LNode) (total : Int) (best : Option LNode) (total' : Int) (best' : Option LNode),
      connectLoop conn leftId ls total best = .ok (total', best') →
      (∀ l ∈ ls, l.connected = true → ∀ k, linkCost conn l.data.rightId leftId = some k →
        -2147483648 ≤ l.total + k ∧ l.total + k < 2147483647) → total ≤ intMax → (best = none → total = intMax) →
      total' ≤ total ∧ (best' = none → best = none ∧
        ∀ l ∈ ls, l.connected = true → linkCost conn l.data.rightId leftId = none) ∧
      (∀ l ∈ ls, l.connected = true → ∀ k, linkCost conn l.data.rightId leftId = some k → total' ≤ l.total + k) ∧
      (best' = best ∧ total' = total ∨ ∃ b k, b ∈ ls ∧ b.connected = true ∧ best' = some b ∧
        linkCost conn b.data.rightId leftId = some k ∧ total' = b.total + k) := by
  intro ls
  induction ls with
  | nil =>
    intro total best total' best' h _ _ _
    simp only [connectLoop, Except.ok.injEq, Prod.mk.injEq] at h
    obtain ⟨h1, h2⟩ := h
    subst h1; subst h2
    simp
  | cons l ls ih =>
    intro total best total' best' h hb hmax hnone
    have hb' : ∀ l ∈ ls, l.connected = true → ∀ k, linkCost conn l.data.rightId leftId = some k →
        -2147483648 ≤ l.total + k ∧ l.total + k < 2147483647 := fun x hx => hb x (by simp [hx])
    simp only [connectLoop] at h
    split at h
    · rename_i hcon
      split at h
      · cases h
      · rename_i c hc
        split at h
        · rename_i hin
          have hl : linkCost conn l.data.rightId leftId = none := by
            simp [linkCost, hc, hin, inhibited]
          obtain ⟨a1, a2, a3, a4⟩ := ih _ _ _ _ h hb' hmax hnone
          refine ⟨a1, ?_, ?_, ?_⟩
          · intro hn
            refine ⟨(a2 hn).1, ?_⟩
            intro x hx
            rcases List.mem_cons.mp hx with rfl | hx
            · intro _; exact hl
            · exact (a2 hn).2 x hx
          · intro x hx
            rcases List.mem_cons.mp hx with rfl | hx
            · intro _ k hk; rw [hl] at hk; cases hk
            · exact a3 x hx
          · rcases a4 with h' | ⟨b, k, h1, h2⟩
            · exact .inl h'
            · exact .inr ⟨b, k, by simp [h1], h2⟩
        · rename_i hin
          have hl : linkCost conn l.data.rightId leftId = some c := linkCost_some.mpr ⟨hc, hin⟩
          have hr := hb l (by simp) hcon c hl
          rw [wrap32_of_range (by omega) (by omega)] at h
          split at h
          · rename_i hlt
            obtain ⟨a1, a2, a3, a4⟩ := ih _ _ _ _ h hb' (by omega) (by intro hh; cases hh)
            refine ⟨by omega, ?_, ?_, ?_⟩
            · intro hn; have := (a2 hn).1; cases this
            · intro x hx
              rcases List.mem_cons.mp hx with rfl | hx
              · intro _ k hk; rw [hl] at hk; cases hk; exact a1
              · exact a3 x hx
            · rcases a4 with ⟨h1, h2⟩ | ⟨b, k, h1, h2⟩
              · exact .inr ⟨l, c, by simp, hcon, h1, hl, h2⟩
              · exact .inr ⟨b, k, by simp [h1], h2⟩
          · rename_i hlt
            obtain ⟨a1, a2, a3, a4⟩ := ih _ _ _ _ h hb' hmax hnone
            refine ⟨a1, ?_, ?_, ?_⟩
            · intro hn
              have hn' := (a2 hn).1
              have := hnone hn'
              unfold intMax at this
              omega
            · intro x hx
              rcases List.mem_cons.mp hx with rfl | hx
              · intro _ k hk; rw [hl] at hk; cases hk; omega
              · exact a3 x hx
            · rcases a4 with h' | ⟨b, k, h1, h2⟩
              · exact .inl h'
              · exact .inr ⟨b, k, by simp [h1], h2⟩
    · rename_i hcon
      obtain ⟨a1, a2, a3, a4⟩ := ih _ _ _ _ h hb' hmax hnone
      refine ⟨a1, ?_, ?_, ?_⟩
      · intro hn
        refine ⟨(a2 hn).1, ?_⟩
        intro x hx
        rcases List.mem_cons.mp hx with rfl | hx
        · intro hc; exact absurd hc hcon
        · exact (a2 hn).2 x hx
      · intro x hx
        rcases List.mem_cons.mp hx with rfl | hx
        · intro hc; exact absurd hc hcon
        · exact a3 x hx
      · rcases a4 with h' | ⟨b, k, h1, h2⟩
        · exact .inl h'
        · exact .inr ⟨b, k, by simp [h1], h2⟩

/-- `connect_node` when nothing overflows: the cheapest allowed predecessor, or none. -/
theorem connectNode_spec {conn : Conn} {d : NodeData} {ls : List LNode} {x : LNode} (h : connectNode conn d ls = .ok x)
    (hb : ∀ l ∈ ls, l.connected = true → ∀ k, linkCost conn l.data.rightId d.leftId = some k →
        -2147483648 ≤ l.total + k ∧ l.total + k < 2147483647 ∧
        -2147483648 ≤ l.total + k + d.cost ∧ l.total + k + d.cost ≤ 2147483647) :
    ((∃ t, x = .lone d t) ∧ ∀ l ∈ ls, l.connected = true → linkCost conn l.data.rightId d.leftId = none) ∨
    ∃ b k, b ∈ ls ∧ b.connected = true ∧ linkCost conn b.data.rightId d.leftId = some k ∧
      x = .link d (b.total + k + d.cost) b ∧
      ∀ l ∈ ls, l.connected = true → ∀ k', linkCost conn l.data.rightId d.leftId = some k' →
        b.total + k ≤ l.total + k' := by
  unfold connectNode at h
  split at h
  · cases h
  · rename_i total hl
    cases h
    obtain ⟨_, a2, _, _⟩ := connectLoop_spec _ _ _ _ _ hl (fun l hl hc k hk => ⟨(hb l hl hc k hk).1, (hb l hl hc k hk).2.1⟩)
      (by simp) (by simp)
    exact .inl ⟨⟨_, rfl⟩, (a2 rfl).2⟩
  · rename_i total p hl
    cases h
    obtain ⟨_, _, a3, a4⟩ := connectLoop_spec _ _ _ _ _ hl (fun l hl hc k hk => ⟨(hb l hl hc k hk).1, (hb l hl hc k hk).2.1⟩)
      (by simp) (by simp)
    rcases a4 with ⟨h1, _⟩ | ⟨b, k, h1, h2, h3, h4, h5⟩
    · cases h1
    · cases h3
      have := hb p h1 h2 k h4
      refine .inr ⟨p, k, h1, h2, h4, ?_, ?_⟩
      · rw [h5, wrap32_of_range (by omega) (by omega)]
      · intro l hl hc k' hk'
        have := a3 l hl hc k' hk'
        omega

end Sudachi
