import Verif.Spec.ConnectCost
import Verif.Lemmas.Load
import Verif.Lemmas.Open
namespace Sudachi

theorem viewIndex_iff {n : Nat} {i : Int} {k : Nat} : Grammar.viewIndex n i = .ok k ↔ Place n i k := by
  unfold Grammar.viewIndex Place
  split
  · split
    · constructor
      · intro h; cases h
      · intro h; omega
    · constructor
      · intro h
        have := Except.ok.inj h
        omega
      · intro h
        congr 1
        omega
  · split
    · constructor
      · intro h
        have := Except.ok.inj h
        omega
      · intro h
        congr 1
        omega
    · constructor
      · intro h; cases h
      · intro h; omega

theorem Place.unique {n : Nat} {i : Int} {a b : Nat} (h1 : Place n i a) (h2 : Place n i b) : a = b := by
  have := viewIndex_iff.mpr h1
  rw [viewIndex_iff.mpr h2] at this
  exact (Except.ok.inj this).symm

theorem viewIndex_error {n : Nat} {i : Int} {e : Err} (h : Grammar.viewIndex n i = .error e) : ∀ k, ¬ Place n i k := by
  intro k hk
  rw [viewIndex_iff.mpr hk] at h
  cases h

theorem cell_eq {g : Grammar} {l r : Int} {a b : Nat} (h1 : Place g.left r a) (h2 : Place g.right l b) :
    g.getConnectCost l r = pyGet g.matrix (a * g.right + b) := by
  unfold Grammar.getConnectCost Grammar.cell
  rw [viewIndex_iff.mpr h1, viewIndex_iff.mpr h2]
  rfl

theorem place_flat {m n a b c d : Nat} (hb : b < n) (hd : d < n) (h : a * n + b = c * n + d) : a = c ∧ b = d := by
  have h1 : (a * n + b) / n = a := by
    rw [Nat.mul_comm, Nat.mul_add_div (by omega), Nat.div_eq_of_lt hb, Nat.add_zero]
  have h2 : (c * n + d) / n = c := by
    rw [Nat.mul_comm, Nat.mul_add_div (by omega), Nat.div_eq_of_lt hd, Nat.add_zero]
  have : a = c := by rw [← h1, ← h2, h]
  subst this
  omega

theorem flat_lt {m n a b : Nat} (ha : a < m) (hb : b < n) : a * n + b < m * n := by
  have : (a + 1) * n ≤ m * n := Nat.mul_le_mul_right n ha
  rw [Nat.add_mul, Nat.one_mul] at this
  omega

/-- One cell is set. -/
theorem setConnectCost_iff {g g' : Grammar} {x y : Res Int} {cost : Int} (hc : -32768 ≤ cost ∧ cost ≤ 32767) :
    g.setConnectCost true x y cost = .ok g' ↔ ∃ l r a b, x = .ok l ∧ y = .ok r ∧ Place g.left r a ∧ Place g.right l b ∧
      g' = { g with matrix := g.matrix.set (a * g.right + b) cost } := by
  unfold Grammar.setConnectCost
  rw [if_neg (by simp)]
  constructor
  · intro h
    obtain ⟨r, h1, h⟩ := bind_ok h
    obtain ⟨l, h2, h⟩ := bind_ok h
    split at h
    · cases h
    · obtain ⟨a, h3, h⟩ := bind_ok h
      obtain ⟨b, h4, h⟩ := bind_ok h
      rw [if_neg (by omega)] at h
      exact ⟨l, r, a, b, h2, h1, viewIndex_iff.mp h3, viewIndex_iff.mp h4, (Except.ok.inj h).symm⟩
  · rintro ⟨l, r, a, b, rfl, rfl, h3, h4, rfl⟩
    have hz : ¬ g.left * g.right = 0 := by
      intro hz
      rcases Nat.mul_eq_zero.mp hz with hz | hz
      · have := h3.1; omega
      · have := h4.1; omega
    show (if g.left * g.right = 0 then _ else _) = _
    rw [if_neg hz, viewIndex_iff.mpr h3, viewIndex_iff.mpr h4]
    show (if _ then _ else _) = _
    rw [if_neg (by omega)]
    rfl

theorem pyGet_set {α : Type} {l : List α} {i j : Nat} {v : α} : pyGet (l.set i v) j = if i = j ∧ j < l.length then .ok v else pyGet l j := by
  unfold pyGet
  by_cases h : i = j
  · subst h
    by_cases hl : i < l.length
    · rw [if_pos ⟨rfl, hl⟩, List.getElem?_set_self hl]
    · rw [if_neg (by omega), List.getElem?_eq_none (by rw [List.length_set]; omega), List.getElem?_eq_none (by omega)]
  · rw [if_neg (by omega), List.getElem?_set_ne h]

theorem set_cell {g : Grammar} (hg : g.Full) {l r : Int} {a b : Nat} (h1 : Place g.left r a) (h2 : Place g.right l b) (cost : Int) (l' r' : Int) :
    (g.Same l r l' r' → Grammar.getConnectCost { g with matrix := g.matrix.set (a * g.right + b) cost } l' r' = .ok cost) ∧
    (¬ g.Same l r l' r' → Grammar.getConnectCost { g with matrix := g.matrix.set (a * g.right + b) cost } l' r' = g.getConnectCost l' r') := by
  have hlt : a * g.right + b < g.matrix.length := by rw [hg]; exact flat_lt h1.1 h2.1
  constructor
  · rintro ⟨⟨a', k1, k2⟩, b', k3, k4⟩
    rw [cell_eq (g := { g with matrix := g.matrix.set (a * g.right + b) cost }) (a := a') (b := b') k2 k4]
    show pyGet (g.matrix.set (a * g.right + b) cost) (a' * g.right + b') = _
    rw [k1.unique h1, k3.unique h2, pyGet_set, if_pos ⟨rfl, hlt⟩]
  · intro hn
    unfold Grammar.getConnectCost Grammar.cell
    show (Grammar.viewIndex g.left r' >>= _) = (Grammar.viewIndex g.left r' >>= _)
    cases hx : Grammar.viewIndex g.left r' with
    | error e => rfl
    | ok a' =>
      show (Grammar.viewIndex g.right l' >>= _) = (Grammar.viewIndex g.right l' >>= _)
      cases hy : Grammar.viewIndex g.right l' with
      | error e => rfl
      | ok b' =>
        show pyGet (g.matrix.set (a * g.right + b) cost) (a' * g.right + b') = pyGet g.matrix (a' * g.right + b')
        have k2 := viewIndex_iff.mp hx
        have k4 := viewIndex_iff.mp hy
        rw [pyGet_set, if_neg]
        rintro ⟨h, _⟩
        obtain ⟨rfl, rfl⟩ := place_flat (m := 0) h2.1 k4.1 h
        exact hn ⟨⟨a, h1, k2⟩, b, h2, k4⟩

theorem index_iff {j : Json} {n : Int} : j.index = .ok n ↔ j.IsInt n := by
  cases j with
  | bool b => cases b <;> simp [Json.index, Json.IsInt, eq_comm]
  | num m => simp [Json.index, Json.IsInt]
  | _ => simp [Json.index, Json.IsInt]

theorem IsInt.unique {j : Json} {m n : Int} (h1 : j.IsInt m) (h2 : j.IsInt n) : m = n := by
  have := index_iff.mpr h1
  rw [index_iff.mpr h2] at this
  exact (Except.ok.inj this).symm

theorem Json.IsPair.unique {j : Json} {l r l' r' : Int} (h1 : j.IsPair l r) (h2 : j.IsPair l' r') : l = l' ∧ r = r' := by
  obtain ⟨x, y, rest, rfl, a1, a2⟩ := h1
  obtain ⟨x', y', rest', e, b1, b2⟩ := h2
  cases e
  exact ⟨IsInt.unique a1 b1, IsInt.unique a2 b2⟩

theorem Json.IsPair.notShort {j : Json} {l r : Int} (h : j.IsPair l r) : ¬ j.Short := by
  obtain ⟨x, y, rest, rfl, _⟩ := h
  rintro (⟨l, e, h⟩ | ⟨_, e, _⟩ | ⟨_, e, _⟩)
  · cases e
    simp only [List.length_cons] at h
    omega
  · cases e
  · cases e

theorem inhibitPair_iff {g g' : Grammar} {p : Json} : inhibitPair true g p = .ok g' ↔
    (p.Short ∧ g' = g) ∨ ∃ l r a b, p.IsPair l r ∧ Place g.left r a ∧ Place g.right l b ∧
      g' = { g with matrix := g.matrix.set (a * g.right + b) 0x7fff } := by
  have nopair : ∀ {p : Json}, (∀ l, p ≠ .list l) → ∀ l r, ¬ p.IsPair l r := by
    rintro p hp l r ⟨x, y, rest, rfl, _⟩
    exact hp _ rfl
  match p with
  | .list (x :: y :: rest) =>
    show g.setConnectCost true x.index y.index inhibited = _ ↔ _
    rw [setConnectCost_iff (by decide)]
    constructor
    · rintro ⟨l, r, a, b, h1, h2, h3, h4, rfl⟩
      exact .inr ⟨l, r, a, b, ⟨x, y, rest, rfl, index_iff.mp h1, index_iff.mp h2⟩, h3, h4, rfl⟩
    · rintro (⟨⟨l, e, h⟩ | ⟨_, e, _⟩ | ⟨_, e, _⟩, _⟩ | ⟨l, r, a, b, ⟨x', y', rest', e, h1, h2⟩, h3, h4, rfl⟩)
      · cases e
        simp only [List.length_cons] at h
        omega
      · cases e
      · cases e
      · cases e
        exact ⟨l, r, a, b, index_iff.mpr h1, index_iff.mpr h2, h3, h4, rfl⟩
  | .list [] => 
    show Except.ok g = _ ↔ _
    constructor
    · intro h; exact .inl ⟨.inl ⟨_, rfl, by decide⟩, (Except.ok.inj h).symm⟩
    · rintro (⟨_, rfl⟩ | ⟨l, r, a, b, ⟨x, y, rest, e, _⟩, _⟩)
      · rfl
      · cases e
  | .list [x] =>
    show Except.ok g = _ ↔ _
    constructor
    · intro h; exact .inl ⟨.inl ⟨_, rfl, Nat.lt_succ_self 1⟩, (Except.ok.inj h).symm⟩
    · rintro (⟨_, rfl⟩ | ⟨l, r, a, b, ⟨x, y, rest, e, _⟩, _⟩)
      · rfl
      · cases e
  | .str (x :: y :: rest) =>
    show g.setConnectCost true (.error .type) (.error .type) inhibited = _ ↔ _
    rw [setConnectCost_iff (by decide)]
    constructor
    · rintro ⟨l, r, a, b, h1, _⟩; cases h1
    · rintro (⟨⟨l, e, h⟩ | ⟨_, e, h⟩ | ⟨_, e, _⟩, _⟩ | ⟨l, r, a, b, hp, _⟩)
      · cases e
      · cases e
        simp only [List.length_cons] at h
        omega
      · cases e
      · exact absurd hp (nopair (by intro l h; cases h) l r)
  | .str [] =>
    show Except.ok g = _ ↔ _
    constructor
    · intro h; exact .inl ⟨.inr (.inl ⟨_, rfl, by decide⟩), (Except.ok.inj h).symm⟩
    · rintro (⟨_, rfl⟩ | ⟨l, r, a, b, hp, _⟩)
      · rfl
      · exact absurd hp (nopair (by intro l h; cases h) l r)
  | .str [x] =>
    show Except.ok g = _ ↔ _
    constructor
    · intro h; exact .inl ⟨.inr (.inl ⟨_, rfl, Nat.lt_succ_self 1⟩), (Except.ok.inj h).symm⟩
    · rintro (⟨_, rfl⟩ | ⟨l, r, a, b, hp, _⟩)
      · rfl
      · exact absurd hp (nopair (by intro l h; cases h) l r)
  | .obj (x :: y :: rest) =>
    constructor
    · intro h; cases h
    · rintro (⟨⟨l, e, h⟩ | ⟨_, e, h⟩ | ⟨_, e, h⟩, _⟩ | ⟨l, r, a, b, hp, _⟩)
      · cases e
      · cases e
      · cases e
        simp only [List.length_cons] at h
        omega
      · exact absurd hp (nopair (by intro l h; cases h) l r)
  | .obj [] =>
    show Except.ok g = _ ↔ _
    constructor
    · intro h; exact .inl ⟨.inr (.inr ⟨_, rfl, by decide⟩), (Except.ok.inj h).symm⟩
    · rintro (⟨_, rfl⟩ | ⟨l, r, a, b, hp, _⟩)
      · rfl
      · exact absurd hp (nopair (by intro l h; cases h) l r)
  | .obj [x] =>
    show Except.ok g = _ ↔ _
    constructor
    · intro h; exact .inl ⟨.inr (.inr ⟨_, rfl, Nat.lt_succ_self 1⟩), (Except.ok.inj h).symm⟩
    · rintro (⟨_, rfl⟩ | ⟨l, r, a, b, hp, _⟩)
      · rfl
      · exact absurd hp (nopair (by intro l h; cases h) l r)
  | .null | .bool _ | .num _ | .real _ =>
    constructor
    · intro h; cases h
    · rintro (⟨⟨l, e, h⟩ | ⟨_, e, h⟩ | ⟨_, e, h⟩, _⟩ | ⟨l, r, a, b, hp, _⟩)
      · cases e
      · cases e
      · cases e
      · exact absurd hp (nopair (by intro l h; cases h) l r)

theorem Inhibits.refl {g : Grammar} {ps : List Json} (h : ∀ p ∈ ps, p.Short) : Inhibits g ps g :=
  ⟨rfl, rfl, rfl, rfl, rfl, fun _ _ ⟨p, hp, _, _, h1, _⟩ => absurd (h p hp) h1.notShort, fun _ _ _ => rfl⟩

theorem same_congr {g g' : Grammar} (h1 : g'.left = g.left) (h2 : g'.right = g.right) {l r l' r' : Int} : g'.Same l r l' r' ↔ g.Same l r l' r' := by
  unfold Grammar.Same
  rw [h1, h2]

/-- The pairs in order, without the grammar after an exception. -/
def inhibitPairs (writable : Bool) : Grammar → List Json → Res Grammar
  | g, [] => .ok g
  | g, p :: ps => do
    let g' ← inhibitPair writable g p
    inhibitPairs writable g' ps

theorem inhibitPairsM_ok {writable : Bool} : ∀ {ps : List Json} {g g' : Grammar},
    inhibitPairsM writable g ps = (g', .ok ()) ↔ inhibitPairs writable g ps = .ok g'
  | [], g, g' => by
    unfold inhibitPairsM inhibitPairs
    exact ⟨fun h => (by cases h; rfl), fun h => (by cases h; rfl)⟩
  | p :: ps, g, g' => by
    unfold inhibitPairsM inhibitPairs
    cases inhibitPair writable g p with
    | error e => exact ⟨fun h => (by cases h), fun h => (by cases h)⟩
    | ok g1 => exact inhibitPairsM_ok (ps := ps)

theorem inhibitPairsM_error {writable : Bool} {e : Err} : ∀ {ps : List Json} {g : Grammar},
    (∃ g', inhibitPairsM writable g ps = (g', .error e)) ↔ inhibitPairs writable g ps = .error e
  | [], g => ⟨fun ⟨_, h⟩ => (by cases h), fun h => (by cases h)⟩
  | p :: ps, g => by
    unfold inhibitPairsM inhibitPairs
    cases inhibitPair writable g p with
    | error e' => exact ⟨fun ⟨_, h⟩ => (by cases h; rfl), fun h => (by cases h; exact ⟨g, rfl⟩)⟩
    | ok g1 => exact inhibitPairsM_error (ps := ps)

theorem inhibitEdit_list {writable : Bool} {g : Grammar} {ps : List Json} : inhibitEdit writable g (.list ps) = inhibitPairs writable g ps := by
  have h : inhibitEditM writable g (.list ps) = inhibitPairsM writable g ps := rfl
  unfold inhibitEdit
  rw [h]
  cases hm : inhibitPairsM writable g ps with
  | mk g' r =>
    cases r with
    | error e => exact (inhibitPairsM_error.1 ⟨g', hm⟩).symm
    | ok u => exact (inhibitPairsM_ok.1 hm).symm

/-- Where the loop stopped. -/
theorem inhibitPairsM_stops {writable : Bool} {e : Err} {g' : Grammar} : ∀ {ps : List Json} {g : Grammar},
    inhibitPairsM writable g ps = (g', .error e) →
    ∃ pre p post, ps = pre ++ p :: post ∧ inhibitPairs writable g pre = .ok g' ∧ inhibitPair writable g' p = .error e
  | [], _, h => by cases h
  | p :: ps, g, h => by
    unfold inhibitPairsM at h
    cases hp : inhibitPair writable g p with
    | error e' =>
      rw [hp] at h
      cases h
      exact ⟨[], p, ps, rfl, rfl, hp⟩
    | ok g1 =>
      rw [hp] at h
      obtain ⟨pre, q, post, rfl, h1, h2⟩ := inhibitPairsM_stops (ps := ps) h
      refine ⟨p :: pre, q, post, rfl, ?_, h2⟩
      unfold inhibitPairs
      rw [hp]
      exact h1

theorem inhibitPairs_iff {ps : List Json} : ∀ {g : Grammar}, g.Full → ((∃ g', inhibitPairs true g ps = .ok g') ↔
    ∀ p ∈ ps, p.Short ∨ ∃ l r, p.IsPair l r ∧ g.Has l r) := by
  induction ps with
  | nil => intro g _; exact ⟨fun _ p hp => (by cases hp), fun _ => ⟨g, rfl⟩⟩
  | cons p ps ih =>
    intro g hg
    have step : ∀ {g1 : Grammar}, inhibitPair true g p = .ok g1 → g1.Full ∧ g1.left = g.left ∧ g1.right = g.right := by
      intro g1 h
      rcases inhibitPair_iff.mp h with ⟨_, rfl⟩ | ⟨l, r, a, b, _, _, _, rfl⟩
      · exact ⟨hg, rfl, rfl⟩
      · exact ⟨by unfold Grammar.Full at hg ⊢; rw [List.length_set]; exact hg, rfl, rfl⟩
    constructor
    · rintro ⟨g', h⟩ q hq
      obtain ⟨g1, h1, h2⟩ := bind_ok h
      rcases List.mem_cons.mp hq with rfl | hq
      · rcases inhibitPair_iff.mp h1 with ⟨hs, _⟩ | ⟨l, r, a, b, k1, k2, k3, _⟩
        · exact .inl hs
        · exact .inr ⟨l, r, k1, ⟨a, k2⟩, b, k3⟩
      · obtain ⟨s1, s2, s3⟩ := step h1
        rcases (ih s1).mp ⟨g', h2⟩ q hq with hs | ⟨l, r, k1, k2⟩
        · exact .inl hs
        · unfold Grammar.Has at k2
          rw [s2, s3] at k2
          exact .inr ⟨l, r, k1, k2⟩
    · intro h
      have : ∃ g1, inhibitPair true g p = .ok g1 := by
        rcases h p (by simp) with hs | ⟨l, r, k1, ⟨a, k2⟩, b, k3⟩
        · exact ⟨g, inhibitPair_iff.mpr (.inl ⟨hs, rfl⟩)⟩
        · exact ⟨_, inhibitPair_iff.mpr (.inr ⟨l, r, a, b, k1, k2, k3, rfl⟩)⟩
      obtain ⟨g1, h1⟩ := this
      obtain ⟨s1, s2, s3⟩ := step h1
      obtain ⟨g', h2⟩ := (ih s1).mpr (fun q hq => by
        rcases h q (by simp [hq]) with hs | ⟨l, r, k1, k2⟩
        · exact .inl hs
        · refine .inr ⟨l, r, k1, ?_⟩
          unfold Grammar.Has
          rw [s2, s3]
          exact k2)
      refine ⟨g', ?_⟩
      show (inhibitPair true g p >>= _) = _
      rw [h1]
      exact h2

theorem inhibitPairs_inhibits {ps : List Json} : ∀ {g g' : Grammar}, g.Full → inhibitPairs true g ps = .ok g' → Inhibits g ps g' := by
  induction ps with
  | nil => intro g g' _ h; cases h; exact .refl (fun p hp => by cases hp)
  | cons p ps ih =>
    intro g g' hg h
    obtain ⟨g1, h1, h2⟩ := bind_ok h
    rcases inhibitPair_iff.mp h1 with ⟨hs, rfl⟩ | ⟨l, r, a, b, k1, k2, k3, rfl⟩
    · have := ih hg h2
      refine ⟨this.pos, this.left, this.right, this.storageSize, this.size, ?_, ?_⟩
      · rintro l' r' ⟨q, hq, l, r, h3, h4⟩
        rcases List.mem_cons.mp hq with rfl | hq
        · exact absurd hs h3.notShort
        · exact this.named l' r' ⟨q, hq, l, r, h3, h4⟩
      · intro l' r' hn
        exact this.others l' r' (fun ⟨q, hq, h3⟩ => hn ⟨q, by simp [hq], h3⟩)
    · have hfull : Grammar.Full { g with matrix := g.matrix.set (a * g.right + b) 0x7fff } := by
        unfold Grammar.Full at hg ⊢; rw [List.length_set]; exact hg
      have := ih hfull h2
      have hset := fun l' r' => set_cell hg k2 k3 0x7fff l' r'
      refine ⟨this.pos, this.left, this.right, this.storageSize, this.size.trans List.length_set, ?_, ?_⟩
      · intro l' r' hn
        by_cases hm : Grammar.Named { g with matrix := g.matrix.set (a * g.right + b) 0x7fff } ps l' r'
        · exact this.named l' r' hm
        · rw [this.others l' r' hm]
          obtain ⟨q, hq, l2, r2, h3, h4⟩ := hn
          rcases List.mem_cons.mp hq with rfl | hq
          · obtain ⟨rfl, rfl⟩ := Json.IsPair.unique k1 h3
            exact (hset l' r').1 h4
          · exact absurd ⟨q, hq, l2, r2, h3, h4⟩ hm
      · intro l' r' hn
        rw [this.others l' r' (fun ⟨q, hq, l2, r2, h3, h4⟩ => hn ⟨q, by simp [hq], l2, r2, h3, h4⟩)]
        exact (hset l' r').2 (fun hs => hn ⟨p, by simp, l, r, k1, hs⟩)

/-! The grammar of a dictionary -/

theorem castMatrix_length {b : Bytes} {i left right : Nat} {m : List Int} (h : castMatrix b i left right = .ok m) : m.length = left * right := by
  unfold castMatrix at h
  split at h
  · rename_i h0
    cases h
    rw [h0]
    rfl
  · split at h
    · rename_i h1
      cases h
      rw [shorts_length, h1, Nat.mul_assoc]
      omega
    · cases h

theorem grammar_full {b : Bytes} {offset : Nat} {g : Grammar} (h : Grammar.read b offset = .ok g) : g.Full := by
  unfold Grammar.read at h
  obtain ⟨i0, _, h⟩ := bind_ok h
  obtain ⟨⟨posList, i2⟩, _, h⟩ := bind_ok h
  dsimp only at h
  split at h
  · cases h
  · obtain ⟨cells, h1, h⟩ := bind_ok h
    cases h
    exact castMatrix_length h1

theorem readSystem_full {b : Bytes} {d : Dict} (h : Dict.readSystem b = .ok d) : d.grammar.Full := by
  unfold Dict.readSystem at h
  obtain ⟨x, h1, h⟩ := bind_ok h
  unfold fromSystemDictionary at h1
  obtain ⟨y, h2, h1⟩ := bind_ok h1
  split at h1
  · cases h1
  · cases h1
    unfold readDictionary at h2
    split at h2
    · cases h2
    · obtain ⟨hd, _, h2⟩ := bind_ok h2
      split at h2
      · cases h2
      · split at h2
        · obtain ⟨g, hg, h2⟩ := bind_ok h2
          obtain ⟨lex, _, h2⟩ := bind_ok h2
          cases h2
          cases h
          exact grammar_full hg
        · obtain ⟨lex, _, h2⟩ := bind_ok h2
          cases h2
          cases h

/-- The matrix is the same. -/
def SameMatrix (g g' : Grammar) : Prop := g'.left = g.left ∧ g'.right = g.right ∧ g'.matrix = g.matrix

theorem readUser_matrix {cfg : DictConfig} {d d' : Dict} {b : Bytes} (h : d.readUser cfg b = .ok d') : SameMatrix d.grammar d'.grammar := by
  unfold Dict.readUser at h
  split at h
  · cases h
  · obtain ⟨x, _, h⟩ := bind_ok h
    split at h
    · cases h
    obtain ⟨y, _, h⟩ := bind_ok h
    dsimp only at h
    split at h
    · cases h; exact ⟨rfl, rfl, rfl⟩
    · cases h; exact ⟨rfl, rfl, rfl⟩

theorem readUsers_matrix {cfg : DictConfig} {bs : List Bytes} : ∀ {d d' : Dict}, d.readUsers cfg bs = .ok d' → SameMatrix d.grammar d'.grammar := by
  induction bs with
  | nil => intro d d' h; cases h; exact ⟨rfl, rfl, rfl⟩
  | cons b bs ih =>
    intro d d' h
    obtain ⟨x, h1, h2⟩ := bind_ok h
    obtain ⟨a1, a2, a3⟩ := readUser_matrix h1
    obtain ⟨b1, b2, b3⟩ := ih h2
    exact ⟨b1.trans a1, b2.trans a2, b3.trans a3⟩

theorem load_matrix {cfg : DictConfig} {b : Bytes} {bs : List Bytes} {d : Dict} (h : Dict.load cfg b bs = .ok d) :
    ∃ sys, Dict.readSystem b = .ok sys ∧ SameMatrix sys.grammar d.grammar := by
  unfold Dict.load at h
  obtain ⟨sys, h1, h⟩ := bind_ok h
  split at h
  · cases h
  · exact ⟨sys, h1, readUsers_matrix h⟩

/-! Paths -/

theorem linkCost_inhibited {g g' : Grammar} {ps : List Json} (h : Inhibits g ps g') {l r : Int} {c : Int} :
    linkCost g'.cell l r = some c ↔ linkCost g.cell l r = some c ∧ ¬ g.Named ps l r := by
  unfold linkCost
  by_cases hn : g.Named ps l r
  · have := h.named l r hn
    unfold Grammar.getConnectCost at this
    rw [this]
    simp [hn]
  · have := h.others l r hn
    unfold Grammar.getConnectCost at this
    rw [this]
    simp [hn]

theorem pathCost_inhibited {g g' : Grammar} {ps : List Json} (h : Inhibits g ps g') {p : List NodeData} : ∀ {r : Int} {c : Int},
    pathCost g'.cell r p = some c ↔ pathCost g.cell r p = some c ∧ Avoids (g.Named ps) r p := by
  induction p with
  | nil => intro r c; exact linkCost_inhibited h
  | cons d ds ih =>
    intro r c
    have step : ∀ (conn : Conn), pathCost conn r (d :: ds) = some c ↔
        ∃ k x, linkCost conn r d.leftId = some k ∧ pathCost conn d.rightId ds = some x ∧ c = k + d.cost + x := by
      intro conn
      show (match linkCost conn r d.leftId, pathCost conn d.rightId ds with
        | some k, some rest => some (k + d.cost + rest)
        | _, _ => none) = some c ↔ _
      cases linkCost conn r d.leftId <;> cases pathCost conn d.rightId ds <;> simp [eq_comm]
    rw [step, step]
    constructor
    · rintro ⟨k, x, h1, h2, rfl⟩
      obtain ⟨a1, a2⟩ := (linkCost_inhibited h).mp h1
      obtain ⟨b1, b2⟩ := ih.mp h2
      exact ⟨⟨k, x, a1, b1, rfl⟩, a2, b2⟩
    · rintro ⟨⟨k, x, h1, h2, rfl⟩, a2, b2⟩
      exact ⟨k, x, (linkCost_inhibited h).mpr ⟨h1, a2⟩, ih.mpr ⟨h2, b2⟩, rfl⟩

theorem viewIndex_kind {n : Nat} {i : Int} {e : Err} (h : Grammar.viewIndex n i = .error e) : e = .index := by
  unfold Grammar.viewIndex at h
  split at h
  · split at h <;> cases h
    rfl
  · split at h <;> cases h
    rfl

theorem inhibitPair_refuses {g : Grammar} {p : Json} {e : Err} (h : inhibitPair true g p = .error e) : g.Refuses p e := by
  have other : ∀ {p : Json}, (∀ l, p ≠ .list l) → ∀ l r, ¬ p.IsPair l r := by
    rintro p hp l r ⟨x, y, rest, rfl, _⟩
    exact hp _ rfl
  have long : ∀ {l : List Json}, 2 ≤ l.length → ¬ (Json.list l).Short := by
    rintro l hl (⟨_, h, h'⟩ | ⟨_, h, _⟩ | ⟨_, h, _⟩) <;> cases h
    omega
  match p, h with
  | .list (x :: y :: rest), h =>
    refine ⟨long (by simp), ?_⟩
    have nopair : (∀ n, ¬ x.IsInt n) ∨ (∀ n, ¬ y.IsInt n) → ∀ l r, ¬ (Json.list (x :: y :: rest)).IsPair l r := by
      rintro hn l r ⟨x', y', rest', he, h1, h2⟩
      cases he
      rcases hn with hn | hn
      · exact hn _ h1
      · exact hn _ h2
    have kind : ∀ {j : Json} {e : Err}, j.index = .error e → e = .type ∧ ∀ n, ¬ j.IsInt n := by
      intro j e h
      refine ⟨?_, fun n hn => by rw [index_iff.mpr hn] at h; cases h⟩
      unfold Json.index at h
      split at h <;> cases h
      rfl
    have h : g.setConnectCost true x.index y.index inhibited = .error e := h
    unfold Grammar.setConnectCost at h
    rw [if_neg (by decide)] at h
    cases hy : y.index with
    | error e' =>
      rw [hy] at h
      cases h
      obtain ⟨rfl, k⟩ := kind hy
      exact .inr (.inr ⟨rfl, fun _ h => (by cases h), .inr (nopair (.inr k))⟩)
    | ok r =>
    cases hx : x.index with
    | error e' =>
      rw [hy, hx] at h
      cases h
      obtain ⟨rfl, k⟩ := kind hx
      exact .inr (.inr ⟨rfl, fun _ h => (by cases h), .inr (nopair (.inl k))⟩)
    | ok l =>
    rw [hy, hx] at h
    have h : (if g.left * g.right = 0 then .error .type else _ : Res Grammar) = .error e := h
    split at h
    · rename_i hz
      cases h
      exact .inr (.inr ⟨rfl, fun _ h => (by cases h), .inl (Nat.mul_eq_zero.mp hz)⟩)
    rename_i hz
    have hpair : (Json.list (x :: y :: rest)).IsPair l r := ⟨x, y, rest, rfl, index_iff.mp hx, index_iff.mp hy⟩
    have hzz : g.left ≠ 0 ∧ g.right ≠ 0 := ⟨fun h0 => hz (by rw [h0, Nat.zero_mul]), fun h0 => hz (by rw [h0, Nat.mul_zero])⟩
    cases ha : Grammar.viewIndex g.left r with
    | error e' =>
      rw [ha] at h
      cases h
      have := viewIndex_kind ha
      subst this
      exact .inr (.inl ⟨rfl, hzz.1, hzz.2, l, r, hpair, fun ⟨⟨a, h1⟩, _⟩ => viewIndex_error ha a h1⟩)
    | ok a =>
    cases hb : Grammar.viewIndex g.right l with
    | error e' =>
      rw [ha, hb] at h
      cases h
      have := viewIndex_kind hb
      subst this
      exact .inr (.inl ⟨rfl, hzz.1, hzz.2, l, r, hpair, fun ⟨_, b, h1⟩ => viewIndex_error hb b h1⟩)
    | ok b =>
    rw [ha, hb] at h
    have h : (if inhibited < -32768 ∨ inhibited > 32767 then .error .value else _ : Res Grammar) = .error e := h
    rw [if_neg (by decide)] at h
    cases h
  | .str (x :: y :: rest), h =>
    cases h
    refine ⟨?_, .inr (.inr ⟨rfl, fun _ h => (by cases h), .inr (other fun _ h => by cases h)⟩)⟩
    rintro (⟨_, h, h'⟩ | ⟨_, h, h'⟩ | ⟨_, h, _⟩) <;> cases h
    rw [List.length_cons, List.length_cons] at h'; omega
  | .obj (x :: y :: rest), h =>
    cases h
    refine ⟨?_, .inl ⟨rfl, _, rfl⟩⟩
    rintro (⟨_, h, h'⟩ | ⟨_, h, _⟩ | ⟨_, h, h'⟩) <;> cases h
    rw [List.length_cons, List.length_cons] at h'; omega
  | .null, h | .bool _, h | .num _, h | .real _, h =>
    cases h
    refine ⟨?_, .inr (.inr ⟨rfl, fun _ h => (by cases h), .inr (other fun _ h => by cases h)⟩)⟩
    rintro (⟨_, h, _⟩ | ⟨_, h, _⟩ | ⟨_, h, _⟩) <;> cases h
  | .list [], h | .list [_], h | .str [], h | .str [_], h | .obj [], h | .obj [_], h => cases h

theorem Grammar.Refuses.not_ok {g : Grammar} {p : Json} {e : Err} (h : g.Refuses p e) : ¬ (p.Short ∨ ∃ l r, p.IsPair l r ∧ g.Has l r) := by
  obtain ⟨h1, h2⟩ := h
  rintro (h | ⟨l, r, ⟨x, y, rest, rfl, hx, hy⟩, ⟨⟨a, ha⟩, b, hb⟩⟩)
  · exact h1 h
  · rcases h2 with ⟨_, kvs, h⟩ | ⟨_, _, _, l', r', ⟨x', y', rest', he, hx', hy'⟩, h⟩ | ⟨_, _, h | h⟩
    · cases h
    · cases he
      rw [IsInt.unique hx' hx, IsInt.unique hy' hy] at h
      exact h ⟨⟨a, ha⟩, b, hb⟩
    · have := ha.1
      have := hb.1
      omega
    · exact h l r ⟨x, y, rest, rfl, hx, hy⟩

theorem Grammar.Refuses.unique {g : Grammar} {p : Json} {e e' : Err} (h : g.Refuses p e) (h' : g.Refuses p e') : e = e' := by
  obtain ⟨_, h⟩ := h
  obtain ⟨_, h'⟩ := h'
  rcases h with ⟨rfl, kvs, h⟩ | ⟨rfl, z1, z2, l, r, h, _⟩ | ⟨rfl, h1, h2⟩ <;>
    rcases h' with ⟨rfl, kvs', h'⟩ | ⟨rfl, z1', z2', l', r', h', _⟩ | ⟨rfl, h1', h2'⟩ <;> try rfl
  · obtain ⟨_, _, _, he, _⟩ := h'
    rw [h] at he; cases he
  · exact absurd h (h1' _)
  · obtain ⟨_, _, _, he, _⟩ := h
    rw [h'] at he; cases he
  · rcases h2' with h2' | h2'
    · omega
    · exact absurd h (h2' _ _)
  · exact absurd h' (h1 _)
  · rcases h2 with h2 | h2
    · omega
    · exact absurd h' (h2 _ _)

theorem inhibitPairs_fails {ps : List Json} {e : Err} : ∀ {g : Grammar}, inhibitPairs true g ps = .error e ↔
    ∃ pre p post, ps = pre ++ p :: post ∧ (∀ q ∈ pre, q.Short ∨ ∃ l r, q.IsPair l r ∧ g.Has l r) ∧ g.Refuses p e := by
  induction ps with
  | nil =>
    intro g
    constructor
    · intro h; cases h
    · rintro ⟨pre, p, post, h, _⟩
      cases pre <;> cases h
  | cons p ps ih =>
    intro g
    cases hp : inhibitPair true g p with
    | error e' =>
      have hr := inhibitPair_refuses hp
      have he : inhibitPairs true g (p :: ps) = .error e' := by unfold inhibitPairs; rw [hp]; rfl
      rw [he]
      constructor
      · intro h
        cases h
        exact ⟨[], p, ps, rfl, fun _ h => (by cases h), hr⟩
      · rintro ⟨pre, q, post, h1, h2, h3⟩
        cases pre with
        | nil => cases h1; rw [hr.unique h3]
        | cons x pre =>
          cases h1
          exact absurd (h2 _ (by simp)) hr.not_ok
    | ok g1 =>
      have he : inhibitPairs true g (p :: ps) = inhibitPairs true g1 ps := by rw [inhibitPairs, hp]; rfl
      have hs : (p.Short ∨ ∃ l r, p.IsPair l r ∧ g.Has l r) ∧ g1.left = g.left ∧ g1.right = g.right := by
        rcases inhibitPair_iff.mp hp with ⟨h, rfl⟩ | ⟨l, r, a, b, h1, h2, h3, rfl⟩
        · exact ⟨.inl h, rfl, rfl⟩
        · exact ⟨.inr ⟨l, r, h1, ⟨a, h2⟩, b, h3⟩, rfl, rfl⟩
      have hhas : ∀ l r, g1.Has l r ↔ g.Has l r := by
        intro l r
        unfold Grammar.Has
        rw [hs.2.1, hs.2.2]
      have href : ∀ q, g1.Refuses q e ↔ g.Refuses q e := by
        intro q
        unfold Grammar.Refuses
        simp only [hhas, hs.2.1, hs.2.2]
      rw [he, ih]
      simp only [hhas, href]
      constructor
      · rintro ⟨pre, q, post, rfl, h2, h3⟩
        refine ⟨p :: pre, q, post, rfl, ?_, h3⟩
        intro x hx
        rcases List.mem_cons.mp hx with rfl | hx
        · exact hs.1
        · exact h2 x hx
      · rintro ⟨pre, q, post, h1, h2, h3⟩
        cases pre with
        | nil => cases h1; exact absurd hs.1 h3.not_ok
        | cons x pre =>
          cases h1
          exact ⟨pre, q, post, rfl, fun x hx => h2 x (by simp [hx]), h3⟩

theorem setConnectCost_all {g : Grammar} (hg : g.Full) {l r cost : Int} :
    ((∃ g', g.setConnectCost true (.ok l) (.ok r) cost = .ok g') ↔ g.Has l r ∧ -2 ^ 15 ≤ cost ∧ cost < 2 ^ 15) ∧
    (∀ g', g.setConnectCost true (.ok l) (.ok r) cost = .ok g' → ∀ l' r',
      (g.Same l r l' r' → g'.getConnectCost l' r' = .ok cost) ∧ (¬ g.Same l r l' r' → g'.getConnectCost l' r' = g.getConnectCost l' r')) ∧
    (g.setConnectCost true (.ok l) (.ok r) cost = .error .value ↔ g.Has l r ∧ ¬ (-2 ^ 15 ≤ cost ∧ cost < 2 ^ 15)) := by
  have hsplit : (¬ g.Has l r ∧ ∃ e, e ≠ .value ∧ g.setConnectCost true (.ok l) (.ok r) cost = .error e) ∨
      ∃ a b, Place g.left r a ∧ Place g.right l b ∧ g.setConnectCost true (.ok l) (.ok r) cost =
        if cost < -32768 ∨ cost > 32767 then .error .value else .ok { g with matrix := g.matrix.set (a * g.right + b) cost } := by
    unfold Grammar.setConnectCost
    rw [if_neg (by simp)]
    show (_ ∧ ∃ e, _ ∧ (if g.left * g.right = 0 then _ else _) = _) ∨ ∃ a b, _ ∧ _ ∧ (if g.left * g.right = 0 then _ else _) = _
    by_cases hz : g.left * g.right = 0
    · refine .inl ⟨?_, .type, by decide, by rw [if_pos hz]⟩
      rintro ⟨⟨a, h3⟩, b, h4⟩
      rcases Nat.mul_eq_zero.mp hz with hz | hz
      · have := h3.1; omega
      · have := h4.1; omega
    · rw [if_neg hz]
      cases h1 : Grammar.viewIndex g.left r with
      | error e => exact .inl ⟨fun ⟨⟨a, h3⟩, _⟩ => viewIndex_error h1 a h3, .index, by decide, by rw [viewIndex_kind h1]; rfl⟩
      | ok a =>
        cases h2 : Grammar.viewIndex g.right l with
        | error e => exact .inl ⟨fun ⟨_, b, h3⟩ => viewIndex_error h2 b h3, .index, by decide, by rw [viewIndex_kind h2]; rfl⟩
        | ok b => exact .inr ⟨a, b, viewIndex_iff.mp h1, viewIndex_iff.mp h2, rfl⟩
  have e15 : (2 : Int) ^ 15 = 32768 := by decide
  rw [e15]
  rcases hsplit with ⟨hn, e, he, h⟩ | ⟨a, b, h1, h2, h⟩
  · rw [h]
    refine ⟨⟨fun ⟨_, k⟩ => (by cases k), fun k => absurd k.1 hn⟩, fun _ k => (by cases k), fun k => absurd (Except.error.inj k) he, fun k => absurd k.1 hn⟩
  · have hh : g.Has l r := ⟨⟨a, h1⟩, b, h2⟩
    rw [h]
    split
    · rename_i hc
      exact ⟨⟨fun ⟨_, k⟩ => (by cases k), fun k => by omega⟩, fun _ k => (by cases k), fun _ => ⟨hh, by omega⟩, fun _ => rfl⟩
    · rename_i hc
      refine ⟨⟨fun _ => ⟨hh, by omega⟩, fun _ => ⟨_, rfl⟩⟩, fun g' k l' r' => ?_, fun k => (by cases k), fun k => by omega⟩
      cases k
      exact set_cell hg h1 h2 cost l' r'

end Sudachi
