import Verif.Spec.LexiconSet
import Verif.Lemmas.Compiled
namespace Sudachi

theorem pow28 : (2 : Nat) ^ 28 = 268435456 := by decide
theorem pow28i : (2 : Int) ^ 28 = 268435456 := by decide

theorem dictionaryIdOf_combined {d w : Nat} (hw : w < 268435456) : dictionaryIdOf (combinedId d w : Nat) = d := by
  unfold dictionaryIdOf combinedId
  rw [pow28i]
  omega

theorem localId_combined {d w : Nat} (hw : w < 268435456) : localId (combinedId d w : Nat) = w := by
  unfold localId combinedId
  rw [pow28i]
  omega

theorem pyGetI_nat {α : Type} (l : List α) (i : Nat) : pyGetI l i = pyGet l i := by
  unfold pyGetI
  rw [if_neg (by omega), Int.toNat_natCast]

theorem LexSet.Made.lengths {s : LexSet} (h : s.Made) : s.lexicons.length = s.posOffsets.length ∧ 0 < s.lexicons.length := by
  induction h with
  | init x => exact ⟨rfl, by simp [LexSet.init]⟩
  | add x o _ ih => simp only [LexSet.add, List.length_append, List.length_singleton]; omega

theorem buildWordId_nat {s : LexSet} {d w : Nat} (hd : d ≤ s.lexicons.length) (hw : w < 268435456) :
    s.buildWordId d w = .ok (combinedId d w : Nat) := by
  unfold LexSet.buildWordId combinedId
  rw [if_neg (by omega), if_neg (by omega), if_neg (by omega), pow28i]
  congr 1

theorem tag_ok {s : LexSet} {d : Nat} (hd : d ≤ s.lexicons.length) : ∀ {ps : List (Nat × Nat)}, (∀ p ∈ ps, p.1 < 268435456) →
    s.tag d ps = .ok (ps.map fun p => (combinedId d p.1, p.2))
  | [], _ => rfl
  | (w, e) :: ps, h => by
    unfold LexSet.tag
    rw [buildWordId_nat hd (h (w, e) (by simp)), tag_ok hd (fun p hp => h p (by simp [hp]))]
    rfl

theorem tag_error {s : LexSet} {d : Nat} (hd : d ≤ s.lexicons.length) : ∀ {ps : List (Nat × Nat)}, (∃ p ∈ ps, 268435456 ≤ p.1) →
    s.tag d ps = .error .attribute
  | [], h => by obtain ⟨p, hp, _⟩ := h; cases hp
  | (w, e) :: ps, h => by
    unfold LexSet.tag
    by_cases hw : 268435456 ≤ w
    · have : s.buildWordId d w = .error .attribute := by
        unfold LexSet.buildWordId
        rw [if_pos (by omega)]
      rw [this]
      rfl
    · obtain ⟨p, hp, hp2⟩ := h
      rcases List.mem_cons.1 hp with rfl | hp
      · exact (hw hp2).elim
      · rw [tag_error hd ⟨p, hp, hp2⟩, buildWordId_nat hd (by omega)]
        rfl

theorem lookupLoop_set {D : Darts} {s : LexSet} {text : Bytes} {offset : Nat} {found : Nat → List (Nat × Nat)}
    (h : ∀ d x, s.lexicons[d]? = some x → x.lookup D text offset = .ok (found d) ∧ ∀ p ∈ found d, p.1 < 268435456) :
    ∀ {order : List Nat}, (∀ d ∈ order, d < s.lexicons.length) → LexSet.lookupLoop D s text offset order = .ok (combineMatches order found)
  | [], _ => rfl
  | d :: ds, ho => by
    have hd := ho d (by simp)
    obtain ⟨h1, h2⟩ := h d _ (List.getElem?_eq_getElem hd)
    unfold LexSet.lookupLoop
    have hg : pyGet s.lexicons d = .ok s.lexicons[d] := by unfold pyGet; rw [List.getElem?_eq_getElem hd]
    rw [hg]
    simp only [bind, Except.bind]
    rw [h1]
    dsimp only
    rw [tag_ok (by omega) h2]
    dsimp only
    rw [lookupLoop_set h (fun d hd => ho d (by simp [hd]))]
    rfl

theorem order_eq (n : Nat) : (List.range n).drop 1 ++ [0] = askOrder n := by
  unfold askOrder
  cases n with
  | zero => rfl
  | succ n => rw [List.range_succ_eq_map]; rfl

theorem mem_askOrder {n d : Nat} (hn : 0 < n) : d ∈ askOrder n ↔ d < n := by
  unfold askOrder
  rw [List.mem_append, List.mem_map, List.mem_singleton]
  constructor
  · rintro (⟨a, ha, rfl⟩ | rfl)
    · have := List.mem_range.1 ha; omega
    · exact hn
  · intro h
    cases d with
    | zero => exact .inr rfl
    | succ d => exact .inl ⟨d, List.mem_range.2 (by omega), rfl⟩

theorem lookup_set {D : Darts} {s : LexSet} {text : Bytes} {offset : Nat} {found : Nat → List (Nat × Nat)} (hn : 0 < s.lexicons.length)
    (h : ∀ d x, s.lexicons[d]? = some x → x.lookup D text offset = .ok (found d) ∧ ∀ p ∈ found d, p.1 < 268435456) :
    s.lookup D text offset = .ok (combineMatches (askOrder s.lexicons.length) found) := by
  unfold LexSet.lookup
  split
  · rename_i h1
    obtain ⟨g1, g2⟩ := h 0 _ (List.getElem?_eq_getElem hn)
    have hg : pyGet s.lexicons 0 = .ok s.lexicons[0] := by unfold pyGet; rw [List.getElem?_eq_getElem hn]
    rw [hg]
    simp only [bind, Except.bind]
    rw [g1, h1]
    unfold combineMatches askOrder
    simp [combinedId]
  · rw [order_eq]
    exact lookupLoop_set h (fun d hd => (mem_askOrder hn).1 hd)

theorem pyGet_append {α : Type} {l r : List α} {i : Nat} {a : α} (h : pyGet l i = .ok a) : pyGet (l ++ r) i = .ok a := by
  unfold pyGet at h ⊢
  split at h
  · rename_i b hb
    rw [List.getElem?_append_left (List.getElem?_eq_some_iff.1 hb).1, hb]
    exact h
  · cases h

theorem pyGetI_append {α : Type} {l r : List α} {i : Int} {a : α} (hi : 0 ≤ i) (h : pyGetI l i = .ok a) : pyGetI (l ++ r) i = .ok a := by
  unfold pyGetI at h ⊢
  rw [if_neg (by omega)] at h ⊢
  exact pyGet_append h

theorem convertUnit_add {s : LexSet} {x : DALex} {o : Nat} {d u u' : Int} (h : s.convertUnit d u = .ok u') :
    (s.add x o).convertUnit d u = .ok u' := by
  unfold LexSet.convertUnit at h ⊢
  split at h
  · rename_i hu
    rw [if_pos hu]
    unfold LexSet.buildWordId at h ⊢
    split at h
    · cases h
    · rename_i hn1
      split at h
      · cases h
      · rename_i hn2
        rw [if_neg hn1, if_neg (by simp only [LexSet.add, List.length_append, List.length_singleton]; omega)]
        exact h
  · rename_i hu
    rw [if_neg hu]
    exact h

theorem convertSplit_add {s : LexSet} {x : DALex} {o : Nat} {d : Int} : ∀ {us r : List Int}, s.convertSplit d us = .ok r →
    (s.add x o).convertSplit d us = .ok r
  | [], r, h => h
  | u :: us, r, h => by
    unfold LexSet.convertSplit at h ⊢
    obtain ⟨u', h1, h⟩ := bind_ok h
    obtain ⟨r', h2, h⟩ := bind_ok h
    rw [convertUnit_add h1]
    simp only [bind, Except.bind]
    rw [convertSplit_add h2]
    exact h

theorem convertSplit_spec {s : LexSet} {d : Nat} : ∀ {us r : List Int}, s.convertSplit d us = .ok r → r = us.map (ownUnit d)
  | [], r, h => by cases h; rfl
  | u :: us, r, h => by
    unfold LexSet.convertSplit at h
    obtain ⟨u', h1, h⟩ := bind_ok h
    obtain ⟨r', h2, h⟩ := bind_ok h
    cases h
    rw [List.map_cons, ← convertSplit_spec h2]
    congr 1
    unfold LexSet.convertUnit at h1
    unfold ownUnit
    have hdi : dictionaryIdOf u > 0 ↔ ¬ u < 268435456 := by unfold dictionaryIdOf; rw [pow28i]; omega
    have hlo : localId u = (u % 268435456).toNat := by unfold localId; rw [pow28i]
    split at h1
    · rename_i hu
      rw [if_neg (hdi.1 hu), ← hlo]
      have : localId u < 268435456 := by rw [hlo]; omega
      unfold LexSet.buildWordId at h1
      rw [if_neg (by omega)] at h1
      split at h1
      · cases h1
      · rw [if_neg (by omega), pow28i] at h1
        cases h1
        unfold combinedId
        omega
    · rename_i hu
      rw [if_pos (by rw [hdi] at hu; omega)]
      exact (Except.ok.inj h1).symm

theorem convertPos_add {s : LexSet} {x : DALex} {o : Nat} {d p q : Int} (h : s.convertPos d p = .ok q) :
    (s.add x o).convertPos d p = .ok q := by
  unfold LexSet.convertPos at h ⊢
  split at h
  · rename_i hd
    rw [if_pos hd]
    obtain ⟨o1, h1, h⟩ := bind_ok h
    have e1 : pyGet (s.add x o).posOffsets 1 = .ok o1 := pyGet_append h1
    rw [e1]
    simp only [bind, Except.bind]
    split at h
    · rename_i hp
      rw [if_pos hp]
      obtain ⟨oo, h2, h⟩ := bind_ok h
      have e2 : pyGetI (s.add x o).posOffsets d = .ok oo := pyGetI_append (by omega) h2
      rw [e2]
      exact h
    · rename_i hp
      rw [if_neg hp]
      exact h
  · rename_i hd
    rw [if_neg hd]
    exact h

theorem wordInfo_add {s : LexSet} {x : DALex} {o depth : Nat} {w : Int} (hw : 0 ≤ w) {wi : WordInfo} (h : s.wordInfo depth w = .ok wi) :
    (s.add x o).wordInfo depth w = .ok wi := by
  have hd : 0 ≤ dictionaryIdOf w := by unfold dictionaryIdOf; rw [pow28i]; omega
  unfold LexSet.wordInfo at h ⊢
  obtain ⟨y, h1, h⟩ := bind_ok h
  have e1 : pyGetI (s.add x o).lexicons (dictionaryIdOf w) = .ok y := pyGetI_append hd h1
  obtain ⟨wi', h2, h⟩ := bind_ok h
  obtain ⟨p, h3, h⟩ := bind_ok h
  obtain ⟨a, h4, h⟩ := bind_ok h
  obtain ⟨b, h5, h⟩ := bind_ok h
  obtain ⟨c, h6, h⟩ := bind_ok h
  rw [e1]
  simp only [bind, Except.bind]
  rw [h2]
  dsimp only
  rw [convertPos_add h3]
  dsimp only
  rw [convertSplit_add h4]
  dsimp only
  rw [convertSplit_add h5]
  dsimp only
  rw [convertSplit_add h6]
  exact h

theorem cache_ok {depth : Nat} {c : CachedSet} (h : c.After depth) :
    ∀ e ∈ c.cache, 0 ≤ e.1 → c.set.wordInfo depth e.1 = .ok e.2 := by
  induction h with
  | init x => intro e he; cases he
  | @request c keep w _ hk ih =>
    unfold CachedSet.getWordInfo
    split
    · exact ih
    · split
      · rename_i wi hwi
        intro e he h0
        rcases List.mem_cons.1 (hk _ _ he) with rfl | he
        · exact hwi
        · exact ih e he h0
      · exact ih
  | add x o _ ih =>
    intro e he h0
    exact wordInfo_add h0 (ih e he h0)

theorem firstMatch_some {x : DALex} {depth : Nat} {h : PStr} {p : Int} {r : PStr} : ∀ {l : List Nat} {v : Nat},
    x.firstMatch depth h p r l = .ok (some v) → v ∈ l ∧ x.Has depth v h p r
  | [], v, hv => by cases hv
  | w :: l, v, hv => by
    unfold DALex.firstMatch at hv
    obtain ⟨b, hb, hv⟩ := bind_ok hv
    unfold DALex.compareWordId at hb
    obtain ⟨wi, hwi, hb⟩ := bind_ok hb
    split at hv
    · rename_i hbt
      cases hv
      cases hb
      simp only [Bool.and_eq_true, decide_eq_true_eq] at hbt
      exact ⟨by simp, wi, hwi, hbt.1.1, hbt.1.2, hbt.2⟩
    · have := firstMatch_some hv
      exact ⟨by simp [this.1], this.2⟩

theorem firstMatch_none {x : DALex} {depth : Nat} {h : PStr} {p : Int} {r : PStr} : ∀ {l : List Nat},
    x.firstMatch depth h p r l = .ok none → ∀ v ∈ l, ¬ x.Has depth v h p r
  | [], _, _, hv => by cases hv
  | w :: l, hn, v, hv => by
    unfold DALex.firstMatch at hn
    obtain ⟨b, hb, hn⟩ := bind_ok hn
    unfold DALex.compareWordId at hb
    obtain ⟨wi, hwi, hb2⟩ := bind_ok hb
    split at hn
    · cases hn
    · rename_i hbt
      rcases List.mem_cons.1 hv with rfl | hv
      · rintro ⟨wi', h1, h2, h3, h4⟩
        rw [hwi] at h1
        cases h1
        cases hb2
        simp [h2, h3, h4] at hbt
      · exact firstMatch_none hn v hv

/-- What `get_word_id` of one dictionary answers. -/
theorem getWordId_spec {D : Darts} {x : DALex} {depth : Nat} {h : PStr} {p : Int} {r : PStr} {v : Int}
    (hv : x.getWordId D depth h p r = .ok v) :
    (∃ w : Nat, v = w ∧ x.Has depth w h p r) ∨ (v = -1 ∧ ∀ w, w < x.size → ¬ x.Has depth w h p r) := by
  unfold DALex.getWordId at hv
  obtain ⟨key, _, hv⟩ := bind_ok hv
  obtain ⟨found, _, hv⟩ := bind_ok hv
  obtain ⟨r1, hr1, hv⟩ := bind_ok hv
  cases r1 with
  | some w => cases hv; exact .inl ⟨w, rfl, (firstMatch_some hr1).2⟩
  | none =>
    obtain ⟨r2, hr2, hv⟩ := bind_ok hv
    cases r2 with
    | some w => cases hv; exact .inl ⟨w, rfl, (firstMatch_some hr2).2⟩
    | none => cases hv; exact .inr ⟨rfl, fun w hw => firstMatch_none hr2 w (List.mem_range.2 hw)⟩

theorem wordLoop_overflow {conn : Conn} {lex : Lex} {t : InputText} {i v e : Nat} (hskip : skipEnd t e = .ok false) :
    ∀ (found : List (Nat × Nat)) (L : Lattice) (has : Bool), (v, e) ∈ found → v ≥ 2 ^ 31 →
      ∃ x, (wordLoop conn lex t i found L has).2 = .error x := by
  intro found
  induction found with
  | nil => intro _ _ h; cases h
  | cons p found ih =>
    intro L has hm hbig
    obtain ⟨v', e'⟩ := p
    have hnode : v = v' → ∃ x, wordNode lex i v' e' = .error x := by
      rintro rfl
      unfold wordNode
      cases lex.params v with
      | error x => exact ⟨x, rfl⟩
      | ok q =>
        obtain ⟨l, r, c⟩ := q
        simp only [bind, Except.bind]
        rw [if_pos hbig]
        exact ⟨_, rfl⟩
    unfold wordLoop
    split
    · exact ⟨_, rfl⟩
    · rename_i hs
      rcases List.mem_cons.1 hm with h | h
      · injection h with h1 h2
        rw [← h2, hskip] at hs
        cases hs
      · exact ih L has h hbig
    · split
      · exact ⟨_, rfl⟩
      · rename_i nd hn
        rcases List.mem_cons.1 hm with h | h
        · injection h with h1 h2
          obtain ⟨x, hx⟩ := hnode h1
          rw [hx] at hn
          cases hn
        · split
          · exact ⟨_, rfl⟩
          · exact ih _ _ h hbig

theorem getWordIdLoop_exact {D : Darts} {s : LexSet} {depth : Nat} {h : PStr} {p : Int} {r : PStr} {o : Option Int} : ∀ (m k : Nat),
    k + m = s.lexicons.length → (s.getWordIdLoop D depth h p r (List.range' k m) = .ok o ↔
      (∃ d x v, k ≤ d ∧ s.lexicons[d]? = some x ∧ (∀ d', k ≤ d' → d' < d → ∃ x' w, s.lexicons[d']? = some x' ∧
          x'.getWordId D depth h p r = .ok w ∧ 0 < w) ∧ o = some v ∧
          ((x.getWordId D depth h p r = .ok (-1) ∧ v = -1) ∨ (x.getWordId D depth h p r = .ok 0 ∧ v = d * 2 ^ 28))) ∨
      (o = none ∧ ∀ d x, k ≤ d → s.lexicons[d]? = some x → ∃ w, x.getWordId D depth h p r = .ok w ∧ 0 < w)) := by
  intro m
  induction m with
  | zero =>
    intro k hk
    constructor
    · intro hh
      cases hh
      refine .inr ⟨rfl, fun d x h1 h2 => ?_⟩
      have := (List.getElem?_eq_some_iff.mp h2).1
      omega
    · rintro (⟨d, x, v, h1, h2, _⟩ | ⟨rfl, _⟩)
      · have := (List.getElem?_eq_some_iff.mp h2).1
        omega
      · rfl
  | succ m ih =>
    intro k hk
    have hlt : k < s.lexicons.length := by omega
    have hget : s.lexicons[k]? = some s.lexicons[k] := List.getElem?_eq_getElem hlt
    have hpy : pyGet s.lexicons k = .ok s.lexicons[k] := by unfold pyGet; rw [hget]
    rw [List.range'_succ]
    unfold LexSet.getWordIdLoop
    rw [hpy]
    show (s.lexicons[k].getWordId D depth h p r >>= _) = _ ↔ _
    cases hw : s.lexicons[k].getWordId D depth h p r with
    | error e =>
      constructor
      · intro hh; cases hh
      · rintro (⟨d, x, v, h1, h2, h3, _, h4⟩ | ⟨_, h1⟩)
        · rcases Nat.lt_or_eq_of_le h1 with hlt | rfl
          · obtain ⟨x', w, a1, a2, _⟩ := h3 k (Nat.le_refl k) hlt
            rw [hget] at a1
            cases a1
            rw [hw] at a2
            cases a2
          · rw [hget] at h2
            cases h2
            rw [hw] at h4
            rcases h4 with ⟨h4, _⟩ | ⟨h4, _⟩ <;> cases h4
        · obtain ⟨w, a, _⟩ := h1 k _ (Nat.le_refl k) hget
          rw [hw] at a
          cases a
    | ok wid =>
      show (if wid ≤ 0 then _ else _) = _ ↔ _
      by_cases hle : wid ≤ 0
      · rw [if_pos hle]
        have hid : wid = -1 ∨ wid = 0 := by
          rcases getWordId_spec hw with ⟨w, rfl, _⟩ | ⟨rfl, _⟩
          · omega
          · exact .inl rfl
        have hb : s.buildWordId k wid = .ok (if wid = -1 then -1 else (k : Int) * 2 ^ 28) := by
          unfold LexSet.buildWordId
          rw [if_neg (by omega), if_neg (by omega)]
          rcases hid with rfl | rfl
          · rfl
          · simp
        rw [hb]
        constructor
        · intro hh
          cases hh
          refine .inl ⟨k, _, _, Nat.le_refl k, hget, fun d' a b => by omega, rfl, ?_⟩
          rcases hid with rfl | rfl
          · exact .inl ⟨hw, rfl⟩
          · exact .inr ⟨hw, rfl⟩
        · rintro (⟨d, x, v, h1, h2, h3, rfl, h4⟩ | ⟨_, h1⟩)
          · rcases Nat.lt_or_eq_of_le h1 with hlt | rfl
            · obtain ⟨x', w, a1, a2, a3⟩ := h3 k (Nat.le_refl k) hlt
              rw [hget] at a1
              cases a1
              rw [hw] at a2
              cases a2
              omega
            · rw [hget] at h2
              cases h2
              rw [hw] at h4
              rcases h4 with ⟨h4, rfl⟩ | ⟨h4, rfl⟩
              · cases h4; rfl
              · cases h4; rfl
          · obtain ⟨w, a, a3⟩ := h1 k _ (Nat.le_refl k) hget
            rw [hw] at a
            cases a
            omega
      · rw [if_neg hle, ih (k + 1) (by omega)]
        constructor
        · rintro (⟨d, x, v, h1, h2, h3, h4⟩ | ⟨h0, h1⟩)
          · refine .inl ⟨d, x, v, by omega, h2, fun d' a b => ?_, h4⟩
            rcases Nat.lt_or_eq_of_le a with hlt | rfl
            · exact h3 d' hlt b
            · exact ⟨_, wid, hget, hw, by omega⟩
          · refine .inr ⟨h0, fun d x a b => ?_⟩
            rcases Nat.lt_or_eq_of_le a with hlt | rfl
            · exact h1 d x hlt b
            · rw [hget] at b
              cases b
              exact ⟨wid, hw, by omega⟩
        · rintro (⟨d, x, v, h1, h2, h3, h4⟩ | ⟨h0, h1⟩)
          · rcases Nat.lt_or_eq_of_le h1 with hlt | rfl
            · exact .inl ⟨d, x, v, hlt, h2, fun d' a b => h3 d' (by omega) b, h4⟩
            · rw [hget] at h2
              cases h2
              rw [hw] at h4
              rcases h4.2 with ⟨h4, _⟩ | ⟨h4, _⟩ <;> (cases h4; omega)
          · exact .inr ⟨h0, fun d x a b => h1 d x (by omega) b⟩

end Sudachi
