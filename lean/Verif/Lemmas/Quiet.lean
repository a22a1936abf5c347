import Verif.Lemmas.Installed3
import Verif.Spec.Quiet
namespace Sudachi

variable {conn : Conn} {lex : Lex} {t : InputText}

/-! ### A lattice built without an exception -/

theorem insert_quiet {L L' : Lattice} {d : NodeData} (h : L.insert conn d = (L', .ok ())) : Quiet.insert conn L d = L' := by
  unfold Quiet.insert; rw [h]

theorem insertAll_quiet : ∀ {ds : List NodeData} {L L' : Lattice}, insertAll conn L ds = (L', .ok ()) → Quiet.insertAll conn L ds = L' := by
  intro ds
  induction ds with
  | nil => intro L L' h; cases h; rfl
  | cons d ds ih =>
    intro L L' h
    rw [insertAll] at h
    split at h
    · rename_i L1 h1
      rw [Quiet.insertAll, insert_quiet h1]
      exact ih h
    · cases h

theorem wordLoop_quiet {i : Nat} : ∀ {ws : List (Nat × Nat)} {L L' : Lattice} {has b : Bool},
    wordLoop conn lex t i ws L has = (L', .ok b) → Quiet.wordLoop conn lex t i ws L has = (L', .ok b) := by
  intro ws
  induction ws with
  | nil => intro L L' has b h; exact h
  | cons we rest ih =>
    obtain ⟨w, e⟩ := we
    intro L L' has b h
    rw [wordLoop] at h
    rw [Quiet.wordLoop]
    cases hs : skipEnd t e with
    | error x => rw [hs] at h; cases h
    | ok b =>
      rw [hs] at h
      cases b with
      | true => exact ih h
      | false =>
        dsimp only at h ⊢
        cases hn : wordNode lex i w e with
        | error x => rw [hn] at h; cases h
        | ok d =>
          rw [hn] at h
          dsimp only at h ⊢
          split at h
          · cases h
          · rename_i h1
            rw [insert_quiet h1]
            exact ih h

theorem oovLoop_quiet {i : Nat} : ∀ {ps : List OovPlugin} {L L' : Lattice} {has b : Bool},
    oovLoop conn t i ps L has = (L', .ok b) → Quiet.oovLoop conn t i ps L has = (L', .ok b) := by
  intro ps
  induction ps with
  | nil => intro L L' has b h; exact h
  | cons p ps ih =>
    intro L L' has b h
    rw [oovLoop] at h
    rw [Quiet.oovLoop]
    cases hg : p.getOov t i has with
    | error x => rw [hg] at h; cases h
    | ok ns =>
      rw [hg] at h
      dsimp only at h ⊢
      split at h
      · cases h
      · rename_i h1
        rw [insertAll_quiet h1]
        exact ih h

theorem oovPart_quiet {i : Nat} {ps : List OovPlugin} {L L' : Lattice} {has b : Bool}
    (h : oovPart conn ps t i L has = (L', .ok b)) : Quiet.oovPart conn ps t i L has = (L', .ok b) := by
  unfold oovPart at h
  unfold Quiet.oovPart
  cases hc : t.charCategoryTypesAt i with
  | error x => rw [hc] at h; cases h
  | ok cats =>
    rw [hc] at h
    dsimp only at h ⊢
    split at h
    · rename_i hm; rw [if_pos hm]; exact h
    · rename_i hm; rw [if_neg hm]; exact oovLoop_quiet h

theorem defaultPart_quiet {i : Nat} {ps : List OovPlugin} {L L' : Lattice} {has b : Bool}
    (h : defaultPart conn ps t i L has = (L', .ok b)) : Quiet.defaultPart conn ps t i L has = (L', .ok b) := by
  unfold defaultPart at h
  unfold Quiet.defaultPart
  split at h
  · rename_i hm; rw [if_pos hm]; exact h
  · rename_i hm
    rw [if_neg hm]
    cases hl : ps.getLast? with
    | none => rw [hl] at h; cases h
    | some p =>
      rw [hl] at h
      exact oovLoop_quiet h

theorem buildPos_quiet {i : Nat} {ps : List OovPlugin} {L L' : Lattice}
    (h : buildPos conn lex ps t L i = (L', .ok ())) : Quiet.buildPos conn lex ps t L i = (L', .ok ()) := by
  unfold buildPos at h
  unfold Quiet.buildPos
  cases hl : lex.lookup t.bytes i with
  | error x => rw [hl] at h; cases h
  | ok ws =>
    rw [hl] at h
    dsimp only at h ⊢
    split at h
    · cases h
    · rename_i h1
      rw [wordLoop_quiet h1]
      dsimp only
      split at h
      · cases h
      · rename_i h2
        rw [oovPart_quiet h2]
        dsimp only
        split at h
        · cases h
        · rename_i h3
          rw [defaultPart_quiet h3]
          exact h
        · cases h

theorem buildLoop_quiet {ps : List OovPlugin} : ∀ {is : List Nat} {L L' : Lattice},
    buildLoop conn lex ps t is L = (L', .ok ()) → Quiet.buildLoop conn lex ps t is L = (L', .ok ()) := by
  intro is
  induction is with
  | nil => intro L L' h; exact h
  | cons i is ih =>
    intro L L' h
    rw [buildLoop] at h
    rw [Quiet.buildLoop]
    cases hs : skipPos t L i with
    | error x => rw [hs] at h; cases h
    | ok b =>
      rw [hs] at h
      cases b with
      | true => exact ih h
      | false =>
        dsimp only at h ⊢
        split at h
        · cases h
        · rename_i h1
          rw [buildPos_quiet h1]
          exact ih h

theorem buildLattice_quiet {ps : List OovPlugin} {L L' : Lattice} (h : buildLattice conn lex ps t L = (L', .ok ())) :
    Quiet.buildLattice conn lex ps t L = L' := by
  unfold buildLattice at h
  unfold Quiet.buildLattice
  split at h
  · cases h
  · rename_i h1
    rw [buildLoop_quiet h1]
    dsimp only
    rw [h]

/-! ### Insertions that never fail -/

/-- Inserting a good node into a good lattice does not raise. -/
def Never (conn : Conn) (G : NodeData → Prop) (P : Lattice → Prop) : Prop :=
  ∀ L d, P L → G d → ∃ L', L.insert conn d = (L', .ok ()) ∧ P L'

variable {G : NodeData → Prop} {P : Lattice → Prop}

theorem Never.insertAll (N : Never conn G P) : ∀ {ds : List NodeData} {L : Lattice}, P L → (∀ d ∈ ds, G d) →
    Sudachi.insertAll conn L ds = (Quiet.insertAll conn L ds, .ok ()) ∧ P (Quiet.insertAll conn L ds) := by
  intro ds
  induction ds with
  | nil => intro L h _; exact ⟨rfl, h⟩
  | cons d ds ih =>
    intro L h hd
    obtain ⟨L1, h1, h2⟩ := N L d h (hd d (by simp))
    rw [Sudachi.insertAll, Quiet.insertAll, h1, insert_quiet h1]
    exact ih h2 (fun x hx => hd x (by simp [hx]))

theorem Never.wordLoop (N : Never conn G P) {i : Nat} : ∀ {ws : List (Nat × Nat)} {L : Lattice} {has : Bool}, P L →
    (∀ w e d, (w, e) ∈ ws → wordNode lex i w e = .ok d → G d) →
    Quiet.wordLoop conn lex t i ws L has = Sudachi.wordLoop conn lex t i ws L has ∧ P (Sudachi.wordLoop conn lex t i ws L has).1 := by
  intro ws
  induction ws with
  | nil => intro L has h _; exact ⟨rfl, h⟩
  | cons we rest ih =>
    obtain ⟨w, e⟩ := we
    intro L has h hd
    have ih' := fun {L : Lattice} {has : Bool} (h : P L) => ih (has := has) h (fun w e d hm => hd w e d (by simp [hm]))
    rw [Quiet.wordLoop, Sudachi.wordLoop]
    cases hs : skipEnd t e with
    | error x => exact ⟨rfl, h⟩
    | ok b =>
      cases b with
      | true => exact ih' h
      | false =>
        dsimp only
        cases hn : wordNode lex i w e with
        | error x => exact ⟨rfl, h⟩
        | ok d =>
          obtain ⟨L1, h1, h2⟩ := N L d h (hd w e d (by simp) hn)
          dsimp only
          rw [h1, insert_quiet h1]
          exact ih' h2

theorem Never.oovLoop (N : Never conn G P) {i : Nat} : ∀ {ps : List OovPlugin} {L : Lattice} {has : Bool}, P L →
    (∀ p ∈ ps, ∀ has ns d, p.getOov t i has = .ok ns → d ∈ ns → G d) →
    Quiet.oovLoop conn t i ps L has = Sudachi.oovLoop conn t i ps L has ∧ P (Sudachi.oovLoop conn t i ps L has).1 := by
  intro ps
  induction ps with
  | nil => intro L has h _; exact ⟨rfl, h⟩
  | cons p ps ih =>
    intro L has h hd
    rw [Quiet.oovLoop, Sudachi.oovLoop]
    cases hn : p.getOov t i has with
    | error x => exact ⟨rfl, h⟩
    | ok ns =>
      dsimp only
      obtain ⟨h1, h2⟩ := N.insertAll h (fun d hm => hd p (by simp) has ns d hn hm)
      rw [h1]
      exact ih h2 (fun q hq => hd q (by simp [hq]))

theorem Never.buildPos (N : Never conn G P) {ps : List OovPlugin} {i : Nat} {L : Lattice} (hG : GoodAt lex ps t G i) (h : P L) :
    Quiet.buildPos conn lex ps t L i = Sudachi.buildPos conn lex ps t L i ∧ P (Sudachi.buildPos conn lex ps t L i).1 := by
  unfold Quiet.buildPos Sudachi.buildPos
  cases hl : lex.lookup t.bytes i with
  | error x => exact ⟨rfl, h⟩
  | ok ws =>
    dsimp only
    obtain ⟨h1, h2⟩ := N.wordLoop (lex := lex) (t := t) (i := i) (ws := ws) (has := false) h (fun w e d hm hw => hG.word ws w e d hl hm hw)
    rw [h1]
    generalize Sudachi.wordLoop conn lex t i ws L false = x at h2
    obtain ⟨x1, x2⟩ := x
    cases x2 with
    | error e => exact ⟨rfl, h2⟩
    | ok has1 =>
      dsimp only at h2 ⊢
      have h3 : Quiet.oovPart conn ps t i x1 has1 = oovPart conn ps t i x1 has1 ∧ P (oovPart conn ps t i x1 has1).1 := by
        unfold Quiet.oovPart oovPart
        cases t.charCategoryTypesAt i with
        | error x => exact ⟨rfl, h2⟩
        | ok cats =>
          dsimp only
          split
          · exact ⟨rfl, h2⟩
          · exact N.oovLoop h2 hG.oov
      obtain ⟨h3, h4⟩ := h3
      rw [h3]
      generalize oovPart conn ps t i x1 has1 = x at h4
      obtain ⟨a1, a2⟩ := x
      cases a2 with
      | error e => exact ⟨rfl, h4⟩
      | ok has2 =>
        dsimp only at h4 ⊢
        have h5 : Quiet.defaultPart conn ps t i a1 has2 = defaultPart conn ps t i a1 has2 ∧ P (defaultPart conn ps t i a1 has2).1 := by
          unfold Quiet.defaultPart defaultPart
          split
          · exact ⟨rfl, h4⟩
          · cases hlast : ps.getLast? with
            | none => exact ⟨rfl, h4⟩
            | some p =>
              dsimp only
              refine N.oovLoop h4 ?_
              intro q hq
              rw [List.mem_singleton.mp hq]
              exact hG.oov p (List.mem_of_getLast? hlast)
        obtain ⟨h5, h6⟩ := h5
        rw [h5]
        generalize defaultPart conn ps t i a1 has2 = x at h6
        obtain ⟨c1, c2⟩ := x
        cases c2 with
        | error e => exact ⟨rfl, h6⟩
        | ok has3 => cases has3 <;> exact ⟨rfl, h6⟩

theorem Never.buildLoop (N : Never conn G P) {ps : List OovPlugin} : ∀ {is : List Nat} {L : Lattice},
    (∀ i ∈ is, t.canBow i = .ok true → GoodAt lex ps t G i) → P L →
    Quiet.buildLoop conn lex ps t is L = Sudachi.buildLoop conn lex ps t is L ∧ P (Sudachi.buildLoop conn lex ps t is L).1 := by
  intro is
  induction is with
  | nil => intro L _ h; exact ⟨rfl, h⟩
  | cons i is ih =>
    intro L hG h
    have ih' := fun {L : Lattice} (h : P L) => ih (L := L) (fun j hj => hG j (by simp [hj])) h
    rw [Quiet.buildLoop, Sudachi.buildLoop]
    cases hsk : skipPos t L i with
    | error x => exact ⟨rfl, h⟩
    | ok b =>
      cases b with
      | true => exact ih' h
      | false =>
        dsimp only
        have hbow : t.canBow i = .ok true := by
          unfold skipPos at hsk
          cases hb : t.canBow i with
          | error x => simp [hb, bind, Except.bind] at hsk
          | ok b =>
            cases b with
            | true => rfl
            | false => simp [hb, bind, Except.bind, pure, Except.pure] at hsk
        obtain ⟨h1, h2⟩ := N.buildPos (hG i (by simp) hbow) h
        rw [h1]
        generalize Sudachi.buildPos conn lex ps t L i = x at h2
        obtain ⟨x1, x2⟩ := x
        cases x2 with
        | ok u => exact ih' h2
        | error e => exact ⟨rfl, h2⟩

/-! ### Known ids -/

/-- Everything in the lattice may be followed. -/
def RightIds (right : Int → Prop) (L : Lattice) : Prop :=
  ∀ (e : Nat) (ns : List LNode) (x : LNode), L.endLists[e]? = some ns → x ∈ ns → right x.data.rightId

theorem RightIds.resize {right : Int → Prop} {L : Lattice} (h : RightIds right L) (n : Nat) : RightIds right (L.resize n) := by
  unfold Lattice.resize Lattice.expand
  dsimp only
  split
  · intro e ns x hns hx
    dsimp only at hns
    rcases Nat.lt_or_ge e L.endLists.length with he | he
    · rw [List.getElem?_append_left he] at hns
      exact h e ns x hns hx
    · rw [List.getElem?_append_right he, List.getElem?_replicate] at hns
      split at hns
      · injection hns with hns; subst hns; cases hx
      · cases hns
  · exact h

variable {T : Tokenizer} {left right : Int → Prop} {bd : Builder}

theorem IdsKnown.goodAt (hT : T.IdsKnown left right) (hlex : T.lex.Ok) (B : Built bd T.catOf t) {i : Nat} (hbow : t.canBow i = .ok true) :
    GoodAt T.lex T.oov t (fun d => Fits T.lex t.bytes.length d ∧ left d.leftId ∧ right d.rightId) i := by
  have h0 := B.goodAt hlex T.oov hbow
  constructor
  · intro ws w e d hl hm hw
    refine ⟨h0.word ws w e d hl hm hw, ?_⟩
    obtain ⟨l, r, c, h1, _, rfl⟩ := wordNode_eq hw
    exact hT.words _ _ _ _ _ _ _ _ hl hm h1
  · intro p hp has ns d hg hd
    refine ⟨h0.oov p hp has ns d hg hd, ?_⟩
    obtain ⟨k, hk, rfl, _⟩ := B.bow_char hbow
    obtain ⟨o, h1, h2, h3⟩ := Sources.getOov_entry B hk hg d hd
    rw [h2, h3]
    exact hT.oov p hp o h1

/-- The lattice of a tokenizer with known ids while it is being built. -/
def Mid (T : Tokenizer) (right : Int → Prop) (n : Nat) (L : Lattice) : Prop :=
  Sane T.conn T.lex L ∧ n < L.endLists.length ∧ L.size = n ∧ L.eos = some (.lone { NodeData.blank with begin_ := n, end_ := n } 0) ∧ RightIds right L

theorem IdsKnown.never (hT : T.IdsKnown left right) (n : Nat) :
    Never T.conn (fun d => Fits T.lex n d ∧ left d.leftId ∧ right d.rightId) (Mid T right n) := by
  rintro L d ⟨h1, h2, h3, h4, h5⟩ ⟨⟨d1, d2, d3⟩, d4, d5⟩
  obtain ⟨L', e1, e2⟩ := Roomy.insert (conn := T.conn) (left := left) (right := right) (n := n) ⟨h2, h5⟩ hT.conn
    (Nat.le_of_lt (Nat.lt_of_lt_of_le d1 d2)) d2 d4 d5
  obtain ⟨f1, f2, f3, f4⟩ := insert_frame e1
  have hs := h1.insert d1 d3
  rw [e1] at hs
  exact ⟨L', e1, hs, by omega, by omega, by rw [f3]; exact h4, e2.ids⟩

/-- With known ids the lattice is the same; if it is not built, its end is not connected. -/
theorem IdsKnown.buildLattice (hT : T.IdsKnown left right) (hlex : T.lex.Ok) (B : Built bd T.catOf t) {L : Lattice}
    (hs : Sane T.conn T.lex L) (hr : RightIds right L) :
    Quiet.buildLattice T.conn T.lex T.oov t L = (Sudachi.buildLattice T.conn T.lex T.oov t L).1 ∧
    RightIds right (Sudachi.buildLattice T.conn T.lex T.oov t L).1 ∧
    ((Sudachi.buildLattice T.conn T.lex T.oov t L).2 = .ok () ∨
      (Sudachi.buildLattice T.conn T.lex T.oov t L).1.getBestPath = .error .attribute) := by
  obtain ⟨h1, h2, h3, h4⟩ := hs.resize t.bytes.length
  obtain ⟨e1, e2⟩ := (IdsKnown.never hT t.bytes.length).buildLoop (lex := T.lex) (ps := T.oov) (t := t)
    (is := List.range t.bytes.length) (fun i _ hbow => IdsKnown.goodAt hT hlex B hbow) ⟨h1, h2, h3, h4, hr.resize _⟩
  unfold Quiet.buildLattice Sudachi.buildLattice
  rw [e1]
  generalize Sudachi.buildLoop T.conn T.lex T.oov t (List.range t.bytes.length) (L.resize t.bytes.length) = x at e2
  obtain ⟨x1, x2⟩ := x
  obtain ⟨_, g2, _, g4, g5⟩ := e2
  dsimp only at g2 g4 g5
  cases x2 with
  | error e =>
    refine ⟨rfl, g5, .inr ?_⟩
    dsimp only
    unfold Lattice.getBestPath
    rw [g4]
  | ok u =>
    dsimp only
    obtain ⟨L', k⟩ := connectEos_ok (conn := T.conn) (left := left) (right := right) hT.conn hT.eos ⟨g2, g5⟩ g4
    refine ⟨rfl, ?_, .inl (by rw [k])⟩
    rw [k]
    intro e ns x hns hx
    rw [(connectEos_frame k).1] at hns
    exact g5 e ns x hns hx

theorem RightIds.clear {L : Lattice} (hs : Sane T.conn T.lex L) (hr : RightIds right L) : RightIds right L.clear.1 := by
  obtain ⟨L', h1, _, _, _, _, h2, h3, h4⟩ := hs.clear
  rw [h1]
  intro e ns x hns hx
  dsimp only at hns
  by_cases he : 1 ≤ e ∧ e ≤ L.size
  · rw [h3 e he.1 he.2] at hns; injection hns with hns; subst hns; cases hx
  · rw [h4 e (by omega)] at hns
    exact hr e ns x hns hx

/-- A call, with known ids: the same lattice; the same result, or an exception in place of another. -/
theorem IdsKnown.tokenize (hT : T.IdsKnown left right) (hp : T.PluginsOk) (hlex : T.lex.Ok) {L : Lattice} (hs : Sane T.conn T.lex L)
    (hr : RightIds right L) (text : PStr) (mode : Option Mode) :
    (Quiet.tokenize T L text mode).1 = (T.tokenize L text mode).1 ∧ RightIds right (T.tokenize L text mode).1 ∧
    ((Quiet.tokenize T L text mode).2 = (T.tokenize L text mode).2 ∨
      ∃ x, (T.tokenize L text mode).2 = .error x ∧ (Quiet.tokenize T L text mode).2 = .error .attribute) := by
  unfold Quiet.tokenize Tokenizer.tokenize
  split
  · exact ⟨rfl, hr, .inl rfl⟩
  · cases ht : T.buildInput text with
    | error x => exact ⟨rfl, hr, .inl rfl⟩
    | ok t =>
      dsimp only
      obtain ⟨bd, _, _, _, B, _⟩ := buildInput_built hp ht
      obtain ⟨h1, h2, h3⟩ := IdsKnown.buildLattice hT hlex B hs hr
      rw [h1]
      cases hb : Sudachi.buildLattice T.conn T.lex T.oov t L with
      | mk L1 r1 =>
        rw [hb] at h2 h3
        obtain ⟨hs1, _⟩ := hs.buildLattice B hlex hb
        cases r1 with
        | error x =>
          rcases h3 with h3 | h3
          · cases h3
          · dsimp only at h3 ⊢
            have : T.bestPath t L1 = .error .attribute := by
              unfold Tokenizer.bestPath
              rw [h3]; rfl
            rw [this]
            exact ⟨rfl, h2, .inr ⟨x, rfl, rfl⟩⟩
        | ok u =>
          dsimp only at h2 ⊢
          have hc := RightIds.clear hs1 h2
          refine ⟨rfl, ?_, .inl rfl⟩
          cases T.bestPath t L1 with
          | error x => exact h2
          | ok path =>
            dsimp only
            generalize L1.clear = y at hc
            obtain ⟨L2, r2⟩ := y
            cases r2 with
            | error x => exact hc
            | ok u =>
              dsimp only
              cases splitPath T.lex (mode.getD T.mode) path with
              | error x => exact hc
              | ok path' => exact hc

theorem init_rightIds (h : right 0) : RightIds right Lattice.init := by
  intro e ns x hns hx
  cases e with
  | zero =>
    simp only [Lattice.init, List.getElem?_cons_zero, Option.some.injEq] at hns
    subst hns
    rw [List.mem_singleton.mp hx]
    exact h
  | succ e => simp [Lattice.init] at hns

theorem IdsKnown.history (hT : T.IdsKnown left right) (hp : T.PluginsOk) (hlex : T.lex.Ok) {L : Lattice} (h : T.History L) : RightIds right L := by
  induction h with
  | fresh => exact init_rightIds hT.bos
  | call text mode hh heq ih =>
    have := (IdsKnown.tokenize hT hp hlex (hh.sane hp hlex) ih text mode).2.1
    rw [heq] at this
    exact this

end Sudachi
