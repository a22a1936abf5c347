import Verif.Lemmas.Tokenizer
namespace Sudachi

/-! ### Lattice construction preserves relations, whatever its outcome

`R` relates two lattices; taking `R L L' := L = L' ∧ P L` gives invariants. -/

structure Simulates (conn : Conn) (n : Nat) (G : NodeData → Prop) (R : Lattice → Lattice → Prop) : Prop where
  insert : ∀ L L' d, R L L' → G d → (L.insert conn d).2 = (L'.insert conn d).2 ∧ R (L.insert conn d).1 (L'.insert conn d).1
  prev : ∀ L L' i, R L L' → i < n → L.hasPreviousNode i = L'.hasPreviousNode i

/-- Same outcome and related states. -/
def Agree {α : Type} (R : Lattice → Lattice → Prop) (x y : Lattice × Res α) : Prop := x.2 = y.2 ∧ R x.1 y.1

variable {conn : Conn} {n : Nat} {G : NodeData → Prop} {R : Lattice → Lattice → Prop}

theorem Simulates.insertAll (S : Simulates conn n G R) : ∀ {ds : List NodeData} {L L' : Lattice}, R L L' → (∀ d ∈ ds, G d) →
    Agree R (insertAll conn L ds) (insertAll conn L' ds) := by
  intro ds
  induction ds with
  | nil => intro L L' h _; exact ⟨rfl, h⟩
  | cons d ds ih =>
    intro L L' h hd
    obtain ⟨h1, h2⟩ := S.insert L L' d h (hd d (by simp))
    rw [Sudachi.insertAll, Sudachi.insertAll]
    generalize L.insert conn d = x at h1 h2
    generalize L'.insert conn d = y at h1 h2
    obtain ⟨x1, x2⟩ := x
    obtain ⟨y1, y2⟩ := y
    dsimp only at h1 h2
    subst h1
    cases x2 with
    | ok u => exact ih h2 (fun d hd' => hd d (by simp [hd']))
    | error e => exact ⟨rfl, h2⟩

theorem Simulates.wordLoop (S : Simulates conn n G R) {lex : Lex} {t : InputText} {i : Nat} : ∀ {ws : List (Nat × Nat)} {L L' : Lattice}
    {has : Bool}, R L L' → (∀ w e d, (w, e) ∈ ws → wordNode lex i w e = .ok d → G d) →
    Agree R (wordLoop conn lex t i ws L has) (wordLoop conn lex t i ws L' has) := by
  intro ws
  induction ws with
  | nil => intro L L' has h _; exact ⟨rfl, h⟩
  | cons we ws ih =>
    obtain ⟨w, e⟩ := we
    intro L L' has h hd
    have hd' : ∀ w e d, (w, e) ∈ ws → wordNode lex i w e = .ok d → G d := fun w e d hm => hd w e d (by simp [hm])
    rw [Sudachi.wordLoop, Sudachi.wordLoop]
    cases skipEnd t e with
    | error x => exact ⟨rfl, h⟩
    | ok b =>
      cases b with
      | true => exact ih h hd'
      | false =>
        dsimp only
        cases hw : wordNode lex i w e with
        | error x => exact ⟨rfl, h⟩
        | ok d =>
          dsimp only
          obtain ⟨h1, h2⟩ := S.insert L L' d h (hd w e d (by simp) hw)
          generalize L.insert conn d = x at h1 h2
          generalize L'.insert conn d = y at h1 h2
          obtain ⟨x1, x2⟩ := x
          obtain ⟨y1, y2⟩ := y
          dsimp only at h1 h2
          subst h1
          cases x2 with
          | ok u => exact ih h2 hd'
          | error e => exact ⟨rfl, h2⟩

theorem Simulates.oovLoop (S : Simulates conn n G R) {t : InputText} {i : Nat} : ∀ {ps : List OovPlugin} {L L' : Lattice} {has : Bool},
    R L L' → (∀ p ∈ ps, ∀ has ns d, p.getOov t i has = .ok ns → d ∈ ns → G d) →
    Agree R (oovLoop conn t i ps L has) (oovLoop conn t i ps L' has) := by
  intro ps
  induction ps with
  | nil => intro L L' has h _; exact ⟨rfl, h⟩
  | cons p ps ih =>
    intro L L' has h hd
    rw [Sudachi.oovLoop, Sudachi.oovLoop]
    cases hp : p.getOov t i has with
    | error x => exact ⟨rfl, h⟩
    | ok ns =>
      dsimp only
      obtain ⟨h1, h2⟩ := S.insertAll (ds := ns) h (fun d hm => hd p (by simp) has ns d hp hm)
      generalize Sudachi.insertAll conn L ns = x at h1 h2
      generalize Sudachi.insertAll conn L' ns = y at h1 h2
      obtain ⟨x1, x2⟩ := x
      obtain ⟨y1, y2⟩ := y
      dsimp only at h1 h2
      subst h1
      cases x2 with
      | ok u => exact ih h2 (fun p hp => hd p (by simp [hp]))
      | error e => exact ⟨rfl, h2⟩

/-- Everything that may be inserted at position `i` satisfies `G`. -/
structure GoodAt (lex : Lex) (plugins : List OovPlugin) (t : InputText) (G : NodeData → Prop) (i : Nat) : Prop where
  word : ∀ ws w e d, lex.lookup t.bytes i = .ok ws → (w, e) ∈ ws → wordNode lex i w e = .ok d → G d
  oov : ∀ p ∈ plugins, ∀ has ns d, p.getOov t i has = .ok ns → d ∈ ns → G d

theorem Simulates.buildPos (S : Simulates conn n G R) {lex : Lex} {plugins : List OovPlugin} {t : InputText} {i : Nat} {L L' : Lattice}
    (hG : GoodAt lex plugins t G i) (h : R L L') :
    Agree R (buildPos conn lex plugins t L i) (buildPos conn lex plugins t L' i) := by
  unfold Sudachi.buildPos
  cases hl : lex.lookup t.bytes i with
  | error x => exact ⟨rfl, h⟩
  | ok ws =>
    dsimp only
    obtain ⟨h1, h2⟩ := S.wordLoop (lex := lex) (t := t) (i := i) (ws := ws) (has := false) h (fun w e d hm hw => hG.word ws w e d hl hm hw)
    generalize Sudachi.wordLoop conn lex t i ws L false = x at h1 h2
    generalize Sudachi.wordLoop conn lex t i ws L' false = y at h1 h2
    obtain ⟨x1, x2⟩ := x
    obtain ⟨y1, y2⟩ := y
    dsimp only at h1 h2
    subst h1
    cases x2 with
    | error e => exact ⟨rfl, h2⟩
    | ok has1 =>
      dsimp only
      have h3 : Agree R (oovPart conn plugins t i x1 has1) (oovPart conn plugins t i y1 has1) := by
        unfold oovPart
        cases t.charCategoryTypesAt i with
        | error x => exact ⟨rfl, h2⟩
        | ok cats =>
          dsimp only
          split
          · exact ⟨rfl, h2⟩
          · exact S.oovLoop h2 hG.oov
      obtain ⟨h3, h4⟩ := h3
      generalize oovPart conn plugins t i x1 has1 = x at h3 h4
      generalize oovPart conn plugins t i y1 has1 = y at h3 h4
      obtain ⟨a1, a2⟩ := x
      obtain ⟨b1, b2⟩ := y
      dsimp only at h3 h4
      subst h3
      cases a2 with
      | error e => exact ⟨rfl, h4⟩
      | ok has2 =>
        dsimp only
        have h5 : Agree R (defaultPart conn plugins t i a1 has2) (defaultPart conn plugins t i b1 has2) := by
          unfold defaultPart
          split
          · exact ⟨rfl, h4⟩
          · cases hlast : plugins.getLast? with
            | none => exact ⟨rfl, h4⟩
            | some p =>
              dsimp only
              refine S.oovLoop h4 ?_
              intro q hq
              rw [List.mem_singleton.mp hq]
              exact hG.oov p (List.mem_of_getLast? hlast)
        obtain ⟨h5, h6⟩ := h5
        generalize defaultPart conn plugins t i a1 has2 = x at h5 h6
        generalize defaultPart conn plugins t i b1 has2 = y at h5 h6
        obtain ⟨c1, c2⟩ := x
        obtain ⟨d1, d2⟩ := y
        dsimp only at h5 h6
        subst h5
        cases c2 with
        | error e => exact ⟨rfl, h6⟩
        | ok has3 => cases has3 <;> exact ⟨rfl, h6⟩

theorem Simulates.buildLoop (S : Simulates conn n G R) {lex : Lex} {plugins : List OovPlugin} {t : InputText} :
    ∀ {is : List Nat} {L L' : Lattice}, (∀ i ∈ is, i < n ∧ (t.canBow i = .ok true → GoodAt lex plugins t G i)) → R L L' →
    Agree R (buildLoop conn lex plugins t is L) (buildLoop conn lex plugins t is L') := by
  intro is
  induction is with
  | nil => intro L L' _ h; exact ⟨rfl, h⟩
  | cons i is ih =>
    intro L L' hG h
    have hG' : ∀ i ∈ is, i < n ∧ (t.canBow i = .ok true → GoodAt lex plugins t G i) := fun j hj => hG j (by simp [hj])
    rw [Sudachi.buildLoop, Sudachi.buildLoop]
    have hs : skipPos t L i = skipPos t L' i := by
      unfold skipPos
      rw [S.prev L L' i h (hG i (by simp)).1]
    rw [← hs]
    cases hsk : skipPos t L i with
    | error x => exact ⟨rfl, h⟩
    | ok b =>
      cases b with
      | true => exact ih hG' h
      | false =>
        dsimp only
        have hbow : t.canBow i = .ok true := by
          unfold skipPos at hsk
          cases hb : t.canBow i with
          | error x => simp [hb, bind, Except.bind] at hsk
          | ok b =>
            cases b with
            | true => rfl
            | false => simp [hb, bind, Except.bind, pure, Except.pure] at hsk
        obtain ⟨h1, h2⟩ := S.buildPos ((hG i (by simp)).2 hbow) h
        generalize Sudachi.buildPos conn lex plugins t L i = x at h1 h2
        generalize Sudachi.buildPos conn lex plugins t L' i = y at h1 h2
        obtain ⟨x1, x2⟩ := x
        obtain ⟨y1, y2⟩ := y
        dsimp only at h1 h2
        subst h1
        cases x2 with
        | ok u => exact ih hG' h2
        | error e => exact ⟨rfl, h2⟩

/-! ### What is inserted -/

/-- A node known to the lexicon or made by an OOV provider, for whatever text. -/
def Known (lex : Lex) (d : NodeData) : Prop :=
  d.defined = true ∧
  ((d.oov = false ∧ d.extra = none ∧ ∃ bytes i ws w e, lex.lookup bytes i = .ok ws ∧ (w, e) ∈ ws ∧
      d.end_ - d.begin_ = e - i ∧ d.wordId = (w : Nat) ∧ w < 2 ^ 31) ∨
   (d.oov = true ∧ ∃ w, d.extra = some w ∧ w.aUnitSplit = [] ∧ w.bUnitSplit = [] ∧ w.headWordLength = d.end_ - d.begin_))

/-- What is inserted for a text of `n` bytes. -/
def Fits (lex : Lex) (n : Nat) (d : NodeData) : Prop := d.begin_ < d.end_ ∧ d.end_ ≤ n ∧ Known lex d

variable {bd : Builder} {catOf : Nat → CatSet} {t : InputText}

theorem Built.wpos_le (B : Built bd catOf t) {j : Nat} (hj : j ≤ bd.modified.length) : wpos bd.modified j ≤ t.bytes.length := by
  rw [B.blen]; exact wpos_mono _ hj

theorem charsNode_known (lex : Lex) (s : PStr) (k j : Nat) (o : OovEntry) (h : wpos s k ≤ wpos s j) : Known lex (charsNode s k j o) := by
  refine ⟨rfl, .inr ⟨rfl, _, rfl, rfl, rfl, ?_⟩⟩
  simp only [charsNode, oovNode]
  omega

theorem Built.goodAt (B : Built bd catOf t) {lex : Lex} (hlex : lex.Ok) (plugins : List OovPlugin) {i : Nat} (hbow : t.canBow i = .ok true) :
    GoodAt lex plugins t (Fits lex t.bytes.length) i := by
  obtain ⟨k, hk, rfl, _⟩ := B.bow_char hbow
  have hi : wpos bd.modified k < t.bytes.length := by rw [B.blen]; exact wpos_lt B.enc hk (Nat.le_refl _)
  constructor
  · intro ws w e d hl hm hw
    obtain ⟨l, r, c, _, hlt, rfl⟩ := wordNode_eq hw
    obtain ⟨h1, h2⟩ := hlex.lookup_inside _ _ _ hi hl w e hm
    exact ⟨h1, h2, rfl, .inl ⟨rfl, rfl, t.bytes, _, ws, w, e, hl, hm, rfl, rfl, hlt⟩⟩
  · intro p _ has ns d hp hd
    have h2 := getOov_spec B hk hp
    obtain ⟨j, o, h3, h4, rfl, _⟩ := h2 d hd
    have h5 := charsNode_onChars B h3 h4 o
    have h6 : wpos bd.modified k < wpos bd.modified j := wpos_lt B.enc h3 h4
    refine ⟨?_, ?_, charsNode_known lex _ _ _ _ (Nat.le_of_lt h6)⟩
    · simp only [charsNode, oovNode]; omega
    · have := B.wpos_le h4
      simp only [charsNode, oovNode]; omega

/-! ### The invariant of every history -/

/-- What is true of the lattice of a tokenizer at all times. -/
structure Sane (conn : Conn) (lex : Lex) (L : Lattice) : Prop where
  chain : AllChain conn (Known lex) L
  bos : L.endLists[0]? = some [bosNode]
  room : L.capacity < L.endLists.length
  size : L.size ≤ L.capacity

theorem Lattice.Clean.sane {L : Lattice} (h : L.Clean) (conn : Conn) (lex : Lex) : Sane conn lex L :=
  ⟨h.allChain conn _, h.bos, h.room, h.size⟩

theorem AllChain.append {C : NodeData → Prop} {L : Lattice} {e : Nat} {x : LNode} (h : AllChain conn C L) (hx : Chain conn C e x) :
    AllChain conn C (L.append e x) := by
  intro e' ns y hns hy
  obtain ⟨ns', h1, h2⟩ := getElem?_modify_append hns
  rcases h2 with ⟨rfl, rfl⟩ | ⟨_, rfl⟩
  · rcases List.mem_append.mp hy with hy | hy
    · exact h _ _ _ h1 hy
    · rw [List.mem_singleton.mp hy]; exact hx
  · exact h _ _ _ h1 hy

theorem Sane.insert {lex : Lex} {L : Lattice} (h : Sane conn lex L) {d : NodeData} (hlt : d.begin_ < d.end_) (hk : Known lex d) :
    Sane conn lex (L.insert conn d).1 := by
  have hf := insert_frame (conn := conn) (L := L) (d := d) (L' := (L.insert conn d).1) (r := (L.insert conn d).2) rfl
  have h0 : (L.insert conn d).1.endLists[0]? = some [bosNode] := by
    have : ∀ e (x : LNode), 0 < e → (L.append e x).endLists[0]? = some [bosNode] := by
      intro e x he
      simp only [Lattice.append]
      rw [List.getElem?_modify, h.bos]
      simp only [Option.map_eq_map, Option.map_some]
      rw [if_neg (by omega)]
    have he : 0 < d.end_ := by omega
    unfold Lattice.insert
    split
    · exact h.bos
    · split
      · exact this _ _ he
      · split <;> exact this _ _ he
  refine ⟨?_, h0, by rw [hf.2.1, hf.2.2.2]; exact h.room, by rw [hf.1, hf.2.1]; exact h.size⟩
  have hlone : ∀ tt, Chain conn (Known lex) d.end_ (.lone d tt) := fun tt => ⟨rfl, hlt, hk⟩
  unfold Lattice.insert
  split
  · exact h.chain
  · split
    · exact h.chain.append (hlone _)
    · rename_i ns hns
      split
      · rename_i x hx
        rcases connectNode_mem hx with ⟨tt, rfl⟩ | ⟨tt, b, rfl, hb, hc, hl⟩
        · exact h.chain.append (hlone _)
        · exact h.chain.append ⟨rfl, hlt, hk, hc, h.chain _ _ _ hns hb, hl⟩
      · exact h.chain.append (hlone _)

theorem Sane.resize {lex : Lex} {L : Lattice} (h : Sane conn lex L) (n : Nat) : Sane conn lex (L.resize n) ∧
    n < (L.resize n).endLists.length ∧ (L.resize n).size = n ∧
      (L.resize n).eos = some (.lone { NodeData.blank with begin_ := n, end_ := n } 0) := by
  obtain ⟨h1, h2, h3, _⟩ := resize_frame L n h.room h.size
  refine ⟨?_, h1, h2, h3⟩
  unfold Lattice.resize Lattice.expand
  dsimp only
  have hroom := h.room
  have hsize := h.size
  have hpos : 0 < L.endLists.length := by omega
  split
  · rename_i hgt
    refine ⟨?_, ?_, ?_, ?_⟩
    · intro e ns x hns hx
      dsimp only at hns
      rcases Nat.lt_or_ge e L.endLists.length with he | he
      · rw [List.getElem?_append_left he] at hns
        exact h.chain e ns x hns hx
      · rw [List.getElem?_append_right he, List.getElem?_replicate] at hns
        split at hns
        · injection hns with hns; subst hns; cases hx
        · cases hns
    · dsimp only; rw [List.getElem?_append_left hpos]; exact h.bos
    · dsimp only; rw [List.length_append, List.length_replicate]; omega
    · exact Nat.le_refl _
  · exact ⟨h.chain, h.bos, h.room, by dsimp only; omega⟩

theorem simulates_sane {conn : Conn} {lex : Lex} (n : Nat) :
    Simulates conn n (Fits lex n) (fun L L' => L = L' ∧ Sane conn lex L ∧ n < L.endLists.length ∧ L.size = n ∧
      L.eos = some (.lone { NodeData.blank with begin_ := n, end_ := n } 0)) := by
  constructor
  · rintro L _ d ⟨rfl, h, h1, h2, h3⟩ hd
    obtain ⟨f1, f2, f3, f4⟩ := insert_frame (conn := conn) (L := L) (d := d) (L' := (L.insert conn d).1) (r := (L.insert conn d).2) rfl
    exact ⟨rfl, rfl, h.insert hd.1 hd.2.2, by omega, by omega, by rw [f3]; exact h3⟩
  · rintro L _ i ⟨rfl, _⟩ _; rfl

/-- The lattice after any attempt to build it. -/
theorem Sane.buildLattice {lex : Lex} (B : Built bd catOf t) (hlex : lex.Ok) {plugins : List OovPlugin} {L L' : Lattice} {r : Res Unit}
    (h : Sane conn lex L) (hb : buildLattice conn lex plugins t L = (L', r)) :
    Sane conn lex L' ∧ L'.size = t.bytes.length ∧ t.bytes.length < L'.endLists.length := by
  obtain ⟨h1, h2, h3, h4⟩ := h.resize t.bytes.length
  obtain ⟨g1, _, g2, g3, g4, g5⟩ := (simulates_sane (conn := conn) (lex := lex) t.bytes.length).buildLoop (lex := lex) (plugins := plugins) (t := t)
    (is := List.range t.bytes.length) (fun i hi => ⟨List.mem_range.mp hi, fun hbow => B.goodAt hlex plugins hbow⟩) ⟨rfl, h1, h2, h3, h4⟩
  unfold Sudachi.buildLattice at hb
  generalize buildLoop conn lex plugins t (List.range t.bytes.length) (L.resize t.bytes.length) = x at *
  obtain ⟨x1, x2⟩ := x
  dsimp only at g2 g3 g4 g5 hb
  cases x2 with
  | error e => cases hb; exact ⟨g2, g4, g3⟩
  | ok u =>
    obtain ⟨f1, f2, f3⟩ := connectEos_frame hb
    refine ⟨⟨?_, by rw [f1]; exact g2.bos, by rw [f1, f3]; exact g2.room, by rw [f2, f3]; exact g2.size⟩, by omega, by rw [f1]; exact g3⟩
    intro e ns x hns hx
    rw [f1] at hns
    exact g2.chain e ns x hns hx

theorem clearLoop_spec : ∀ (m a : Nat) (ls : List (List LNode)), a + m ≤ ls.length →
    ∃ ls', Lattice.clearLoop ls (List.range' a m) = (ls', .ok ()) ∧ ls'.length = ls.length ∧
      (∀ e, e < a ∨ a + m ≤ e → ls'[e]? = ls[e]?) ∧ (∀ e, a ≤ e → e < a + m → ls'[e]? = some []) := by
  intro m
  induction m with
  | zero => intro a ls _; exact ⟨ls, rfl, rfl, fun _ _ => rfl, fun e h1 h2 => by omega⟩
  | succ m ih =>
    intro a ls h
    obtain ⟨ls', h1, h2, h3, h4⟩ := ih (a + 1) (ls.set a []) (by simp; omega)
    refine ⟨ls', ?_, by simpa using h2, ?_, ?_⟩
    · rw [List.range'_succ, Lattice.clearLoop, if_pos (by omega)]
      exact h1
    · intro e he
      rw [h3 e (by omega), List.getElem?_set_ne (by omega)]
    · intro e he1 he2
      rcases Nat.eq_or_lt_of_le he1 with rfl | hlt
      · rw [h3 a (by omega), List.getElem?_set_self (by omega)]
      · exact h4 e (by omega) (by omega)

/-- `clear` always succeeds and keeps the invariant. -/
theorem Sane.clear {lex : Lex} {L : Lattice} (h : Sane conn lex L) : ∃ L', L.clear = (L', .ok ()) ∧ Sane conn lex L' ∧ L'.size = 0 ∧
    L'.eos = none ∧ L'.capacity = L.capacity ∧ L'.endLists.length = L.endLists.length ∧
    (∀ e, 1 ≤ e → e ≤ L.size → L'.endLists[e]? = some []) ∧ (∀ e, e = 0 ∨ L.size < e → L'.endLists[e]? = L.endLists[e]?) := by
  have hr := h.room
  have hs := h.size
  obtain ⟨ls, h1, h2, h3, h4⟩ := clearLoop_spec L.size 1 L.endLists (by omega)
  refine ⟨⟨0, L.capacity, ls, none⟩, ?_, ⟨?_, ?_, ?_, Nat.zero_le _⟩, rfl, rfl, rfl, h2, ?_, ?_⟩
  · unfold Lattice.clear; rw [h1]
  · intro e ns x hns hx
    dsimp only at hns
    by_cases he : 1 ≤ e ∧ e < 1 + L.size
    · rw [h4 e he.1 he.2] at hns; injection hns with hns; subst hns; cases hx
    · rw [h3 e (by omega)] at hns; exact h.chain e ns x hns hx
  · dsimp only; rw [h3 0 (by omega)]; exact h.bos
  · dsimp only; omega
  · intro e h5 h6; exact h4 e h5 (by omega)
  · intro e he; exact h3 e (by omega)

end Sudachi
