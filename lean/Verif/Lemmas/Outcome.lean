import Verif.Lemmas.Unknown
import Verif.Spec.Outcome

/-!
# How a call ends
-/

namespace Sudachi

variable {bd : Builder} {catOf : Nat → CatSet} {t : InputText} {conn : Conn} {left right : Int → Prop}

/-- A word whose id is too large stops the loop over the words of a position, if the words before it can be put in. -/
theorem wordLoop_large (B : Built bd catOf t) {lex : Lex} {i : Nat} (hj : ∀ l r, left l → right r → ∃ c, conn l r = .ok c) :
    ∀ {ws : List (Nat × Nat)} {L : Lattice} {has : Bool},
    (∀ w e, (w, e) ∈ ws → (∃ l r c, lex.params w = .ok (l, r, c) ∧ left l ∧ right r) ∧ i < e ∧ e ≤ t.bytes.length) →
    (∃ w e, (w, e) ∈ ws ∧ skipEnd t e = .ok false ∧ 2 ^ 31 ≤ w) → Roomy right t.bytes.length L →
    (wordLoop conn lex t i ws L has).2 = .error .overflow := by
  intro ws
  induction ws with
  | nil => rintro L has _ ⟨w, e, h, _⟩; cases h
  | cons we rest ih =>
    obtain ⟨w, e⟩ := we
    rintro L has h ⟨w', e', hm, hs, hbig⟩ hL
    obtain ⟨⟨l, r, c, hp, hl, hr⟩, hlt, hle⟩ := h w e (by simp)
    obtain ⟨b, hb, hb'⟩ := skipEnd_ok B e
    have ih' := fun {L : Lattice} {has : Bool} => ih (L := L) (has := has) (fun w e hm => h w e (by simp [hm]))
    unfold wordLoop
    rw [hb]
    cases b with
    | true =>
      refine ih' ⟨w', e', ?_, hs, hbig⟩ hL
      rcases List.mem_cons.1 hm with hm | hm
      · cases hm
        rw [hb] at hs
        cases hs
      · exact hm
    | false =>
      by_cases hw : 2 ^ 31 ≤ w
      · have hn : wordNode lex i w e = .error .overflow := by
          unfold wordNode
          simp only [hp, bind, Except.bind]
          rw [if_pos hw]
        rw [hn]
      · have hn : wordNode lex i w e = .ok ⟨i, e, l, r, c, w, false, none, true⟩ := by
          unfold wordNode
          simp only [hp, bind, Except.bind, pure, Except.pure]
          rw [if_neg hw]
        obtain ⟨L1, e1, e2⟩ := hL.insert hj (d := ⟨i, e, l, r, c, w, false, none, true⟩) (show i ≤ _ by omega) hle hl hr
        simp only [hn, e1]
        refine ih' ⟨w', e', ?_, hs, hbig⟩ e2
        rcases List.mem_cons.1 hm with hm | hm
        · cases hm
          exact absurd hbig hw
        · exact hm

/-- If no word id is too large, the nodes of the words of a position can be made. -/
theorem wordNodes_small (B : Built bd catOf t) {lex : Lex} {i : Nat} : ∀ {ws : List (Nat × Nat)},
    (∀ w e, (w, e) ∈ ws → ∃ l r c, lex.params w = .ok (l, r, c)) →
    (¬ ∃ w e, (w, e) ∈ ws ∧ skipEnd t e = .ok false ∧ 2 ^ 31 ≤ w) → ∃ ds, wordNodes lex t i ws = .ok ds := by
  intro ws
  induction ws with
  | nil => intro _ _; exact ⟨[], rfl⟩
  | cons we rest ih =>
    obtain ⟨w, e⟩ := we
    intro h hno
    obtain ⟨ds, h1⟩ := ih (fun w e hm => h w e (by simp [hm])) (fun ⟨w, e, hm, hs, hw⟩ => hno ⟨w, e, by simp [hm], hs, hw⟩)
    obtain ⟨l, r, c, hp⟩ := h w e (by simp)
    obtain ⟨b, hb, hb'⟩ := skipEnd_ok B e
    unfold wordNodes
    rw [hb]
    cases b with
    | true => exact ⟨ds, h1⟩
    | false =>
      have hw : ¬ 2 ^ 31 ≤ w := fun hw => hno ⟨w, e, by simp, hb, hw⟩
      have hn : wordNode lex i w e = .ok ⟨i, e, l, r, c, w, false, none, true⟩ := by
        unfold wordNode
        simp only [hp, bind, Except.bind, pure, Except.pure]
        rw [if_neg hw]
      simp only [hn, h1]
      exact ⟨_, rfl⟩

/-- What happens at a position without words. -/
theorem buildPos_none {lex : Lex} {plugins : List OovPlugin} {i : Nat} {L : Lattice} {ws : List (Nat × Nat)}
    (h1 : lex.lookup t.bytes i = .ok ws) (h2 : wordNodes lex t i ws = .ok []) (h3 : oovPartNodes plugins t i false = .ok [])
    (h4 : ∀ p, plugins.getLast? = some p → p.getOov t i false = .ok []) :
    (buildPos conn lex plugins t L i).2 = .error (if plugins = [] then .attribute else .runtime) := by
  unfold buildPos
  rw [h1]
  dsimp only
  rw [wordLoop_of h2 rfl]
  dsimp only [Bool.false_or, List.isEmpty_nil, Bool.not_true]
  rw [show (false || !true) = false from rfl, oovPart_of h3 rfl]
  dsimp only
  cases hl : plugins.getLast? with
  | none =>
    have : plugins = [] := List.getLast?_eq_none_iff.1 hl
    subst this
    rfl
  | some p =>
    have hne : plugins ≠ [] := by rintro rfl; cases hl
    rw [if_neg hne]
    have hd : defaultNodes plugins t i false = .ok [] := by
      unfold defaultNodes
      rw [if_neg (by simp), hl]
      exact h4 p hl
    have := defaultPart_of (conn := conn) (L := L) hd rfl
    simp only [List.isEmpty_nil, Bool.not_true, Bool.or_false] at this ⊢
    rw [this]

theorem insertAll_grows {ds : List NodeData} : ∀ {L L' : Lattice}, insertAll conn L ds = (L', .ok ()) →
    (∀ (e : Nat) ns, L.endLists[e]? = some ns → ns ≠ [] → ∃ ns', L'.endLists[e]? = some ns' ∧ ns' ≠ []) ∧
    ∀ d ∈ ds, ∃ ns', L'.endLists[d.end_]? = some ns' ∧ ns' ≠ [] := by
  induction ds with
  | nil =>
    intro L L' h
    cases h
    exact ⟨fun e ns h1 h2 => ⟨ns, h1, h2⟩, fun d hd => by cases hd⟩
  | cons d ds ih =>
    intro L L' h
    simp only [insertAll] at h
    split at h
    rotate_left
    · cases h
    rename_i L1 hi
    obtain ⟨g1, g2⟩ := ih h
    have key : (∀ (e : Nat) ns, L.endLists[e]? = some ns → ns ≠ [] → ∃ ns', L1.endLists[e]? = some ns' ∧ ns' ≠ []) ∧
        ∃ ns', L1.endLists[d.end_]? = some ns' ∧ ns' ≠ [] := by
      unfold Lattice.insert at hi
      repeat' split at hi
      all_goals first
        | (injection hi with _ hi; cases hi; done)
        | skip
      injection hi with hi _
      subst hi
      simp only [Lattice.append, List.getElem?_modify]
      constructor
      · intro e ns h1 h2
        rw [h1]
        by_cases he : d.end_ = e
        · exact ⟨_, rfl, by simp [if_pos he]⟩
        · exact ⟨_, rfl, by simpa [if_neg he] using h2⟩
      · cases hl : L.endLists[d.end_]? with
        | none => simp_all
        | some old => exact ⟨_, rfl, by simp⟩
    refine ⟨fun e ns h1 h2 => ?_, fun x hx => ?_⟩
    · obtain ⟨ns', h3, h4⟩ := key.1 e ns h1 h2
      exact g1 e ns' h3 h4
    · rcases List.mem_cons.1 hx with rfl | hx
      · obtain ⟨ns', h3, h4⟩ := key.2
        exact g1 _ ns' h3 h4
      · exact g2 x hx

namespace Sources
variable {S : Sources} {cfg : DictConfig} {dict : Dict}

/-- What the loop over the positions keeps: everything is put in before position `i`, and nothing else. -/
structure Front (S : Sources) (cfg : DictConfig) (dict : Dict) (t : InputText) (n i : Nat) (L : Lattice) : Prop where
  roomy : Roomy (InRange n) t.bytes.length L
  start : ∃ ns, L.endLists[0]? = some ns ∧ ns ≠ []
  sound : ∀ (e : Nat) ns, L.endLists[e]? = some ns → ns ≠ [] → S.Reached (loadedCost dict) cfg.catOf cfg.oov t e
  complete : ∀ d, S.Candidate (loadedCost dict) cfg.catOf cfg.oov t d → S.Reached (loadedCost dict) cfg.catOf cfg.oov t d.begin_ → d.begin_ < i →
    ∃ ns, L.endLists[d.end_]? = some ns ∧ ns ≠ []

/-- A position that words reach has something that ends there. -/
theorem Front.ends {n i : Nat} {L : Lattice} (F : Front S cfg dict t n i L) (h : S.Reached (loadedCost dict) cfg.catOf cfg.oov t i) :
    ∃ ns, L.endLists[i]? = some ns ∧ ns ≠ [] := by
  obtain ⟨before, h1, h2⟩ := h
  rcases List.eq_nil_or_concat before with rfl | ⟨l, d, rfl⟩
  · cases (show 0 = i from h1)
    exact F.start
  · have h1 : Tiles 0 i (l ++ [d]) := by simpa using h1
    have hb : ∀ (l : List NodeData) (a : Nat), Tiles a i (l ++ [d]) → Tiles a d.begin_ l ∧ d.begin_ < d.end_ := by
      intro l
      induction l with
      | nil => intro a h; exact ⟨Eq.symm h.1, h.2.1⟩
      | cons x l ih => intro a h; exact ⟨⟨h.1, h.2.1, (ih _ h.2.2).1⟩, (ih _ h.2.2).2⟩
    have hl := tiles_last h1
    obtain ⟨b1, b2⟩ := hb l 0 h1
    rw [← hl]
    exact F.complete d (h2 d (by simp)) ⟨l, b1, fun y hy => h2 y (by simp [hy])⟩ (by omega)

/-- The matches of a position, as the loop sees them. -/
theorem Installed.matches_at (hD : cfg.D.Ok) (h : S.Installed cfg dict) (B : Built bd cfg.catOf t) {n : Nat} (hids : S.IdsInRange n) {k : Nat}
    (hk : k < bd.modified.length) (hbow : t.canBow (bytePos bd.modified k) = .ok true) :
    ∃ ws, (dict.set.toLex cfg.D cfg.depth).lookup t.bytes (bytePos bd.modified k) = .ok ws ∧
      (∀ w e, (w, e) ∈ ws → (∃ l r c, (dict.set.toLex cfg.D cfg.depth).params w = .ok (l, r, c) ∧ InRange n l ∧ InRange n r) ∧
        bytePos bd.modified k < e ∧ e ≤ t.bytes.length) ∧
      ((∃ w e, (w, e) ∈ ws ∧ skipEnd t e = .ok false ∧ 2 ^ 31 ≤ w) ↔ S.TooLarge (loadedCost dict) t k) := by
  have hmod : t.modified = bd.modified := B.modif
  have hi : bytePos bd.modified k < t.bytes.length := by rw [B.bytePos_wpos, B.blen]; exact wpos_lt B.enc hk (Nat.le_refl _)
  obtain ⟨ws, hws, hw⟩ := h.lookup hD t.bytes (bytePos bd.modified k)
  have hws' : (dict.set.toLex cfg.D cfg.depth).lookup t.bytes (bytePos bd.modified k) = .ok ws := hws
  have hpar : ∀ w e, (w, e) ∈ ws → (∃ l r c, (dict.set.toLex cfg.D cfg.depth).params w = .ok (l, r, c) ∧ InRange n l ∧ InRange n r) ∧
        bytePos bd.modified k < e ∧ e ≤ t.bytes.length := by
    intro w e hm
    refine ⟨?_, (h.lexOk hD).lookup_inside _ _ _ hi hws' _ e hm⟩
    obtain ⟨d, w0, c, rfl, hc, hleft, _⟩ := (hw w e).1 hm
    obtain ⟨l, r, v, p1, p2, p3, _⟩ := h.params hD hc
    obtain ⟨q1, q2⟩ := hids d w0 c hc hleft l r p1 p2
    exact ⟨l, r, v, p3, q1, q2⟩
  refine ⟨ws, hws', hpar, ?_, ?_⟩
  · rintro ⟨w, e, hm, hs, hbig⟩
    obtain ⟨⟨l, r, c, hp, _⟩, _, hle⟩ := hpar w e hm
    have heow : e = t.bytes.length ∨ t.canBow e = .ok true := by
      unfold skipEnd at hs
      split at hs
      · cases hc : t.canBow e with
        | error x => simp [hc, bind, Except.bind] at hs
        | ok b => simp [hc, bind, Except.bind, pure, Except.pure] at hs; subst hs; exact .inr rfl
      · left; omega
    refine ⟨⟨bytePos bd.modified k, e, l, r, c, w, false, none, true⟩,
      h.word hD (.inl ⟨rfl, rfl, ws, w, hws', hm, rfl, hp⟩) rfl rfl hbow heow, by rw [hmod], ?_⟩
    show (2147483648 : Int) ≤ (w : Int)
    omega
  · rintro ⟨y, ⟨o1, o2, o3, d, w, c, hc, hleft, o4, o5, o6, o7, o8, o9, o10, o11⟩, hbeg, hbig⟩
    rw [hmod] at hbeg
    rw [hbeg] at o8 o9
    refine ⟨combinedId d w, y.end_, (hw _ _).2 ⟨d, w, c, rfl, hc, hleft, o8, o9⟩, ?_, by omega⟩
    unfold skipEnd
    rcases o11 with he | he
    · rw [if_neg (by omega)]; rfl
    · split
      · simp [he, bind, Except.bind, pure, Except.pure]
      · rfl

/-- The unknown words at a character, in the text. -/
theorem unknown_at (B : Built bd catOf t) {oov : List OovPlugin} {k : Nat} (hk : k < bd.modified.length) {x : NodeData}
    {P : Nat → Prop} {k' : Nat} (hx : UnknownAt bd.modified catOf oov (P k') k' x) (hxb : x.begin_ = bytePos bd.modified k) :
    k' = k := by
  have hk' : k' < bd.modified.length := by
    obtain ⟨ch, hch, _⟩ := hx
    exact (List.getElem?_eq_some_iff.1 hch).1
  have e := hx.entry.2.1
  rw [hxb, B.bytePos_wpos, B.bytePos_wpos] at e
  rcases Nat.lt_trichotomy k' k with hlt | heq | hlt
  · have := wpos_lt B.enc hlt (Nat.le_of_lt hk); omega
  · exact heq
  · have := wpos_lt B.enc hlt (Nat.le_of_lt hk'); omega

theorem candidate_at (B : Built bd catOf t) {auto : Nat → Nat → Int} {oov : List OovPlugin} {k : Nat} (hk : k < bd.modified.length) {x : NodeData}
    (hx : S.Candidate auto catOf oov t x) (hxb : x.begin_ = bytePos bd.modified k) :
    (S.Word auto t x ∧ x.begin_ = bytePos bd.modified k) ∨
      UnknownAt bd.modified catOf oov (∃ y, S.Word auto t y ∧ y.begin_ = bytePos bd.modified k) k x := by
  have hmod : t.modified = bd.modified := B.modif
  rcases hx with hx | ⟨k', _, hx⟩
  · exact .inl ⟨hx, hxb⟩
  · rw [hmod] at hx
    have := unknown_at B hk (P := fun k => ∃ y, S.Word auto t y ∧ y.begin_ = bytePos bd.modified k) hx hxb
    subst this
    exact .inr hx

theorem candidate_bow (B : Built bd catOf t) {auto : Nat → Nat → Int} {oov : List OovPlugin} {x : NodeData}
    (hx : S.Candidate auto catOf oov t x) : t.canBow x.begin_ = .ok true := by
  have hmod : t.modified = bd.modified := B.modif
  rcases hx with ⟨_, _, _, _, _, _, _, _, _, _, _, _, _, _, hx, _⟩ | ⟨k, hbc, hx⟩
  · exact hx
  · rw [hmod] at hbc hx
    rw [hx.entry.2.1, B.bytePos_wpos]
    obtain ⟨ch, hch, _⟩ := hx
    exact canBow_of B (List.getElem?_eq_some_iff.1 hch).1 (by rw [B.cats]; exact hbc)

/-- What happens at a position that words reach. -/
theorem Installed.position (hD : cfg.D.Ok) (h : S.Installed cfg dict) (hv : bd.Valid) (hb : bd.build cfg.catOf = .ok t) {n : Nat}
    {entries : List (Int × Int × Int)} (hmat : S.Matrix n entries) (hids : S.IdsInRange n) (hst : ∀ p ∈ cfg.oov, p.Stores) {k : Nat}
    (hk : k < bd.modified.length) (hbc : BowChar (bd.modified.map cfg.catOf) k) {L : Lattice} (hL : Roomy (InRange n) t.bytes.length L) :
    (S.TooLarge (loadedCost dict) t k →
      (buildPos dict.grammar.cell (dict.set.toLex cfg.D cfg.depth) cfg.oov t L (bytePos bd.modified k)).2 = .error .overflow) ∧
    (¬ S.TooLarge (loadedCost dict) t k → S.NoWord (loadedCost dict) cfg t k →
      (buildPos dict.grammar.cell (dict.set.toLex cfg.D cfg.depth) cfg.oov t L (bytePos bd.modified k)).2 =
        .error (if cfg.oov = [] then .attribute else .runtime)) ∧
    (¬ S.TooLarge (loadedCost dict) t k → ¬ S.NoWord (loadedCost dict) cfg t k →
      ∃ ds, posNodes (dict.set.toLex cfg.D cfg.depth) cfg.oov t (bytePos bd.modified k) = .ok ds) := by
  have B := built hv.len hb
  have hmod : t.modified = bd.modified := B.modif
  have hbow : t.canBow (bytePos bd.modified k) = .ok true := by
    rw [B.bytePos_wpos]
    exact canBow_of B hk (by rw [B.cats]; exact hbc)
  have hj : ∀ l r, InRange n l → InRange n r → ∃ c, dict.grammar.cell l r = .ok c := fun l r hl hr => ⟨_, h.cell hD hmat hl hr⟩
  obtain ⟨ws, hws, hpar, hlarge⟩ := h.matches_at hD B hids hk hbow
  refine ⟨fun hl => ?_, ?_⟩
  · unfold buildPos
    rw [hws]
    dsimp only
    have := wordLoop_large (has := false) B hj hpar (hlarge.2 hl) hL
    cases hw : wordLoop dict.grammar.cell (dict.set.toLex cfg.D cfg.depth) t (bytePos bd.modified k) ws L false with
    | mk L1 r =>
      rw [hw] at this
      dsimp only at this
      subst this
      rfl
  refine (fun (H : ¬ S.TooLarge (loadedCost dict) t k → _ ∧ _) => ⟨fun a => (H a).1, fun a => (H a).2⟩) fun hl => ?_
  obtain ⟨a, ha⟩ := wordNodes_small B (lex := dict.set.toLex cfg.D cfg.depth) (i := bytePos bd.modified k)
    (fun w e hm => by obtain ⟨⟨l, r, c, hp, _⟩, _⟩ := hpar w e hm; exact ⟨l, r, c, hp⟩) (fun hw => hl (hlarge.1 hw))
  have hword := h.words_at hD hv hb hk hbow hws ha
  have hother : (∃ y, S.Word (loadedCost dict) t y ∧ y.begin_ = bytePos t.modified k) ↔ (!a.isEmpty) = true := by
    rw [hmod]
    constructor
    · rintro ⟨y, hy⟩
      have := (hword y).2 hy
      cases a with
      | nil => cases this
      | cons => rfl
    · intro hne
      cases a with
      | nil => cases hne
      | cons y ys => exact ⟨y, (hword y).1 List.mem_cons_self⟩
  obtain ⟨b, hbn⟩ : ∃ b, oovPartNodes cfg.oov t (bytePos bd.modified k) (!a.isEmpty) = .ok b := by
    unfold oovPartNodes
    rw [B.bytePos_wpos, B.cats_at hk]
    dsimp only
    split
    · exact ⟨[], rfl⟩
    · rw [← B.bytePos_wpos]
      exact oovNodes_answers hv hb hk cfg.oov (!a.isEmpty) hst
  have hcand : ∀ x, UnknownAt bd.modified cfg.catOf cfg.oov ((!a.isEmpty) = true) k x →
      S.Candidate (loadedCost dict) cfg.catOf cfg.oov t x ∧ x.begin_ = bytePos t.modified k := by
    intro x hx
    refine ⟨.inr ⟨k, by rw [hmod]; exact hbc, ?_⟩, by rw [hmod]; exact hx.entry.2.1⟩
    have := (UnknownAt_congr hother).2 hx
    rw [hmod] at this ⊢
    exact this
  constructor
  · intro hno
    have ha0 : a = [] := by
      cases a with
      | nil => rfl
      | cons y ys =>
        obtain ⟨g1, g2⟩ := (hword y).1 List.mem_cons_self
        exact absurd ⟨y, .inl g1, by rw [hmod]; exact g2⟩ hno
    subst ha0
    cases hp : cfg.oov.getLast? with
    | none =>
      have h0 : cfg.oov = [] := List.getLast?_eq_none_iff.1 hp
      refine buildPos_none hws ha ?_ (fun p hp' => by rw [hp] at hp'; cases hp')
      unfold oovPartNodes
      rw [B.bytePos_wpos, B.cats_at hk, h0]
      dsimp only
      split <;> rfl
    | some p =>
      obtain ⟨c, hc⟩ := getOov_answers hv hb hk (hst p (List.mem_of_getLast? hp)) false
      have hb0 : b = [] := by
        cases b with
        | nil => rfl
        | cons y ys =>
          have hdef : defaultNodes cfg.oov t (bytePos bd.modified k) (!([] : List NodeData).isEmpty || !(y :: ys).isEmpty) = .ok [] := by
            unfold defaultNodes
            rw [if_pos (by simp)]
          have := (unknown_nodes hv hb hk hbn hdef y).1 (.inl List.mem_cons_self)
          exact absurd ⟨y, hcand y this⟩ hno
      subst hb0
      have hdef : defaultNodes cfg.oov t (bytePos bd.modified k) (!([] : List NodeData).isEmpty || !([] : List NodeData).isEmpty) = .ok c := by
        unfold defaultNodes
        rw [if_neg (by simp), hp]
        exact hc
      have hc0 : c = [] := by
        cases c with
        | nil => rfl
        | cons y ys =>
          have := (unknown_nodes hv hb hk hbn hdef y).1 (.inr List.mem_cons_self)
          exact absurd ⟨y, hcand y this⟩ hno
      subst hc0
      refine buildPos_none hws ha hbn (fun p' hp' => ?_)
      rw [hp] at hp'
      cases hp'
      exact hc
  · intro hsome
    obtain ⟨x, hx, hxb⟩ := Classical.not_not.1 hsome
    have hx' : a = [] → UnknownAt bd.modified cfg.catOf cfg.oov ((!a.isEmpty) = true) k x := by
      intro ha0
      rw [hmod] at hother hxb
      rcases candidate_at B hk hx hxb with hx | hx
      · have := (hword x).2 hx
        rw [ha0] at this
        cases this
      · exact (UnknownAt_congr hother).1 hx
    obtain ⟨c, hc⟩ : ∃ c, defaultNodes cfg.oov t (bytePos bd.modified k) (!a.isEmpty || !b.isEmpty) = .ok c := by
      unfold defaultNodes
      split
      · exact ⟨[], rfl⟩
      · rename_i hflag
        cases hp : cfg.oov.getLast? with
        | some p => exact getOov_answers hv hb hk (hst p (List.mem_of_getLast? hp)) false
        | none =>
          exfalso
          have ha0 : a = [] := by cases a with | nil => rfl | cons _ _ => simp at hflag
          obtain ⟨_, _, p, hp', _⟩ := (hx' ha0).entry
          rw [List.getLast?_eq_none_iff.1 hp] at hp'
          cases hp'
    have hne : (a.isEmpty && b.isEmpty && c.isEmpty) = false := by
      cases a with
      | cons => rfl
      | nil =>
        have := (unknown_nodes hv hb hk hbn hc x).2 (hx' rfl)
        cases b with
        | cons => rfl
        | nil =>
          cases c with
          | cons => rfl
          | nil => rcases this with h | h <;> cases h
    refine ⟨a ++ (b ++ c), ?_⟩
    unfold posNodes
    simp only [hws, ha, hbn, hc, hne]
    rfl

/-- As long as nothing is in the way the loop goes on. -/
theorem Installed.loop (hD : cfg.D.Ok) (h : S.Installed cfg dict) (hv : bd.Valid) (hb : bd.build cfg.catOf = .ok t) {n : Nat}
    {entries : List (Int × Int × Int)} (hmat : S.Matrix n entries) (hids : S.IdsInRange n) (hst : ∀ p ∈ cfg.oov, p.Stores)
    (hoov : ∀ p ∈ cfg.oov, ∀ o, p.Entry o → InRange n o.leftId ∧ InRange n o.rightId) :
    ∀ (m i : Nat) {L : Lattice}, i + m ≤ t.bytes.length → Front S cfg dict t n i L →
      (∀ j, S.Stuck (loadedCost dict) cfg t j → ¬ (i ≤ bytePos bd.modified j ∧ bytePos bd.modified j < i + m)) →
      ∃ L', buildLoop dict.grammar.cell (dict.set.toLex cfg.D cfg.depth) cfg.oov t (List.range' i m) L = (L', .ok ()) ∧
        Front S cfg dict t n (i + m) L'
  | 0, i, L, _, F, _ => ⟨L, rfl, F⟩
  | m + 1, i, L, hle, F, hno => by
    have B := built hv.len hb
    have hmod : t.modified = bd.modified := B.modif
    have hj : ∀ l r, InRange n l → InRange n r → ∃ c, dict.grammar.cell l r = .ok c := fun l r hl hr => ⟨_, h.cell hD hmat hl hr⟩
    have hi : i < t.bytes.length := by omega
    have hroom := F.roomy.room
    have next : ∀ {L : Lattice}, Front S cfg dict t n (i + 1) L →
        ∃ L', buildLoop dict.grammar.cell (dict.set.toLex cfg.D cfg.depth) cfg.oov t (List.range' (i + 1) m) L = (L', .ok ()) ∧
          Front S cfg dict t n (i + (m + 1)) L' := by
      intro L F'
      have := h.loop hD hv hb hmat hids hst hoov m (i + 1) (by omega) F' (fun j hs hj => hno j hs (by omega))
      rwa [show i + 1 + m = i + (m + 1) by omega] at this
    have skip : (∀ d, S.Candidate (loadedCost dict) cfg.catOf cfg.oov t d → S.Reached (loadedCost dict) cfg.catOf cfg.oov t d.begin_ →
        d.begin_ ≠ i) → Front S cfg dict t n (i + 1) L := fun hne =>
      ⟨F.roomy, F.start, F.sound, fun d h1 h2 h3 => F.complete d h1 h2 (by have := hne d h1 h2; omega)⟩
    rw [List.range'_succ]
    unfold buildLoop
    obtain ⟨b, hbw, _⟩ := B.canBow_spec hi
    have hlist := List.getElem?_eq_getElem (show i < L.endLists.length by omega)
    have hprev : L.hasPreviousNode i = .ok (!(L.endLists[i]'(by omega)).isEmpty) := by
      unfold Lattice.hasPreviousNode
      rw [pyGet, hlist]
      rfl
    unfold skipPos
    simp only [hbw, hprev, bind, Except.bind, pure, Except.pure]
    cases b with
    | false =>
      refine next (skip fun d h1 _ h3 => ?_)
      have := candidate_bow B h1
      rw [h3, hbw] at this
      cases this
    | true =>
      simp only [Bool.not_true, Bool.false_eq_true, if_false]
      cases hemp : (L.endLists[i]'(by omega)).isEmpty with
      | true =>
        refine next (skip fun d h1 h2 h3 => ?_)
        rw [h3] at h2
        obtain ⟨ns, g1, g2⟩ := F.ends h2
        rw [hlist] at g1
        cases g1
        exact g2 (List.isEmpty_iff.1 hemp)
      | false =>
        have hreach := F.sound i _ hlist (by intro h0; rw [h0] at hemp; cases hemp)
        obtain ⟨k, hk, hkb, hbc⟩ := B.bow_char hbw
        rw [← B.bytePos_wpos] at hkb
        rw [B.cats] at hbc
        have hstuck : ¬ S.Stuck (loadedCost dict) cfg t k := fun hs => hno k hs (by omega)
        have hvis : S.Visited (loadedCost dict) cfg t k := ⟨by rw [hmod]; exact hk, by rw [hmod]; exact hbc, by rw [hmod, ← hkb]; exact hreach⟩
        have hbow : t.canBow (bytePos bd.modified k) = .ok true := by rw [← hkb]; exact hbw
        obtain ⟨ds, hds⟩ := (h.position hD hv hb hmat hids hst hk hbc F.roomy).2.2 (fun hl => hstuck ⟨hvis, .inl hl⟩)
          (fun hl => hstuck ⟨hvis, .inr hl⟩)
        have hins := posNodes_inserted B (h.lexOk hD) hbow hds
        have hcand : ∀ d ∈ ds, S.Candidate (loadedCost dict) cfg.catOf cfg.oov t d := by
          intro d hd
          rcases (h.at_position hD hv hb hk hbow hds d).1 hd with hw | hw
          · exact .inl hw.1
          · exact .inr ⟨k, by rw [hmod]; exact hbc, by rw [hmod]; exact hw⟩
        obtain ⟨L1, h3, h4⟩ := Roomy.insertAll hj (ds := ds) F.roomy (fun d hd => by
          obtain ⟨g1, g2, g3, _⟩ := hins d hd
          have hle : d.end_ ≤ t.bytes.length := by
            obtain ⟨k1, j, _, q2, _, q4⟩ := g3.onChars
            rw [q4, B.blen]
            exact wpos_mono _ q2
          have hr := Candidate.inRange hids hoov (hcand d hd)
          exact ⟨by omega, hle, hr.1, hr.2⟩)
        obtain ⟨gr1, gr2⟩ := insertAll_grows h3
        rw [hkb] at hreach
        have F' : Front S cfg dict t n (i + 1) L1 := by
          refine ⟨h4, ?_, fun e ns he hne => ?_, fun d h5 h6 h7 => ?_⟩
          · obtain ⟨ns, g1, g2⟩ := F.start
            exact gr1 0 ns g1 g2
          · rcases insertAll_ends h3 e ns he hne with ⟨ns0, h5, h6⟩ | ⟨d, h5, rfl⟩
            · exact F.sound e ns0 h5 h6
            · obtain ⟨before, b1, b2⟩ := hreach
              obtain ⟨g1, g2, _⟩ := hins d h5
              refine ⟨before ++ [d], tiles_snoc (by rw [g1]; exact b1) (by omega), fun y hy => ?_⟩
              rcases List.mem_append.1 hy with hy | hy
              · exact b2 y hy
              · rw [List.mem_singleton.1 hy]; exact hcand d h5
          · by_cases hdi : d.begin_ = i
            · rw [hkb] at hdi
              exact gr2 d ((h.at_position hD hv hb hk hbow hds d).2 (candidate_at B hk h5 hdi))
            · obtain ⟨ns, g1, g2⟩ := F.complete d h5 h6 (by omega)
              exact gr1 _ ns g1 g2
        obtain ⟨L2, e1, e2⟩ := next F'
        refine ⟨L2, ?_, e2⟩
        rw [hkb, buildPos_of hds h3, ← hkb]
        exact e1

end Sources
end Sudachi
