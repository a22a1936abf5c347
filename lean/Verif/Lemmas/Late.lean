import Verif.Spec.Late

/-!
# Values of the wrong type in the settings of plugins: lemmas
-/

namespace Sudachi

variable {E : Err → Prop}

/-- The same, or an exception of `E`. -/
def Le {α : Type} (E : Err → Prop) (r r' : Res α) : Prop := r = r' ∨ ∃ e, E e ∧ r = .error e

/-- The same, for what changes a lattice. -/
def LeL {α : Type} (E : Err → Prop) (r r' : Lattice × Res α) : Prop := r = r' ∨ ∃ e, E e ∧ r.2 = .error e

theorem Le.rfl {α : Type} {r : Res α} : Le E r r := .inl Eq.refl'
where Eq.refl' : r = r := by exact Eq.refl r

theorem Le.bind {α β : Type} {x x' : Res α} {k k' : α → Res β} (h : Le E x x') (hk : ∀ a, Le E (k a) (k' a)) : Le E (x >>= k) (x' >>= k') := by
  rcases h with rfl | ⟨e, he, rfl⟩
  · cases x with
    | error e => exact .inl (Eq.refl _)
    | ok a => exact hk a
  · exact .inr ⟨e, he, Eq.refl _⟩

/-! ### Rewriting the text -/

theorem lateReplace_le (bd : Builder) (b e : Int) {sym : Res PStr} {s : PStr} (h : FitsVal E sym s) :
    Le E (bd.lateReplace b e sym) (bd.replace b e s) := by
  rcases h with rfl | ⟨x, hx, rfl⟩
  · exact .inl (Eq.refl _)
  unfold Builder.lateReplace Builder.replace Builder.replaceM
  dsimp only
  split
  · exact .inl (Eq.refl _)
  split
  · exact .inl (Eq.refl _)
  split
  · exact .inl (Eq.refl _)
  split
  · exact .inl (Eq.refl _)
  · exact .inr ⟨x, hx, Eq.refl _⟩

theorem latePsmLoop_le (marks : List Nat) {sym : Res PStr} {s : PStr} (h : FitsVal E sym s) : ∀ (cs : PStr) (i : Nat) (offset : Int)
    (start : Option Nat) (bd : Builder), Le E (latePsmLoop marks sym cs i offset start bd) (psmLoop marks s cs i offset start bd)
  | [], _, _, _, _ => .inl (Eq.refl _)
  | c :: cs, i, offset, none, bd => by
    unfold latePsmLoop psmLoop
    dsimp only
    split <;> exact latePsmLoop_le marks h cs _ _ _ _
  | c :: cs, i, offset, some m, bd => by
    unfold latePsmLoop psmLoop
    dsimp only
    split
    · exact latePsmLoop_le marks h cs _ _ _ _
    split
    · exact (lateReplace_le bd _ _ h).bind fun bd' => latePsmLoop_le marks h cs _ _ _ _
    · exact latePsmLoop_le marks h cs _ _ _ _

theorem lateInput_le {lower nfkc : PStr → PStr} {p : LateInput} {q : InputPlugin} (h : p.Fits E q) (bd : Builder) :
    Le E (p.rewrite lower nfkc bd) (q.rewrite lower nfkc bd) := by
  match p, q, h with
  | .default tb, .default tb', h => cases h; exact .inl (Eq.refl _)
  | .psm marks sym, .psm marks' s, h0 =>
    obtain ⟨e0, h⟩ := h0
    subst e0
    refine (latePsmLoop_le marks h _ _ _ _ _).bind fun ⟨bd', offset, start⟩ => ?_
    cases start with
    | none => exact .inl (Eq.refl _)
    | some m =>
      dsimp only
      split
      · exact lateReplace_le bd' _ _ h
      · exact .inl (Eq.refl _)

theorem lateRewriteInput_le {lower nfkc : PStr → PStr} {ps : List LateInput} {qs : List InputPlugin} (h : Paired (LateInput.Fits E) ps qs) :
    ∀ bd, Le E (lateRewriteInput lower nfkc ps bd) (rewriteInput lower nfkc qs bd) := by
  induction h with
  | nil => exact fun _ => .inl (Eq.refl _)
  | cons h1 _ ih => exact fun bd => (lateInput_le h1 bd).bind ih

/-! ### The lattice -/

theorem lateGetOov_le {p : LateOov} {q : OovPlugin} (h : p.Fits E q) (t : InputText) (i : Nat) (other : Bool) :
    Le E (p.getOov t i other) (q.getOov t i other) := by
  match p, q, h with
  | .mecab a b, .mecab a' b', h0 =>
    obtain ⟨e1, e2⟩ := h0
    subst e1 e2
    exact .inl (Eq.refl _)
  | .simple l r c posId, .simple o, h0 =>
    obtain ⟨h1, h2, h3, e0⟩ := h0
    subst e0
    unfold LateOov.getOov
    dsimp only
    cases other with
    | true =>
      rw [if_pos rfl]
      exact .inl (Eq.refl _)
    | false =>
      rw [if_neg (by decide)]
      rcases h1 with rfl | ⟨e, he, rfl⟩
      · rcases h2 with rfl | ⟨e, he, rfl⟩
        · rcases h3 with rfl | ⟨e, he, rfl⟩
          · exact .inl (Eq.refl _)
          · exact .inr ⟨e, he, Eq.refl _⟩
        · exact .inr ⟨e, he, Eq.refl _⟩
      · exact .inr ⟨e, he, Eq.refl _⟩

theorem lateOovLoop_le {conn : Conn} {t : InputText} {i : Nat} {ps : List LateOov} {qs : List OovPlugin} (h : Paired (LateOov.Fits E) ps qs) :
    ∀ L has, LeL E (lateOovLoop conn t i ps L has) (oovLoop conn t i qs L has) := by
  induction h with
  | nil => exact fun _ _ => .inl (Eq.refl _)
  | cons h1 _ ih =>
    intro L has
    unfold lateOovLoop oovLoop
    rcases lateGetOov_le h1 t i has with e | ⟨e, he, h2⟩
    · rw [e]
      cases OovPlugin.getOov t i has _ with
      | error x => exact .inl (Eq.refl _)
      | ok ns =>
        dsimp only
        cases insertAll conn L ns with
        | mk L' r =>
          cases r with
          | error x => exact .inl (Eq.refl _)
          | ok _ => exact ih _ _
    · rw [h2]
      exact .inr ⟨e, he, Eq.refl _⟩

theorem Paired.getLast {α β : Type} {R : α → β → Prop} {l : List α} {l' : List β} (h : Paired R l l') :
    (l.getLast? = none ∧ l'.getLast? = none) ∨ ∃ a b, l.getLast? = some a ∧ l'.getLast? = some b ∧ R a b := by
  induction h with
  | nil => exact .inl ⟨rfl, rfl⟩
  | @cons a b l l' h1 h2 ih =>
    right
    rcases ih with ⟨e1, e2⟩ | ⟨x, y, e1, e2, hr⟩
    · rw [List.getLast?_eq_none_iff] at e1 e2
      subst e1 e2
      exact ⟨a, b, rfl, rfl, h1⟩
    · exact ⟨x, y, by rw [List.getLast?_cons, e1]; rfl, by rw [List.getLast?_cons, e2]; rfl, hr⟩

theorem lateBuildPos_le {conn : Conn} {lex : Lex} {t : InputText} {ps : List LateOov} {qs : List OovPlugin} (h : Paired (LateOov.Fits E) ps qs)
    (L : Lattice) (i : Nat) : LeL E (lateBuildPos conn lex ps t L i) (buildPos conn lex qs t L i) := by
  have h1 : ∀ L has, LeL E (lateOovPart conn ps t i L has) (oovPart conn qs t i L has) := by
    intro L has
    unfold lateOovPart oovPart
    cases t.charCategoryTypesAt i with
    | error x => exact .inl (Eq.refl _)
    | ok cats =>
      dsimp only
      split
      · exact .inl (Eq.refl _)
      · exact lateOovLoop_le h L has
  have h2 : ∀ L has, LeL E (lateDefaultPart conn ps t i L has) (defaultPart conn qs t i L has) := by
    intro L has
    unfold lateDefaultPart defaultPart
    split
    · exact .inl (Eq.refl _)
    · rcases h.getLast with ⟨e1, e2⟩ | ⟨a, b, e1, e2, hr⟩
      · rw [e1, e2]
        exact .inl (Eq.refl _)
      · rw [e1, e2]
        exact lateOovLoop_le (.cons hr .nil) L false
  unfold lateBuildPos buildPos
  cases lex.lookup t.bytes i with
  | error x => exact .inl (Eq.refl _)
  | ok ws =>
    dsimp only
    obtain ⟨L1, r1⟩ := wordLoop conn lex t i ws L false
    cases r1 with
    | error x => exact .inl (Eq.refl _)
    | ok has1 =>
      dsimp only
      have := h1 L1 has1
      revert this
      generalize lateOovPart conn ps t i L1 has1 = x
      generalize oovPart conn qs t i L1 has1 = y
      rintro (rfl | ⟨e, he, h3⟩)
      · obtain ⟨L2, r2⟩ := x
        cases r2 with
        | error x => exact .inl (Eq.refl _)
        | ok has2 =>
          dsimp only
          have := h2 L2 has2
          revert this
          generalize lateDefaultPart conn ps t i L2 has2 = x
          generalize defaultPart conn qs t i L2 has2 = y
          rintro (rfl | ⟨e, he, h3⟩)
          · obtain ⟨L3, r3⟩ := x
            rcases r3 with _ | _ | _ <;> exact .inl (Eq.refl _)
          · obtain ⟨L3, r3⟩ := x
            dsimp only at h3
            subst h3
            exact .inr ⟨e, he, Eq.refl _⟩
      · obtain ⟨L2, r2⟩ := x
        dsimp only at h3
        subst h3
        exact .inr ⟨e, he, Eq.refl _⟩

theorem lateBuildLattice_le {conn : Conn} {lex : Lex} {t : InputText} {ps : List LateOov} {qs : List OovPlugin}
    (h : Paired (LateOov.Fits E) ps qs) (L : Lattice) : LeL E (lateBuildLattice conn lex ps t L) (buildLattice conn lex qs t L) := by
  have key : ∀ is L, LeL E (lateBuildLoop conn lex ps t is L) (buildLoop conn lex qs t is L) := by
    intro is
    induction is with
    | nil => exact fun _ => .inl (Eq.refl _)
    | cons i is ih =>
      intro L
      unfold lateBuildLoop buildLoop
      rcases skipPos t L i with _ | _ | _
      · exact .inl (Eq.refl _)
      · dsimp only
        have := lateBuildPos_le (conn := conn) (lex := lex) (t := t) h L i
        revert this
        generalize lateBuildPos conn lex ps t L i = x
        generalize buildPos conn lex qs t L i = y
        rintro (rfl | ⟨e, he, h3⟩)
        · obtain ⟨L2, r2⟩ := x
          cases r2 with
          | error x => exact .inl (Eq.refl _)
          | ok _ => exact ih _
        · obtain ⟨L2, r2⟩ := x
          dsimp only at h3
          subst h3
          exact .inr ⟨e, he, Eq.refl _⟩
      · exact ih L
  unfold lateBuildLattice buildLattice
  have := key (List.range t.bytes.length) (L.resize t.bytes.length)
  revert this
  generalize lateBuildLoop conn lex ps t (List.range t.bytes.length) (L.resize t.bytes.length) = x
  generalize buildLoop conn lex qs t (List.range t.bytes.length) (L.resize t.bytes.length) = y
  rintro (rfl | ⟨e, he, h3⟩)
  · obtain ⟨L2, r2⟩ := x
    cases r2 <;> exact .inl (Eq.refl _)
  · obtain ⟨L2, r2⟩ := x
    dsimp only at h3
    subst h3
    exact .inr ⟨e, he, Eq.refl _⟩

/-! ### Rewriting the path -/

theorem lateKatakanaStep_le {cfg : JoinKatakana} {shorter : Int → Res Bool} (h : ∀ n, FitsVal E (shorter n) (decide (n < cfg.minLength)))
    (lex : Lex) (t : InputText) (L : Lattice) (path : List NodeData) (i : Nat) :
    Le E (lateKatakanaStep cfg.posId shorter lex t L path i) (cfg.step lex t L path i) := by
  unfold lateKatakanaStep JoinKatakana.step katakanaStart
  refine Le.bind (.inl (Eq.refl _)) fun node => ?_
  rw [bind_assoc]
  refine Le.bind ?_ fun trig => ?_
  · unfold lateTrigger katakanaTrigger
    split
    · exact .inl (Eq.refl _)
    · refine Le.bind (.inl (Eq.refl _)) fun n => ?_
      rcases h n with e | ⟨e, he, e1⟩
      · rw [e]; exact .inl (Eq.refl _)
      · exact .inr ⟨e, he, e1⟩
  · cases trig <;> exact .inl (Eq.refl _)

theorem lateKatakanaLoop_le {cfg : JoinKatakana} {shorter : Int → Res Bool} (h : ∀ n, FitsVal E (shorter n) (decide (n < cfg.minLength)))
    (lex : Lex) (t : InputText) (L : Lattice) : ∀ (n : Nat) (path : List NodeData) (i : Nat),
    Le E (lateKatakanaLoop cfg.posId shorter lex t L n path i) (cfg.loop lex t L n path i)
  | 0, path, i => by
    unfold lateKatakanaLoop JoinKatakana.loop
    exact .inl (Eq.refl _)
  | n + 1, path, i => by
    unfold lateKatakanaLoop JoinKatakana.loop
    split
    · dsimp only
      rcases lateKatakanaStep_le h lex t L path i with e | ⟨e, he, e1⟩
      · rw [e]
        cases cfg.step lex t L path i with
        | error x => exact .inl (Eq.refl _)
        | ok p => exact lateKatakanaLoop_le h lex t L n _ _
      · rw [e1]
        exact .inr ⟨e, he, Eq.refl _⟩
    · exact .inl (Eq.refl _)

theorem lateRewritePath_le {lex : Lex} {fuel : Nat} {t : InputText} {L : Lattice} {ps : List LatePath} {qs : List PathPlugin}
    (h : Paired (LatePath.Fits E) ps qs) : ∀ path, Le E (lateRewritePath lex fuel t L ps path) (rewritePath lex fuel t L qs path) := by
  induction h with
  | nil => exact fun _ => .inl (Eq.refl _)
  | @cons p q _ _ h1 _ ih =>
    intro path
    refine Le.bind ?_ ih
    match p, q, h1 with
    | .numeric cfg, .numeric cfg', h1 => cases h1; exact .inl (Eq.refl _)
    | .katakana posId shorter, .katakana cfg, h0 =>
      obtain ⟨e0, h1⟩ := h0
      subst e0
      exact lateKatakanaLoop_le h1 lex t L _ _ _

/-! ### Tokenizing -/

theorem lateTokenize_le {T : LateTokenizer} {T' : Tokenizer} (h : T.Fits E T') (L : Lattice) (text : PStr) (mode : Option Mode) :
    LeL E (T.tokenize L text mode) (T'.tokenize L text mode) := by
  obtain ⟨h1, h2, h3, h4, h5, h6, h7, h8, h9, h10⟩ := h
  unfold LateTokenizer.tokenize Tokenizer.tokenize
  split
  · exact .inl (Eq.refl _)
  have hb : Le E (T.buildInput text) (T'.buildInput text) := by
    unfold LateTokenizer.buildInput Tokenizer.buildInput
    rw [h1, h2, h3]
    exact (lateRewriteInput_le h8 _).bind fun _ => .inl (Eq.refl _)
  rcases hb with e | ⟨e, he, e1⟩
  · rw [e]
    cases T'.buildInput text with
    | error x => exact .inl (Eq.refl _)
    | ok t =>
      dsimp only
      rw [h4, h5, h6]
      have := lateBuildLattice_le (conn := T'.conn) (lex := T'.lex) (t := t) h9 L
      revert this
      generalize lateBuildLattice T'.conn T'.lex T.oov t L = x
      generalize buildLattice T'.conn T'.lex T'.oov t L = y
      rintro (rfl | ⟨e, he, h3⟩)
      · obtain ⟨L1, r1⟩ := x
        cases r1 with
        | error x => exact .inl (Eq.refl _)
        | ok _ =>
          dsimp only
          have hp : Le E (T.bestPath t L1) (T'.bestPath t L1) := by
            unfold LateTokenizer.bestPath Tokenizer.bestPath
            rw [h5, h7]
            exact Le.bind (.inl (Eq.refl _)) (lateRewritePath_le h10)
          rcases hp with e | ⟨e, he, e1⟩
          · rw [e]
            exact .inl (Eq.refl _)
          · rw [e1]
            exact .inr ⟨e, he, Eq.refl _⟩
      · obtain ⟨L2, r2⟩ := x
        dsimp only at h3
        subst h3
        exact .inr ⟨e, he, Eq.refl _⟩
  · rw [e1]
    exact .inr ⟨e, he, Eq.refl _⟩

/-! ### Values of the right type -/

theorem Paired.map {α β : Type} {R : β → α → Prop} {k : α → β} (h : ∀ a, R (k a) a) : ∀ l : List α, Paired R (l.map k) l
  | [] => .nil
  | a :: l => .cons (h a) (Paired.map h l)

theorem InputPlugin.late_fits (p : InputPlugin) : p.late.Fits E p := by
  cases p with
  | default tb => rfl
  | psm marks s => exact ⟨rfl, .inl rfl⟩

theorem OovPlugin.late_fits (p : OovPlugin) : p.late.Fits E p := by
  cases p with
  | mecab a b => exact ⟨rfl, rfl⟩
  | simple o => exact ⟨.inl rfl, .inl rfl, .inl rfl, rfl⟩

theorem PathPlugin.late_fits (p : PathPlugin) : p.late.Fits E p := by
  cases p with
  | numeric cfg => rfl
  | katakana cfg => exact ⟨rfl, fun _ => .inl rfl⟩

theorem late_tokenizer_fits (cfg : DictConfig) (d : Dict) (ps : List PathPlugin) (mode : Mode) :
    (d.lateTokenizer cfg.late (ps.map (·.late)) mode).Fits E (d.tokenizer cfg ps mode) :=
  ⟨rfl, rfl, rfl, rfl, rfl, rfl, rfl, Paired.map InputPlugin.late_fits _, Paired.map OovPlugin.late_fits _, Paired.map PathPlugin.late_fits _⟩

theorem late_tokenize (cfg : DictConfig) (d : Dict) (ps : List PathPlugin) (mode : Mode) (L : Lattice) (text : PStr) (m : Option Mode) :
    (d.lateTokenizer cfg.late (ps.map (·.late)) mode).tokenize L text m = (d.tokenizer cfg ps mode).tokenize L text m := by
  rcases lateTokenize_le (E := fun _ => False) (late_tokenizer_fits cfg d ps mode) L text m with h | ⟨_, h, _⟩
  · exact h
  · exact h.elim

theorem late_calculateCost (cfg : DictConfig) (d : Dict) (depth : Nat) : ∀ (ws : List Nat) (L : Lattice) (x : DALex),
    lateCalculateCost (d.lateTokenizer cfg.late [] .C) depth ws L x = calculateCost (d.tokenizer cfg [] .C) depth ws L x
  | [], _, _ => rfl
  | w :: ws, L, x => by
    unfold lateCalculateCost calculateCost
    have := late_tokenize cfg d [] .C
    simp only [List.map_nil] at this
    simp only [this, late_calculateCost cfg d depth ws]
    rfl

theorem late_openUsers (M : Disk) (cfg : DictConfig) : ∀ (paths : List PStr) (d : Dict),
    d.lateOpenUsers M cfg.late paths = d.openUsers M cfg paths
  | [], _ => rfl
  | p :: ps, d => by
    have h : ∀ b, d.lateReadUser cfg.late b = d.readUser cfg b := by
      intro b
      unfold Dict.lateReadUser Dict.readUser
      have := late_calculateCost cfg d cfg.depth
      rw [show cfg.late.depth = cfg.depth from rfl]
      simp only [this]
      rfl
    unfold Dict.lateOpenUsers Dict.openUsers
    simp only [h, late_openUsers M cfg ps]

/-! ### Opening -/

/-- The same but for the form of the value, unless the answer is `TypeError`. -/
def Up {α β : Type} (k : α → β) (r' : Res α) (r : Res β) : Prop := r' = .error .type ∨ r = r'.map k

theorem Up.bind {α β γ δ : Type} {k : α → β} {k2 : γ → δ} {x' : Res α} {x : Res β} {f' : α → Res γ} {f : β → Res δ} (h : Up k x' x)
    (hf : ∀ a, Up k2 (f' a) (f (k a))) : Up k2 (x' >>= f') (x >>= f) := by
  rcases h with rfl | rfl
  · exact .inl rfl
  · cases x' with
    | error e => exact .inr rfl
    | ok a => exact hf a

theorem Up.same {α : Type} {r : Res α} : Up id r r := by
  right
  cases r <;> rfl

theorem Up.mapM {α β γ δ : Type} {k : γ → δ} {j : α → β} {f' : α → Res γ} {f : β → Res δ} (h : ∀ a, Up k (f' a) (f (j a))) :
    ∀ l : List α, Up (List.map k) (l.mapM f') ((l.map j).mapM f)
  | [] => .inr rfl
  | a :: l => by
    rw [List.map_cons, List.mapM_cons, List.mapM_cons]
    refine (h a).bind fun c => (Up.mapM h l).bind fun cs => .inr rfl

theorem Up.keyToValue {α β : Type} {k : α → β} {x' : Res α} {x : Res β} (h : Up k x' x) : Up k (keyToValue x') (keyToValue x) := by
  rcases h with rfl | rfl
  · exact .inl rfl
  · right
    cases x' with
    | ok a => rfl
    | error e => cases e <;> rfl

theorem Up.getPlugins {α β : Type} {k : α → β} {f' : Json → Res α} {f : Json → Res β} (h : ∀ j, Up k (f' j) (f j)) (d : JDict) (key : PStr) :
    Up (List.map k) (Sudachi.getPlugins d key f') (Sudachi.getPlugins d key f) := by
  unfold Sudachi.getPlugins
  split
  · exact .inr rfl
  · refine Up.bind (k := id) .same fun l => ?_
    have := Up.mapM (j := id) h l
    rw [List.map_id] at this
    exact this

def InputPluginObj.late : InputPluginObj → LateInputObj
  | .default => .default
  | .psm marks s => .psm marks (.ok s)

def OovPluginObj.late : OovPluginObj → LateOovObj
  | .mecab a b => .mecab a b
  | .simple l r c p => .simple (.ok l) (.ok r) (.ok c) p

def PathPluginObj.late : PathPluginObj → LatePathObj
  | .numeric n => .numeric n
  | .katakana p m => .katakana p fun n => .ok (n < m)

theorem lateGetInput_up (j : Json) : Up InputPluginObj.late (getInputPlugin j) (lateGetInput j) := by
  refine Up.keyToValue (Up.bind (k := id) .same fun v => ?_)
  cases v with
  | str s =>
    dsimp only [id]
    split
    · exact .inr rfl
    split
    · refine Up.bind (k := id) .same fun marks => ?_
      cases j.opt keySymbol with
      | none => exact .inr rfl
      | some v => cases v <;> first | exact .inr rfl | exact .inl rfl
    · exact .inr rfl
  | _ => exact .inr rfl

theorem toInt_of_int {F : Floats} {j : Json} {n : Int} (h : j.int = .ok n) : j.toInt F = .ok n := by
  cases j <;> cases h <;> rfl

theorem int_type {j : Json} {e : Err} (h : j.int = .error e) : e = .type := by
  cases j <;> cases h <;> rfl

theorem lateGetOov_up (F : Floats) (j : Json) : Up OovPluginObj.late (getOovPlugin j) (lateGetOov F j) := by
  refine Up.keyToValue (Up.bind (k := id) .same fun v => ?_)
  cases v with
  | str s =>
    dsimp only [id]
    split
    · refine Up.bind (k := id) .same fun c => Up.bind (k := id) .same fun u => .inr rfl
    split
    · refine Up.bind (k := id) .same fun l => Up.bind (k := id) .same fun r => Up.bind (k := id) .same fun c =>
        Up.bind (k := id) .same fun p => ?_
      dsimp only [id]
      cases hl : l.int with
      | error e => rw [int_type hl]; exact .inl rfl
      | ok l' =>
        cases hr : r.int with
        | error e => rw [int_type hr]; exact .inl rfl
        | ok r' =>
          cases hc : c.int with
          | error e => rw [int_type hc]; exact .inl rfl
          | ok c' =>
            rw [toInt_of_int hl, toInt_of_int hr, toInt_of_int hc]
            exact .inr rfl
    · exact .inr rfl
  | _ => exact .inr rfl

theorem lateGetPath_up (F : Floats) (j : Json) : Up PathPluginObj.late (getPathPlugin j) (lateGetPath F j) := by
  refine Up.keyToValue (Up.bind (k := id) .same fun v => ?_)
  cases v with
  | str s =>
    dsimp only [id]
    split
    · cases j.opt keyNormalize <;> exact .inr rfl
    split
    · refine Up.bind (k := id) .same fun p => ?_
      cases j.opt keyMinLength with
      | none => exact .inr rfl
      | some v => cases v <;> first | exact .inr rfl | exact .inl rfl
    · exact .inr rfl
  | _ => exact .inr rfl

theorem lateInput_setUp (M : Disk) (o : InputPluginObj) : Up InputPlugin.late (o.setUp M) (o.late.setUp M) := by
  cases o with
  | default => exact Up.bind (k := id) .same fun _ => .inr rfl
  | psm marks s => exact .inr rfl

theorem lateOov_setUp (M : Disk) (others : PStr → Option Attr) (dir : PStr) (g : Grammar) (o : OovPluginObj) :
    Up OovPlugin.late (o.setUp M others dir g) (o.late.setUp M others dir g) := by
  cases o with
  | mecab c u =>
    exact Up.bind (k := id) .same fun _ => Up.bind (k := id) .same fun _ => Up.bind (k := id) .same fun _ => Up.bind (k := id) .same fun _ =>
      .inr rfl
  | simple l r c p => exact .inr rfl

theorem latePath_setUp (g : Grammar) (o : PathPluginObj) : Up PathPlugin.late (o.setUp g) (o.late.setUp g) := by
  cases o with
  | numeric n => exact .inr rfl
  | katakana p m =>
    right
    unfold PathPluginObj.setUp PathPluginObj.late LatePathObj.setUp
    dsimp only
    split
    · rfl
    split
    · rfl
    · rfl

theorem lateOpenWith_up (F : Floats) (R : Runtime) (M : Disk) (s : Settings) :
    Up (fun p : DictConfig × Dict => (p.1.late, p.2)) (openWith R M s) (lateOpenWith F R M s) := by
  unfold openWith lateOpenWith
  refine Up.bind (k := id) .same fun path => Up.bind (k := id) .same fun b => Up.bind (k := id) .same fun sys =>
    Up.bind (k := id) .same fun path => Up.bind (k := id) .same fun ranges => Up.bind (k := id) .same fun ranges =>
    Up.bind (k := id) .same fun d => Up.bind (k := id) .same fun dir => ?_
  refine Up.bind (Up.getPlugins lateGetInput_up _ _) fun inputs => ?_
  refine Up.bind (Up.mapM (lateInput_setUp M) _) fun inputs => ?_
  refine Up.bind (Up.getPlugins (lateGetOov_up F) _ _) fun oovs => ?_
  rw [List.isEmpty_map]
  split
  · exact .inr rfl
  refine Up.bind (Up.mapM (lateOov_setUp M _ _ _) _) fun oovs => ?_
  refine Up.bind (Up.getPlugins (lateGetPath_up F) _ _) fun paths => ?_
  refine Up.bind (Up.mapM (latePath_setUp _) _) fun paths => ?_
  refine Up.bind (k := id) .same fun users => ?_
  have := late_openUsers M ⟨R.D, R.depth, R.fuel, getCategoryTypes ranges, R.lower, R.nfkc, inputs, oovs, paths⟩ users sys
  dsimp only [id]
  refine Up.bind (k := id) ?_ fun dict => .inr rfl
  rw [← this]
  exact .same

/-! ### When a value is asked for -/

theorem hasRun_cons {marks : List Nat} {c : Nat} {cs : PStr} :
    HasRun marks (c :: cs) ↔ (c ∈ marks ∧ ∃ d ds, cs = d :: ds ∧ d ∈ marks) ∨ HasRun marks cs := by
  constructor
  · rintro ⟨pre, a, b, post, h, ha, hb⟩
    cases pre with
    | nil =>
      injection h with h1 h2
      subst h1
      exact .inl ⟨ha, b, post, h2, hb⟩
    | cons p pre =>
      injection h with h1 h2
      exact .inr ⟨pre, a, b, post, h2, ha, hb⟩
  · rintro (⟨hc, d, ds, rfl, hd⟩ | ⟨pre, a, b, post, rfl, ha, hb⟩)
    · exact ⟨[], c, d, ds, rfl, hc, hd⟩
    · exact ⟨c :: pre, a, b, post, rfl, ha, hb⟩

/-- prolongedsoundmark.py:49-50: what is done after the loop. -/
def latePsmEnd (sym : Res PStr) (n : Nat) (r : Res (Builder × Int × Option Nat)) : Res Builder := do
  let (bd', offset, start) ← r
  match start with
  | some m => if (n : Int) - m > 1 then bd'.lateReplace (m - offset) (n - offset) sym else pure bd'
  | none => pure bd'

theorem lateReplace_raises {bd : Builder} {e : Err} {m i : Nat} (h1 : m < i) (h2 : i ≤ bd.modified.length) :
    bd.lateReplace ((m : Int) - 0) ((i : Int) - 0) (.error e) = .error e := by
  unfold Builder.lateReplace
  dsimp only
  rw [if_neg (by omega), if_neg (by omega), if_neg (by omega), if_neg (by omega)]

theorem latePsm_long {marks : List Nat} {e : Err} {bd : Builder} : ∀ (cs : PStr) (i m : Nat), m + 1 < i → bd.modified.length = i + cs.length →
    latePsmEnd (.error e) bd.modified.length (latePsmLoop marks (.error e) cs i 0 (some m) bd) = .error e
  | [], i, m, h1, h2 => by
    unfold latePsmLoop latePsmEnd
    simp only [List.length_nil, Nat.add_zero] at h2
    simp only [bind, Except.bind]
    rw [if_pos (by omega)]
    exact lateReplace_raises (by omega) (by omega)
  | c :: cs, i, m, h1, h2 => by
    rw [List.length_cons] at h2
    unfold latePsmLoop
    dsimp only
    split
    · exact latePsm_long cs (i + 1) m (by omega) (by omega)
    · rw [if_pos (by omega), lateReplace_raises (by omega) (by omega)]
      rfl

theorem latePsm_spec {marks : List Nat} {e : Err} {bd : Builder} : ∀ (cs : PStr) (i : Nat), bd.modified.length = i + cs.length →
    ((HasRun marks cs → latePsmEnd (.error e) bd.modified.length (latePsmLoop marks (.error e) cs i 0 none bd) = .error e) ∧
     (¬ HasRun marks cs → latePsmEnd (.error e) bd.modified.length (latePsmLoop marks (.error e) cs i 0 none bd) = .ok bd)) ∧
    ∀ m, m + 1 = i →
     (((∃ d ds, cs = d :: ds ∧ d ∈ marks) ∨ HasRun marks cs →
        latePsmEnd (.error e) bd.modified.length (latePsmLoop marks (.error e) cs i 0 (some m) bd) = .error e) ∧
      (¬ ((∃ d ds, cs = d :: ds ∧ d ∈ marks) ∨ HasRun marks cs) →
        latePsmEnd (.error e) bd.modified.length (latePsmLoop marks (.error e) cs i 0 (some m) bd) = .ok bd))
  | [], i, h => by
    have hno : ¬ HasRun marks [] := by
      rintro ⟨pre, a, b, post, h, _, _⟩
      cases pre <;> cases h
    refine ⟨⟨fun h => absurd h hno, fun _ => rfl⟩, fun m hm => ⟨?_, fun _ => ?_⟩⟩
    · rintro (⟨_, _, h, _⟩ | h)
      · cases h
      · exact absurd h hno
    · simp only [List.length_nil, Nat.add_zero] at h
      unfold latePsmLoop latePsmEnd
      simp only [bind, Except.bind]
      rw [if_neg (by omega)]
      rfl
  | c :: cs, i, h => by
    rw [List.length_cons] at h
    obtain ⟨⟨a1, a2⟩, a3⟩ := latePsm_spec (marks := marks) (e := e) (bd := bd) cs (i + 1) (by omega)
    obtain ⟨a4, a5⟩ := a3 i rfl
    refine ⟨?_, fun m hm => ?_⟩
    · rw [hasRun_cons]
      unfold latePsmLoop
      dsimp only
      split
      · rename_i hc
        exact ⟨fun h => a4 (h.imp (·.2) id), fun h => a5 fun h' => h (h'.imp (⟨hc, ·⟩) id)⟩
      · rename_i hc
        exact ⟨fun h => a1 (h.resolve_left fun h => hc h.1), fun h => a2 fun h' => h (.inr h')⟩
    · unfold latePsmLoop
      dsimp only
      split
      · rename_i hc
        exact ⟨fun _ => latePsm_long cs (i + 1) m (by omega) (by omega), fun h => absurd (.inl ⟨c, cs, rfl, hc⟩) h⟩
      · rename_i hc
        rw [if_neg (by omega)]
        have hn : ¬ ∃ d ds, c :: cs = d :: ds ∧ d ∈ marks := by
          rintro ⟨d, ds, h, hd⟩
          injection h with h1 _
          subst h1
          exact hc hd
        constructor
        · intro h
          refine a1 ?_
          rcases (hasRun_cons.1 (h.resolve_left hn)) with h | h
          · exact absurd h.1 hc
          · exact h
        · exact fun h => a2 fun h' => h (.inr (hasRun_cons.2 (.inr h')))

theorem wordLoop_found {conn : Conn} {lex : Lex} {t : InputText} {i : Nat} : ∀ (ws : List (Nat × Nat)) (L : Lattice) (has : Bool),
    (has = true ∨ ∃ w e, (w, e) ∈ ws ∧ (t.bytes.length ≤ e ∨ t.canBow e = .ok true)) →
    (∃ x, (wordLoop conn lex t i ws L has).2 = .error x) ∨ (wordLoop conn lex t i ws L has).2 = .ok true
  | [], L, has, h => by
    rcases h with rfl | ⟨_, _, h, _⟩
    · exact .inr rfl
    · cases h
  | (w, e) :: ws, L, has, h => by
    unfold wordLoop
    have hskip : (t.bytes.length ≤ e ∨ t.canBow e = .ok true) → skipEnd t e = .ok false := by
      intro h
      unfold skipEnd
      split
      · rcases h with h | h
        · omega
        · rw [h]; rfl
      · rfl
    cases hs : skipEnd t e with
    | error x => exact .inl ⟨x, rfl⟩
    | ok b =>
      cases b with
      | true =>
        refine wordLoop_found ws L has ?_
        rcases h with h | ⟨w', e', h1, h2⟩
        · exact .inl h
        · rcases List.mem_cons.1 h1 with h1 | h1
          · cases h1
            rw [hskip h2] at hs
            cases hs
          · exact .inr ⟨w', e', h1, h2⟩
      | false =>
        dsimp only
        cases wordNode lex i w e with
        | error x => exact .inl ⟨x, rfl⟩
        | ok d =>
          dsimp only
          obtain ⟨L', r⟩ := L.insert conn d
          cases r with
          | error x => exact .inl ⟨x, rfl⟩
          | ok _ => exact wordLoop_found ws L' true (.inl rfl)

theorem lateOovLoop_other {conn : Conn} {t : InputText} {i : Nat} {ps : List LateOov} {qs : List OovPlugin} (h : Paired (LateOov.Fits E) ps qs) :
    ∀ L, lateOovLoop conn t i ps L true = oovLoop conn t i qs L true ∧
      ((∃ x, (oovLoop conn t i qs L true).2 = .error x) ∨ (oovLoop conn t i qs L true).2 = .ok true) := by
  induction h with
  | nil => exact fun _ => ⟨rfl, .inr rfl⟩
  | @cons p q _ _ h1 _ ih =>
    intro L
    have e : p.getOov t i true = q.getOov t i true := by
      match p, q, h1 with
      | .mecab a b, .mecab a' b', h0 =>
        obtain ⟨e1, e2⟩ := h0
        subst e1 e2
        rfl
      | .simple l r c posId, .simple o, h0 => rfl
    unfold lateOovLoop oovLoop
    rw [e]
    cases OovPlugin.getOov t i true q with
    | error x => exact ⟨rfl, .inl ⟨x, rfl⟩⟩
    | ok ns =>
      dsimp only
      obtain ⟨L', r⟩ := insertAll conn L ns
      cases r with
      | error x => exact ⟨rfl, .inl ⟨x, rfl⟩⟩
      | ok _ => exact ih L'

theorem lateBuildLattice_words {conn : Conn} {lex : Lex} {t : InputText} (hw : lex.Everywhere t) {ps : List LateOov} {qs : List OovPlugin}
    (h : Paired (LateOov.Fits E) ps qs) (L : Lattice) : lateBuildLattice conn lex ps t L = buildLattice conn lex qs t L := by
  have hpos : ∀ L i, t.canBow i = .ok true → lateBuildPos conn lex ps t L i = buildPos conn lex qs t L i := by
    intro L i hb
    unfold lateBuildPos buildPos
    cases hl : lex.lookup t.bytes i with
    | error x => rfl
    | ok ws =>
      dsimp only
      have hf := wordLoop_found (conn := conn) (lex := lex) (i := i) ws L false (.inr (hw i ws hb hl))
      revert hf
      obtain ⟨L1, r1⟩ := wordLoop conn lex t i ws L false
      rintro (⟨x, hx⟩ | hx)
      · dsimp only at hx
        subst hx
        rfl
      · dsimp only at hx
        subst hx
        dsimp only
        have hp : lateOovPart conn ps t i L1 true = oovPart conn qs t i L1 true ∧
            ((∃ x, (oovPart conn qs t i L1 true).2 = .error x) ∨ (oovPart conn qs t i L1 true).2 = .ok true) := by
          unfold lateOovPart oovPart
          cases t.charCategoryTypesAt i with
          | error x => exact ⟨rfl, .inl ⟨x, rfl⟩⟩
          | ok cats =>
            dsimp only
            split
            · exact ⟨rfl, .inr rfl⟩
            · exact lateOovLoop_other h L1
        obtain ⟨e, hp⟩ := hp
        rw [e]
        revert hp
        obtain ⟨L2, r2⟩ := oovPart conn qs t i L1 true
        rintro (⟨x, hx⟩ | hx)
        · dsimp only at hx
          subst hx
          rfl
        · dsimp only at hx
          subst hx
          rfl
  have key : ∀ is L, lateBuildLoop conn lex ps t is L = buildLoop conn lex qs t is L := by
    intro is
    induction is with
    | nil => exact fun _ => rfl
    | cons i is ih =>
      intro L
      unfold lateBuildLoop buildLoop
      cases hs : skipPos t L i with
      | error x => rfl
      | ok b =>
        cases b with
        | true => exact ih L
        | false =>
          have hb : t.canBow i = .ok true := by
            unfold skipPos at hs
            cases hc : t.canBow i with
            | error x => rw [hc] at hs; cases hs
            | ok b =>
              rw [hc] at hs
              cases b with
              | false => cases hs
              | true => rfl
          dsimp only
          rw [hpos L i hb]
          obtain ⟨L', r⟩ := buildPos conn lex qs t L i
          cases r with
          | error x => rfl
          | ok _ => exact ih L'
  unfold lateBuildLattice buildLattice
  rw [key]
  rfl

theorem FitsVal.usable {α : Type} {r : Res α} {v : α} (h : FitsVal (fun _ => False) r v) : r = .ok v := by
  rcases h with h | ⟨_, h, _⟩
  · exact h
  · exact h.elim

theorem Le.usable {α : Type} {r r' : Res α} (h : Le (fun _ => False) r r') : r = r' := by
  rcases h with h | ⟨_, h, _⟩
  · exact h
  · exact h.elim

theorem lateTokenize_words {T : LateTokenizer} {T' : Tokenizer} (h : T.Fits E T')
    (hi : Paired (LateInput.Fits fun _ => False) T.inputPlugins T'.inputPlugins)
    (hq : Paired (LatePath.Fits fun _ => False) T.pathPlugins T'.pathPlugins) (L : Lattice) (text : PStr) (mode : Option Mode)
    (hw : ∀ t, T'.buildInput text = .ok t → T'.lex.Everywhere t) : T.tokenize L text mode = T'.tokenize L text mode := by
  obtain ⟨h1, h2, h3, h4, h5, h6, h7, h8, h9, h10⟩ := h
  unfold LateTokenizer.tokenize Tokenizer.tokenize
  split
  · rfl
  have hb : T.buildInput text = T'.buildInput text := by
    unfold LateTokenizer.buildInput Tokenizer.buildInput
    rw [h1, h2, h3]
    exact ((lateRewriteInput_le hi _).bind fun _ => .inl (Eq.refl _)).usable
  rw [hb]
  cases ht : T'.buildInput text with
  | error x => rfl
  | ok t =>
    dsimp only
    rw [h4, h5, h6, lateBuildLattice_words (hw t ht) h9 L]
    obtain ⟨L1, r1⟩ := buildLattice T'.conn T'.lex T'.oov t L
    cases r1 with
    | error x => rfl
    | ok _ =>
      dsimp only
      have hp : T.bestPath t L1 = T'.bestPath t L1 := by
        unfold LateTokenizer.bestPath Tokenizer.bestPath
        rw [h5, h7]
        exact (Le.bind (.inl (Eq.refl _)) (lateRewritePath_le hq)).usable
      rw [hp]
      rfl

/-! ### The shortest length -/

theorem lateKatakanaStep_oov {shorter : Int → Res Bool} {cfg : JoinKatakana} {lex : Lex} {t : InputText} {L : Lattice} {path : List NodeData}
    {i : Nat} {d : NodeData} (hd : path[i]? = some d) (ho : d.oov = true) :
    lateKatakanaStep cfg.posId shorter lex t L path i = cfg.step lex t L path i := by
  unfold lateKatakanaStep JoinKatakana.step katakanaStart
  rw [pyGet, hd]
  simp only [bind, Except.bind, lateTrigger, katakanaTrigger, ho, if_true]

theorem scanForward_ge {t : InputText} : ∀ (rest : List NodeData) (k e : Nat), scanForward t rest k = .ok e → k ≤ e
  | [], k, e, h => by
    unfold scanForward at h
    cases h
    exact Nat.le_refl _
  | d :: rest, k, e, h => by
    unfold scanForward at h
    cases hk : isKatakanaNode t d with
    | error x => rw [hk] at h; cases h
    | ok b =>
      rw [hk] at h
      cases b with
      | false => cases h; exact Nat.le_refl _
      | true => have := scanForward_ge rest (k + 1) e h; omega

theorem katakanaStep_rest {cfg : JoinKatakana} {lex : Lex} {t : InputText} {L : Lattice} {path path' : List NodeData} {i i' : Nat}
    (h : cfg.step lex t L path i = .ok (path', i')) (hall : ∀ k d, i ≤ k → path[k]? = some d → d.oov = true) :
    ∀ k d, i' ≤ k → path'[k]? = some d → d.oov = true := by
  have same : ∀ k d, i + 1 ≤ k → path[k]? = some d → d.oov = true := fun k d hk hd => hall k d (by omega) hd
  unfold JoinKatakana.step at h
  cases hn : pyGet path i with
  | error x => rw [hn] at h; cases h
  | ok node =>
  rw [hn] at h
  replace h : (katakanaStart cfg t node >>= fun go => _) = _ := h
  cases h0 : katakanaStart cfg t node with
  | error x => rw [h0] at h; cases h
  | ok go =>
    rw [h0] at h
    cases go with
    | false => cases h; exact same
    | true =>
      simp only [bind, Except.bind, pure, Except.pure, Bool.not_true, Bool.false_eq_true, if_false] at h
      cases h1 : scanBack t path i with
      | error x => rw [h1] at h; cases h
      | ok b0 =>
        rw [h1] at h
        dsimp only at h
        cases h2 : scanForward t (path.drop (i + 1)) (i + 1) with
        | error x => rw [h2] at h; cases h
        | ok e =>
          have he := scanForward_ge _ _ _ h2
          rw [h2] at h
          dsimp only at h
          cases h3 : skipNoBow t path (e - b0) b0 with
          | error x => rw [h3] at h; cases h
          | ok b =>
            rw [h3] at h
            dsimp only at h
            split at h
            · rename_i hlt
              cases h4 : concatenateOov lex L path b e cfg.posId with
              | error x => rw [h4] at h; cases h
              | ok p =>
                rw [h4] at h
                cases h
                obtain ⟨n, hb, rfl⟩ : ∃ n, b < path.length ∧ path' = spliceOne path b e n := by
                  unfold concatenateOov at h4
                  rw [if_neg (by omega)] at h4
                  simp only [bind, Except.bind, pure, Except.pure] at h4
                  cases h5 : pyGet path b with
                  | error x => rw [h5] at h4; cases h4
                  | ok first =>
                    have hb : b < path.length := by
                      unfold pyGet at h5
                      cases hg : path[b]? with
                      | none => rw [hg] at h5; cases h5
                      | some _ => exact (List.getElem?_eq_some_iff.1 hg).1
                    rw [h5] at h4
                    dsimp only at h4
                    cases h6 : pyGet path (e - 1) with
                    | error x => rw [h6] at h4; cases h4
                    | ok last =>
                      rw [h6] at h4
                      dsimp only at h4
                      cases h7 : L.getMinimumNode first.begin_ last.end_ with
                      | error x => rw [h7] at h4; cases h4
                      | ok o =>
                        rw [h7] at h4
                        cases o with
                        | some n => cases h4; exact ⟨_, hb, rfl⟩
                        | none =>
                          dsimp only at h4
                          cases h8 : nodeWordInfos lex (pySlice path b e) with
                          | error x => rw [h8] at h4; cases h4
                          | ok infos => rw [h8] at h4; cases h4; exact ⟨_, hb, rfl⟩
                intro k d hk hd
                unfold spliceOne at hd
                rw [List.getElem?_append_right (by rw [List.length_take]; omega), List.length_take,
                  show min b path.length = b by omega, show k - b = (k - b - 1) + 1 by omega, List.getElem?_cons_succ, List.getElem?_drop] at hd
                exact hall _ d (by omega) hd
            · cases h
              exact same

theorem lateKatakanaLoop_oov {shorter : Int → Res Bool} {cfg : JoinKatakana} {lex : Lex} {t : InputText} {L : Lattice} :
    ∀ (n : Nat) (path : List NodeData) (i : Nat), (∀ k d, i ≤ k → path[k]? = some d → d.oov = true) →
    lateKatakanaLoop cfg.posId shorter lex t L n path i = cfg.loop lex t L n path i
  | 0, path, i, _ => by
    unfold lateKatakanaLoop JoinKatakana.loop
    rfl
  | n + 1, path, i, hall => by
    unfold lateKatakanaLoop JoinKatakana.loop
    split
    · rename_i hi
      dsimp only
      have hd := List.getElem?_eq_getElem hi
      rw [lateKatakanaStep_oov hd (hall i _ (Nat.le_refl _) hd)]
      cases hs : cfg.step lex t L path i with
      | error x => rfl
      | ok p => exact lateKatakanaLoop_oov n p.1 p.2 (katakanaStep_rest hs hall)
    · rfl

end Sudachi
