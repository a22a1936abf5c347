import Verif.Model.Dictionary
import Verif.Spec.SetOrder

/-!
# The order of the categories of a character: lemmas on the functions that read them
-/

namespace Sudachi

variable {f g : Nat → CatSet}

/-- The same members. -/
def Like (a b : CatSet) : Prop := ∀ c, c ∈ a ↔ c ∈ b

theorem Like.inter {a b a' b' : CatSet} (h : Like a b) (h' : Like a' b') : Like (a.inter a') (b.inter b') := by
  intro c
  simp only [CatSet.inter, List.mem_filter, decide_eq_true_eq, h c, h' c]

theorem Like.nil_iff {a b : CatSet} (h : Like a b) : a = [] ↔ b = [] := by
  rw [List.eq_nil_iff_forall_not_mem, List.eq_nil_iff_forall_not_mem]
  simp only [h _]

theorem Like.isEmpty {a b : CatSet} (h : Like a b) : a.isEmpty = b.isEmpty := by
  rw [Bool.eq_iff_iff, List.isEmpty_iff, List.isEmpty_iff, h.nil_iff]

theorem Like.length_zero {a b : CatSet} (h : Like a b) : a.length = 0 ↔ b.length = 0 := by
  rw [List.length_eq_zero_iff, List.length_eq_zero_iff, h.nil_iff]

theorem SameSets.contLoop (h : SameSets f g) : ∀ (m : PStr) {a b : CatSet} (n : Nat), Like a b →
    Sudachi.contLoop b (m.map g) n = Sudachi.contLoop a (m.map f) n
  | [], _, _, _, _ => rfl
  | ch :: m, a, b, n, hab => by
    have h1 : Like (a.inter (f ch)) (b.inter (g ch)) := hab.inter (h ch)
    simp only [List.map_cons, Sudachi.contLoop, h1.length_zero]
    rw [h.contLoop m (n + 1) h1]

theorem SameSets.continuousLength (h : SameSets f g) : ∀ m : PStr,
    Sudachi.continuousLength (m.map g) = Sudachi.continuousLength (m.map f)
  | [] => rfl
  | ch :: m => h.contLoop m 1 (h ch)

theorem SameSets.contsLoop (h : SameSets f g) : ∀ (n : Nat) (text m : PStr),
    Sudachi.contsLoop n text (m.map g) = Sudachi.contsLoop n text (m.map f)
  | 0, _, _ => rfl
  | _ + 1, _, [] => rfl
  | n + 1, text, ch :: m => by
    have h1 := h.continuousLength (ch :: m)
    simp only [List.map_cons] at h1
    simp only [List.map_cons, Sudachi.contsLoop, h1]
    rw [← List.map_cons, ← List.map_cons, ← List.map_drop, ← List.map_drop, h.contsLoop n]

theorem SameSets.bowAfter (h : SameSets f g) (p c : Nat) : Sudachi.bowAfter (g p) (g c) = Sudachi.bowAfter (f p) (f c) := by
  have h1 : Like ((f c).inter (f p)) ((g c).inter (g p)) := Like.inter (h c) (h p)
  simp only [Sudachi.bowAfter, h1.isEmpty, h c]

theorem SameSets.canBowLoop (h : SameSets f g) : ∀ (p : Nat) (m : PStr),
    Sudachi.canBowLoop (g p) (m.map g) = Sudachi.canBowLoop (f p) (m.map f)
  | _, [] => rfl
  | p, c :: m => by simp only [List.map_cons, Sudachi.canBowLoop, h.bowAfter, h.canBowLoop c m]

theorem SameSets.buildCanBowList (h : SameSets f g) : ∀ m : PStr,
    Sudachi.buildCanBowList (m.map g) = Sudachi.buildCanBowList (m.map f)
  | [] => rfl
  | c :: m => by simp only [List.map_cons, Sudachi.buildCanBowList, h.canBowLoop c m]

theorem SameSets.emptyCatTypeError (h : SameSets f g) (m : PStr) :
    Sudachi.emptyCatTypeError (m.map g) = Sudachi.emptyCatTypeError (m.map f) := by
  have he : ∀ c, (g c).isEmpty = (f c).isEmpty := fun c => (Like.isEmpty (h c)).symm
  have ha : ∀ m : PStr, (m.map g).any List.isEmpty = (m.map f).any List.isEmpty := by
    intro m
    simp only [List.any_map, Function.comp_def, he]
  match m with
  | [] => rfl
  | [c] => simp only [List.map_cons, List.map_nil, Sudachi.emptyCatTypeError, he]
  | c :: d :: m =>
    have := ha (d :: m)
    simp only [List.map_cons] at this
    simp only [List.map_cons, Sudachi.emptyCatTypeError, he, this, h d]

theorem SameSets.build (h : SameSets f g) (bd : Builder) : bd.build g = (bd.build f).map (InputText.withCats g) := by
  unfold Builder.build
  cases encodeUtf8 bd.modified with
  | error e => rfl
  | ok bytes =>
    cases fillOffsets bd.m2o bd.modified 0 with
    | error e => rfl
    | ok offs =>
      cases bd.m2o.getLast? with
      | none => rfl
      | some o =>
        simp only [bind, Except.bind, pure, Except.pure, h.emptyCatTypeError, charCategoryContinuities, List.length_map, h.contsLoop,
          h.buildCanBowList]
        split <;> rfl

theorem build_cats {bd : Builder} {t : InputText} (h : bd.build f = .ok t) : t.charCats = t.modified.map f := by
  unfold Builder.build at h
  cases he : encodeUtf8 bd.modified with
  | error e => rw [he] at h; cases h
  | ok bytes =>
    cases ho : fillOffsets bd.m2o bd.modified 0 with
    | error e => rw [he, ho] at h; cases h
    | ok offs =>
      cases hl : bd.m2o.getLast? with
      | none => rw [he, ho, hl] at h; cases h
      | some o =>
        rw [he, ho, hl] at h
        simp only [bind, Except.bind, pure, Except.pure] at h
        split at h
        · cases h
        · cases h; rfl

theorem pyGet_map {α β : Type} (k : α → β) (l : List α) (i : Nat) : pyGet (l.map k) i = (pyGet l i).map k := by
  unfold pyGet
  rw [List.getElem?_map]
  cases l[i]? <;> rfl

/-- The character at a byte. -/
def InputText.charAt (t : InputText) (b : Nat) : Res Nat := do
  let i ← pyGet t.byteIndexes b
  pyGet t.modified i

section
variable {t : InputText}

theorem typesAt_char (ht : t.charCats = t.modified.map f) (b : Nat) : t.charCategoryTypesAt b = (t.charAt b).map f := by
  unfold InputText.charCategoryTypesAt InputText.charAt
  rw [ht]
  cases pyGet t.byteIndexes b with
  | error e => rfl
  | ok i => exact pyGet_map f _ i

theorem typesAt_char' (b : Nat) : (t.withCats g).charCategoryTypesAt b = (t.charAt b).map g :=
  typesAt_char (t := t.withCats g) rfl b

/-- Two answers with the same members. -/
def LikeRes : Res CatSet → Res CatSet → Prop
  | .ok a, .ok b => Like a b
  | .error e, .error e' => e = e'
  | _, _ => False

theorem commonCats_like (h : SameSets f g) (ht : t.charCats = t.modified.map f) : ∀ (is : List Nat) {a b : CatSet}, Like a b →
    LikeRes (t.commonCats a is) ((t.withCats g).commonCats b is)
  | [], _, _, hab => hab
  | i :: is, a, b, hab => by
    unfold InputText.commonCats
    rw [ht, show (t.withCats g).charCats = t.modified.map g from rfl, pyGet_map, pyGet_map]
    cases pyGet t.modified i with
    | error e => exact rfl
    | ok ch => exact commonCats_like h ht is (hab.inter (h ch))

theorem types_like (h : SameSets f g) (ht : t.charCats = t.modified.map f) (b e : Nat) :
    LikeRes (t.charCategoryTypes b e) ((t.withCats g).charCategoryTypes b e) := by
  unfold InputText.charCategoryTypes
  rw [show (t.withCats g).charCategoryContinuousLength b = t.charCategoryContinuousLength b from rfl]
  cases t.charCategoryContinuousLength b with
  | error x => exact rfl
  | ok n =>
    simp only [bind, Except.bind]
    split
    · exact fun _ => Iff.rfl
    rw [show (t.withCats g).byteIndexes = t.byteIndexes from rfl]
    cases pyGet t.byteIndexes b with
    | error x => exact rfl
    | ok i =>
      dsimp only
      cases pyGet t.byteIndexes e with
      | error x => exact rfl
      | ok j =>
        dsimp only
        rw [ht, show (t.withCats g).charCats = t.modified.map g from rfl, pyGet_map, pyGet_map]
        cases pyGet t.modified i with
        | error x => exact rfl
        | ok ch => exact commonCats_like h ht _ (h ch)

/-! ### Unknown words -/

theorem mecabPrefixes_cats (offset : Nat) (ll : Int) (oovs : List OovEntry) : ∀ is : List Nat,
    mecabPrefixes (t.withCats g) offset ll oovs is = mecabPrefixes t offset ll oovs is
  | [] => rfl
  | i :: is => by
    unfold mecabPrefixes
    rw [mecabPrefixes_cats offset ll oovs is]
    rfl

theorem mecabCategory_cats (categories : List (Cat × CategoryInfo)) (oovList : List (Cat × OovEntry)) (offset length : Nat) (other : Bool)
    (ty : Cat) : mecabCategory categories oovList (t.withCats g) offset length other ty = mecabCategory categories oovList t offset length other ty := by
  unfold mecabCategory
  simp only [mecabPrefixes_cats]
  rfl

theorem mecabCategories_cats (categories : List (Cat × CategoryInfo)) (oovList : List (Cat × OovEntry)) (offset length : Nat) (other : Bool) :
    ∀ tys, mecabCategories categories oovList (t.withCats g) offset length other tys = mecabCategories categories oovList t offset length other tys
  | [] => rfl
  | ty :: tys => by simp only [mecabCategories, mecabCategory_cats, mecabCategories_cats categories oovList offset length other tys]

theorem mecabCategory_none {categories : List (Cat × CategoryInfo)} {oovList : List (Cat × OovEntry)} {offset length : Nat} {other : Bool}
    {ty : Cat} (h : ∀ o, (ty, o) ∉ oovList) : mecabCategory categories oovList t offset length other ty = .ok [] := by
  unfold mecabCategory
  have : oovList.filter (fun p => p.1 = ty) = [] := by
    rw [List.filter_eq_nil_iff]
    intro p hp he
    apply h p.2
    rw [← of_decide_eq_true he]
    exact hp
  rw [this]
  cases dictGet categories ty <;> rfl

theorem mecabCategories_none {categories : List (Cat × CategoryInfo)} {oovList : List (Cat × OovEntry)} {offset length : Nat} {other : Bool} :
    ∀ {tys : CatSet}, (∀ ty ∈ tys, ∀ o, (ty, o) ∉ oovList) → mecabCategories categories oovList t offset length other tys = .ok []
  | [], _ => rfl
  | ty :: tys, h => by
    unfold mecabCategories
    rw [mecabCategory_none (h ty List.mem_cons_self), mecabCategories_none (fun ty' h' => h ty' (List.mem_cons_of_mem _ h'))]
    rfl

theorem mecabCategories_one {categories : List (Cat × CategoryInfo)} {oovList : List (Cat × OovEntry)} {offset length : Nat} {other : Bool} {ty : Cat} :
    ∀ {tys : CatSet}, tys.Nodup → ty ∈ tys → (∀ ty' ∈ tys, ty' ≠ ty → ∀ o, (ty', o) ∉ oovList) →
    mecabCategories categories oovList t offset length other tys = mecabCategory categories oovList t offset length other ty
  | [], _, h, _ => by cases h
  | ty' :: tys, hn, hm, h => by
    obtain ⟨hn1, hn2⟩ := List.nodup_cons.1 hn
    unfold mecabCategories
    by_cases he : ty' = ty
    · subst he
      rw [mecabCategories_none (fun x hx => h x (List.mem_cons_of_mem _ hx) (by rintro rfl; exact hn1 hx))]
      cases mecabCategory categories oovList t offset length other ty' with
      | error e => rfl
      | ok a => simp only [bind, Except.bind, pure, Except.pure, List.append_nil]
    · have hm' : ty ∈ tys := (List.mem_cons.1 hm).resolve_left (Ne.symm he)
      rw [mecabCategory_none (h ty' List.mem_cons_self he), mecabCategories_one hn2 hm' (fun x hx => h x (List.mem_cons_of_mem _ hx))]
      cases mecabCategory categories oovList t offset length other ty <;> rfl

/-- At most one of the categories has entries: the words do not depend on the order. -/
theorem mecabCategories_like {categories : List (Cat × CategoryInfo)} {oovList : List (Cat × OovEntry)} {offset length : Nat} {other : Bool}
    {a b : CatSet} (hab : Like a b) (ha : a.Nodup) (hb : b.Nodup)
    (hone : ∀ ty ty' o o', ty ∈ a → ty' ∈ a → (ty, o) ∈ oovList → (ty', o') ∈ oovList → ty = ty') :
    mecabCategories categories oovList t offset length other b = mecabCategories categories oovList t offset length other a := by
  by_cases h : ∃ ty o, ty ∈ a ∧ (ty, o) ∈ oovList
  · obtain ⟨ty, o, h1, h2⟩ := h
    rw [mecabCategories_one ha h1 (fun x hx hne o' ho => hne (hone x ty o' o hx h1 ho h2)),
      mecabCategories_one hb ((hab ty).1 h1) (fun x hx hne o' ho => hne (hone x ty o' o ((hab x).2 hx) h1 ho h2))]
  · rw [mecabCategories_none (fun x hx o ho => h ⟨x, o, hx, ho⟩),
      mecabCategories_none (fun x hx o ho => h ⟨x, o, (hab x).2 hx, ho⟩)]

theorem wordCandidateLoop_cats (index : Nat) : ∀ is, (t.withCats g).wordCandidateLoop index is = t.wordCandidateLoop index is
  | [] => rfl
  | i :: is => by
    unfold InputText.wordCandidateLoop
    rw [wordCandidateLoop_cats index is]
    rfl

theorem getOov_cats (h : SameSets f g) (hf : ∀ ch, (f ch).Nodup) (hg : ∀ ch, (g ch).Nodup) (ht : t.charCats = t.modified.map f) {p : OovPlugin}
    (hone : OneCategory f p) (offset : Nat) (other : Bool) : p.getOov (t.withCats g) offset other = p.getOov t offset other := by
  have key : p.provideOov (t.withCats g) offset other = p.provideOov t offset other := by
    cases p with
    | mecab categories oovList =>
      unfold OovPlugin.provideOov
      rw [show (t.withCats g).charCategoryContinuousLength offset = t.charCategoryContinuousLength offset from rfl, typesAt_char ht,
        typesAt_char']
      cases t.charCategoryContinuousLength offset with
      | error e => rfl
      | ok n =>
        simp only [bind, Except.bind]
        split
        · rfl
        · cases t.charAt offset with
          | error e => rfl
          | ok ch =>
            simp only [Except.map, mecabCategories_cats]
            exact mecabCategories_like (h ch) (hf ch) (hg ch) (hone categories oovList rfl ch)
    | simple o =>
      unfold OovPlugin.provideOov InputText.wordCandidateLength
      simp only [wordCandidateLoop_cats]
      rfl
  unfold OovPlugin.getOov
  rw [key]

/-! ### The lattice -/

theorem wordLoop_cats (conn : Conn) (lex : Lex) (i : Nat) : ∀ (ws : List (Nat × Nat)) (L : Lattice) (has : Bool),
    wordLoop conn lex (t.withCats g) i ws L has = wordLoop conn lex t i ws L has
  | [], _, _ => rfl
  | (w, e) :: ws, L, has => by
    unfold wordLoop
    simp only [wordLoop_cats conn lex i ws]
    rfl

theorem oovLoop_cats (conn : Conn) (i : Nat) : ∀ (ps : List OovPlugin) (L : Lattice) (has : Bool),
    (∀ p ∈ ps, ∀ other, p.getOov (t.withCats g) i other = p.getOov t i other) →
    oovLoop conn (t.withCats g) i ps L has = oovLoop conn t i ps L has
  | [], _, _, _ => rfl
  | p :: ps, L, has, h => by
    unfold oovLoop
    rw [h p List.mem_cons_self]
    simp only [fun L has => oovLoop_cats conn i ps L has (fun p hp => h p (List.mem_cons_of_mem _ hp))]

theorem buildPos_cats (h : SameSets f g) (ht : t.charCats = t.modified.map f) (conn : Conn) (lex : Lex) {ps : List OovPlugin}
    (hps : ∀ p ∈ ps, ∀ i other, p.getOov (t.withCats g) i other = p.getOov t i other) (L : Lattice) (i : Nat) :
    buildPos conn lex ps (t.withCats g) L i = buildPos conn lex ps t L i := by
  have h1 : ∀ L has, oovPart conn ps (t.withCats g) i L has = oovPart conn ps t i L has := by
    intro L has
    unfold oovPart
    rw [typesAt_char ht, typesAt_char']
    cases t.charAt i with
    | error e => rfl
    | ok ch => simp only [Except.map, h ch, oovLoop_cats conn i ps _ _ (fun p hp => hps p hp i)]
  have h2 : ∀ L has, defaultPart conn ps (t.withCats g) i L has = defaultPart conn ps t i L has := by
    intro L has
    unfold defaultPart
    split
    · rfl
    · cases hl : ps.getLast? with
      | none => rfl
      | some p =>
        refine oovLoop_cats conn i [p] L false (fun q hq => ?_)
        rw [List.mem_singleton.1 hq]
        exact hps p (List.mem_of_getLast? hl) i
  unfold buildPos
  simp only [h1, h2, wordLoop_cats]
  rfl

theorem buildLattice_cats (h : SameSets f g) (ht : t.charCats = t.modified.map f) (conn : Conn) (lex : Lex) {ps : List OovPlugin}
    (hps : ∀ p ∈ ps, ∀ i other, p.getOov (t.withCats g) i other = p.getOov t i other) (L : Lattice) :
    buildLattice conn lex ps (t.withCats g) L = buildLattice conn lex ps t L := by
  have key : ∀ is L, buildLoop conn lex ps (t.withCats g) is L = buildLoop conn lex ps t is L := by
    intro is
    induction is with
    | nil => exact fun _ => rfl
    | cons i is ih =>
      intro L
      unfold buildLoop
      simp only [ih, buildPos_cats h ht conn lex hps]
      rfl
  unfold buildLattice
  rw [key]
  rfl

/-! ### The path -/

theorem digitNode_like {a b : CatSet} (h : Like a b) (s : PStr) (comma period : Bool) : digitNode b s comma period = digitNode a s comma period := by
  unfold digitNode
  rw [decide_eq_decide.2 (h .NUMERIC), decide_eq_decide.2 (h .KANJINUMERIC)]

theorem jnStep_cats (h : SameSets f g) (ht : t.charCats = t.modified.map f) (cfg : JoinNumeric) (lex : Lex) (st : JNState) :
    st.step cfg lex (t.withCats g) = st.step cfg lex t := by
  unfold JNState.step
  cases pyGet st.path st.next with
  | error e => rfl
  | ok d =>
    have := types_like h ht d.begin_ d.end_
    simp only [bind, Except.bind]
    revert this
    cases t.charCategoryTypes d.begin_ d.end_ <;> cases (t.withCats g).charCategoryTypes d.begin_ d.end_ <;> intro this
    · rw [show _ = _ from this]
    · exact this.elim
    · exact this.elim
    · dsimp only
      simp only [digitNode_like this]

theorem jnLoop_cats (h : SameSets f g) (ht : t.charCats = t.modified.map f) (cfg : JoinNumeric) (lex : Lex) : ∀ (n : Nat) (st : JNState),
    JNState.loop cfg lex (t.withCats g) n st = JNState.loop cfg lex t n st
  | 0, st => by
    unfold JNState.loop
    rfl
  | n + 1, st => by
    unfold JNState.loop
    simp only [jnStep_cats h ht, jnLoop_cats h ht cfg lex n]

theorem isKatakanaNode_cats (h : SameSets f g) (ht : t.charCats = t.modified.map f) (d : NodeData) :
    isKatakanaNode (t.withCats g) d = isKatakanaNode t d := by
  unfold isKatakanaNode
  have := types_like h ht d.begin_ d.end_
  revert this
  cases t.charCategoryTypes d.begin_ d.end_ <;> cases (t.withCats g).charCategoryTypes d.begin_ d.end_ <;> intro this
  · rw [show _ = _ from this]
  · exact this.elim
  · exact this.elim
  · simp only [bind, Except.bind, this .KATAKANA]

theorem canOovBowNode_cats (h : SameSets f g) (ht : t.charCats = t.modified.map f) (d : NodeData) :
    canOovBowNode (t.withCats g) d = canOovBowNode t d := by
  unfold canOovBowNode
  rw [typesAt_char ht, typesAt_char']
  cases t.charAt d.begin_ with
  | error e => rfl
  | ok ch => simp only [bind, Except.bind, Except.map, h ch]

theorem scanBack_cats (h : SameSets f g) (ht : t.charCats = t.modified.map f) (path : List NodeData) : ∀ n,
    scanBack (t.withCats g) path n = scanBack t path n
  | 0 => rfl
  | n + 1 => by
    unfold scanBack
    simp only [isKatakanaNode_cats h ht, scanBack_cats h ht path n]

theorem scanForward_cats (h : SameSets f g) (ht : t.charCats = t.modified.map f) : ∀ (path : List NodeData) (e : Nat),
    scanForward (t.withCats g) path e = scanForward t path e
  | [], _ => rfl
  | d :: ds, e => by
    unfold scanForward
    simp only [isKatakanaNode_cats h ht, scanForward_cats h ht ds]

theorem skipNoBow_cats (h : SameSets f g) (ht : t.charCats = t.modified.map f) (path : List NodeData) : ∀ n b,
    skipNoBow (t.withCats g) path n b = skipNoBow t path n b
  | 0, _ => rfl
  | n + 1, b => by
    unfold skipNoBow
    simp only [canOovBowNode_cats h ht, skipNoBow_cats h ht path n]

theorem jkStep_cats (h : SameSets f g) (ht : t.charCats = t.modified.map f) (cfg : JoinKatakana) (lex : Lex) (L : Lattice)
    (path : List NodeData) (i : Nat) : cfg.step lex (t.withCats g) L path i = cfg.step lex t L path i := by
  have h1 : ∀ d, katakanaTrigger cfg (t.withCats g) d = katakanaTrigger cfg t d := fun d => rfl
  unfold JoinKatakana.step katakanaStart
  simp only [h1, isKatakanaNode_cats h ht, scanBack_cats h ht, scanForward_cats h ht, skipNoBow_cats h ht]

theorem jkLoop_cats (h : SameSets f g) (ht : t.charCats = t.modified.map f) (cfg : JoinKatakana) (lex : Lex) (L : Lattice) :
    ∀ (n : Nat) (path : List NodeData) (i : Nat), cfg.loop lex (t.withCats g) L n path i = cfg.loop lex t L n path i
  | 0, _, _ => by
    unfold JoinKatakana.loop
    rfl
  | n + 1, path, i => by
    unfold JoinKatakana.loop
    simp only [jkStep_cats h ht, jkLoop_cats h ht cfg lex L n]

theorem rewritePath_cats (h : SameSets f g) (ht : t.charCats = t.modified.map f) (lex : Lex) (fuel : Nat) (L : Lattice) :
    ∀ (ps : List PathPlugin) (path : List NodeData), rewritePath lex fuel (t.withCats g) L ps path = rewritePath lex fuel t L ps path
  | [], _ => rfl
  | p :: ps, path => by
    have : p.rewrite lex fuel (t.withCats g) L path = p.rewrite lex fuel t L path := by
      cases p with
      | numeric cfg => exact jnLoop_cats h ht cfg lex fuel _
      | katakana cfg => exact jkLoop_cats h ht cfg lex L _ _ _
    unfold rewritePath
    rw [this]
    simp only [rewritePath_cats h ht lex fuel L ps]

end

/-! ### Tokenizing and loading -/

theorem tokenize_cats {T : Tokenizer} (h : SameSets T.catOf g) (hf : ∀ ch, (T.catOf ch).Nodup) (hg : ∀ ch, (g ch).Nodup)
    (hone : ∀ p ∈ T.oov, OneCategory T.catOf p) (L : Lattice) (text : PStr) (mode : Option Mode) :
    { T with catOf := g }.tokenize L text mode = ((T.tokenize L text mode).1, (T.tokenize L text mode).2.map (MorphemeList.withCats g)) := by
  unfold Tokenizer.tokenize
  split
  · rfl
  unfold Tokenizer.buildInput
  dsimp only
  cases rewriteInput T.lower T.nfkc T.inputPlugins (Builder.init text) with
  | error e => rfl
  | ok bd =>
    simp only [bind, Except.bind]
    rw [h.build]
    cases hb : bd.build T.catOf with
    | error e => rfl
    | ok t =>
      have ht := build_cats hb
      simp only [Except.map]
      rw [buildLattice_cats h ht _ _ (fun p hp i other => getOov_cats h hf hg ht (hone p hp) i other)]
      cases buildLattice T.conn T.lex T.oov t L with
      | mk L1 r =>
        cases r with
        | error e => rfl
        | ok u =>
          dsimp only
          have hp : ({ T with catOf := g } : Tokenizer).bestPath (t.withCats g) L1 = T.bestPath t L1 := by
            unfold Tokenizer.bestPath
            simp only [rewritePath_cats h ht]
          rw [hp]
          cases T.bestPath t L1 with
          | error e => rfl
          | ok path =>
            dsimp only
            cases L1.clear with
            | mk L2 r =>
              cases r with
              | error e => rfl
              | ok u =>
                dsimp only
                cases splitPath T.lex (mode.getD T.mode) path <;> rfl

theorem calculateCost_cats {T : Tokenizer} (h : SameSets T.catOf g) (hf : ∀ ch, (T.catOf ch).Nodup) (hg : ∀ ch, (g ch).Nodup)
    (hone : ∀ p ∈ T.oov, OneCategory T.catOf p) (depth : Nat) : ∀ (ws : List Nat) (L : Lattice) (x : DALex),
    calculateCost { T with catOf := g } depth ws L x = calculateCost T depth ws L x
  | [], _, _ => rfl
  | w :: ws, L, x => by
    have ih := calculateCost_cats h hf hg hone depth ws
    unfold calculateCost
    simp only [tokenize_cats h hf hg hone, ih]
    cases x.cost w with
    | error e => rfl
    | ok c =>
      dsimp only
      split
      · rfl
      cases x.wordInfo depth w with
      | error e => rfl
      | ok wi =>
        dsimp only
        cases T.tokenize L wi.surface none with
        | mk L' r => cases r <;> rfl

theorem readUsers_cats {cfg : DictConfig} (h : SameSets cfg.catOf g) (hf : ∀ ch, (cfg.catOf ch).Nodup) (hg : ∀ ch, (g ch).Nodup)
    (hone : ∀ p ∈ cfg.oov, OneCategory cfg.catOf p) : ∀ (bs : List Bytes) (dict : Dict),
    dict.readUsers { cfg with catOf := g } bs = dict.readUsers cfg bs
  | [], _ => rfl
  | b :: bs, dict => by
    have h1 : dict.readUser { cfg with catOf := g } b = dict.readUser cfg b := by
      unfold Dict.readUser
      have : ∀ ws L x, calculateCost (dict.tokenizer { cfg with catOf := g } [] .C) cfg.depth ws L x =
          calculateCost (dict.tokenizer cfg [] .C) cfg.depth ws L x :=
        calculateCost_cats (T := dict.tokenizer cfg [] .C) h hf hg hone cfg.depth
      simp only [this]
    unfold Dict.readUsers
    rw [h1]
    simp only [readUsers_cats h hf hg hone bs]

end Sudachi
