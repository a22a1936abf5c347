/-
Properties of a dictionary with its user dictionaries: C47, C50, C51.
-/
import Verif.Lemmas.Dictionary
import Verif.Lemmas.SampleUser
import Verif.Lemmas.EndToEnd
import Verif.Props.Lexicon
import Verif.Props.Tokenizer
namespace Sudachi

variable {D : Darts} {cfg : DictConfig} {system : Bytes} {users : List Bytes} {dict : Dict}

/-! ## C47 -/

/-- **C47** For a word of the `k`-th user dictionary (built against a dictionary with the parts of speech of the loaded system
dictionary), the part of speech its number stands for is that of its row; the other user dictionaries may be any. -/
theorem C47_user (hD : D.Ok) (hload : Dict.load cfg system users = .ok dict) {ds : BinDict} {gs : Grammar}
    (hds : fromSystemDictionary system = .ok ds) (hgs : ds.grammar = some gs) {k : Nat} {b : Bytes} (hb : users[k]? = some b)
    {du : BinDict} (hdu : fromUserDictionary b = .ok du) {sys : SysDict} (hsys : sys.posList = gs.posList) {header : Header}
    {rows : List (List PStr)} {matrix : Option (PStr × List PStr)} (hS : SourceOk header rows matrix)
    (hC : Compiled D (some sys) header rows matrix du) {w : Nat} {c : Cols} (hc : RowIs rows w c) (hf : c.Fits) {depth : Nat}
    {info : WordInfo} (hi : dict.set.wordInfo depth (combinedId (k + 1) w : Nat) = .ok info) :
    dict.grammar.posString info.posId = .ok c.pos := by
  obtain ⟨ds', gs', e1, e2, _, _, _, _, _, huser⟩ := load_user hload
  rw [hds] at e1
  cases e1
  rw [hgs] at e2
  cases e2
  obtain ⟨mid, du', y, ps, _, e3, hcalc, hy, ho1, hok, hle, hpos, _⟩ := huser k b hb
  rw [hdu] at e3
  cases e3
  obtain ⟨g, F⟩ := compiled_facts hD hS hC
  have hwl : w < rows.length := by
    obtain ⟨_, hr, _⟩ := hc
    exact (List.getElem?_eq_some_iff.1 hr).1
  have hsmall := F.small
  have hsz := F.size
  have hw : w < 268435456 := by omega
  obtain ⟨hist, _⟩ := calculateCost_ok F.layout .fresh List.nodup_range (fun v hv => List.mem_range.1 hv) hcalc
  obtain ⟨wi, hst, hI, _⟩ := F.infos w c hc hf
  rw [← history_stored F.layout hist w (by omega)] at hst
  unfold LexSet.wordInfo at hi
  rw [dictionaryIdOf_combined hw, localId_combined hw, pyGetI_nat] at hi
  obtain ⟨y', h1, hi⟩ := bind_ok hi
  unfold pyGet at h1
  rw [hy] at h1
  cases h1
  obtain ⟨wi', h2, hi⟩ := bind_ok hi
  obtain ⟨p, h3, hi⟩ := bind_ok hi
  obtain ⟨_, _, hi⟩ := bind_ok hi
  obtain ⟨_, _, hi⟩ := bind_ok hi
  obtain ⟨_, _, hi⟩ := bind_ok hi
  cases hi
  have hp : wi'.posId = wi.posId := by rw [wordInfo_stored hst h2]
  rw [hp] at h3
  obtain ⟨hp0, hpt⟩ := hI.pos
  have hs2 : sysPos (some sys) = gs.posList := hsys
  rw [hs2] at hpt
  have hdp : du.posList = g.posList := by unfold BinDict.posList; rw [F.grammar]
  obtain ⟨_, _, e1', e2', _, _, _, _, ⟨qs, hq⟩, _⟩ := load_user hload
  rw [hds] at e1'
  cases e1'
  rw [hgs] at e2'
  cases e2'
  have hq : dict.grammar.posList = gs.posList ++ qs := by rw [hq]
  unfold LexSet.convertPos at h3
  rw [if_pos (by omega)] at h3
  obtain ⟨o1, h4, h3⟩ := bind_ok h3
  unfold pyGet at h4
  rw [ho1] at h4
  cases h4
  show dict.grammar.posString p = _
  unfold Grammar.posString
  split at h3
  · rename_i hge
    obtain ⟨o, h5, h3⟩ := bind_ok h3
    rw [pyGetI_nat] at h5
    unfold pyGet at h5
    rw [hok] at h5
    cases h5
    cases h3
    rw [if_neg (by omega)]
    unfold pyGet
    rw [List.getElem?_append_right (by omega)] at hpt
    have : (wi.posId - (gs.posList.length : Int) + (mid.grammar.posList.length : Int)).toNat =
        mid.grammar.posList.length + (wi.posId.toNat - gs.posList.length) := by omega
    rw [this, hpos, List.append_assoc, List.getElem?_append_right (by omega), Nat.add_sub_cancel_left, hdp,
      List.getElem?_append_left (by exact (List.getElem?_eq_some_iff.1 hpt).1), hpt]
  · rename_i hlt
    cases h3
    rw [if_neg (by omega)]
    unfold pyGet
    rw [List.getElem?_append_left (by omega)] at hpt
    rw [hq, List.getElem?_append_left (by omega), hpt]

/-- **C47** The words of the system dictionary keep their parts of speech, whatever user dictionaries are loaded. -/
theorem C47_system (hD : D.Ok) (hload : Dict.load cfg system users = .ok dict) {ds : BinDict}
    (hds : fromSystemDictionary system = .ok ds) {header : Header} {rows : List (List PStr)} {matrix : Option (PStr × List PStr)}
    (hS : SourceOk header rows matrix) (hC : Compiled D none header rows matrix ds) {w : Nat} {c : Cols} (hc : RowIs rows w c)
    (hf : c.Fits) {depth : Nat} {info : WordInfo} (hi : dict.set.wordInfo depth (combinedId 0 w : Nat) = .ok info) :
    dict.grammar.posString info.posId = .ok c.pos := by
  obtain ⟨ds', gs, e1, hgs, h0, _, _, _, ⟨qs, hq⟩, _⟩ := load_user hload
  rw [hds] at e1
  cases e1
  obtain ⟨g, F⟩ := compiled_facts hD hS hC
  have := F.grammar
  rw [hgs] at this
  cases this
  have hwl : w < rows.length := by
    obtain ⟨_, hr, _⟩ := hc
    exact (List.getElem?_eq_some_iff.1 hr).1
  have hsmall := F.small
  have hw : w < 268435456 := by omega
  obtain ⟨wi, hst, hI, _⟩ := F.infos w c hc hf
  unfold LexSet.wordInfo at hi
  rw [dictionaryIdOf_combined hw, localId_combined hw, pyGetI_nat] at hi
  obtain ⟨y', h1, hi⟩ := bind_ok hi
  unfold pyGet at h1
  rw [h0] at h1
  cases h1
  obtain ⟨wi', h2, hi⟩ := bind_ok hi
  obtain ⟨p, h3, hi⟩ := bind_ok hi
  obtain ⟨_, _, hi⟩ := bind_ok hi
  obtain ⟨_, _, hi⟩ := bind_ok hi
  obtain ⟨_, _, hi⟩ := bind_ok hi
  cases hi
  have hp : wi'.posId = wi.posId := by rw [wordInfo_stored hst h2]
  rw [hp] at h3
  obtain ⟨hp0, hpt⟩ := hI.pos
  have hs2 : sysPos none = [] := rfl
  rw [hs2, List.nil_append] at hpt
  unfold LexSet.convertPos at h3
  rw [if_neg (by omega)] at h3
  cases h3
  show dict.grammar.posString wi.posId = _
  have hq : dict.grammar.posList = gs.posList ++ qs := by rw [hq]
  unfold Grammar.posString
  rw [if_neg (by omega)]
  unfold pyGet
  rw [hq, List.getElem?_append_left (by exact (List.getElem?_eq_some_iff.1 hpt).1), hpt]

namespace Sample

theorem loaded_dict : ∃ dict, Dict.load config systemFile [userFile2, userFile1] = .ok dict := by
  have h := load_ok
  cases hl : Dict.load config systemFile [userFile2, userFile1] with
  | error e => rw [hl] at h; cases h
  | ok dict => exact ⟨dict, rfl⟩

theorem sys_grammar {d : BinDict} (h : fromSystemDictionary systemFile = .ok d) :
    ∃ g, d.grammar = some g ∧ sysDict.posList = g.posList ∧ 0 < g.left * g.right := by
  obtain ⟨d', h1, h2⟩ := system_compiled
  rw [h] at h1
  cases h1
  obtain ⟨g, F⟩ := compiled_facts SimpleTrie.ok source_ok h2
  refine ⟨g, F.grammar, ?_, ?_⟩
  · rw [sysDict_eq (compiled_eq h2)]
    unfold BinDict.toSysDict
    rw [F.grammar]
  · obtain ⟨e1, e2, _⟩ := F.matrix 2 (by decide +kernel)
    rw [e1, e2]
    decide

end Sample

/-- Two user dictionaries with their own parts of speech: the word of the second one has that of its row. -/
example : ∃ dict info, Dict.load Sample.config Sample.systemFile [Sample.userFile2, Sample.userFile1] = .ok dict ∧
    dict.set.wordInfo 9 (combinedId 2 0 : Nat) = .ok info ∧
    dict.grammar.posString info.posId = .ok [[117], [117], [117], [117], [117], [117]] := by
  obtain ⟨dict, hl⟩ := Sample.loaded_dict
  have hi := Sample.load_infos
  rw [hl] at hi
  have hi : (dict.set.wordInfo 9 536870912).isOk = true := hi
  obtain ⟨ds, h1, _⟩ := Sample.system_compiled
  obtain ⟨g, h2, h3, _⟩ := Sample.sys_grammar h1
  obtain ⟨du, h4, h5⟩ := Sample.user1_compiled
  cases hw : dict.set.wordInfo 9 536870912 with
  | error e => rw [hw] at hi; cases hi
  | ok info =>
    exact ⟨dict, info, hl, hw, C47_user SimpleTrie.ok hl h1 h2 (k := 1) rfl h4 h3 Sample.user1_source h5 Sample.urow0
      ⟨by decide, by decide, by decide⟩ hw⟩

/-! ## C50 -/

/-- **C50** When a compiled user dictionary is loaded, exactly the costs equal to -32768 are replaced; ids, number of words
and lookup are unchanged. -/
theorem C50_others (hD : D.Ok) (hload : Dict.load cfg system users = .ok dict) {k : Nat} {b : Bytes} (hb : users[k]? = some b)
    {du : BinDict} (hdu : fromUserDictionary b = .ok du) {sys : Option SysDict} {header : Header} {rows : List (List PStr)}
    {matrix : Option (PStr × List PStr)} (hS : SourceOk header rows matrix) (hC : Compiled D sys header rows matrix du) :
    ∃ y, dict.set.lexicons[k + 1]? = some y ∧ y.size = rows.length ∧
      (∀ text offset, y.lookup D text offset = du.lexicon.lookup D text offset) ∧
      ∀ w c, RowIs rows w c → y.leftId w = pyInt c.left ∧ y.rightId w = pyInt c.right ∧
        (pyInt c.cost ≠ .ok (-32768) → y.cost w = pyInt c.cost) := by
  obtain ⟨_, _, _, _, _, _, _, _, _, huser⟩ := load_user hload
  obtain ⟨mid, du', y, ps, _, e3, hcalc, hy, _⟩ := huser k b hb
  rw [hdu] at e3
  cases e3
  obtain ⟨g, F⟩ := compiled_facts hD hS hC
  obtain ⟨hist, hsame, _⟩ := calculateCost_ok F.layout .fresh List.nodup_range (fun v hv => List.mem_range.1 hv) hcalc
  refine ⟨y, hy, by rw [(history_layout F.layout hist).2, F.size], history_lookup F.layout hist D, fun w c hc => ?_⟩
  rw [(history_ids F.layout hist w).1, (history_ids F.layout hist w).2, F.left w c hc, F.right w c hc]
  refine ⟨rfl, rfl, fun hne => ?_⟩
  rw [hsame w (.inr (by rw [F.cost w c hc]; exact hne)), F.cost w c hc]

/-- **C50** A cost -32768 is replaced by that of the surface as the tokenizer of the dictionaries loaded before (without path
rewriting, mode C) tokenizes it. -/
theorem C50_automatic (hD : D.Ok) (hload : Dict.load cfg system users = .ok dict) {k : Nat} {b : Bytes} (hb : users[k]? = some b)
    {du : BinDict} (hdu : fromUserDictionary b = .ok du) {sys : Option SysDict} {header : Header} {rows : List (List PStr)}
    {matrix : Option (PStr × List PStr)} (hS : SourceOk header rows matrix) (hC : Compiled D sys header rows matrix du) {w : Nat}
    {c : Cols} (hc : RowIs rows w c) (hf : c.Fits) (hcost : pyInt c.cost = .ok (-32768)) :
    ∃ mid y, Dict.load cfg system (users.take k) = .ok mid ∧ dict.set.lexicons[k + 1]? = some y ∧
      ((mid.tokenizer cfg [] .C).PluginsOk → (mid.set.toLex cfg.D cfg.depth).Ok →
        ∃ ms v, ((mid.tokenizer cfg [] .C).tokenize Lattice.init c.surface none).2 = .ok ms ∧ AutoCostIs ms v ∧ y.cost w = .ok v) := by
  obtain ⟨_, _, _, _, _, _, _, _, _, huser⟩ := load_user hload
  obtain ⟨mid, du', y, ps, _, e3, hcalc, hy, _, _, _, _, hmid⟩ := huser k b hb
  rw [hdu] at e3
  cases e3
  obtain ⟨g, F⟩ := compiled_facts hD hS hC
  obtain ⟨_, _, hauto⟩ := calculateCost_ok F.layout .fresh List.nodup_range (fun v hv => List.mem_range.1 hv) hcalc
  refine ⟨mid, y, hmid, hy, fun hp hl => ?_⟩
  have hwl : w < rows.length := by
    obtain ⟨_, hr, _⟩ := hc
    exact (List.getElem?_eq_some_iff.1 hr).1
  obtain ⟨wi, L', ms, v, a1, a2, a3, a4, a5⟩ := hauto w (List.mem_range.2 (by rw [F.size]; exact hwl)) (by rw [F.cost w c hc]; exact hcost)
  obtain ⟨wi', b1, b2, _⟩ := F.infos w c hc hf
  rw [a1] at b1
  cases b1
  rw [b2.surface, C18_stateless _ hp hl L' a2] at a3
  exact ⟨ms, v, a3, a4, a5⟩

/-- The cost of `aab` in the first user dictionary: it is tokenized as `a`, `ab` with costs 5 and -3. -/
example : ∃ dict y, Dict.load Sample.config Sample.systemFile [Sample.userFile2, Sample.userFile1] = .ok dict ∧
    dict.set.lexicons[1]? = some y ∧ y.leftId 0 = .ok 0 ∧ y.cost 0 = .ok (-48) := by
  obtain ⟨dict, hl⟩ := Sample.loaded_dict
  obtain ⟨du, h4, h5⟩ := Sample.user2_compiled
  obtain ⟨y, h6, _, _, h7⟩ := C50_others SimpleTrie.ok hl (k := 0) rfl h4 Sample.user2_source h5
  obtain ⟨mid, y', h8, h9, h10⟩ := C50_automatic SimpleTrie.ok hl (k := 0) rfl h4 Sample.user2_source h5 Sample.urow2
    ⟨by decide, by decide, by decide⟩ (by decide +kernel)
  rw [h6] at h9
  cases h9
  obtain ⟨ds, e1, hC⟩ := Sample.system_compiled
  obtain ⟨ds', gs, e2, _, e3, e4, e5, _⟩ := load_user h8
  rw [e1] at e2
  cases e2
  have hlex : (mid.set.toLex Sample.config.D Sample.config.depth).Ok := by
    refine set_lex_ok SimpleTrie.ok e4 (fun _ => Sample.rows) ?_ _
    intro i x hx
    have hi : i = 0 := by
      have := (List.getElem?_eq_some_iff.1 hx).1
      rw [e5] at this
      simp at this
      omega
    subst hi
    rw [e3] at hx
    cases hx
    exact ⟨none, _, _, ds, Sample.source_ok, hC, .refl⟩
  obtain ⟨ms, v, t1, ⟨f, l, t2, t3, t4⟩, t5⟩ := h10 ⟨fun c h => (by cases h), fun s h => h, fun _ _ h => (by cases h)⟩ hlex
  refine ⟨dict, y, hl, h6, (h7 0 _ Sample.urow2).1.trans (by decide +kernel), ?_⟩
  rw [t5, t4]
  have hc := Sample.auto_path
  rw [show Dict.load Sample.config Sample.systemFile [] = .ok mid from h8] at hc
  have hc : ((mid.tokenizer Sample.config [] .C).tokenize Lattice.init Sample.userCols2.surface none).2.map
    (fun ms => ms.path.map (·.cost)) = .ok [5, -3] := hc
  rw [t1] at hc
  have hc : ms.path.map (·.cost) = [5, -3] := Except.ok.inj hc
  have c1 : (ms.path.map (·.cost)).head? = some f.cost := by rw [List.head?_map, t2]; rfl
  have c2 : (ms.path.map (·.cost)).getLast? = some l.cost := by rw [List.getLast?_map, t3]; rfl
  have c3 : (ms.path.map (·.cost)).length = ms.path.length := List.length_map _
  rw [hc] at c1 c2 c3
  have c1 : (5 : Int) = f.cost := Option.some.inj c1
  have c2 : (-3 : Int) = l.cost := Option.some.inj c2
  rw [← c1, ← c2, ← c3]
  decide

/-! ## C51 -/

/-- **C51** No more than 15 user dictionaries are accepted, and they get the numbers 1, 2, ... in order. -/
theorem C51_ids (hload : Dict.load cfg system users = .ok dict) :
    users.length ≤ 15 ∧ dict.set.lexicons.length = users.length + 1 ∧ dict.set.Made ∧
    (∃ ds, fromSystemDictionary system = .ok ds ∧ dict.set.lexicons[0]? = some ds.lexicon) ∧
    ∀ k b, users[k]? = some b → ∃ du y, fromUserDictionary b = .ok du ∧ dict.set.lexicons[k + 1]? = some y ∧ CostHistory du.lexicon y := by
  obtain ⟨ds, gs, e1, _, h0, hm, hl, hle, _, huser⟩ := load_user hload
  refine ⟨hle, hl, hm, ⟨ds, e1, h0⟩, fun k b hb => ?_⟩
  obtain ⟨mid, du, y, ps, _, e3, hcalc, hy, _⟩ := huser k b hb
  exact ⟨du, y, e3, hy, calculateCost_history hcalc⟩

/-- **C51** The sixteenth is refused. -/
theorem C51_refused {b : Bytes} {more : List Bytes} (hload : Dict.load cfg system users = .ok dict) (hl : users.length = 15) :
    Dict.load cfg system (users ++ b :: more) = .error .value := by
  obtain ⟨_, _, _, _, _, _, hlen, _⟩ := load_user hload
  unfold Dict.load at hload ⊢
  obtain ⟨d0, h0, hload⟩ := bind_ok hload
  rw [h0]
  simp only [bind, Except.bind]
  split at hload
  · cases hload
  · rename_i hoov
    rw [if_neg hoov]
    have hfull : dict.readUser cfg b = .error .value := by
      unfold Dict.readUser LexSet.isFull
      rw [if_pos (by simp only [decide_eq_true_eq]; omega)]
    have hstep : ∀ (us : List Bytes) (d : Dict), d.readUsers cfg us = .ok dict →
        d.readUsers cfg (us ++ b :: more) = .error .value := by
      intro us
      induction us with
      | nil =>
        intro d h
        cases h
        rw [List.nil_append]
        unfold Dict.readUsers
        rw [hfull]
        rfl
      | cons u us ih =>
        intro d h
        unfold Dict.readUsers at h
        obtain ⟨m, h1, h2⟩ := bind_ok h
        rw [List.cons_append]
        unfold Dict.readUsers
        rw [h1]
        exact ih m h2
    exact hstep users d0 hload

/-- **C51** Without an unknown-word provider no dictionary is accepted, whatever the user dictionaries: `AttributeError`
once the system dictionary is read. -/
theorem C51_provider_needed (hoov : cfg.oov = []) {ds : BinDict} {gs : Grammar}
    (hds : fromSystemDictionary system = .ok ds) (hgs : ds.grammar = some gs) :
    Dict.load cfg system users = .error .attribute := by
  unfold Dict.load Dict.readSystem
  rw [hds]
  simp only [bind, Except.bind, hgs, pure, Except.pure, hoov, List.isEmpty_nil, if_true]

/-- **C51** No user dictionary can be added to a system dictionary whose matrix has no cells: `ValueError`. -/
theorem C51_cells_needed (hoov : cfg.oov ≠ []) {ds du : BinDict} {gs : Grammar} {b : Bytes} {more : List Bytes}
    (hds : fromSystemDictionary system = .ok ds) (hgs : ds.grammar = some gs) (hcells : gs.left = 0 ∨ gs.right = 0)
    (hdu : fromUserDictionary b = .ok du) : Dict.load cfg system (b :: more) = .error .value := by
  unfold Dict.load Dict.readSystem
  rw [hds]
  simp only [bind, Except.bind, pure, Except.pure]
  rw [hgs]
  dsimp only
  rw [if_neg (by simp [hoov])]
  unfold Dict.readUsers Dict.readUser Dict.noCells
  have h0 : gs.left * gs.right = 0 := Nat.mul_eq_zero.2 hcells
  simp only [LexSet.isFull, LexSet.init, hdu, bind, Except.bind, h0]
  rfl

/-- **C51** Up to 15 files that are user dictionaries, without automatic costs, are accepted if the matrix has cells. -/
theorem C51_accepted (hoov : cfg.oov ≠ []) {ds : BinDict} {gs : Grammar} (hds : fromSystemDictionary system = .ok ds)
    (hgs : ds.grammar = some gs) (hcells : 0 < gs.left * gs.right) (hl : users.length ≤ 15)
    (hu : ∀ b ∈ users, ∃ du, fromUserDictionary b = .ok du ∧ ∀ w, w < du.lexicon.size → ∃ c, du.lexicon.cost w = .ok c ∧ c ≠ -32768) :
    ∃ dict, Dict.load cfg system users = .ok dict := by
  have hstep : ∀ (us : List Bytes) (d : Dict), (∀ b ∈ us, b ∈ users) → d.set.lexicons.length + us.length ≤ 16 → d.noCells = false →
      ∃ d', d.readUsers cfg us = .ok d' := by
    intro us
    induction us with
    | nil => intro d _ _ _; exact ⟨d, rfl⟩
    | cons b us ih =>
      intro d hm hlen hc
      obtain ⟨du, h1, h2⟩ := hu b (hm b (by simp))
      have hcalc : ∀ T depth, calculateCost T depth (List.range du.lexicon.size) Lattice.init du.lexicon = .ok du.lexicon :=
        fun T depth => calculateCost_none fun w hw => h2 w (List.mem_range.1 hw)
      have : ∃ d1, d.readUser cfg b = .ok d1 ∧ d1.set.lexicons.length = d.set.lexicons.length + 1 ∧ d1.noCells = false := by
        unfold Dict.readUser LexSet.isFull
        rw [if_neg (by simp only [decide_eq_true_eq, List.length_cons] at hlen ⊢; omega), h1]
        simp only [bind, Except.bind]
        rw [if_neg (by rw [hc]; exact Bool.false_ne_true), hcalc]
        dsimp only
        split
        · exact ⟨_, rfl, by simp [LexSet.add], hc⟩
        · exact ⟨_, rfl, by simp [LexSet.add], hc⟩
      obtain ⟨d1, h3, h4, hc1⟩ := this
      obtain ⟨d2, h5⟩ := ih d1 (fun b' hb' => hm b' (by simp [hb'])) (by rw [h4]; simp only [List.length_cons] at hlen; omega) hc1
      refine ⟨d2, ?_⟩
      unfold Dict.readUsers
      rw [h3]
      exact h5
  obtain ⟨d', hd'⟩ := hstep users ⟨gs, LexSet.init ds.lexicon⟩ (fun _ h => h) (by simp [LexSet.init]; omega)
    (by unfold Dict.noCells; rw [decide_eq_false_iff_not]; dsimp only; omega)
  refine ⟨d', ?_⟩
  unfold Dict.load Dict.readSystem
  rw [hds]
  simp only [bind, Except.bind, pure, Except.pure]
  rw [hgs]
  dsimp only
  rw [if_neg (by simp [hoov])]
  exact hd'

/-- Fifteen user dictionaries are accepted, one more is refused. -/
example : (∃ dict, Dict.load Sample.config Sample.systemFile (List.replicate 15 Sample.userFile3) = .ok dict) ∧
    Dict.load Sample.config Sample.systemFile (List.replicate 15 Sample.userFile3 ++ [Sample.userFile3]) = .error .value := by
  obtain ⟨ds, h1, _⟩ := Sample.system_compiled
  obtain ⟨g, h2, _, h0⟩ := Sample.sys_grammar h1
  have hacc : ∃ dict, Dict.load Sample.config Sample.systemFile (List.replicate 15 Sample.userFile3) = .ok dict := by
    refine C51_accepted (by decide) h1 h2 h0 (by rw [List.length_replicate]; exact Nat.le_refl _) fun b hb => ?_
    rw [List.eq_of_mem_replicate hb]
    have h := Sample.user3_costs
    cases hu : fromUserDictionary Sample.userFile3 with
    | error e => rw [hu] at h; cases h
    | ok du =>
      rw [hu] at h
      have h : (du.lexicon.size, du.lexicon.cost 0) = (1, .ok 4) := Except.ok.inj h
      injection h with ha hb
      refine ⟨du, rfl, fun w hw => ?_⟩
      obtain rfl : w = 0 := by omega
      exact ⟨4, hb, by decide⟩
  obtain ⟨dict, hd⟩ := hacc
  exact ⟨⟨dict, hd⟩, C51_refused hd (by rw [List.length_replicate])⟩

/-- A system dictionary that was built without connection costs. -/
example : Dict.load Sample.config (runOps Sample.cyclicBuilt.1).data [Sample.userFile3] = .error .value := by
  have hl : (fromSystemDictionary (runOps Sample.cyclicBuilt.1).data).isOk = true := by decide +kernel
  obtain ⟨d, h1, h2⟩ := Sample.loaded (p := fun d => isSystemDictionary d.header.version.toNat) rfl hl
  obtain ⟨g, F⟩ := compiled_facts (matrix := none) SimpleTrie.ok Sample.cyclic_source_ok ⟨_, Prod.ext rfl Sample.cyclic_ok, h2⟩
  cases hu : fromUserDictionary Sample.userFile3 with
  | error e =>
    have h := Sample.user3_costs
    rw [hu] at h
    cases h
  | ok du => exact C51_cells_needed (by decide) h1 F.grammar (.inl F.matrix.1) hu

/-- The sample without its providers. -/
example : Dict.load { Sample.config with oov := [] } Sample.systemFile [Sample.userFile2] = .error .attribute := by
  obtain ⟨ds, h1, _⟩ := Sample.system_compiled
  obtain ⟨g, h2, _⟩ := Sample.sys_grammar h1
  exact C51_provider_needed rfl h1 h2

/-- The two user dictionaries of the sample. -/
example : ∃ dict y, Dict.load Sample.config Sample.systemFile [Sample.userFile2, Sample.userFile1] = .ok dict ∧
    dict.set.lexicons.length = 3 ∧ ∃ du, fromUserDictionary Sample.userFile1 = .ok du ∧ dict.set.lexicons[2]? = some y ∧
    CostHistory du.lexicon y := by
  obtain ⟨dict, hl⟩ := Sample.loaded_dict
  obtain ⟨_, h1, _, _, h2⟩ := C51_ids hl
  obtain ⟨du, y, h3, h4, h5⟩ := h2 1 _ rfl
  exact ⟨dict, y, hl, h1, du, h3, h4, h5⟩

end Sudachi
