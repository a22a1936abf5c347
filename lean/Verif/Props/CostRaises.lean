/-
C50: what adding a user dictionary raises when costs are to be computed.
-/
import Verif.Lemmas.CostRaises
import Verif.Lemmas.SampleUser
import Verif.Props.Dictionary
namespace Sudachi
variable {D : Darts} {cfg : DictConfig}

/-- The words of the lexicon and the rows. -/
private theorem bad_iff {T : Tokenizer} {depth : Nat} {sys : Option SysDict} {header : Header} {rows : List (List PStr)}
    {matrix : Option (PStr × List PStr)} {d : BinDict} {g : Grammar} (F : Facts D sys header rows matrix d g) (hf : AllFit rows)
    (hr : ∀ w v, DicFormOf rows w v → v < rows.length) {w : Nat} {c : Cols} (hc : RowIs rows w c) (e : Err) :
    AutoBad T depth d.lexicon w e ↔ CostFails T rows depth w c e := by
  obtain ⟨h1, h2⟩ := wordInfo_chain F hf hr depth hc
  by_cases hs : ChainShort rows depth w
  · obtain ⟨wi, hwi, hsurf⟩ := h1 hs
    constructor
    · rintro (h | ⟨wi', h, h3 | ⟨rfl, ms, h3, h4⟩⟩)
      · rw [hwi] at h; cases h
      · rw [hwi] at h; cases h
        exact .text e hs (hsurf ▸ h3)
      · rw [hwi] at h; cases h
        exact .nothing ms hs (hsurf ▸ h3) h4
    · intro h
      cases h with
      | long h => exact absurd hs h
      | text _ _ h => exact .inr ⟨wi, hwi, .inl (by rw [hsurf]; exact h)⟩
      | nothing ms _ h h' => exact .inr ⟨wi, hwi, .inr ⟨rfl, ms, by rw [hsurf]; exact h, h'⟩⟩
  · have h2 := h2 hs
    constructor
    · rintro (h | ⟨wi', h, _⟩)
      · rw [h2] at h; cases h
        exact .long hs
      · rw [h2] at h; cases h
    · intro h
      cases h with
      | long h => exact .inl h2
      | text _ h => exact absurd h hs
      | nothing _ h => exact absurd h hs

private theorem good_iff {T : Tokenizer} {depth : Nat} {sys : Option SysDict} {header : Header} {rows : List (List PStr)}
    {matrix : Option (PStr × List PStr)} {d : BinDict} {g : Grammar} (F : Facts D sys header rows matrix d g) (hf : AllFit rows)
    (hr : ∀ w v, DicFormOf rows w v → v < rows.length) {w : Nat} {c : Cols} (hc : RowIs rows w c) :
    AutoGood T depth d.lexicon w ↔ CostFound T rows depth w c := by
  obtain ⟨h1, h2⟩ := wordInfo_chain F hf hr depth hc
  by_cases hs : ChainShort rows depth w
  · obtain ⟨wi, hwi, hsurf⟩ := h1 hs
    constructor
    · rintro ⟨wi', ms, h, h3, h4⟩
      rw [hwi] at h; cases h
      exact ⟨hs, ms, hsurf ▸ h3, h4⟩
    · rintro ⟨_, ms, h3, h4⟩
      exact ⟨wi, ms, hwi, by rw [hsurf]; exact h3, h4⟩
  · constructor
    · rintro ⟨wi', ms, h, _⟩
      rw [h2 hs] at h; cases h
    · rintro ⟨h, _⟩
      exact absurd h hs

/-- **C50** A user dictionary with room for it is refused exactly if the cost of some row is to be computed and cannot be; the exception is that
of the first such row: `RecursionError` for dictionary forms that go on too long, that of the tokenizer if it cannot tokenize the surface, and
`IndexError` if the surface is tokenized to nothing. -/
theorem C50_raises (hD : D.Ok) (mid : Dict) (hroom : mid.set.lexicons.length < 16) (hcells : mid.grammar.left * mid.grammar.right ≠ 0) {b : Bytes}
    {du : BinDict} (hdu : fromUserDictionary b = .ok du) {sys : Option SysDict} {header : Header} {rows : List (List PStr)}
    {matrix : Option (PStr × List PStr)} (hS : SourceOk header rows matrix) (hC : Compiled D sys header rows matrix du) (hf : AllFit rows)
    (hr : ∀ w v, DicFormOf rows w v → v < rows.length) (hp : (mid.tokenizer cfg [] .C).PluginsOk) (hl : (mid.set.toLex cfg.D cfg.depth).Ok) (e : Err) :
    mid.readUser cfg b = .error e ↔ ∃ w c, RowIs rows w c ∧ c.Automatic ∧ CostFails (mid.tokenizer cfg [] .C) rows cfg.depth w c e ∧
      ∀ v c', v < w → RowIs rows v c' → c'.Automatic → CostFound (mid.tokenizer cfg [] .C) rows cfg.depth v c' := by
  obtain ⟨g, F⟩ := compiled_facts hD hS hC
  have hsz := F.size
  have hrow : ∀ {w c}, RowIs rows w c → w < rows.length := fun ⟨_, hr, _⟩ => (List.getElem?_eq_some_iff.1 hr).1
  have hout := calculateCost_outcome (depth := cfg.depth) (L := Lattice.init) hp hl F.layout
    (fun y w hy hw => C39_set_cost_infos hD hS hC hf hr hy cfg.depth w (by omega))
    (fun w hw => by
      have := F.layout.par
      exact ⟨_, if_pos (show 2 * (3 * w + 2) + 2 ≤ du.lexicon.parLen by omega)⟩)
    .refl .fresh List.pairwise_lt_range (fun w hw => List.mem_range.1 hw) (fun w _ => rfl)
  have hred : ∀ {r : Res DALex}, calculateCost (mid.tokenizer cfg [] .C) cfg.depth (List.range du.lexicon.size) Lattice.init du.lexicon = r →
      (mid.readUser cfg b = .error e ↔ r = .error e) := by
    intro r h
    unfold Dict.readUser
    have h1 : mid.set.isFull = false := by
      unfold LexSet.isFull
      simpa using hroom
    have h2 : mid.noCells = false := by
      unfold Dict.noCells
      simpa using hcells
    rw [h1, hdu]
    simp only [Bool.false_eq_true, if_false, bind, Except.bind, h2]
    rw [h]
    cases r with
    | error e' => exact ⟨fun h => (by cases h; rfl), fun h => (by cases h; rfl)⟩
    | ok y =>
      dsimp only
      cases du.grammar <;> exact ⟨nofun, nofun⟩
  have hauto : ∀ {w c}, RowIs rows w c → (du.lexicon.cost w = .ok (-32768) ↔ c.Automatic) := by
    intro w c hc
    rw [F.cost w c hc]
    exact Iff.rfl
  rcases hout with ⟨⟨y, hy⟩, hgood⟩ | ⟨e', w, he, hw, hcw, hbad, hgood⟩
  · rw [hred hy]
    refine ⟨nofun, ?_⟩
    rintro ⟨w, c, hc, ha, hfail, _⟩
    exact (autoBad_not ((bad_iff F hf hr hc e).2 hfail) (hgood w (List.mem_range.2 (by have := hrow hc; omega)) ((hauto hc).2 ha))).elim
  · rw [hred he]
    have hw := List.mem_range.1 hw
    obtain ⟨c, hc⟩ := F.rowsRead w (by omega)
    constructor
    · intro h
      cases h
      refine ⟨w, c, hc, (hauto hc).1 hcw, (bad_iff F hf hr hc _).1 hbad, fun v c' hv hc' ha => ?_⟩
      exact (good_iff F hf hr hc').1 (hgood v (List.mem_range.2 (by omega)) hv ((hauto hc').2 ha))
    · rintro ⟨w', c', hc', ha', hfail', hgood'⟩
      have hb' := (bad_iff F hf hr hc' e).2 hfail'
      have hlt' := hrow hc'
      rcases Nat.lt_trichotomy w w' with h | rfl | h
      · exact (autoBad_not hbad ((good_iff F hf hr hc).2 (hgood' w c h hc ((hauto hc).1 hcw)))).elim
      · rw [autoBad_unique hbad hb']
      · exact (autoBad_not hb' (hgood w' (List.mem_range.2 (by omega)) h ((hauto hc').2 ha'))).elim

namespace Sample

/-- `aab,0,1,-32768,,v,u,u,u,u,u,,,*,C,*,*,*`: a cost to be computed, and no surface. -/
private def bare : Cols := { userCols2 with surface := [] }

private def bareRows : List (List PStr) := [userCols2.list, bare.list]

private def bareBuilt : Out := (DictBuilder.init (some sysDict)).build SimpleTrie.trie userHeader bareRows none

private def bareFile : Bytes := (runOps bareBuilt.1).data

private theorem bare0 : RowIs bareRows 0 userCols2 := ⟨_, rfl, (by decide +kernel : decodeCols userCols2.list = .ok userCols2.list)⟩
private theorem bare1 : RowIs bareRows 1 bare := ⟨_, rfl, (by decide +kernel : decodeCols bare.list = .ok bare.list)⟩

private theorem bare_rows {w : Nat} {c : Cols} (h : RowIs bareRows w c) : (w = 0 ∧ c = userCols2) ∨ w = 1 ∧ c = bare := by
  match w, h with
  | 0, h => exact .inl ⟨rfl, rowIs_unique h bare0⟩
  | 1, h => exact .inr ⟨rfl, rowIs_unique h bare1⟩
  | w + 2, ⟨_, h, _⟩ => cases h

private theorem bare_dic {w : Nat} {v : Int} (h : DicFormOf bareRows w v) : v = -1 := by
  obtain ⟨c, hc, hv⟩ := h
  rcases bare_rows hc with ⟨_, rfl⟩ | ⟨_, rfl⟩ <;> rcases hv with ⟨_, rfl⟩ | ⟨h, _⟩
  all_goals first
    | rfl
    | exact (h rfl).elim

private theorem bare_source : SourceOk userHeader bareRows none where
  header := user_header_ok
  pos row hm c hr s hs := by
    have : c = userCols2 ∨ c = bare := by
      obtain ⟨w, hw⟩ := List.mem_iff_getElem?.1 hm
      rcases bare_rows ⟨row, hw, hr⟩ with ⟨_, h⟩ | ⟨_, h⟩
      · exact .inl h
      · exact .inr h
    rcases this with rfl | rfl <;>
      simp only [Cols.pos, bare, userCols2, userCols0, List.mem_cons, List.not_mem_nil, or_false] at hs
    all_goals rcases hs with rfl | rfl | rfl | rfl | rfl | rfl <;> decide
  matrix := trivial

private theorem bare_compiled : ∃ d, fromUserDictionary bareFile = .ok d ∧ Compiled SimpleTrie.trie (some sysDict) userHeader bareRows none d := by
  obtain ⟨d, h1, h2⟩ := loaded (p := fun d => isUserDictionary d.header.version.toNat) rfl
    (by decide +kernel : (fromUserDictionary bareFile).isOk = true)
  exact ⟨d, h1, bareBuilt.1, Prod.ext rfl (by decide +kernel : bareBuilt.2 = .ok ()), h2⟩

private theorem alone : (Dict.load config systemFile []).isOk = true ∧
    ((Dict.load config systemFile []).map fun d => (d.set.lexicons.length, d.grammar.left * d.grammar.right)) = .ok (1, 4) ∧
    ((Dict.load config systemFile []).bind fun d => ((d.tokenizer config [] .C).tokenize Lattice.init userCols2.surface none).2.map fun ms => ms.path.length) = .ok 2 := by
  decide +kernel

/-- The dictionary with the two rows is refused for its second row. -/
example : ∃ mid, Dict.load config systemFile [] = .ok mid ∧ mid.readUser config bareFile = .error .index ∧
    CostFound (mid.tokenizer config [] .C) bareRows config.depth 0 userCols2 ∧ CostFails (mid.tokenizer config [] .C) bareRows config.depth 1 bare .index := by
  obtain ⟨a1, a2, a3⟩ := alone
  cases hm : Dict.load config systemFile [] with
  | error e => rw [hm] at a1; cases a1
  | ok mid =>
    rw [hm] at a2 a3
    have a2 : (mid.set.lexicons.length, mid.grammar.left * mid.grammar.right) = (1, 4) := Except.ok.inj a2
    have a2' := congrArg Prod.fst a2
    have a2'' := congrArg Prod.snd a2
    simp only at a2' a2''
    have a3 : (((mid.tokenizer config [] .C).tokenize Lattice.init userCols2.surface none).2.map fun ms => ms.path.length) = .ok 2 := a3
    obtain ⟨ds, e1, hC⟩ := system_compiled
    obtain ⟨ds', gs, e2, _, e3, e4, e5, _⟩ := load_user hm
    rw [e1] at e2
    cases e2
    have hlex : (mid.set.toLex config.D config.depth).Ok := by
      refine set_lex_ok SimpleTrie.ok e4 (fun _ => rows) ?_ _
      intro i x hx
      have hi : i = 0 := by
        have := (List.getElem?_eq_some_iff.1 hx).1
        rw [e5] at this
        simp at this
        omega
      subst hi
      rw [e3] at hx
      cases hx
      exact ⟨none, _, _, ds, source_ok, hC, .refl⟩
    obtain ⟨du, h4, h5⟩ := bare_compiled
    have short : ∀ {w c}, RowIs bareRows w c → ChainShort bareRows config.depth w := by
      intro w c hc
      have hd : c.DicForm (-1) := by
        rcases bare_rows hc with ⟨_, rfl⟩ | ⟨_, rfl⟩ <;> exact .inl ⟨rfl, rfl⟩
      exact ⟨0, by decide, .here ⟨c, hc, hd⟩ (.inl (by decide))⟩
    have found : CostFound (mid.tokenizer config [] .C) bareRows config.depth 0 userCols2 := by
      refine ⟨short bare0, ?_⟩
      cases ht : ((mid.tokenizer config [] .C).tokenize Lattice.init userCols2.surface none).2 with
      | error e => rw [ht] at a3; cases a3
      | ok ms =>
        rw [ht] at a3
        have a3 : ms.path.length = 2 := Except.ok.inj a3
        refine ⟨ms, rfl, fun h => ?_⟩
        rw [h] at a3
        cases a3
    have fails : CostFails (mid.tokenizer config [] .C) bareRows config.depth 1 bare .index := .nothing _ (short bare1) rfl rfl
    refine ⟨mid, rfl, (C50_raises (cfg := config) SimpleTrie.ok mid (by omega) (by omega) h4 bare_source h5 ?_ ?_ ⟨fun c h => (by cases h), fun s h => h, fun _ _ h => (by cases h)⟩
      hlex .index).2 ⟨1, bare, bare1, (by decide +kernel : pyInt bare.cost = .ok (-32768)), fails, ?_⟩, found, fails⟩
    · intro w c hc
      rcases bare_rows hc with ⟨_, rfl⟩ | ⟨_, rfl⟩ <;> exact ⟨by decide, by decide, by decide⟩
    · intro w v hv
      rw [bare_dic hv]
      decide
    · intro v c' hv hc' _
      rcases bare_rows hc' with ⟨rfl, rfl⟩ | ⟨rfl, _⟩
      · exact found
      · omega

end Sample

end Sudachi
