import Verif.Props.Dictionary
import Verif.Spec.EndToEnd
namespace Sudachi
namespace Sources

theorem system_read {b : Bytes} {d : BinDict} (h : fromSystemDictionary b = .ok d) : readDictionary b = .ok d := by
  unfold fromSystemDictionary at h
  obtain ⟨d', h1, h⟩ := bind_ok h
  split at h
  · cases h
  · cases h; exact h1

theorem user_read {b : Bytes} {d : BinDict} (h : fromUserDictionary b = .ok d) : readDictionary b = .ok d := by
  unfold fromUserDictionary at h
  obtain ⟨d', h1, h⟩ := bind_ok h
  split at h
  · cases h
  · cases h; exact h1

theorem _root_.Sudachi.DictSource.Builds.compiled {D : Darts} {sys : Option SysDict} {src : DictSource} {b : Bytes}
    (h : src.Builds D sys b) {d : BinDict} (hr : readDictionary b = .ok d) : Compiled D sys src.header src.rows src.matrix d := by
  obtain ⟨_, ops, h1, rfl⟩ := h
  exact ⟨ops, h1, hr⟩

/-- What is known of one dictionary of an installation. -/
structure DictFacts (S : Sources) (cfg : DictConfig) (dict : Dict) (d : Nat) (src : DictSource) (x : DALex) (table : List (List PStr)) : Prop where
  lexicon : dict.set.lexicons[d]? = some x
  lexOf : LexiconOf cfg.D src.rows x
  size : x.size = src.rows.length
  small : 24 * src.rows.length < 2147483648
  rowsRead : ∀ w, w < src.rows.length → ∃ c, RowIs src.rows w c
  rowsOk : ∀ w c, RowIs src.rows w c → c.Ok
  left : ∀ w c, RowIs src.rows w c → x.leftId w = pyInt c.left
  right : ∀ w c, RowIs src.rows w c → x.rightId w = pyInt c.right
  cost : ∀ w c, RowIs src.rows w c → ¬ (d ≠ 0 ∧ pyInt c.cost = .ok (-32768)) → x.cost w = pyInt c.cost
  costOk : ∀ w c, RowIs src.rows w c → ∃ v, x.cost w = .ok v
  infos : ∀ w c, RowIs src.rows w c → c.Fits → ∃ wi, getStoredInfo x.bytes x.hasSyn (x.infoOffset w) = .ok wi ∧
    InfoOf (S.against d) src.rows table c wi ∧ wi.dictionaryForm = c.surface
  answers : AllFit src.rows → ∀ w n, ChainEnds src.rows w n → ∀ depth, n < depth → ∃ info, x.wordInfo depth w = .ok info
  pos : ∀ w c, RowIs src.rows w c → c.Fits → ∀ depth info, dict.set.wordInfo depth (combinedId d w : Nat) = .ok info →
    dict.grammar.posString info.posId = .ok c.pos

variable {S : Sources} {cfg : DictConfig} {dict : Dict}

theorem Installed.set (h : S.Installed cfg dict) :
    dict.set.Made ∧ dict.set.lexicons.length = S.users.length + 1 ∧ S.users.length ≤ 15 := by
  obtain ⟨file, files, ds, depth, _, _, _, hlen, _, hload⟩ := h
  obtain ⟨_, _, _, _, _, h1, h2, h3, _⟩ := load_user hload
  exact ⟨h1, by omega, by omega⟩

theorem Installed.sysOk (hD : cfg.D.Ok) (h : S.Installed cfg dict) : S.sys.Ok ∧ S.sys.size = S.system.rows.length := by
  obtain ⟨file, files, ds, depth, hb, hr, hs, _⟩ := h
  have hC := hb.compiled hr
  obtain ⟨g, F⟩ := compiled_facts hD hb.1 hC
  rw [hs]
  exact ⟨C34_system hD hb.1 hC depth, F.size⟩

theorem Installed.againstOk (hD : cfg.D.Ok) (h : S.Installed cfg dict) (d : Nat) : ∀ s, S.against d = some s → s.Ok := by
  intro s hs
  unfold against at hs
  split at hs
  · cases hs
  · cases hs; exact (h.sysOk hD).1

/-- After changes of costs, word infos can be read as before. -/
theorem history_answers {D : Darts} {sys : Option SysDict} {header : Header} {rows : List (List PStr)} {matrix : Option (PStr × List PStr)}
    {d : BinDict} {g : Grammar} (F : Facts D sys header rows matrix d g) {y : DALex} (hist : CostHistory d.lexicon y) (hf : AllFit rows) :
    ∀ {v n : Nat}, ChainEnds rows v n → ∀ depth, n < depth → ∃ info, y.wordInfo depth v = .ok info := by
    intro v n hn
    induction hn with
    | @here w v hv hend =>
      intro depth hlt
      obtain ⟨c, hc, hv⟩ := hv
      obtain ⟨wi, h1, h2, _⟩ := F.infos w c hc (hf w c hc)
      have hid : wi.dictionaryFormWordId = v := dicForm_unique h2.dicForm hv
      obtain ⟨k, rfl⟩ : ∃ k, depth = k + 1 := ⟨depth - 1, by omega⟩
      have hwl : w < rows.length := by
        obtain ⟨_, hr, _⟩ := hc
        exact (List.getElem?_eq_some_iff.1 hr).1
      rw [← history_stored F.layout hist w (by rw [F.size]; exact hwl)] at h1
      exact ⟨wi, wordInfo_own h1 (by rw [hid]; exact hend) k⟩
    | @next w v n hv hne _ ih =>
      intro depth hlt
      obtain ⟨c, hc, hv⟩ := hv
      obtain ⟨wi, h1, h2, _⟩ := F.infos w c hc (hf w c hc)
      have hid : wi.dictionaryFormWordId = v := dicForm_unique h2.dicForm hv
      obtain ⟨k, rfl⟩ : ∃ k, depth = k + 1 := ⟨depth - 1, by omega⟩
      have hwl : w < rows.length := by
        obtain ⟨_, hr, _⟩ := hc
        exact (List.getElem?_eq_some_iff.1 hr).1
      rw [← history_stored F.layout hist w (by rw [F.size]; exact hwl)] at h1
      rw [wordInfo_other h1 hid hne]
      obtain ⟨info, hi⟩ := ih k (by omega)
      rw [hi]
      exact ⟨_, rfl⟩

theorem Installed.facts (hD : cfg.D.Ok) (h : S.Installed cfg dict) {d : Nat} {src : DictSource} (hd : S.at? d = some src) :
    ∃ x table, DictFacts S cfg dict d src x table := by
  obtain ⟨file, files, ds, depth, hb, hr, hs, hlen, husers, hload⟩ := h
  obtain ⟨ds', gs, e1, e2, e3, _, _, _, _, huser⟩ := load_user hload
  have e1' := system_read e1
  rw [hr] at e1'
  cases e1'
  have hC0 := hb.compiled hr
  obtain ⟨g0, F0⟩ := compiled_facts hD hb.1 hC0
  cases d with
  | zero =>
    cases hd
    have hcost : ∀ w c, RowIs S.system.rows w c → ds.lexicon.cost w = pyInt c.cost := F0.cost
    exact ⟨ds.lexicon, _, e3, ⟨none, _, _, ds, hb.1, hC0, .refl⟩, F0.size, F0.small, F0.rowsRead, F0.rowsOk, F0.left, F0.right,
      fun w c hc _ => hcost w c hc, fun w c hc => by rw [hcost w c hc]; exact (F0.rowsOk w c hc).cost, F0.infos,
      fun hf w n hn depth hlt => (C41_answers hD hb.1 hC0 hf hn depth).1 hlt, fun w c hc hf depth info hi => C47_system hD hload e1 hb.1 hC0 hc hf hi⟩
  | succ k =>
    have hk : S.users[k]? = some src := hd
    have hk' : k < files.length := by
      have := (List.getElem?_eq_some_iff.1 hk).1
      omega
    have hbk := List.getElem?_eq_getElem hk'
    have hB := husers k src _ hk hbk
    obtain ⟨mid, du, y, ps, _, u1, hcalc, hy, _, _, _, _, _⟩ := huser k _ hbk
    have hC := hB.compiled (user_read u1)
    obtain ⟨g, F⟩ := compiled_facts hD hB.1 hC
    obtain ⟨hist, hsame, hauto⟩ := calculateCost_ok F.layout .fresh List.nodup_range (fun v hv => List.mem_range.1 hv) hcalc
    have hag : S.against (k + 1) = some S.sys := by unfold against; rw [if_neg (by omega)]
    have hsys : S.sys.posList = gs.posList := by rw [hs]; unfold BinDict.toSysDict; rw [e2]
    refine ⟨y, sysPos (some S.sys) ++ g.posList, hy, ⟨some S.sys, _, _, du, hB.1, hC, hist⟩, by rw [(history_layout F.layout hist).2, F.size], F.small, F.rowsRead,
      F.rowsOk, fun w c hc => by rw [(history_ids F.layout hist w).1, F.left w c hc],
      fun w c hc => by rw [(history_ids F.layout hist w).2, F.right w c hc], fun w c hc hne => ?_, fun w c hc => ?_,
      fun w c hc hf => ?_, fun hf w n hn depth hlt => ?_, fun w c hc hf depth info hi => C47_user hD hload e1 e2 hbk u1 hsys hB.1 hC hc hf hi⟩
    · rw [hsame w (.inr ?_), F.cost w c hc]
      rw [F.cost w c hc]
      exact fun h => hne ⟨by omega, h⟩
    · by_cases hw : pyInt c.cost = .ok (-32768)
      · have hwl : w < src.rows.length := by
          obtain ⟨_, hr, _⟩ := hc
          exact (List.getElem?_eq_some_iff.1 hr).1
        obtain ⟨_, _, _, v, _, _, _, _, h5⟩ := hauto w (List.mem_range.2 (by rw [F.size]; exact hwl)) (by rw [F.cost w c hc]; exact hw)
        exact ⟨v, h5⟩
      · rw [hsame w (.inr (by rw [F.cost w c hc]; exact hw)), F.cost w c hc]
        exact (F.rowsOk w c hc).cost
    · have hwl : w < src.rows.length := by
        obtain ⟨_, hr, _⟩ := hc
        exact (List.getElem?_eq_some_iff.1 hr).1
      rw [history_stored F.layout hist w (by rw [F.size]; exact hwl), hag]
      exact F.infos w c hc hf
    · exact history_answers F hist hf hn depth hlt

/-- The rows of dictionary `d`. -/
def rowsAt (S : Sources) (d : Nat) : List (List PStr) :=
  match S.at? d with
  | some src => src.rows
  | none => []

theorem row_iff {S : Sources} {d w : Nat} {c : Cols} : S.Row d w c ↔ RowIs (S.rowsAt d) w c := by
  unfold Row rowsAt
  cases h : S.at? d with
  | none =>
    simp only
    constructor
    · rintro ⟨src, h1, _⟩; cases h1
    · rintro ⟨row, h1, _⟩; cases h1
  | some src =>
    simp only
    constructor
    · rintro ⟨src', h1, h2⟩; cases h1; exact h2
    · exact fun h => ⟨src, rfl, h⟩

theorem Installed.lexicons (hD : cfg.D.Ok) (h : S.Installed cfg dict) :
    ∀ d x, dict.set.lexicons[d]? = some x → LexiconOf cfg.D (S.rowsAt d) x := by
  intro d x hx
  have hd : d < S.users.length + 1 := by
    have := (List.getElem?_eq_some_iff.1 hx).1
    have := h.set.2.1
    omega
  have hsrc : S.at? d = some ((S.system :: S.users)[d]'(by simpa using hd)) := List.getElem?_eq_getElem _
  obtain ⟨y, _, F⟩ := h.facts hD hsrc
  rw [F.lexicon] at hx
  cases hx
  unfold rowsAt
  rw [hsrc]
  exact F.lexOf

theorem Installed.lexOk (hD : cfg.D.Ok) (h : S.Installed cfg dict) : (dict.set.toLex cfg.D cfg.depth).Ok :=
  set_lex_ok hD h.set.1 S.rowsAt (h.lexicons hD) _

theorem at?_lt {S : Sources} {d : Nat} {src : DictSource} (h : S.at? d = some src) : d < S.users.length + 1 := by
  have := (List.getElem?_eq_some_iff.1 h).1
  simpa using this

/-- What lookup finds, in terms of the sources. -/
theorem Installed.lookup (hD : cfg.D.Ok) (h : S.Installed cfg dict) (text : Bytes) (offset : Nat) :
    ∃ found, dict.set.lookup cfg.D text offset = .ok found ∧ ∀ v e, (v, e) ∈ found ↔ ∃ d w c, v = combinedId d w ∧ S.Row d w c ∧
      c.left ≠ [45, 49] ∧ e = offset + (headBytes c).length ∧ pySlice text offset e = headBytes c := by
  obtain ⟨found, h1, h2⟩ := C46_compiled hD h.set.1 S.rowsAt (h.lexicons hD) text offset
  refine ⟨found, h1, fun v e => (h2 v e).trans ⟨?_, ?_⟩⟩
  · rintro ⟨d, w, c, hv, _, hc, h3, h4, h5⟩
    exact ⟨d, w, c, hv, row_iff.2 hc, h3, h4, h5⟩
  · rintro ⟨d, w, c, hv, hc, h3, h4, h5⟩
    obtain ⟨src, hs, _⟩ := id hc
    exact ⟨d, w, c, hv, by rw [h.set.2.1]; exact at?_lt hs, row_iff.1 hc, h3, h4, h5⟩

theorem Installed.row_lt (hD : cfg.D.Ok) (h : S.Installed cfg dict) {d w : Nat} {c : Cols} (hc : S.Row d w c) : w < 268435456 := by
  obtain ⟨src, hs, row, hr, _⟩ := hc
  obtain ⟨x, table, F⟩ := h.facts hD hs
  have := (List.getElem?_eq_some_iff.1 hr).1
  have := F.small
  omega

/-- A word info of the set, in terms of the sources. -/
theorem Installed.info (hD : cfg.D.Ok) (h : S.Installed cfg dict) {d w : Nat} {c : Cols} (hc : S.Row d w c) (hf : c.Fits) {depth : Nat}
    {info : WordInfo} (hi : dict.set.wordInfo depth (combinedId d w : Nat) = .ok info) :
    ∃ src wi table, S.at? d = some src ∧ InfoOf (S.against d) src.rows table c wi ∧ info.surface = wi.surface ∧
      info.headWordLength = wi.headWordLength ∧ info.normalizedForm = wi.normalizedForm ∧ info.readingForm = wi.readingForm ∧
      info.dictionaryFormWordId = wi.dictionaryFormWordId ∧ info.aUnitSplit = wi.aUnitSplit.map (ownUnit d) ∧
      info.bUnitSplit = wi.bUnitSplit.map (ownUnit d) ∧ info.wordStructure = wi.wordStructure.map (ownUnit d) ∧
      info.synonymGroupIds = wi.synonymGroupIds ∧ dict.grammar.posString info.posId = .ok c.pos := by
  have hw := h.row_lt hD hc
  obtain ⟨src, hs, hc⟩ := hc
  obtain ⟨x, table, F⟩ := h.facts hD hs
  obtain ⟨wi, h1, h2, _⟩ := F.infos w c hc hf
  have hpos := F.pos w c hc hf depth info hi
  obtain ⟨wi', h3, h4⟩ := C46_info dict.set F.lexicon (by rw [pow28]; exact hw) hi
  have h5 := wordInfo_stored h1 h3
  refine ⟨src, wi, table, hs, h2, ?_⟩
  rw [h5] at h4
  rw [h4] at hpos ⊢
  exact ⟨rfl, rfl, rfl, rfl, rfl, rfl, rfl, rfl, rfl, hpos⟩

/-- The parameters of a row. -/
theorem Installed.params (hD : cfg.D.Ok) (h : S.Installed cfg dict) {d w : Nat} {c : Cols} (hc : S.Row d w c) :
    ∃ l r v, pyInt c.left = .ok l ∧ pyInt c.right = .ok r ∧ dict.set.nodeParams (combinedId d w) = .ok (l, r, v) ∧
      (¬ (d ≠ 0 ∧ pyInt c.cost = .ok (-32768)) → pyInt c.cost = .ok v) := by
  have hw := h.row_lt hD hc
  obtain ⟨src, hs, hc⟩ := hc
  obtain ⟨x, table, F⟩ := h.facts hD hs
  obtain ⟨l, hl⟩ := (F.rowsOk w c hc).left
  obtain ⟨r, hr⟩ := (F.rowsOk w c hc).right
  obtain ⟨v, hv⟩ := F.costOk w c hc
  refine ⟨l, r, v, hl, hr, (C46_parameters dict.set F.lexicon (by rw [pow28]; exact hw) (by rw [F.left w c hc, hl])
    (by rw [F.right w c hc, hr]) hv).2, fun hne => ?_⟩
  rw [← F.cost w c hc hne, hv]

theorem row_unique {S : Sources} {d w : Nat} {c c' : Cols} (h : S.Row d w c) (h' : S.Row d w c') : c = c' := by
  obtain ⟨src, h1, row, h2, h3⟩ := h
  obtain ⟨src', h1', row', h2', h3'⟩ := h'
  rw [h1] at h1'
  cases h1'
  rw [h2] at h2'
  cases h2'
  exact Sample.reads_unique h3 h3'

/-- A unit id of dictionary `d` stands for a row. -/
theorem Installed.unitRow (hD : cfg.D.Ok) (h : S.Installed cfg dict) {d : Nat} {src : DictSource} (hs : S.at? d = some src) {u : Int}
    (hu : UnitExists (S.against d) src.rows.length u) :
    ownUnit d u = (combinedId (unitWord d u).1 (unitWord d u).2 : Nat) ∧ ∃ c, S.Row (unitWord d u).1 (unitWord d u).2 c := by
  have hrow : ∀ {d : Nat} {src : DictSource} (_ : S.at? d = some src) {w : Nat}, w < src.rows.length → ∃ c, S.Row d w c := by
    intro d src hs w hw
    obtain ⟨x, table, F⟩ := h.facts hD hs
    obtain ⟨c, hc⟩ := F.rowsRead w hw
    exact ⟨c, src, hs, hc⟩
  have hsmall : 24 * S.system.rows.length < 2147483648 := by
    obtain ⟨x, table, F⟩ := h.facts hD (d := 0) (src := S.system) rfl
    exact F.small
  have hsize := (h.sysOk hD).2
  have key : 0 ≤ u ∧ (u < 268435456 → u < S.system.rows.length) ∧ (268435456 ≤ u → u % 268435456 < src.rows.length) := by
    unfold UnitExists against at hu
    rw [pow28i] at hu
    by_cases hd : d = 0
    · subst hd
      cases hs
      rw [if_pos rfl] at hu
      simp only at hu
      exact ⟨hu.1, fun _ => hu.2, fun _ => by omega⟩
    · rw [if_neg hd] at hu
      simp only at hu
      rcases hu with ⟨h1, h2, h3⟩ | ⟨h1, h2⟩
      · exact ⟨h1, fun _ => by omega, fun _ => by omega⟩
      · exact ⟨by omega, fun _ => by omega, fun _ => h2⟩
  obtain ⟨k0, k1, k2⟩ := key
  unfold ownUnit unitWord
  by_cases hlt : u < 268435456
  · rw [if_pos hlt, if_pos hlt]
    refine ⟨?_, ?_⟩
    · have : combinedId 0 u.toNat = u.toNat := by unfold combinedId; omega
      show u = (combinedId 0 u.toNat : Nat)
      rw [this]
      omega
    · exact hrow (d := 0) (src := S.system) rfl (by have := k1 hlt; omega)
  · rw [if_neg hlt, if_neg hlt]
    exact ⟨rfl, hrow hs (by have := k2 (by omega); omega)⟩

/-- The units of a word, in terms of the sources. -/
theorem Installed.units (hD : cfg.D.Ok) (h : S.Installed cfg dict) {d : Nat} {src : DictSource} (hs : S.at? d = some src) {col : PStr}
    {ids : List Int} (hm : SplitMeans (S.against d) src.rows col ids) :
    ∃ cs, S.SplitRows d col cs ∧ cs.length = ids.length ∧ ∀ (k : Nat) (u : Int) (c : Cols), ids[k]? = some u → cs[k]? = some c →
      ownUnit d u = (combinedId (unitWord d u).1 (unitWord d u).2 : Nat) ∧ S.Row (unitWord d u).1 (unitWord d u).2 c := by
  have hex := DictBuilder.SplitMeans.exists (h.againstOk hD d) hm
  have hall : ∀ ids : List Int, (∀ u ∈ ids, UnitExists (S.against d) src.rows.length u) → ∃ cs : List Cols, cs.length = ids.length ∧
      ∀ (k : Nat) (u : Int) (c : Cols), ids[k]? = some u → cs[k]? = some c →
        ownUnit d u = (combinedId (unitWord d u).1 (unitWord d u).2 : Nat) ∧ S.Row (unitWord d u).1 (unitWord d u).2 c := by
    intro ids
    induction ids with
    | nil => intro _; exact ⟨[], rfl, fun k u c h => by cases h⟩
    | cons u us ih =>
      intro hu
      obtain ⟨cs, h1, h2⟩ := ih (fun v hv => hu v (by simp [hv]))
      obtain ⟨h3, c, h4⟩ := h.unitRow hD hs (hu u (by simp))
      refine ⟨c :: cs, by simp [h1], ?_⟩
      intro k v c' hv hc'
      cases k with
      | zero => cases hv; cases hc'; exact ⟨h3, h4⟩
      | succ k => exact h2 k v c' hv hc'
  obtain ⟨cs, h1, h2⟩ := hall ids hex
  exact ⟨cs, ⟨src, ids, hs, hm, h1, fun k u c hu hc => (h2 k u c hu hc).2⟩, h1, h2⟩

end Sources
end Sudachi
