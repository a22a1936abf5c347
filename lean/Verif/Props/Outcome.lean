import Verif.Lemmas.Outcome
import Verif.Props.Unknown
import Verif.Props.Quiet
import Verif.Lemmas.SampleInstall

/-!
# C87: what a call raises
-/

namespace Sudachi
namespace Sources

variable {S : Sources} {cfg : DictConfig} {dict : Dict}

theorem Installed.front (hD : cfg.D.Ok) (h : S.Installed cfg dict) {t : InputText} {n : Nat} {entries : List (Int × Int × Int)}
    (hmat : S.Matrix n entries) {L : Lattice} (hL : L.Clean) : Front S cfg dict t n 0 (L.resize t.bytes.length) := by
  have hn0 : InRange n 0 := ⟨Int.le_refl _, by have := h.matrix_pos hD hmat; omega⟩
  obtain ⟨r1, r2, r3, r4, r5, _⟩ := resize_frame L t.bytes.length hL.room hL.size
  have hc := hL.resize t.bytes.length
  refine ⟨⟨r1, ?_⟩, ⟨_, hc.bos, by simp⟩, fun e ns hns hne => ?_, fun d _ _ h => absurd h (by omega)⟩
  · intro e ns x hns hx
    by_cases he : e = 0
    · subst he
      rw [hc.bos] at hns
      cases hns
      rw [List.mem_singleton.mp hx]
      exact hn0
    · rw [hc.empty e ns (by omega) hns] at hx
      cases hx
  · by_cases he : e = 0
    · subst he
      exact ⟨[], rfl, fun y hy => by cases hy⟩
    · exact absurd (hc.empty e ns (by omega) hns) hne

theorem buildLoop_append {conn : Conn} {lex : Lex} {plugins : List OovPlugin} {t : InputText} {bs : List Nat} :
    ∀ {as : List Nat} {L L' : Lattice}, buildLoop conn lex plugins t as L = (L', .ok ()) →
      buildLoop conn lex plugins t (as ++ bs) L = buildLoop conn lex plugins t bs L'
  | [], L, L', h => by
    cases h
    rfl
  | a :: as, L, L', h => by
    rw [List.cons_append]
    unfold buildLoop at h
    conv => lhs; unfold buildLoop
    split at h
    · cases h
    · exact buildLoop_append h
    · split at h
      · cases h
      · rename_i L1 h1
        exact buildLoop_append h

/-- The lattice is not finished. -/
theorem Installed.stuck (hD : cfg.D.Ok) (h : S.Installed cfg dict) (hp : cfg.PluginsOk) {n : Nat} {entries : List (Int × Int × Int)}
    (hmat : S.Matrix n entries) (hids : S.IdsInRange n) (hstore : ∀ p ∈ cfg.oov, p.Stores)
    (hoov : ∀ p ∈ cfg.oov, ∀ o, p.Entry o → InRange n o.leftId ∧ InRange n o.rightId)
    {ps : List PathPlugin} {mode0 : Mode} {L : Lattice} {text : PStr} {t : InputText}
    (hL : (dict.tokenizer cfg ps mode0).CleanHistory L) (hti : (dict.tokenizer cfg ps mode0).buildInput text = .ok t)
    {k : Nat} (hk : S.Stuck (loadedCost dict) cfg t k) (hfirst : ∀ j, j < k → ¬ S.Stuck (loadedCost dict) cfg t j) :
    (S.TooLarge (loadedCost dict) t k →
      (buildLattice dict.grammar.cell (dict.set.toLex cfg.D cfg.depth) cfg.oov t L).2 = .error .overflow) ∧
    (¬ S.TooLarge (loadedCost dict) t k →
      (buildLattice dict.grammar.cell (dict.set.toLex cfg.D cfg.depth) cfg.oov t L).2 = .error (if cfg.oov = [] then .attribute else .runtime)) := by
  have hpl : (dict.tokenizer cfg ps mode0).PluginsOk := ⟨hp.lower, hp.nfkc, hp.psm⟩
  have hclean := hL.clean hpl (h.lexOk hD)
  obtain ⟨bd, hv, _, hb, B, _⟩ := buildInput_built hpl hti
  have hmod : t.modified = bd.modified := B.modif
  have hvis := hk.1
  obtain ⟨hkl, hbc, hreach⟩ := id hvis
  rw [hmod] at hkl hbc hreach
  have hlt : bytePos bd.modified k < t.bytes.length := by rw [B.bytePos_wpos, B.blen]; exact wpos_lt B.enc hkl (Nat.le_refl _)
  obtain ⟨L1, e1, F⟩ := h.loop hD hv hb hmat hids hstore hoov (bytePos bd.modified k) 0 (by omega) (h.front hD hmat (t := t) hclean)
    (fun j hj hr => by
      rcases Nat.lt_or_ge j k with hjk | hjk
      · exact hfirst j hjk hj
      · have := wpos_mono bd.modified hjk
        rw [B.bytePos_wpos, B.bytePos_wpos] at hr
        omega)
  rw [Nat.zero_add] at F
  have hbow : t.canBow (bytePos bd.modified k) = .ok true := by
    rw [B.bytePos_wpos]
    exact canBow_of B hkl (by rw [B.cats]; exact hbc)
  obtain ⟨ns, n1, n2⟩ := F.ends hreach
  have hskip : skipPos t L1 (bytePos bd.modified k) = .ok false := by
    unfold skipPos Lattice.hasPreviousNode
    rw [hbow, pyGet, n1]
    cases ns with
    | nil => exact absurd rfl n2
    | cons => rfl
  have key : ∀ x, (buildPos dict.grammar.cell (dict.set.toLex cfg.D cfg.depth) cfg.oov t L1 (bytePos bd.modified k)).2 = .error x →
      (buildLattice dict.grammar.cell (dict.set.toLex cfg.D cfg.depth) cfg.oov t L).2 = .error x := by
    intro x hx
    have hloop : (buildLoop dict.grammar.cell (dict.set.toLex cfg.D cfg.depth) cfg.oov t (List.range t.bytes.length)
        (L.resize t.bytes.length)).2 = .error x := by
      have hsplit : List.range t.bytes.length = List.range' 0 (bytePos bd.modified k) ++
          bytePos bd.modified k :: List.range' (bytePos bd.modified k + 1) (t.bytes.length - bytePos bd.modified k - 1) := by
        rw [List.range_eq_range', ← List.range'_succ]
        have := List.range'_append (s := 0) (m := bytePos bd.modified k) (n := t.bytes.length - bytePos bd.modified k - 1 + 1) (step := 1)
        rw [show 0 + 1 * bytePos bd.modified k = bytePos bd.modified k by omega] at this
        rw [this]
        congr 1
        omega
      rw [hsplit, buildLoop_append e1]
      unfold buildLoop
      rw [hskip]
      dsimp only
      cases hp : buildPos dict.grammar.cell (dict.set.toLex cfg.D cfg.depth) cfg.oov t L1 (bytePos bd.modified k) with
      | mk L2 r =>
        rw [hp] at hx
        dsimp only at hx
        subst hx
        rfl
    unfold buildLattice
    cases hq : buildLoop dict.grammar.cell (dict.set.toLex cfg.D cfg.depth) cfg.oov t (List.range t.bytes.length) (L.resize t.bytes.length) with
    | mk L2 r =>
      rw [hq] at hloop
      dsimp only at hloop
      subst hloop
      rfl
  obtain ⟨p1, p2, _⟩ := h.position hD hv hb hmat hids hstore hkl hbc F.roomy
  refine ⟨fun hl => key _ (p1 hl), fun hl => key _ (p2 hl ?_)⟩
  exact hk.2.resolve_left hl

/-- What `_build_lattice` raises, a call raises. -/
theorem tokenize_build_error {T : Tokenizer} {L : Lattice} {text : PStr} {mode : Option Mode} {t : InputText} {x : Err} (hne : text ≠ [])
    (hti : T.buildInput text = .ok t) (hb : (buildLattice T.conn T.lex T.oov t L).2 = .error x) : (T.tokenize L text mode).2 = .error x := by
  unfold Tokenizer.tokenize
  rw [if_neg (by cases text with | nil => exact absurd rfl hne | cons => simp), hti]
  dsimp only
  cases hq : buildLattice T.conn T.lex T.oov t L with
  | mk L2 r =>
    rw [hq] at hb
    dsimp only at hb
    subst hb
    rfl

/-- If exceptions are dropped, the lattice without end is noticed. -/
theorem quiet_build_error {T : Tokenizer} {left right : Int → Prop} (hT : T.IdsKnown left right) (hp : T.PluginsOk) (hlex : T.lex.Ok)
    {L : Lattice} (hL : T.History L) {text : PStr} {mode : Option Mode} {t : InputText} {x : Err} (hne : text ≠ [])
    (hti : T.buildInput text = .ok t) (hb : (buildLattice T.conn T.lex T.oov t L).2 = .error x) :
    (Quiet.tokenize T L text mode).2 = .error .attribute := by
  obtain ⟨bd, _, _, _, B, _⟩ := buildInput_built hp hti
  obtain ⟨h1, _, h3⟩ := IdsKnown.buildLattice hT hlex B (hL.sane hp hlex) (IdsKnown.history hT hp hlex hL)
  unfold Quiet.tokenize
  rw [if_neg (by cases text with | nil => exact absurd rfl hne | cons => simp), hti]
  dsimp only
  rw [h1]
  rcases h3 with h3 | h3
  · rw [hb] at h3
    cases h3
  · have : T.bestPath t (buildLattice T.conn T.lex T.oov t L).1 = .error .attribute := by
      unfold Tokenizer.bestPath
      rw [h3]; rfl
    rw [this]

/-- **C87** The first character where a call cannot go on decides its exception, in every mode and with every path rewriting plugin, and
for any number of user dictionaries: an `OverflowError` if a word of a dictionary from number 8 on begins there; otherwise no word at all
begins there, and it is a `RuntimeError`, or an `AttributeError` if there is no plugin for unknown words. -/
theorem C87_stuck (hD : cfg.D.Ok) (h : S.Installed cfg dict) (hp : cfg.PluginsOk) {n : Nat} {entries : List (Int × Int × Int)}
    (hmat : S.Matrix n entries) (hids : S.IdsInRange n) (hstore : ∀ p ∈ cfg.oov, p.Stores)
    (hoov : ∀ p ∈ cfg.oov, ∀ o, p.Entry o → InRange n o.leftId ∧ InRange n o.rightId) : ∃ auto, S.AutoCosts cfg auto ∧
    ∀ (ps : List PathPlugin) (mode0 : Mode) (L : Lattice) (text : PStr) (mode : Option Mode) (t : InputText),
      (dict.tokenizer cfg ps mode0).CleanHistory L → text ≠ [] → (dict.tokenizer cfg ps mode0).buildInput text = .ok t →
      ∀ k, S.Stuck auto cfg t k → (∀ j, j < k → ¬ S.Stuck auto cfg t j) →
        (S.TooLarge auto t k → ((dict.tokenizer cfg ps mode0).tokenize L text mode).2 = .error .overflow) ∧
        (¬ S.TooLarge auto t k →
          ((dict.tokenizer cfg ps mode0).tokenize L text mode).2 = .error (if cfg.oov = [] then .attribute else .runtime)) := by
  refine ⟨loadedCost dict, h.autoCosts hD hp, ?_⟩
  intro ps mode0 L text mode t hL hne hti k hk hfirst
  obtain ⟨h1, h2⟩ := h.stuck hD hp hmat hids hstore hoov hL hti hk hfirst
  exact ⟨fun hl => tokenize_build_error hne hti (h1 hl), fun hl => tokenize_build_error hne hti (h2 hl)⟩

/-- **C87** If the lattice functions drop exceptions (C80), an `AttributeError` is raised in place of any of these. -/
theorem C87_quiet (hD : cfg.D.Ok) (h : S.Installed cfg dict) (hp : cfg.PluginsOk) {n : Nat} {entries : List (Int × Int × Int)}
    (hmat : S.Matrix n entries) (hids : S.IdsInRange n) (hstore : ∀ p ∈ cfg.oov, p.Stores)
    (hoov : ∀ p ∈ cfg.oov, ∀ o, p.Entry o → InRange n o.leftId ∧ InRange n o.rightId) : ∃ auto, S.AutoCosts cfg auto ∧
    ∀ (ps : List PathPlugin) (mode0 : Mode) (L : Lattice) (text : PStr) (mode : Option Mode) (t : InputText),
      (dict.tokenizer cfg ps mode0).CleanHistory L → text ≠ [] → (dict.tokenizer cfg ps mode0).buildInput text = .ok t →
      (∃ k, S.Stuck auto cfg t k) → (Quiet.tokenize (dict.tokenizer cfg ps mode0) L text mode).2 = .error .attribute := by
  refine ⟨loadedCost dict, h.autoCosts hD hp, ?_⟩
  intro ps mode0 L text mode t hL hne hti hk
  obtain ⟨k, hk, hfirst⟩ : ∃ k, S.Stuck (loadedCost dict) cfg t k ∧ ∀ j, j < k → ¬ S.Stuck (loadedCost dict) cfg t j := by
    obtain ⟨k, hk⟩ := hk
    induction k using Nat.strongRecOn with
    | _ k ih =>
      by_cases hj : ∃ j, j < k ∧ S.Stuck (loadedCost dict) cfg t j
      · obtain ⟨j, h1, h2⟩ := hj
        exact ih j h1 h2
      · exact ⟨k, hk, fun j h1 h2 => hj ⟨j, h1, h2⟩⟩
  obtain ⟨h1, h2⟩ := h.stuck hD hp hmat hids hstore hoov hL hti hk hfirst
  have hpl : (dict.tokenizer cfg ps mode0).PluginsOk := ⟨hp.lower, hp.nfkc, hp.psm⟩
  have hT := h.idsKnown hD hmat hids hoov ps mode0
  by_cases hl : S.TooLarge (loadedCost dict) t k
  · exact quiet_build_error hT hpl (h.lexOk hD) hL.history hne hti (h1 hl)
  · exact quiet_build_error hT hpl (h.lexOk hD) hL.history hne hti (h2 hl)

/-- **C87** A call that can go on at every character raises an `AttributeError` if the connections of every segmentation are forbidden, in
every mode and with every path rewriting plugin; otherwise it succeeds, in mode C and without such plugins. -/
theorem C87_finished (hD : cfg.D.Ok) (h : S.Installed cfg dict) (hp : cfg.PluginsOk) {n : Nat} {entries : List (Int × Int × Int)}
    (hmat : S.Matrix n entries) (hids : S.IdsInRange n) (hshort : ∀ p ∈ cfg.oov, p.Short)
    (hoov : ∀ p ∈ cfg.oov, ∀ o, p.Entry o → InRange n o.leftId ∧ InRange n o.rightId) : ∃ auto, S.AutoCosts cfg auto ∧
    ∀ (ps : List PathPlugin) (mode0 : Mode) (L : Lattice) (text : PStr) (mode : Option Mode) (t : InputText),
      (dict.tokenizer cfg ps mode0).CleanHistory L → text ≠ [] → (dict.tokenizer cfg ps mode0).buildInput text = .ok t →
      SafeLength t.bytes.length → (∀ k, ¬ S.Stuck auto cfg t k) →
        ((¬ ∃ p cost, IsPath (conn entries) (S.Candidate auto cfg.catOf cfg.oov t) t.bytes.length p cost) →
          ((dict.tokenizer cfg ps mode0).tokenize L text mode).2 = .error .attribute) ∧
        ((∃ p cost, IsPath (conn entries) (S.Candidate auto cfg.catOf cfg.oov t) t.bytes.length p cost) → ps = [] → mode.getD mode0 = .C →
          ∃ ml, ((dict.tokenizer cfg ps mode0).tokenize L text mode).2 = .ok ml) := by
  refine ⟨loadedCost dict, h.autoCosts hD hp, ?_⟩
  intro ps mode0 L text mode t hL hne hti hsafe hno
  have hpl : (dict.tokenizer cfg ps mode0).PluginsOk := ⟨hp.lower, hp.nfkc, hp.psm⟩
  have hclean := hL.clean hpl (h.lexOk hD)
  obtain ⟨bd, hv, _, hb, B, _⟩ := buildInput_built hpl hti
  have hstore := stores_of_ids (h.matrix_small hD hmat) hshort hoov
  have hn0 : InRange n 0 := ⟨Int.le_refl _, by have := h.matrix_pos hD hmat; omega⟩
  have hcongr : ∀ l r, InRange n l → InRange n r → dict.grammar.cell l r = conn entries l r := fun l r hl hr => h.cell hD hmat hl hr
  have hj : ∀ l r, InRange n l → InRange n r → ∃ c, dict.grammar.cell l r = .ok c := fun l r hl hr => ⟨_, h.cell hD hmat hl hr⟩
  obtain ⟨L0, e1, F⟩ := h.loop hD hv hb hmat hids hstore hoov t.bytes.length 0 (by omega) (h.front hD hmat (t := t) hclean)
    (fun j hj _ => hno j hj)
  obtain ⟨_, heos, _⟩ := buildLoop_spec B (h.lexOk hD) hclean e1
  obtain ⟨L1, e2⟩ := connectEos_ok hj hn0 F.roomy heos
  have hbl : buildLattice dict.grammar.cell (dict.set.toLex cfg.D cfg.depth) cfg.oov t L = (L1, .ok ()) := by
    unfold buildLattice
    rw [List.range_eq_range', e1]
    exact e2
  have hpaths : ∀ p cost, IsPath dict.grammar.cell L1.Cand t.bytes.length p cost ↔
      IsPath (conn entries) (S.Candidate (loadedCost dict) cfg.catOf cfg.oov t) t.bytes.length p cost := by
    intro p cost
    constructor
    · rintro ⟨d1, d2, d3⟩
      have hw : ∀ x ∈ p, S.Candidate (loadedCost dict) cfg.catOf cfg.oov t x := fun x hx => ((h.cand_iff hD hv hb hclean hbl x).1 (d2 x hx)).1
      refine ⟨d1, hw, ?_⟩
      rw [← pathCost_congr hn0 hcongr hn0 fun x hx => Candidate.inRange hids hoov (hw x hx)]
      exact d3
    · rintro ⟨d1, d2, d3⟩
      refine ⟨d1, h.all_cands hD hv hb hclean hbl d1 d2 (.inl rfl), ?_⟩
      rw [pathCost_congr hn0 hcongr hn0 fun x hx => Candidate.inRange hids hoov (d2 x hx)]
      exact d3
  have hC := C16_fails_iff_no_path bd hv cfg.catOf t hb dict.grammar.cell (h.connShort hD) _ (h.lexOk hD) cfg.oov hshort hsafe L L1 hclean hbl
  have hb1 : buildLattice (dict.tokenizer cfg ps mode0).conn (dict.tokenizer cfg ps mode0).lex (dict.tokenizer cfg ps mode0).oov t L =
    (L1, .ok ()) := hbl
  have hif : ¬ (text.isEmpty = true) := by cases text with | nil => exact absurd rfl hne | cons => simp
  constructor
  · intro hnone
    have hbest := hC.1.2 (fun ⟨p, cost, hpc⟩ => hnone ⟨p, cost, (hpaths p cost).1 hpc⟩)
    unfold Tokenizer.tokenize
    rw [if_neg hif, hti]
    simp only [hb1, Tokenizer.bestPath, hbest, bind, Except.bind]
  · rintro ⟨p, cost, hpc⟩ rfl hm
    obtain ⟨path, hpath⟩ := hC.2.2 ⟨p, cost, (hpaths p cost).2 hpc⟩
    have hs := hclean.sane dict.grammar.cell (dict.set.toLex cfg.D cfg.depth)
    obtain ⟨hs1, _, _⟩ := hs.buildLattice B (h.lexOk hD) hbl
    obtain ⟨L2, hcl, _⟩ := hs1.clear
    have hm' : mode.getD (dict.tokenizer cfg [] mode0).mode = .C := hm
    have hrw : rewritePath (dict.tokenizer cfg [] mode0).lex (dict.tokenizer cfg [] mode0).fuel t L1
      (dict.tokenizer cfg [] mode0).pathPlugins path = .ok path := rfl
    unfold Tokenizer.tokenize
    rw [if_neg hif, hti]
    simp only [hb1, Tokenizer.bestPath, hpath, bind, Except.bind, hrw, hcl, hm', splitPath, if_true]
    exact ⟨_, rfl⟩

end Sources
namespace Sample
open Sources

theorem user3_ok : userBuilt3.2 = .ok () := by decide +kernel

theorem urow3 : RowIs userRows3 0 userCols1 := ⟨_, rfl, (by decide +kernel : decodeCols userCols1.list = .ok userCols1.list)⟩

theorem user3_source : SourceOk userHeader userRows3 none where
  header := user_header_ok
  pos row hm c hr s hs := by
    simp only [userRows3, List.mem_cons, List.not_mem_nil, or_false] at hm
    obtain ⟨_, e0, h0⟩ := urow3
    cases e0
    subst hm
    rw [reads_unique hr h0] at hs
    simp only [Cols.pos, userCols1, List.mem_cons, List.not_mem_nil, or_false] at hs
    rcases hs with rfl | rfl | rfl | rfl | rfl | rfl <;> decide
  matrix := trivial

theorem user3_builds : DictSource.Builds SimpleTrie.trie (some sysDict) ⟨userHeader, userRows3, none⟩ userFile3 :=
  ⟨user3_source, userBuilt3.1, Prod.ext rfl user3_ok, rfl⟩

/-- The system dictionary with eight user dictionaries. -/
def eight : Sources := ⟨⟨header, rows, matrix⟩, List.replicate 8 ⟨userHeader, userRows3, none⟩, sysDict⟩

theorem eight_load : (Dict.load config systemFile (List.replicate 8 userFile3)).isOk = true := by decide +kernel

section
attribute [local irreducible] sysDict userFile3 systemFile

theorem eight_installed : ∃ dict, eight.Installed config dict := by
  have h := eight_load
  cases hl : Dict.load config systemFile (List.replicate 8 userFile3) with
  | error e => rw [hl] at h; cases h
  | ok dict =>
    obtain ⟨ds, hd, hs⟩ := system_reads
    refine ⟨dict, systemFile, List.replicate 8 userFile3, ds, 9, system_builds, hd, hs, by simp [eight], ?_, hl⟩
    intro k src b h1 h2
    have e1 := List.eq_of_mem_replicate (List.mem_of_getElem? h1)
    have e2 := List.eq_of_mem_replicate (List.mem_of_getElem? h2)
    rw [e1, e2]
    exact user3_builds

end

theorem eight_rows {d w : Nat} {c : Cols} (h : eight.Row d w c) : c = cols0 ∨ c = cols1 ∨ c = userCols1 := by
  have key : ∀ {rs : List (List PStr)} {w : Nat} {c c' : Cols}, RowIs rs w c → RowIs rs w c' → c = c' := by
    rintro rs w c c' ⟨r, h1, h2⟩ ⟨r', h3, h4⟩
    rw [h1] at h3
    cases h3
    exact reads_unique h2 h4
  obtain ⟨src, h1, h2⟩ := h
  match d with
  | 0 =>
    cases h1
    match w with
    | 0 => exact .inl (key h2 row0)
    | 1 => exact .inr (.inl (key h2 row1))
    | w + 2 => obtain ⟨_, h3, _⟩ := h2; cases h3
  | d + 1 =>
    have e1 := List.eq_of_mem_replicate (List.mem_of_getElem? (show (List.replicate 8 _)[d]? = some src from h1))
    subst e1
    match w with
    | 0 => exact .inr (.inr (key h2 urow3))
    | w + 1 => obtain ⟨_, h3, _⟩ := h2; cases h3

theorem eight_ids : eight.IdsInRange 2 := by
  have key : ∀ {l r : PStr} {l' r' a b : Int}, pyInt l = .ok a → pyInt r = .ok b → (0 ≤ a ∧ a < 2) ∧ 0 ≤ b ∧ b < 2 →
      pyInt l = .ok l' → pyInt r = .ok r' → InRange 2 l' ∧ InRange 2 r' := by
    intro l r l' r' a b h1 h2 h3 h4 h5
    rw [h1] at h4
    rw [h2] at h5
    cases h4
    cases h5
    exact h3
  intro d w c h _ l r hl hr
  rcases eight_rows h with rfl | rfl | rfl
  · exact key (a := 1) (b := 1) (by decide +kernel) (by decide +kernel) (by decide) hl hr
  · exact key (a := 0) (b := 1) (by decide +kernel) (by decide +kernel) (by decide) hl hr
  · exact key (a := 1) (b := 1) (by decide +kernel) (by decide +kernel) (by decide) hl hr

theorem config_stores : ∀ p ∈ config.oov, p.Stores := by
  intro p hp
  rw [List.mem_singleton.1 hp]
  simp [OovPlugin.Stores, OovEntry.Stores, CInt]

end Sample

/-- With eight user dictionaries the text `b`, a word of the eighth one, makes a call fail. -/
example : ∃ dict, Sample.eight.Installed Sample.config dict ∧
    ((dict.tokenizer Sample.config [] .C).tokenize Lattice.init [98] none).2 = .error .overflow := by
  obtain ⟨dict, h⟩ := Sample.eight_installed
  refine ⟨dict, h, ?_⟩
  obtain ⟨auto, _, hall⟩ := Sources.C87_stuck SimpleTrie.ok h Sample.plugins_ok (n := 2) (entries := Sample.entries)
    ⟨_, _, rfl, by decide +kernel, by decide +kernel⟩ Sample.eight_ids Sample.config_stores Sample.config_complete.oovIds
  have ht : ∃ t, (dict.tokenizer Sample.config [] .C).buildInput [98] = .ok t ∧ t.bytes = [98] ∧ t.modified = [98] ∧ t.canBow 0 = .ok true :=
    ⟨_, rfl, rfl, rfl, rfl⟩
  obtain ⟨t, ht, h1, h2, h3⟩ := ht
  have hlarge : Sample.eight.TooLarge auto t 0 := by
    refine ⟨⟨0, 1, 1, 1, 4, 2147483648, false, none, true⟩, ⟨rfl, rfl, rfl, 8, 0, Sample.userCols1, ⟨_, rfl, Sample.urow3⟩, by decide, rfl,
      by decide +kernel, by decide +kernel, ?_, by decide, by rw [h1]; decide, h3, .inl (by rw [h1]; rfl)⟩, by rw [h2]; rfl, Int.le_refl _⟩
    unfold Sources.Cost
    rw [if_neg]
    · decide +kernel
    · rintro ⟨_, h⟩
      revert h
      decide +kernel
  refine (hall [] .C Lattice.init [98] none t .fresh (by decide) ht 0 ⟨⟨by rw [h2]; decide, .inl rfl, [], ?_, by simp⟩, .inl hlarge⟩
    (by omega)).1 hlarge
  rw [h2]
  rfl

namespace Sample
open Sources

/-- The system dictionary alone, with a plugin for unknown words that knows no category. -/
def systemOnly : Sources := ⟨⟨header, rows, matrix⟩, [], sysDict⟩
def bare : DictConfig := { config with oov := [.mecab [] []] }

theorem system_only_load : (Dict.load bare systemFile []).isOk = true := by decide +kernel

section
attribute [local irreducible] sysDict systemFile

theorem system_only_installed : ∃ dict, systemOnly.Installed bare dict := by
  have h := system_only_load
  cases hl : Dict.load bare systemFile [] with
  | error e => rw [hl] at h; cases h
  | ok dict =>
    obtain ⟨ds, hd, hs⟩ := system_reads
    refine ⟨dict, systemFile, [], ds, 9, system_builds, hd, hs, rfl, ?_, hl⟩
    intro k src b h1 _
    cases h1

end

theorem system_only_rows {d w : Nat} {c : Cols} (h : systemOnly.Row d w c) : c = cols0 ∨ c = cols1 := by
  have key : ∀ {rs : List (List PStr)} {w : Nat} {c c' : Cols}, RowIs rs w c → RowIs rs w c' → c = c' := by
    rintro rs w c c' ⟨r, h1, h2⟩ ⟨r', h3, h4⟩
    rw [h1] at h3
    cases h3
    exact reads_unique h2 h4
  obtain ⟨src, h1, h2⟩ := h
  match d with
  | 0 =>
    cases h1
    match w with
    | 0 => exact .inl (key h2 row0)
    | 1 => exact .inr (key h2 row1)
    | w + 2 => obtain ⟨_, h3, _⟩ := h2; cases h3
  | d + 1 => cases h1

theorem system_only_ids : systemOnly.IdsInRange 2 := by
  have key : ∀ {l r : PStr} {l' r' a b : Int}, pyInt l = .ok a → pyInt r = .ok b → (0 ≤ a ∧ a < 2) ∧ 0 ≤ b ∧ b < 2 →
      pyInt l = .ok l' → pyInt r = .ok r' → InRange 2 l' ∧ InRange 2 r' := by
    intro l r l' r' a b h1 h2 h3 h4 h5
    rw [h1] at h4
    rw [h2] at h5
    cases h4
    cases h5
    exact h3
  intro d w c h _ l r hl hr
  rcases system_only_rows h with rfl | rfl
  · exact key (a := 1) (b := 1) (by decide +kernel) (by decide +kernel) (by decide) hl hr
  · exact key (a := 0) (b := 1) (by decide +kernel) (by decide +kernel) (by decide) hl hr

theorem bare_entries {p : OovPlugin} (hp : p ∈ bare.oov) {o : OovEntry} : ¬ p.Entry o := by
  rw [List.mem_singleton.1 hp]
  rintro ⟨_, h⟩
  cases h

end Sample

/-- With the plugin that knows no category the text `x`, which is no word, makes a call fail. -/
example : ∃ dict, Sample.systemOnly.Installed Sample.bare dict ∧
    ((dict.tokenizer Sample.bare [] .C).tokenize Lattice.init [120] none).2 = .error .runtime := by
  obtain ⟨dict, h⟩ := Sample.system_only_installed
  refine ⟨dict, h, ?_⟩
  obtain ⟨auto, _, hall⟩ := Sources.C87_stuck SimpleTrie.ok h ⟨Sample.plugins_ok.lower, Sample.plugins_ok.nfkc, Sample.plugins_ok.psm⟩ (n := 2)
    (entries := Sample.entries) ⟨_, _, rfl, by decide +kernel, by decide +kernel⟩ Sample.system_only_ids
    (by intro p hp; rw [List.mem_singleton.1 hp]; rintro _ ⟨⟩) (fun p hp o ho => absurd ho (Sample.bare_entries hp))
  have ht : ∃ t, (dict.tokenizer Sample.bare [] .C).buildInput [120] = .ok t ∧ t.bytes = [120] ∧ t.modified = [120] := ⟨_, rfl, rfl, rfl⟩
  obtain ⟨t, ht, h1, h2⟩ := ht
  have hword : ∀ x, ¬ (Sample.systemOnly.Word auto t x ∧ x.begin_ = bytePos t.modified 0) := by
    rintro x ⟨⟨_, _, _, d, w, c, hc, _, _, _, _, _, he, hs, _⟩, hx⟩
    rw [h2] at hx
    have hx : x.begin_ = 0 := hx
    rw [he, hx, h1] at hs
    rcases Sample.system_only_rows hc with rfl | rfl <;> revert hs <;> decide
  have hlarge : ¬ Sample.systemOnly.TooLarge auto t 0 := fun ⟨x, hx, hb, _⟩ => hword x ⟨hx, hb⟩
  refine (hall [] .C Lattice.init [120] none t .fresh (by decide) ht 0 ⟨⟨by rw [h2]; decide, .inl rfl, [], by rw [h2]; rfl, by simp⟩, .inr ?_⟩
    (by omega)).2 hlarge
  rintro ⟨x, hx | ⟨k, _, hx⟩, hb⟩
  · exact hword x ⟨hx, hb⟩
  · obtain ⟨c, _, hx⟩ := hx
    have hno : ∀ other x, ¬ OovPlugin.Makes t.modified Sample.bare.catOf k other (.mecab [] []) x := by
      intro other x hm
      simp [OovPlugin.Makes] at hm
    have hno' : ∀ other x, ¬ MadeBy t.modified Sample.bare.catOf k other Sample.bare.oov x := by
      rintro other x (h | h)
      · exact hno _ _ h
      · exact h
    rcases hx with ⟨_, hx⟩ | ⟨_, _, p, hp, hx⟩
    · exact hno' _ _ hx
    · cases hp
      exact hno _ _ hx

/-- On the sample installation no character of the text `aabx` stops a call. -/
example {dict : Dict} (h : Sample.sources.Installed Sample.config dict) {t : InputText}
    (ht : (dict.tokenizer Sample.config [] .C).buildInput [97, 97, 98, 120] = .ok t) : ∃ auto, Sample.sources.AutoCosts Sample.config auto ∧
    ∀ k, ¬ Sample.sources.Stuck auto Sample.config t k := by
  obtain ⟨auto, h0, hall⟩ := Sources.C87_stuck SimpleTrie.ok h Sample.plugins_ok Sample.matrix_two Sample.ids_in_range
    Sample.config_stores Sample.config_complete.oovIds
  obtain ⟨L', ml, hml⟩ := Sample.tokenizes h .C
  refine ⟨auto, h0, ?_⟩
  intro k
  induction k using Nat.strongRecOn with
  | _ k ih =>
    intro hk
    have hr := hall [] .C Lattice.init _ (some .C) t .fresh (by decide) ht k hk ih
    rw [hml] at hr
    by_cases hl : Sample.sources.TooLarge auto t k
    · cases hr.1 hl
    · cases hr.2 hl

end Sudachi
