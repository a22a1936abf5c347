/-
The table of parts of speech, and the path before the plugins.
-/
import Verif.Lemmas.Output
import Verif.Props.Unknown
namespace Sudachi
namespace Sources
variable {S : Sources} {cfg : DictConfig} {dict : Dict}

theorem readUsers_pos {cfg : DictConfig} : ∀ {files : List Bytes} {d dict : Dict}, d.readUsers cfg files = .ok dict →
    ∃ dus, Each (fun b du => fromUserDictionary b = .ok du) files dus ∧
      dict.grammar.posList = d.grammar.posList ++ (dus.map BinDict.posList).flatten
  | [], d, dict, h => by cases h; exact ⟨[], .nil, by simp⟩
  | b :: files, d, dict, h => by
    unfold Dict.readUsers at h
    obtain ⟨d1, h1, h⟩ := bind_ok h
    obtain ⟨_, du, _, u1, _, _, u4⟩ := readUser_ok h1
    obtain ⟨dus, h2, h3⟩ := readUsers_pos h
    refine ⟨du :: dus, .cons u1 h2, ?_⟩
    rw [h3, u4]
    simp

theorem rowsRead_of {rows : List (List PStr)} (h : ∀ w, w < rows.length → ∃ c, RowIs rows w c) : ∃ cs, RowsRead rows cs := by
  obtain ⟨cs, hcs⟩ := each_of_exists (R := fun w c => RowIs rows w c) (l := List.range rows.length) fun w hw => h w (List.mem_range.1 hw)
  refine ⟨cs, by rw [← hcs.length, List.length_range], fun w c hw => ?_⟩
  have hlt : w < (List.range rows.length).length := by rw [hcs.length]; exact (List.getElem?_eq_some_iff.1 hw).1
  obtain ⟨c', h1, h2⟩ := hcs.get (List.getElem?_eq_getElem hlt)
  rw [hw] at h1
  cases h1
  rw [List.getElem_range] at h2
  exact h2

/-- The parts of speech of an installation, by number. -/
theorem Installed.posTable (hD : cfg.D.Ok) (h : S.Installed cfg dict) : S.PosTable dict.grammar.posList := by
  obtain ⟨file, files, ds, depth, hb, hr, hs, hlen, husers, hload⟩ := h
  have hC0 := hb.compiled hr
  obtain ⟨g0, F0⟩ := compiled_facts hD hb.1 hC0
  obtain ⟨cs, hcs⟩ := rowsRead_of F0.rowsRead
  have hown := compiled_pos hD hb.1 hC0 F0.grammar hcs
  have hsys : sysPos (some S.sys) = g0.posList := by rw [hs]; show (ds.toSysDict cfg.D depth).posList = _; unfold BinDict.toSysDict; rw [F0.grammar]
  unfold Dict.load at hload
  obtain ⟨d0, hd0, hload⟩ := bind_ok hload
  split at hload
  · cases hload
  unfold Dict.readSystem at hd0
  obtain ⟨ds', hds, hd0⟩ := bind_ok hd0
  have := system_read hds
  rw [hr] at this
  cases this
  rw [F0.grammar] at hd0
  cases hd0
  obtain ⟨dus, h1, h2⟩ := readUsers_pos hload
  have hE : Each (fun src b => DictSource.Builds cfg.D (some S.sys) src b) S.users files :=
    each_of_get hlen.symm fun i a b ha hb => husers i a b ha hb
  have key : ∀ {srcs : List DictSource} {files : List Bytes} {dus : List BinDict},
      Each (fun src b => DictSource.Builds cfg.D (some S.sys) src b) srcs files → Each (fun b du => fromUserDictionary b = .ok du) files dus →
      ∃ css, Each (fun (u : DictSource) cs => RowsRead u.rows cs) srcs css ∧
        dus.map BinDict.posList = css.map fun cs => ownPos g0.posList [] (cs.map Cols.pos) := by
    intro srcs files dus hE
    induction hE generalizing dus with
    | nil => intro hF; cases hF; exact ⟨[], .nil, rfl⟩
    | cons h1 _ ih =>
      intro hF
      cases hF with
      | cons h2 h3 =>
        obtain ⟨css, h4, h5⟩ := ih h3
        have hC := h1.compiled (user_read h2)
        obtain ⟨g, F⟩ := compiled_facts hD h1.1 hC
        obtain ⟨cs, hcs⟩ := rowsRead_of F.rowsRead
        refine ⟨cs :: css, .cons hcs h4, ?_⟩
        rw [List.map_cons, List.map_cons, h5]
        refine congrArg (· :: _) ?_
        unfold BinDict.posList
        rw [F.grammar, ← hsys]
        exact compiled_pos hD h1.1 hC F.grammar hcs
  obtain ⟨css, k1, k2⟩ := key hE h1
  refine ⟨cs, css, g0.posList, hcs, k1, ?_, ?_⟩
  · rw [hown]; rfl
  · rw [h2, k2]

/-- The pieces of a result, up to which nodes they are of. -/
theorem Installed.analysed (hD : cfg.D.Ok) (h : S.Installed cfg dict) (hp : cfg.PluginsOk) {n : Nat} {entries : List (Int × Int × Int)}
    (hmat : S.Matrix n entries) (hids : S.IdsInRange n) (hshort : ∀ p ∈ cfg.oov, p.Short)
    (hoov : ∀ p ∈ cfg.oov, ∀ o, p.Entry o → InRange n o.leftId ∧ InRange n o.rightId) (hf : S.Fit) (hch : S.ChainsEnd cfg.depth)
    {ps : List PathPlugin} {mode0 : Mode} (hpos : (dict.tokenizer cfg ps mode0).PosOk dict.grammar) {L L' : Lattice} {text : PStr}
    {mode : Option Mode} {ml : MorphemeList} (hL : (dict.tokenizer cfg ps mode0).CleanHistory L) (hne : text ≠ [])
    (ht : (dict.tokenizer cfg ps mode0).tokenize L text mode = (L', .ok ml)) :
    ∃ t, (dict.tokenizer cfg ps mode0).buildInput text = .ok t ∧ ml.input = some t ∧ t.original = text ∧ (SafeLength t.bytes.length →
      ∃ pieces, S.Analysed (loadedCost dict) cfg dict.grammar.posList entries ps (mode.getD mode0) t pieces ∧
        Each (S.Reads dict.grammar (dict.set.toLex cfg.D cfg.depth)) ml.path pieces) := by
  have hpl : (dict.tokenizer cfg ps mode0).PluginsOk := ⟨hp.lower, hp.nfkc, hp.psm⟩
  have hclean := hL.clean hpl (h.lexOk hD)
  rcases tokenize_run hpl ht with ⟨h0, _⟩ | ⟨_, ⟨bd, t, L1, path0, path, path', hti, hv, ho, hne', B, hb, hp0, hrw, hcl, hsp, rfl⟩⟩
  · exact absurd h0 hne
  have horig : t.original = text := by rw [B.orig, ho]
  obtain ⟨bd, hv, _, hb', B, _⟩ := buildInput_built hpl hti
  refine ⟨t, hti, rfl, horig, fun hsafe => ?_⟩
  have hn0 : InRange n 0 := ⟨Int.le_refl _, by have := h.matrix_pos hD hmat; omega⟩
  obtain ⟨cost, ⟨c1, c2, c3⟩, c4⟩ := C14_cheapest_path bd hv cfg.catOf t hb' dict.grammar.cell (h.connShort hD) _ (h.lexOk hD) cfg.oov hshort
    hsafe L L1 hclean hb path0 hp0
  have hcongr : ∀ l r, InRange n l → InRange n r → dict.grammar.cell l r = conn entries l r := fun l r hl hr => h.cell hD hmat hl hr
  have hcand : ∀ x, L1.Cand x → S.Candidate (loadedCost dict) cfg.catOf cfg.oov t x := fun x hx => ((h.cand_iff hD hv hb' hclean hb x).1 hx).1
  have hwords : ∀ x ∈ path0, S.Candidate (loadedCost dict) cfg.catOf cfg.oov t x := fun x hx => hcand x (c2 x hx)
  have hread : ∀ x, L1.Cand x → ∃ p, S.PieceOf dict.grammar.posList t.modified x p ∧
      S.Reads dict.grammar (dict.set.toLex cfg.D cfg.depth) x p := fun x hx => h.piece hD hf hch hpos.oov (hcand x hx)
  have hreach : ∀ x, L1.Cand x ↔ S.ReachedWord (loadedCost dict) cfg t x := by
    intro x
    rw [h.lattice_iff hD hp hclean hti hb x]
    exact ⟨fun ⟨b, h1, h2, h3⟩ => ⟨h3, b, h1, h2⟩, fun ⟨h3, b, h1, h2⟩ => ⟨b, h1, h2, h3⟩⟩
  obtain ⟨whole, hwhole⟩ := each_of_exists (l := path0) fun x hx => hread x (c2 x hx)
  obtain ⟨joined, hj1, hj2⟩ := Reads.joinedBy (auto := loadedCost dict) (cfg := cfg) (buildLattice_endsRight hclean hb) hreach hread
    hpos.katakana hpos.numeric hrw c1 (hwhole.imp fun _ _ h => h.2)
  obtain ⟨parts, hd1, hd2⟩ := h.dividesAll hD hf hch hj2 hsp
  refine ⟨parts.flatten, ⟨path0, cost, whole, joined, parts, ⟨c1, hwords, ?_⟩, ?_, hwhole.imp fun _ _ h => h.1, hj1, hd1, rfl⟩, hd2⟩
  · rw [← pathCost_congr hn0 hcongr hn0 fun x hx => Candidate.inRange hids hoov (hwords x hx)]
    exact c3
  · rintro p' cost' ⟨d1, d2, d3⟩
    refine c4 p' cost' ⟨d1, h.all_cands hD hv hb' hclean hb d1 d2 (.inl rfl), ?_⟩
    rw [pathCost_congr hn0 hcongr hn0 fun x hx => Candidate.inRange hids hoov (d2 x hx)]
    exact d3

/-- A printed line says what the piece tells. -/
theorem Reads.line {g : Grammar} {lex : Lex} {ml : MorphemeList} {t : InputText} (hi : ml.input = some t) {i : Nat} {x : NodeData} {p : Piece}
    (hx : ml.path[i]? = some x) (h : S.Reads g lex x p) {all : Bool} {line : PStr} (hl : LineOf g lex ml all i line) :
    ∃ b e, t.getOriginalIndex p.begin_ = .ok b ∧ t.getOriginalIndex p.end_ = .ok e ∧ line = p.told.line all ((t.original.take e).drop b) := by
  have hx' : pyGet ml.path i = .ok x := by unfold pyGet; rw [hx]
  have ht : ml.inputText = .ok t := by unfold MorphemeList.inputText; rw [hi]
  have hsurf : ∀ s, ml.getSurface i = .ok s → ∃ b e, t.getOriginalIndex p.begin_ = .ok b ∧ t.getOriginalIndex p.end_ = .ok e ∧
      s = (t.original.take e).drop b := by
    intro s hs
    unfold MorphemeList.getSurface at hs
    obtain ⟨b, hb, hs⟩ := bind_ok hs
    obtain ⟨e, he, hs⟩ := bind_ok hs
    rw [ht] at hs
    cases hs
    unfold MorphemeList.getBegin at hb
    unfold MorphemeList.getEnd at he
    rw [ht, hx'] at hb he
    exact ⟨b, e, by rw [h.begin_]; exact hb, by rw [h.end_]; exact he, rfl⟩
  obtain ⟨wi, k1, k2, k3, k4, k5, k6, k7, _⟩ := h.info
  have hwi : ml.getWordInfo lex i = .ok wi := by unfold MorphemeList.getWordInfo; rw [hx']; exact k1
  have hd : ml.dictionaryId i = .ok p.told.dictionary := by unfold MorphemeList.dictionaryId; rw [hx', h.dictionary]; rfl
  have ho : ml.isOov i = .ok p.told.unknown := by unfold MorphemeList.isOov; rw [hx', h.unknown]; rfl
  unfold LineOf at hl
  cases all with
  | false =>
    obtain ⟨s, wi', pos, l1, l2, l3, rfl⟩ := hl
    rw [hwi] at l2
    cases l2
    rw [k2] at l3
    cases l3
    obtain ⟨b, e, h1, h2, rfl⟩ := hsurf s l1
    refine ⟨b, e, h1, h2, ?_⟩
    unfold Told.line
    rw [k4]
    rfl
  | true =>
    obtain ⟨s, wi', pos, d, o, l1, l2, l3, l4, l5, rfl⟩ := hl
    rw [hwi] at l2
    cases l2
    rw [k2] at l3
    cases l3
    rw [hd] at l4
    cases l4
    rw [ho] at l5
    cases l5
    obtain ⟨b, e, h1, h2, rfl⟩ := hsurf s l1
    refine ⟨b, e, h1, h2, ?_⟩
    unfold Told.line
    rw [k4, k5, k6, k7]
    rfl

end Sources
end Sudachi
