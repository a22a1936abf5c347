/-
C89: which exception ends a build that fails, and what it leaves behind.
-/
import Verif.Lemmas.BuildRaises4
import Verif.Props.Buildable
namespace Sudachi
open DictBuilder

variable {D : Darts} {sys : Option SysDict} {src : DictSource} {cs : List Cols} {T : Nat} {e : Err}

theorem passes_iff_not {l : List Check} : Passes l ↔ ∀ e, ¬ Fails l e :=
  ⟨fun h _ => not_fails h, fun h => (passes_or_fails l).resolve_right fun ⟨e, he⟩ => h e he⟩

/-- **C89** The header: written exactly if none of its checks fails; else the exception is that of the first that does. -/
theorem C89_header (h : Header) : h.toBytes = .error e ↔ Fails h.checks e := header_exact e

/-- **C89** The same of the definition of the connection costs, whatever is in it. -/
theorem C89_matrix (header : PStr) (lines : List PStr) : convertMatrix header lines = .error e ↔ Fails (matrixChecks (some (header, lines))) e :=
  convertMatrix_exact e

/-- **C89** The same of the rows, whatever is in them, for any dictionary under construction. -/
theorem C89_rows (db : DictBuilder) (rows : List (List PStr)) : db.addRows rows = .error e ↔ Fails (rows.flatMap rowChecks) e :=
  addRows_exact db e

/-- **C89** The header comes first, then all the rows are read: an exception in either ends the build, and leaves an empty file or
one with nothing but the header. -/
theorem C89_rows_first (db : DictBuilder) (header : Header) (rows : List (List PStr)) (matrix : Option (PStr × List PStr))
    (h : Fails (header.checks ++ rows.flatMap rowChecks) e) : (db.build D header rows matrix).2 = .error e ∧
      ((Fails header.checks e ∧ (runOps (db.build D header rows matrix).1).data = []) ∨
        header.toBytes = .ok (runOps (db.build D header rows matrix).1).data) := by
  cases hh : header.toBytes with
  | error x =>
    have hx := (C89_header header).1 hh
    have he : x = e := by
      rcases fails_append.1 h with h | ⟨h, _⟩
      · have := (C89_header header).2 h
        rw [hh] at this
        exact Except.error.inj this
      · exact (not_fails h hx).elim
    subst he
    have hb : db.build D header rows matrix = ([], .error x) := by
      unfold build
      rw [withRes_error hh, andThen_stops rfl]
    rw [hb]
    exact ⟨rfl, .inl ⟨hx, rfl⟩⟩
  | ok hb =>
    have hp := (header_exact (h := header)).passes_iff.1 ⟨hb, hh⟩
    have hr : Fails (rows.flatMap rowChecks) e := by
      rcases fails_append.1 h with h | ⟨_, h⟩
      · exact (not_fails hp h).elim
      · exact h
    have hr := (C89_rows db rows).2 hr
    have hw : Out.withRes header.toBytes Out.write = ([.write hb], .ok ()) := withRes_total hh rfl
    have hb2 : db.build D header rows matrix = ([.write hb] ++ [], .error e) := by
      unfold build
      rw [andThen_ops hw, withRes_error hr]
    rw [hb2]
    refine ⟨rfl, .inr ?_⟩
    have hd := data_writes [hb]
    rw [List.map_cons, List.map_nil] at hd
    rw [List.append_nil, hd]
    simp

/-- **C89** The rows are read without exception exactly if all of them have the columns of a row that is accepted (C44). -/
theorem C89_accepted (rows : List (List PStr)) : (∀ e, ¬ Fails (rows.flatMap rowChecks) e) ↔ ∃ cs, RowsRead rows cs ∧ ∀ c ∈ cs, c.Ok := by
  rw [← passes_iff_not, ← (addRows_exact (init none)).passes_iff]
  constructor
  · rintro ⟨db, h⟩
    obtain ⟨cs, hc⟩ := rows_readable h
    refine ⟨cs, hc, fun c hcm => ?_⟩
    obtain ⟨w, hw⟩ := List.getElem?_of_mem hcm
    exact ((rows_list h hc).2 w c hw).1
  · rintro ⟨cs, hc, hok⟩
    exact addRows_accepts _ hc hok

/-- **C89** With rows that are accepted, a source that fits the file format and is not too large, the exception that ends the build is
that of the first check that fails: header, parts of speech, connection costs, words of a headword, parameters of the rows; then the word
infos row by row: surface, part of speech, normalised form, dictionary form, reading, the references of the three splits, synonym
groups.  If none fails the build succeeds. -/
theorem C89_raises (hS : SourceOk src.header src.rows src.matrix) (hc : RowsRead src.rows cs) (hok : ∀ c ∈ cs, c.Ok) (hroom : src.HasRoom D sys cs T)
    (hk : ∀ s, sys = some s → s.KnowsPos ∧ s.Answers) :
    ((DictBuilder.init sys).build D src.header src.rows src.matrix).2 = .error e ↔ Fails (src.frontChecks sys cs ++ src.infoChecks sys cs) e :=
  build_exact hS hc hok hroom hk e

/-- **C89** What it needs to know about the system dictionary holds of every compiled one whose dictionary-form ids lead to an end. -/
theorem C89_system {header : Header} {rows : List (List PStr)} {matrix : Option (PStr × List PStr)} {d : BinDict} (hD : D.Ok)
    (hS : SourceOk header rows matrix) (hC : Compiled D none header rows matrix d) (hf : AllFit rows) (depth : Nat)
    (hch : ∀ w, w < rows.length → ∃ n, ChainEnds rows w n ∧ n < depth) : (d.toSysDict D depth).Answers := by
  obtain ⟨g, F⟩ := compiled_facts hD hS hC
  have hfirst : ∀ h p r (l : List Nat), (∀ x ∈ l, x < rows.length) → ∃ v, d.lexicon.firstMatch depth h p r l = .ok v := by
    intro h p r l
    induction l with
    | nil => intro _; exact ⟨none, rfl⟩
    | cons x l ih =>
      intro hl
      obtain ⟨n, hn, hnd⟩ := hch x (hl x (by simp))
      obtain ⟨info, hi⟩ := (C41_answers hD hS hC hf hn depth).1 hnd
      obtain ⟨v, hv⟩ := ih fun y hy => hl y (by simp [hy])
      unfold DALex.firstMatch DALex.compareWordId
      rw [hi]
      simp only [bind, Except.bind, pure, Except.pure]
      split
      · exact ⟨_, rfl⟩
      · exact ⟨v, hv⟩
  intro h p r
  constructor
  · intro hcl
    obtain ⟨found, hf1, hf2, _⟩ := C42_lookup hD hS hC (h.flatMap utf8Cp) 0
    obtain ⟨v1, h1⟩ := hfirst h p r (found.map (·.1)) (by
      intro x hx
      obtain ⟨⟨x', e⟩, hx', rfl⟩ := List.mem_map.1 hx
      obtain ⟨c, ⟨row, hrow, _⟩, _⟩ := (hf2 x' e).1 hx'
      exact (List.getElem?_eq_some_iff.1 hrow).1)
    obtain ⟨v2, h2⟩ := hfirst h p r (List.range d.lexicon.size) (by
      intro x hx
      have := List.mem_range.1 hx
      rw [F.size] at this
      exact this)
    have hex : ∃ w, d.lexicon.getWordId D depth h p r = .ok w := by
      unfold DALex.getWordId
      rw [encodeUtf8_eq hcl, ok_bind, hf1, ok_bind, h1, ok_bind]
      cases v1 with
      | some w => exact ⟨_, rfl⟩
      | none =>
        dsimp only
        rw [h2, ok_bind]
        cases v2 with
        | some w => exact ⟨_, rfl⟩
        | none => exact ⟨_, rfl⟩
    obtain ⟨w, hw⟩ := hex
    refine ⟨w, hw, ?_⟩
    have hlt : w < d.lexicon.size := (C34_system hD hS hC depth).getWordId h p r w hw
    have := F.size
    have := F.small
    omega
  · intro hcl
    show d.lexicon.getWordId D depth h p r = _
    have : encodeUtf8 h = .error .unicode := by
      unfold encodeUtf8
      rw [if_neg (fun h' => hcl (all_clean.1 h'))]
    unfold DALex.getWordId
    rw [this]
    rfl

/-- **C89** What a build leaves: whether or not it raises an exception, its file loads exactly if nothing up to the words of a headword
fails; then it has the header, parts of speech and connection costs of the source.  So the file of a build that fails at a parameter or
a word info loads without any error. -/
theorem C89_left (hD : D.Ok) (hS : SourceOk src.header src.rows src.matrix) (hc : RowsRead src.rows cs) (hok : ∀ c ∈ cs, c.Ok)
    (hroom : src.HasRoom D sys cs T) :
    ((∃ d, readDictionary (runOps ((DictBuilder.init sys).build D src.header src.rows src.matrix).1).data = .ok d) ↔
      ∀ e, ¬ Fails (src.tableChecks sys cs) e) ∧
    ∀ d, readDictionary (runOps ((DictBuilder.init sys).build D src.header src.rows src.matrix).1).data = .ok d → d.header = src.header ∧
      ∃ g, d.grammar = some g ∧ g.posList = ownPos (sysPos sys) [] (cs.map Cols.pos) ∧ MatrixSays g src.matrix := by
  rw [← passes_iff_not]
  exact left_iff hD hS hc hok hroom

/-- **C89** If it is a word info that fails, the dictionary that loads has all the words with their parameters, and all of them have the
same surface, part of speech, reading and normalised form: their word infos are read from the first byte of the file. -/
theorem C89_garbage (hD : D.Ok) (hS : SourceOk src.header src.rows src.matrix) (hc : RowsRead src.rows cs) (hok : ∀ c ∈ cs, c.Ok)
    (hroom : src.HasRoom D sys cs T) (hk : ∀ s, sys = some s → s.KnowsPos ∧ s.Answers) (hfront : ∀ e, ¬ Fails (src.frontChecks sys cs) e)
    (hinfo : Fails (src.infoChecks sys cs) e) :
    ((DictBuilder.init sys).build D src.header src.rows src.matrix).2 = .error e ∧
    ∃ d, readDictionary (runOps ((DictBuilder.init sys).build D src.header src.rows src.matrix).1).data = .ok d ∧ d.lexicon.size = src.rows.length ∧
      (∀ (w : Nat) (c : Cols), cs[w]? = some c → d.lexicon.leftId w = pyInt c.left ∧ d.lexicon.rightId w = pyInt c.right ∧ d.lexicon.cost w = pyInt c.cost ∧
        d.lexicon.infoOffset w = 0) ∧
      ∀ w w' depth info info', w < src.rows.length → w' < src.rows.length → d.lexicon.wordInfo depth w = .ok info →
        d.lexicon.wordInfo depth w' = .ok info' → info.surface = info'.surface ∧ info.posId = info'.posId ∧
          info.readingForm = info'.readingForm ∧ info.normalizedForm = info'.normalizedForm := by
  have hfp := passes_iff_not.2 hfront
  have he := (C89_raises hS hc hok hroom hk (e := e)).2 (fails_append.2 (.inr ⟨hfp, hinfo⟩))
  refine ⟨he, ?_⟩
  obtain ⟨db, hr⟩ := addRows_accepts (init sys) hc hok
  unfold DictSource.frontChecks DictSource.tableChecks at hfp
  rw [passes_append, passes_append, List.append_assoc, passes_append] at hfp
  obtain ⟨⟨⟨f1, f2⟩, f3⟩, f4⟩ := hfp
  obtain ⟨hb, hh⟩ := (header_exact (h := src.header)).passes_iff.2 f1
  obtain ⟨og, hg⟩ := out_ok ((writeGrammar_exact hr hS.pos hc (matrix := src.matrix)).passes_iff.2 f2)
  obtain ⟨ot, ht⟩ := out_ok ((writeTables_exact hr hc hroom).passes_iff.2 (passes_append.2 ⟨f3, f4⟩))
  obtain ⟨P, hB, hne, hU⟩ := infos_left hh hr hg ht he
  obtain ⟨hlen, hl⟩ := rows_list hr hc
  have hdb : P.db = db := by
    have := hB.rows
    rw [hr] at this
    cases this
    rfl
  obtain ⟨g, j1, _, _⟩ := load_front hB hS hD
  have hF : ∃ tl, (runOps ((DictBuilder.init sys).build D src.header src.rows src.matrix).1).data = P.front ++ tl := by
    rcases hU with e | ⟨z, e⟩
    · exact ⟨[], by rw [e, List.append_nil]⟩
    · exact ⟨_, by rw [e, List.append_assoc]⟩
  have hA : At (runOps ((DictBuilder.init sys).build D src.header src.rows src.matrix).1).data 0 P.front := by
    obtain ⟨tl, htl⟩ := hF
    rw [htl]
    exact (At.whole _).extend _
  have hoff : ∀ w, w < src.rows.length →
      (P.lexiconIn (runOps ((DictBuilder.init sys).build D src.header src.rows src.matrix).1).data true).infoOffset w = 0 := by
    intro w hw
    have hfl := P.front_length
    rw [P.params_length, if_neg hne] at hfl
    show fromLe (pySlice _ (P.parStart + (4 + 6 * P.db.entries.length) + 4 * w) (P.parStart + (4 + 6 * P.db.entries.length) + 4 * w + 4)) = 0
    rw [← hfl]
    have hge := front_ge P
    have hbase : P.base = P.front.length * 4 + P.db.entries.length := rfl
    have : P.db.entries.length = src.rows.length := by rw [hdb, hlen, hc.1]
    exact unfinished_zero hU (4 * w) (by omega)
  refine ⟨_, j1 _ hF (fun e => (hne e).elim), ?_, ?_, ?_⟩
  · show P.db.entries.length = _
    rw [hdb, hlen, hc.1]
  · intro w c hw
    obtain ⟨_, en, p, hen, hE, _⟩ := hl w c hw
    obtain ⟨b1, b2, b3⟩ := lex_params_front hB true w en hA (by rw [hdb]; exact hen)
    have hwl := (List.getElem?_eq_some_iff.1 hw).1
    exact ⟨b1.trans hE.left.symm, b2.trans hE.right.symm, b3.trans hE.cost.symm, hoff w (by rw [← hc.1]; exact hwl)⟩
  · intro w w' depth info info' hw hw' hi hi'
    obtain ⟨wi, a1, a2, a3, a4, a5⟩ := wordInfo_same hi
    obtain ⟨wi', b1, b2, b3, b4, b5⟩ := wordInfo_same hi'
    rw [hoff w hw] at a1
    rw [hoff w' hw', a1] at b1
    cases b1
    exact ⟨a2.trans b2.symm, a3.trans b3.symm, a4.trans b4.symm, a5.trans b5.symm⟩

namespace Sample

/-- The rows of the sample with a reference to a word that there is not. -/
theorem dangling_rows : RowsRead danglingRows [cols0, danglingCols] := by
  refine ⟨rfl, ?_⟩
  intro w c h
  match w, h with
  | 0, h => cases h; obtain ⟨_, e, h0⟩ := row0; cases e; exact ⟨_, rfl, h0⟩
  | 1, h => cases h; exact ⟨_, rfl, dangling1⟩

/-- What a build raises, and how many words there are in the dictionary that loads from what it leaves. -/
def tryBuild (rows : List (List PStr)) : Res Unit × Res Nat :=
  let out := (DictBuilder.init none).build SimpleTrie.trie header rows matrix
  (out.2, (readDictionary (runOps out.1).data).map fun d => d.lexicon.size)

/-- A reference to no word; a reading, then a cost that cannot be written (of the second and of the first row): the build raises an
exception and leaves a file that loads.  A cost that is no number: the file does not load. -/
example : tryBuild danglingRows = (.error .value, .ok 2) := by decide +kernel
example : tryBuild [cols0.list, { cols1 with reading := [0xD800] }.list] = (.error .unicode, .ok 2) := by decide +kernel
example : tryBuild [cols0.list, { cols1 with cost := [51, 50, 55, 54, 56] }.list] = (.error .overflow, .ok 2) := by decide +kernel
example : tryBuild [{ cols0 with cost := [51, 50, 55, 54, 56] }.list, cols1.list] = (.error .overflow, .ok 0) := by decide +kernel
example : tryBuild [cols0.list, { cols1 with cost := [97] }.list] = (.error .value, .error .value) := by decide +kernel

theorem dangling_source : SourceOk header danglingRows matrix := by
  refine ⟨source_ok.header, ?_, source_ok.matrix⟩
  intro row hrow c hc
  rcases List.mem_cons.1 hrow with rfl | hrow
  · exact source_ok.pos _ (.head _) c hc
  · obtain rfl := List.mem_singleton.1 hrow
    rw [reads_unique hc dangling1]
    obtain ⟨_, h1, h2⟩ := row1
    exact source_ok.pos _ (List.mem_of_getElem? h1) cols1 h2

/-- No check before the word infos fails of the sample. -/
theorem sample_front : ∀ e, ¬ Fails (DictSource.frontChecks none ⟨header, rows, matrix⟩ [cols0, cols1]) e := by
  intro e h
  have hcok : ∀ c ∈ [cols0, cols1], c.Ok := by
    obtain ⟨_, ops, hb, _⟩ := system_builds
    obtain ⟨P, hB, _⟩ := DictBuilder.build_calls hb
    intro c hc
    obtain ⟨w, hw⟩ := List.getElem?_of_mem hc
    exact ((rows_list hB.rows rows_read_cols).2 w c hw).1
  have := (C89_raises (sys := none) source_ok rows_read_cols hcok sample_room (fun _ h => (by cases h))).2 (fails_append.2 (.inl h))
  obtain ⟨_, ops, hb, _⟩ := system_builds
  rw [hb] at this
  cases this

/-- The hypotheses of the last theorem hold of it. -/
theorem dangling_fails : (∀ c ∈ [cols0, danglingCols], c.Ok) ∧
    DictSource.HasRoom SimpleTrie.trie none ⟨header, danglingRows, matrix⟩ [cols0, danglingCols] (SimpleTrie.bound [cols0, danglingCols]) ∧
    (∀ e, ¬ Fails (DictSource.frontChecks none ⟨header, danglingRows, matrix⟩ [cols0, danglingCols]) e) ∧
    Fails (DictSource.infoChecks none ⟨header, danglingRows, matrix⟩ [cols0, danglingCols]) .value := by
  have hok : ∀ c ∈ [cols0, danglingCols], c.Ok := by
    have h1 : ((DictBuilder.init none).addRows danglingRows).isOk = true := by decide +kernel
    obtain ⟨db, hdb⟩ : ∃ db, (DictBuilder.init none).addRows danglingRows = .ok db := by
      cases h : (DictBuilder.init none).addRows danglingRows with
      | ok db => exact ⟨db, rfl⟩
      | error x => rw [h] at h1; cases h1
    intro c hc
    obtain ⟨w, hw⟩ := List.getElem?_of_mem hc
    exact ((rows_list hdb dangling_rows).2 w c hw).1
  have hroom : DictSource.HasRoom SimpleTrie.trie none ⟨header, danglingRows, matrix⟩ [cols0, danglingCols] (SimpleTrie.bound [cols0, danglingCols]) :=
    C71_room (by decide +kernel)
  have hfront : ∀ e, ¬ Fails (DictSource.frontChecks none ⟨header, danglingRows, matrix⟩ [cols0, danglingCols]) e := by
    rw [← passes_iff_not]
    have hp := passes_iff_not.2 (sample_front)
    unfold DictSource.frontChecks DictSource.tableChecks at hp ⊢
    rw [passes_append, passes_append] at hp ⊢
    refine ⟨⟨hp.1.1, ?_⟩, hp.2⟩
    intro c hc
    obtain rfl := List.mem_singleton.1 hc
    rintro ⟨h, hlt⟩
    have := List.length_filter_le (Cols.Listed h) [cols0, danglingCols]
    simp only [List.length_cons, List.length_nil] at this
    omega
  refine ⟨hok, hroom, hfront, ?_⟩
  have h1 : ((DictBuilder.init none).build SimpleTrie.trie header danglingRows matrix).2 = .error .value := by decide +kernel
  rcases fails_append.1 ((C89_raises (sys := none) dangling_source dangling_rows hok hroom (fun _ h => (by cases h))).1 h1) with h | ⟨_, h⟩
  · exact (hfront _ h).elim
  · exact h

/-- The sample as system dictionary answers. -/
example : sysDict.Answers := by
  obtain ⟨d, hd, hC⟩ := system_compiled
  rw [sysDict_eq (compiled_eq hC)]
  refine C89_system SimpleTrie.ok source_ok hC all_fit 9 fun w hw => ?_
  match w, hw with
  | 0, _ => exact ⟨0, .here ⟨_, row0, .inl ⟨rfl, rfl⟩⟩ (.inl (by decide)), by decide⟩
  | 1, _ => exact ⟨1, chain1, by decide⟩

end Sample
end Sudachi
