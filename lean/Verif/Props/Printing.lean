/-
C74: every result can be printed.
-/
import Verif.Lemmas.Printing
import Verif.Props.Loads
import Verif.Props.CommandLine
import Verif.Props.Open
namespace Sudachi
open Sources

/-- **C74** The words of a result with their own word info, in any mode: unknown words with the text at their place and a part of
speech of a provider, unknown words joined by the katakana plugin, numbers joined by the number plugin. -/
theorem C74_own_info (T : Tokenizer) (hp : T.PluginsOk) (hlex : T.lex.Ok) {L L' : Lattice} (hL : T.CleanHistory L) {text : PStr}
    {mode : Option Mode} {ml : MorphemeList} (h : T.tokenize L text mode = (L', .ok ml)) {n : NodeData} (hn : n ∈ ml.path) {info : WordInfo}
    (hi : n.extra = some info) : ∃ t, ml.input = some t ∧ OwnInfo T t n info := by
  rcases tokenize_run hp h with ⟨_, _, rfl⟩ | ⟨_, ⟨bd, t, L1, path0, path, path', hti, hv, ho, hne', B, hb, hp0, hrw, hcl, hsp, rfl⟩⟩
  · cases hn
  refine ⟨t, rfl, ?_⟩
  have hclean := hL.clean hp hlex
  have hins := bestPath_cands hlex B hclean hb hp0
  have hall := rewritePath_own (T := T) (buildLattice_endsRight hclean hb) (fun d hd info hi => (hins.2 d hd).own B hi) (fun _ h => h) hrw
    ((hL.history.sane hp hlex).bestPath B hlex hb hp0).1 (fun d hd info hi => (hins.1 d hd).own B hi)
  rcases splitPath_mem hsp hn with hm | ⟨_, hm, _⟩
  · exact hall n hm info hi
  · rw [hm] at hi; cases hi

/-- The sample: the last letter of `aabx` is an unknown word. -/
example : ∃ (dict : Dict) (L' : Lattice) (ml : MorphemeList),
    (dict.tokenizer Sample.config [] .C).tokenize Lattice.init [97, 97, 98, 120] none = (L', .ok ml) ∧
    ∀ n ∈ ml.path, ∀ info, n.extra = some info → ∃ t, ml.input = some t ∧ OwnInfo (dict.tokenizer Sample.config [] .C) t n info := by
  obtain ⟨dict, h⟩ := Sample.installed
  obtain ⟨L', ml, ht⟩ := Sample.tokenizes h .C
  have hp := Sample.plugins_ok
  exact ⟨dict, L', ml, ht, fun n hn info hi =>
    C74_own_info _ ⟨hp.lower, hp.nfkc, hp.psm⟩ (h.lexOk SimpleTrie.ok) .fresh ht hn hi⟩

variable {S : Sources} {cfg : DictConfig} {dict : Dict}

/-- **C74** Every morpheme of every result of an installation has a line in the output, short or long, if the dictionary-form
references end, the parts of speech of unknown words are in the list, and the splits add up (or in mode C). -/
theorem C74_lines (hD : cfg.D.Ok) (h : S.Installed cfg dict) (hp : cfg.PluginsOk) (hf : S.Fit) (hch : S.ChainsEnd cfg.depth)
    (ps : List PathPlugin) (mode0 : Mode) (hpos : (dict.tokenizer cfg ps mode0).PosOk dict.grammar) {L L' : Lattice}
    (hL : (dict.tokenizer cfg ps mode0).CleanHistory L) {text : PStr} {mode : Option Mode} {ml : MorphemeList}
    (hadd : S.SplitsAddUp ∨ mode.getD mode0 = .C) (ht : (dict.tokenizer cfg ps mode0).tokenize L text mode = (L', .ok ml)) (all : Bool)
    {i : Nat} (hi : i < ml.len) : ∃ line, LineOf dict.grammar (dict.set.toLex cfg.D cfg.depth) ml all i line := by
  have hs : ∃ s, ml.getSurface i = .ok s := by
    have : ∃ spans, ml.Shows spans ∧ Partition text 0 spans ∧ (spans.map (·.2.2)).flatten = text := by
      rcases hadd with hadd | hm
      · exact C61_all_modes hD h hp hf hadd ps mode0 hL.history ht
      · exact C61_mode_c hD h hp ps mode0 hL.history hm ht
    obtain ⟨spans, ⟨h1, h2⟩, _⟩ := this
    have hlt : i < spans.length := by omega
    exact ⟨_, (h2 i spans[i].1 spans[i].2.1 spans[i].2.2 (List.getElem?_eq_getElem hlt)).2.2⟩
  have hn : ∃ n, pyGet ml.path i = .ok n := by
    unfold pyGet
    rw [List.getElem?_eq_getElem hi]
    exact ⟨_, rfl⟩
  obtain ⟨n, hn⟩ := hn
  have hoov : ml.isOov i = .ok n.oov := by unfold MorphemeList.isOov; rw [hn]; rfl
  have hdid : ml.dictionaryId i = .ok (nodeDictionaryId n) := by unfold MorphemeList.dictionaryId; rw [hn]; rfl
  have hw : ∃ wi pos, ml.getWordInfo (dict.set.toLex cfg.D cfg.depth) i = .ok wi ∧ dict.grammar.posString wi.posId = .ok pos := by
    rcases C63_morphemes hD h hp hf ps mode0 hL.history ht hn with ⟨info, hx⟩ | ⟨d, w, c, _, _, _, _, h4, h5⟩
    · obtain ⟨t, _, ho⟩ := C74_own_info _ ⟨hp.lower, hp.nfkc, hp.psm⟩ (h.lexOk hD) hL ht (pyGet_path hn) hx
      have hpi : PosIndex dict.grammar.posList.length info.posId := by
        cases ho with
        | unknown p o s h1 h2 _ _ h5 => rw [h5.pos]; exact hpos.oov p h1 o h2
        | katakana k s h1 _ h3 => rw [h3.pos]; exact hpos.katakana k h1
        | number m h1 _ h3 => rw [h3]; exact hpos.numeric m h1
      obtain ⟨pos, hpos⟩ := posString_index hpi
      refine ⟨info, pos, ?_, hpos⟩
      unfold MorphemeList.getWordInfo
      rw [hn]
      show nodeWordInfo _ n = _
      unfold nodeWordInfo
      have : n.defined = true := tokenize_defined ⟨hp.lower, hp.nfkc, hp.psm⟩ (h.lexOk hD) hL.history ht (pyGet_path hn)
      rw [this, hx]
      rfl
    · obtain ⟨info, hinfo⟩ := h5 hch
      exact ⟨info, c.pos, hinfo, (h4 info hinfo).pos⟩
  obtain ⟨s, hs⟩ := hs
  obtain ⟨wi, pos, hw, hpos⟩ := hw
  unfold LineOf
  cases all with
  | true => exact ⟨_, s, wi, pos, _, _, hs, hw, hpos, hdid, hoov, rfl⟩
  | false => exact ⟨_, s, wi, pos, hs, hw, hpos, rfl⟩

theorem printMorphemes_ok {g : Grammar} {lex : Lex} {ml : MorphemeList} {all : Bool} :
    ∀ is : List Nat, (∀ i ∈ is, ∃ line, LineOf g lex ml all i line) → ∃ out, printMorphemes g lex ml all is = (out, .ok ())
  | [], _ => ⟨[], rfl⟩
  | i :: is, h => by
    obtain ⟨out, ho⟩ := printMorphemes_ok is (fun j hj => h j (by simp [hj]))
    unfold printMorphemes
    cases hf : fieldsOf g lex ml all i with
    | error e =>
      obtain ⟨line, hl⟩ := h i (by simp)
      exact absurd hl (fieldsOf_none hf line)
    | ok fs =>
      dsimp only
      rw [ho]
      exact ⟨_, rfl⟩

theorem Chomped.eq {line body : PStr} (h : Chomped line body) : rstripNewline line = body := by
  obtain ⟨n, rfl, hb⟩ := h
  unfold rstripNewline
  rw [List.reverse_append, List.reverse_replicate]
  have key : ∀ (n : Nat) (r : PStr), r.head? ≠ some 10 → (List.replicate n 10 ++ r).dropWhile (· == 10) = r := by
    intro n r hr
    induction n with
    | zero =>
      cases r with
      | nil => rfl
      | cons c r =>
        rw [List.replicate_zero, List.nil_append, List.dropWhile_cons, if_neg]
        simpa using hr
    | succ n ih => rw [List.replicate_succ, List.cons_append, List.dropWhile_cons, if_pos (by decide), ih]
  rw [key, List.reverse_reverse]
  intro hh
  cases hr : body.reverse with
  | nil => rw [hr] at hh; cases hh
  | cons c r =>
    rw [hr] at hh
    cases hh
    exact hb r.reverse (by rw [← List.reverse_reverse body, hr, List.reverse_cons])

/-- A line of input that the command can deal with: nothing, or an encodable text that is not too long. -/
def Tokenizer.CanRead (T : Tokenizer) (line : PStr) : Prop :=
  ∃ body, Chomped line body ∧ (∀ c ∈ body, encodable c = true) ∧ ∀ t, T.buildInput body = .ok t →
    SafeLength t.bytes.length ∧ 3 * (t.bytes.length + 1) * (t.bytes.length + 1) ≤ T.fuel

/-- **C74** On complete sources the command prints all lines, for every file of readable lines: no exception. -/
theorem C74_prints (hD : cfg.D.Ok) (h : S.Installed cfg dict) {n : Nat} {entries : List (Int × Int × Int)}
    (hS : S.Complete n entries cfg.depth) (hcfg : cfg.Complete n) (hsep : S.NoSeparators cfg.catOf)
    (hchars : ∀ c, c = 44 ∨ c = 46 → Cat.NUMERIC ∉ cfg.catOf c ∧ Cat.KANJINUMERIC ∉ cfg.catOf c) (ps : List PathPlugin)
    (hnf : NumericFirst ps) (mode0 : Mode) (hpos : (dict.tokenizer cfg ps mode0).PosOk dict.grammar) (mode : Mode)
    (hadd : S.SplitsAddUp ∨ mode = .C) (all : Bool) (lines : List PStr)
    (hlines : ∀ line ∈ lines, (dict.tokenizer cfg ps mode0).CanRead line) {L : Lattice} (hL : (dict.tokenizer cfg ps mode0).CleanHistory L) :
    ∃ out, runLines (dict.tokenizer cfg ps mode0) dict.grammar mode all L lines = (out, .ok ()) := by
  induction lines generalizing L with
  | nil => exact ⟨[], rfl⟩
  | cons line lines ih =>
    obtain ⟨body, h1, h2, h3⟩ := hlines line (by simp)
    have hb : rstripNewline line = body := h1.eq
    have hml : ∃ L' ml, (dict.tokenizer cfg ps mode0).tokenize L body (some mode) = (L', .ok ml) := by
      by_cases hne : body = []
      · subst hne
        exact ⟨L, .empty, rfl⟩
      · obtain ⟨ml, hml⟩ := C62_succeeds hD h hS hcfg hsep hchars ps hnf mode0 hL hne h2 h3 (some mode)
        exact ⟨_, ml, Prod.ext rfl hml⟩
    obtain ⟨L', ml, hml⟩ := hml
    have hL' := Tokenizer.CleanHistory.call _ _ hL hml
    obtain ⟨out, ho⟩ := ih (fun l hl => hlines l (by simp [hl])) hL'
    have hpr : ∃ o, printMorphemes dict.grammar (dict.tokenizer cfg ps mode0).lex ml all ml.iter = (o, .ok ()) := by
      refine printMorphemes_ok _ fun i hi => ?_
      refine C74_lines hD h hcfg.plugins hS.fit hS.chains ps mode0 hpos hL (mode := some mode) hadd hml all ?_
      obtain ⟨k, hk⟩ := List.getElem?_of_mem hi
      have hlt : k < ml.len := by rw [← iter_length]; exact (List.getElem?_eq_some_iff.mp hk).1
      rw [iter_getElem ml k hlt] at hk
      cases hk
      exact hlt
    obtain ⟨o, ho'⟩ := hpr
    unfold runLines
    rw [hb, hml]
    dsimp only
    rw [ho']
    dsimp only
    rw [ho]
    exact ⟨_, rfl⟩

/-! ### Opened dictionaries -/

/-- A number for a part of speech: in the list, or −1. -/
theorem PosNumber.range {l : List (List PStr)} {pos : List PStr} {n : Int} (h : PosNumber l pos n) : n = -1 ∨ (0 ≤ n ∧ n < l.length) := by
  rcases h with ⟨i, rfl, h, _⟩ | ⟨h, _⟩
  · have := (List.getElem?_eq_some_iff.mp h).1
    exact .inr ⟨by omega, by omega⟩
  · exact .inl h

theorem members_attr {α : Type} {c : Cat} {x : α} : ∀ {l : List (Attr × α)}, (c, x) ∈ members l → (Attr.member c, x) ∈ l
  | [], h => by cases h
  | (a, y) :: l, h => by
    cases a with
    | member c' =>
      unfold members at h
      rcases List.mem_cons.mp h with h | h
      · cases h; exact List.mem_cons_self
      · exact List.mem_cons_of_mem _ (members_attr h)
    | _ =>
      unfold members at h
      exact List.mem_cons_of_mem _ (members_attr h)

theorem readUnk_pos {others : PStr → Option Attr} {g : Grammar} {defined : List (Attr × CategoryInfo)} :
    ∀ {lines : List PStr} {es : List (Attr × OovEntry)}, readUnk others g defined lines = .ok es → ∀ a o, (a, o) ∈ es → ∃ pos, o.posId = g.posId pos
  | [], es, h, a, o, hm => by cases h; cases hm
  | line :: lines, es, h, a, o, hm => by
    unfold readUnk at h
    obtain ⟨r, hr, h⟩ := bind_ok h
    obtain ⟨rs, hrs, h⟩ := bind_ok h
    have ih := readUnk_pos hrs
    cases r with
    | none => cases h; exact ih a o hm
    | some x =>
      cases h
      rcases List.mem_cons.mp hm with hm | hm
      · subst hm
        unfold unkLine at hr
        split at hr
        · cases hr
        · split at hr
          · split at hr
            · cases hr
            · cases hr
            · split at hr
              · cases hr
              · obtain ⟨_, _, hr⟩ := bind_ok hr
                obtain ⟨_, _, hr⟩ := bind_ok hr
                obtain ⟨_, _, hr⟩ := bind_ok hr
                cases hr
                exact ⟨_, rfl⟩
          · cases hr
      · exact ih a o hm

theorem Each.mem {α β : Type} {R : α → β → Prop} {l : List α} {m : List β} (h : Each R l m) : ∀ b ∈ m, ∃ a ∈ l, R a b := by
  induction h with
  | nil => intro b hb; cases hb
  | cons hr _ ih =>
    intro b hb
    rcases List.mem_cons.mp hb with rfl | hb
    · exact ⟨_, List.mem_cons_self, hr⟩
    · obtain ⟨a, ha, hr⟩ := ih b hb
      exact ⟨a, List.mem_cons_of_mem _ ha, hr⟩

/-- **C74** In every dictionary that was opened from settings and is not without parts of speech, the parts of speech of unknown and
joined words are in the list. -/
theorem C74_opened {R : Runtime} {M : Disk} {s : Settings} {cfg : DictConfig} {dict : Dict} (h : openWith R M s = .ok (cfg, dict))
    (hne : dict.grammar.posList ≠ []) (mode : Option Mode) : (create cfg dict mode).PosOk dict.grammar := by
  obtain ⟨d, dir, file, files, hO⟩ := openWith_iff.mp h
  have hpos : 0 < dict.grammar.posList.length := List.length_pos_iff.mpr hne
  have hsys : ∀ sys, Dict.readSystem file = .ok sys → sys.grammar.posList.length ≤ dict.grammar.posList.length := by
    intro sys hs
    have hl := hO.loaded
    unfold Dict.load at hl
    rw [hs] at hl
    change (if cfg.oov.isEmpty then _ else _) = _ at hl
    split at hl
    · cases hl
    · obtain ⟨_, _, ps, _, _, hg, _⟩ := readUsers_grow hl
      rw [hg]
      show _ ≤ (sys.grammar.posList ++ ps).length
      rw [List.length_append]
      omega
  have key : ∀ sys, Dict.readSystem file = .ok sys → ∀ pos n, PosNumber sys.grammar.posList pos n → PosIndex dict.grammar.posList.length n := by
    intro sys hs pos n hn
    have := hsys sys hs
    unfold PosIndex
    rcases hn.range with h | h <;> omega
  have hminus : PosIndex dict.grammar.posList.length (-1) := by unfold PosIndex; omega
  obtain ⟨sys, objs, h1, _, h3⟩ := hO.providers
  obtain ⟨sys', objs', h1', _, h3'⟩ := hO.rewriters
  refine ⟨?_, ?_, ?_⟩
  · intro p hp o ho
    obtain ⟨obj, _, hr⟩ := h3.mem p hp
    cases obj with
    | mecab c u =>
      obtain ⟨_, _, _, _, ls, us, _, _, _, _, _, _, _, _, hm⟩ := hr
      unfold mecabSetUp at hm
      obtain ⟨cats, _, hm⟩ := bind_ok hm
      obtain ⟨es, hes, hm⟩ := bind_ok hm
      cases hm
      obtain ⟨ty, ho⟩ := ho
      obtain ⟨pos, hpos⟩ := readUnk_pos hes _ _ (members_attr ho)
      exact key sys h1 pos _ (posNumber_iff.mpr hpos.symm)
    | simple l r c p' =>
      cases p with
      | mecab _ _ => exact absurd hr id
      | simple e =>
        have he : o = e := ho
        subst he
        obtain ⟨_, _, _, ⟨pos, _, hn⟩ | ⟨hn, _⟩⟩ := hr
        · exact key sys h1 pos _ hn
        · rw [hn]; exact hminus
  · intro k hk
    obtain ⟨obj, _, hr⟩ := h3'.mem _ hk
    cases obj with
    | numeric b => exact absurd hr id
    | katakana p m =>
      obtain ⟨_, pos, _, _, hn, _⟩ := hr
      exact key sys' h1' pos _ hn
  · intro m hm
    obtain ⟨obj, _, hr⟩ := h3'.mem _ hm
    cases obj with
    | numeric b => exact key sys' h1' _ _ hr.2
    | katakana p m => exact absurd hr id

/-- **C74** A dictionary with a row has a part of speech. -/
theorem C74_has_pos (hD : cfg.D.Ok) (h : S.Installed cfg dict) (hf : S.Fit) (hch : S.ChainsEnd cfg.depth) {d w : Nat} {c : Cols}
    (hc : S.Row d w c) : dict.grammar.posList ≠ [] := by
  obtain ⟨info, hi⟩ := h.readable hD hf hch hc
  have := (h.infoSays hD hf hc hi).pos
  intro he
  unfold Grammar.posString pyGet at this
  rw [he] at this
  by_cases h0 : info.posId < 0
  · rw [if_pos h0, if_pos (by show info.posId < -0; omega)] at this
    cases this
  · rw [if_neg h0] at this
    cases this

/-- **C74** The condition on the list is needed: without parts of speech no word can be printed. -/
theorem C74_needs_pos {g : Grammar} (hg : g.posList = []) (lex : Lex) (ml : MorphemeList) (all : Bool) (i : Nat) (line : PStr) :
    ¬ LineOf g lex ml all i line := by
  have key : ∀ id, ∀ pos, g.posString id ≠ .ok pos := by
    intro id pos h
    unfold Grammar.posString pyGet at h
    rw [hg] at h
    by_cases h0 : id < 0
    · rw [if_pos h0, if_pos (by show id < -0; omega)] at h
      cases h
    · rw [if_neg h0] at h
      cases h
  intro h
  unfold LineOf at h
  cases all with
  | true => obtain ⟨_, wi, pos, _, _, _, _, hp, _⟩ := h; exact key _ _ hp
  | false => obtain ⟨_, wi, pos, _, _, hp, _⟩ := h; exact key _ _ hp

theorem Sample.pos_ok {dict : Dict} (h : Sample.sources.Installed Sample.config dict) :
    (dict.tokenizer Sample.config [] .C).PosOk dict.grammar := by
  have hne := C74_has_pos SimpleTrie.ok h Sample.sources_fit Sample.sources_complete.chains (d := 0) (w := 0) (c := Sample.cols0) ⟨_, rfl, Sample.row0⟩
  have hlt : 0 < dict.grammar.posList.length := List.length_pos_iff.mpr hne
  refine ⟨?_, fun k hk => (by cases hk), fun k hk => (by cases hk)⟩
  intro p hp o ho
  rw [List.mem_singleton.mp hp] at ho
  have ho : o = _ := ho
  subst ho
  exact ⟨by show -(dict.grammar.posList.length : Int) ≤ 0; omega, by show (0 : Int) < _; omega⟩

theorem Sample.can_read (dict : Dict) : ∀ line ∈ [[97, 97, 98, 120, 10], [10]], (dict.tokenizer Sample.config [] .C).CanRead line := by
  intro line hl
  rcases List.mem_cons.mp hl with rfl | hl
  · refine ⟨[97, 97, 98, 120], ⟨1, rfl, ?_⟩, by decide, ?_⟩
    · intro b hb
      have := congrArg List.getLast? hb
      simp at this
    · intro t ht
      rw [Sample.short_text ht]
      exact ⟨by unfold SafeLength; decide, (by decide : 3 * (4 + 1) * (4 + 1) ≤ 100)⟩
  · rw [List.mem_singleton.mp hl]
    refine ⟨[], ⟨1, rfl, ?_⟩, by decide, ?_⟩
    · intro b hb
      have := congrArg List.length hb
      simp at this
    · intro t ht
      have e : t.bytes.length = 0 := by cases ht; rfl
      rw [e]
      exact ⟨by unfold SafeLength; decide, (by decide : 3 * (0 + 1) * (0 + 1) ≤ 100)⟩

/-- The sample: the lines `aabx` and an empty line are printed, in every mode. -/
example (mode : Mode) (all : Bool) : ∃ (dict : Dict) (out : List PStr), Sample.sources.Installed Sample.config dict ∧
    runLines (dict.tokenizer Sample.config [] .C) dict.grammar mode all Lattice.init [[97, 97, 98, 120, 10], [10]] = (out, .ok ()) := by
  obtain ⟨dict, h⟩ := Sample.installed
  obtain ⟨out, ho⟩ := C74_prints SimpleTrie.ok h Sample.sources_complete Sample.config_complete Sample.no_separators
    (fun c _ => ⟨fun h => (by cases List.mem_singleton.1 h), fun h => (by cases List.mem_singleton.1 h)⟩) [] (by trivial) .C (Sample.pos_ok h) mode
    (.inl Sample.splits_add_up) all _ (Sample.can_read dict) .fresh
  exact ⟨dict, out, h, ho⟩

end Sudachi
