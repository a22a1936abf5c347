import Verif.Lemmas.Late2
import Verif.Lemmas.SampleTerminal

/-!
# C96. Values of the wrong type in the settings of plugins
-/

namespace Sudachi

/-- Which plugins objects of the settings give, and which of their values can be used: numbers, `true` and `false` as 1 and 0; a float as the
runtime has it; anything else as a number is a `TypeError`, and what is no text as a text an `AttributeError`. -/
theorem C96_settings (F : Floats) (j : Json) : (∀ o, lateGetInput j = .ok o ↔ LateInputWanted j o) ∧
    (∀ o, lateGetOov F j = .ok o ↔ LateOovWanted F j o) ∧ ∀ o, lateGetPath F j = .ok o ↔ LatePathWanted F j o :=
  ⟨fun _ => lateGetInput_iff, fun _ => lateGetOov_iff, fun _ => lateGetPath_iff⟩

/-- Opening.  With values that are used at once the two models agree: the one that keeps values of the wrong type has the same settings, the
same dictionary and the same plugins, and raises the same exceptions.  They can only differ where the other one says `TypeError`. -/
theorem C96_open (F : Floats) (R : Runtime) (M : Disk) (s : Settings) (configPath resourceDir dictType : Option PStr) :
    (lateOpen F R M s configPath resourceDir dictType).1 = (openDictionary R M s configPath resourceDir dictType).1 ∧
    ((openDictionary R M s configPath resourceDir dictType).2 = .error .type ∨
      (∃ cfg dict, (openDictionary R M s configPath resourceDir dictType).2 = .ok (cfg, dict) ∧
        (lateOpen F R M s configPath resourceDir dictType).2 = .ok (cfg.late, dict)) ∨
      ∃ e, (openDictionary R M s configPath resourceDir dictType).2 = .error e ∧
        (lateOpen F R M s configPath resourceDir dictType).2 = .error e) := by
  unfold lateOpen openDictionary
  obtain ⟨s', r⟩ := s.setUp M.toMachine configPath resourceDir dictType
  cases r with
  | error e => exact ⟨rfl, .inr (.inr ⟨e, rfl, rfl⟩)⟩
  | ok _ =>
    refine ⟨rfl, ?_⟩
    dsimp only
    rcases lateOpenWith_up F R M s' with h | h
    · exact .inl h
    · rw [h]
      cases openWith R M s' with
      | error e => exact .inr (.inr ⟨e, rfl, rfl⟩)
      | ok p => exact .inr (.inl ⟨p.1, p.2, rfl, rfl⟩)

/-- And what was opened so tokenizes every text as before, in every mode and from every state. -/
theorem C96_typed (cfg : DictConfig) (d : Dict) (mode : Option Mode) (L : Lattice) (text : PStr) (m : Option Mode) :
    (lateCreate cfg.late d mode).tokenize L text m = (create cfg d mode).tokenize L text m :=
  late_tokenize cfg d cfg.pathPlugins (mode.getD .C) L text m

/-- Tokenizing with values that cannot be used.  Whatever numbers and texts are put in their place: the answer, and what the call leaves
behind, are those of the tokenizer with these, or the call raises one of the exceptions of the values that cannot be used. -/
theorem C96_tokenize {E : Err → Prop} {T : LateTokenizer} {T' : Tokenizer} (h : T.Fits E T') (L : Lattice) (text : PStr) (m : Option Mode) :
    T.tokenize L text m = T'.tokenize L text m ∨ ∃ e, E e ∧ (T.tokenize L text m).2 = .error e :=
  lateTokenize_le h L text m

/-- So an answer does not depend on the values in their place. -/
theorem C96_answer {E : Err → Prop} {T : LateTokenizer} {T1 T2 : Tokenizer} (h1 : T.Fits E T1) (h2 : T.Fits E T2) {L L' : Lattice}
    {text : PStr} {m : Option Mode} {ml : MorphemeList} (h : T.tokenize L text m = (L', .ok ml)) :
    T1.tokenize L text m = (L', .ok ml) ∧ T2.tokenize L text m = (L', .ok ml) := by
  constructor
  · rcases C96_tokenize h1 L text m with e | ⟨e, _, he⟩
    · rw [← e, h]
    · rw [h] at he; cases he
  · rcases C96_tokenize h2 L text m with e | ⟨e, _, he⟩
    · rw [← e, h]
    · rw [h] at he; cases he

/-- The simple provider of unknown words with a value that cannot be used, as the only one: a text at whose beginning no word of the
dictionary starts raises the exception of the first such value. -/
theorem C96_raises {E : Err → Prop} {T : LateTokenizer} {T' : Tokenizer} (h : T.Fits E T') (hp : T'.PluginsOk) {l r c : Res Int} {posId : Int}
    (hoov : T.oov = [.simple l r c posId]) {e : Err} (hf : FirstFault l r c e) {L : Lattice} (hL : L.Clean) {text : PStr} (hne : text ≠ [])
    {t : InputText} (ht : T.buildInput text = .ok t) (hno : T.lex.lookup t.bytes 0 = .ok []) (m : Option Mode) :
    (T.tokenize L text m).2 = .error e := by
  have ht' : T'.buildInput text = .ok t := by
    have hb : Le E (T.buildInput text) (T'.buildInput text) := by
      unfold LateTokenizer.buildInput Tokenizer.buildInput
      rw [h.catOf, h.lower, h.nfkc]
      exact (lateRewriteInput_le h.inputs _).bind fun _ => .inl (Eq.refl _)
    rcases hb with e1 | ⟨x, _, e1⟩
    · rw [← e1, ht]
    · rw [ht] at e1; cases e1
  obtain ⟨bd, _, _, _, B, b5⟩ := buildInput_built hp ht'
  have hpos : 0 < bd.modified.length := List.length_pos_iff.mpr (b5 hne)
  have hlen : 0 < t.bytes.length := by
    rw [B.blen]
    have := wpos_lt B.enc hpos (Nat.le_refl _)
    omega
  have hbow : t.canBow 0 = .ok true := by
    have := canBow_of B hpos (.inl rfl)
    rwa [wpos_zero] at this
  have hcat := B.cats_at hpos
  rw [wpos_zero] at hcat
  have hprev : (L.resize t.bytes.length).hasPreviousNode 0 = .ok true := by
    unfold Lattice.hasPreviousNode
    rw [pyGet, (hL.resize t.bytes.length).bos]
    rfl
  have hget : (LateOov.simple l r c posId).getOov t 0 false = .error e := by
    unfold LateOov.getOov
    rcases hf with rfl | ⟨⟨x, rfl⟩, rfl | ⟨⟨y, rfl⟩, rfl⟩⟩ <;> rfl
  have hloop : ∀ L, lateOovLoop T.conn t 0 [.simple l r c posId] L false = (L, .error e) := by
    intro L
    unfold lateOovLoop
    rw [hget]
  have hposn : ∀ L, ∃ L', lateBuildPos T.conn T.lex T.oov t L 0 = (L', .error e) := by
    intro L
    unfold lateBuildPos lateOovPart
    rw [hno, hoov, hcat]
    dsimp only [wordLoop]
    split
    · rename_i hx
      split at hx
      · cases hx
      · rw [hloop] at hx
        cases hx
        exact ⟨_, rfl⟩
    · rename_i hx
      split at hx
      · cases hx
        refine ⟨L, ?_⟩
        unfold lateDefaultPart
        rw [if_neg (by decide)]
        dsimp only [List.getLast?]
        rw [List.getLast_singleton, hloop]
      · rw [hloop] at hx
        cases hx
  obtain ⟨L', hL'⟩ := hposn (L.resize t.bytes.length)
  have hbl : lateBuildLattice T.conn T.lex T.oov t L = (L', .error e) := by
    unfold lateBuildLattice
    have hr : List.range t.bytes.length = 0 :: List.range' 1 (t.bytes.length - 1) := by
      rw [List.range_eq_range']
      obtain ⟨n, hn⟩ : ∃ n, t.bytes.length = n + 1 := ⟨t.bytes.length - 1, by omega⟩
      rw [hn]
      rfl
    rw [hr]
    unfold lateBuildLoop skipPos
    simp only [hbow, hprev, bind, Except.bind, pure, Except.pure, Bool.not_true, Bool.false_eq_true, if_false, hL']
  unfold LateTokenizer.tokenize
  rw [if_neg (by cases text with | nil => exact absurd rfl hne | cons => exact Bool.false_ne_true), ht]
  dsimp only
  rw [hbl]

/-- A value of a provider of unknown words is not asked for where there are words: if at every place where a word can begin the dictionary
has one that ends where a word can end, and the other plugins have usable values, the call is that with any values in their place. -/
theorem C96_unasked {E : Err → Prop} {T : LateTokenizer} {T' : Tokenizer} (h : T.Fits E T')
    (hi : Paired (LateInput.Fits fun _ => False) T.inputPlugins T'.inputPlugins)
    (hq : Paired (LatePath.Fits fun _ => False) T.pathPlugins T'.pathPlugins) (L : Lattice) (text : PStr) (m : Option Mode)
    (hw : ∀ t, T'.buildInput text = .ok t → T'.lex.Everywhere t) : T.tokenize L text m = T'.tokenize L text m :=
  lateTokenize_words h hi hq L text m hw

/-- A symbol that is no text: the plugin for prolonged sound marks raises exactly if there are two marks in a row, and leaves every other
text as it is. -/
theorem C96_symbol (lower nfkc : PStr → PStr) (marks : List Nat) (e : Err) (bd : Builder) :
    (HasRun marks bd.modified → (LateInput.psm marks (.error e)).rewrite lower nfkc bd = .error e) ∧
    (¬ HasRun marks bd.modified → (LateInput.psm marks (.error e)).rewrite lower nfkc bd = .ok bd) :=
  (latePsm_spec (marks := marks) (e := e) bd.modified 0 (by omega)).1

/-- A shortest length that is no number: the plugin that joins katakana words works on unknown words as with any length, and raises if the
first word is one of the dictionary. -/
theorem C96_length (posId : Int) (shorter : Int → Res Bool) (lex : Lex) (fuel : Nat) (t : InputText) (L : Lattice) (path : List NodeData) :
    ((∀ d ∈ path, d.oov = true) → ∀ minLength, (LatePath.katakana posId shorter).rewrite lex fuel t L path =
      (PathPlugin.katakana ⟨posId, minLength⟩).rewrite lex fuel t L path) ∧
    ∀ d rest n e, path = d :: rest → d.oov = false → t.codePointCount d.begin_ d.end_ = .ok n → shorter n = .error e →
      (LatePath.katakana posId shorter).rewrite lex fuel t L path = .error e := by
  constructor
  · intro h minLength
    exact lateKatakanaLoop_oov (cfg := ⟨posId, minLength⟩) _ path 0 fun k d _ hd => h d (List.mem_of_getElem? hd)
  · rintro d rest n e rfl hd hn he
    unfold LatePath.rewrite
    dsimp only
    unfold lateKatakanaLoop lateKatakanaStep lateTrigger
    rw [if_pos (by simp)]
    simp [pyGet, bind, Except.bind, hd, hn, he]

/-! ### Settings with such values -/

namespace Sample

def noFloats : Floats := ⟨fun _ => .error .type, fun _ _ => false⟩

def posP : Json := .list [.str [112], .str [112], .str [112], .str [112], .str [112], .str [112]]

/-- `leftId` is `null`; runs of `a` are to be replaced by a number. -/
def wrongValues : JDict :=
  [(pstr! "systemDict", .str systemDic), (pstr! "characterDefinitionFile", .str charFile),
   (pstr! "inputTextPlugin", .list [.obj [(pstr! "class", .str (pstr! "sudachipy.plugin.input_text.ProlongedSoundMarkInputTextPlugin")),
     (pstr! "prolongedSoundMarks", .list [.str [97]]), (pstr! "replacementSymbol", .num 5)]]),
   (pstr! "oovProviderPlugin", .list [.obj [(pstr! "class", .str (pstr! "sudachipy.plugin.oov.SimpleOovProviderPlugin")),
     (pstr! "oovPOS", posP), (pstr! "leftId", .null), (pstr! "rightId", .num 0), (pstr! "cost", .num 30000)]])]

/-- The shortest length is the text `2`. -/
def wrongLength : JDict :=
  [(pstr! "systemDict", .str systemDic), (pstr! "characterDefinitionFile", .str charFile),
   (pstr! "oovProviderPlugin", .list [.obj [(pstr! "class", .str (pstr! "sudachipy.plugin.oov.SimpleOovProviderPlugin")),
     (pstr! "oovPOS", posP), (pstr! "leftId", .num 0), (pstr! "rightId", .num 0), (pstr! "cost", .num 30000)]]),
   (pstr! "pathRewritePlugin", .list [.obj [(pstr! "class", .str (pstr! "sudachipy.plugin.path_rewrite.JoinKatakanaOovPlugin")),
     (pstr! "oovPOS", posP), (pstr! "minLength", .str [50])]])]

def wrongDisk (d : JDict) : Disk := { disk with settings := fun p => if p = settingFile then .ok d else .error .io }

/-- Opening, and a text: the places of its words. -/
def wrongRun (d : JDict) (text : PStr) : Res (List (Nat × Nat)) :=
  match (lateOpen noFloats runtime (wrongDisk d) Settings.init (some settingFile) none none).2 with
  | .error e => .error e
  | .ok (cfg, dict) => ((lateCreate cfg dict none).tokenize Lattice.init text none).2.map fun ml => ml.path.map fun x => (x.begin_, x.end_)

theorem wrong_word : wrongRun wrongValues [97] = .ok [(0, 1)] := by decide +kernel
theorem wrong_unknown : wrongRun wrongValues [120] = .error .type := by decide +kernel
theorem wrong_symbol : wrongRun wrongValues [97, 97] = .error .attribute := by decide +kernel
theorem wrong_length : wrongRun wrongLength [97] = .error .type := by decide +kernel
theorem wrong_length_unknown : wrongRun wrongLength [120] = .ok [(0, 1)] := by decide +kernel

theorem wrong_open (d : JDict) (h : d = wrongValues ∨ d = wrongLength) :
    ((openDictionary runtime (wrongDisk d) Settings.init (some settingFile) none none).2.map fun _ => ()) = .error .type := by
  rcases h with rfl | rfl <;> decide +kernel

end Sample

/-- The dictionary of settings with such values opens, where Model/Open raises.  `a`, a word of the dictionary, is found; the unknown `x`
asks for the `leftId` and raises `TypeError`; `aa` asks for the symbol, the number 5, and raises `AttributeError`. -/
example : Sample.wrongRun Sample.wrongValues [97] = .ok [(0, 1)] ∧ Sample.wrongRun Sample.wrongValues [120] = .error .type ∧
    Sample.wrongRun Sample.wrongValues [97, 97] = .error .attribute ∧
    (openDictionary Sample.runtime (Sample.wrongDisk Sample.wrongValues) Settings.init (some Sample.settingFile) none none).2 = .error .type := by
  refine ⟨Sample.wrong_word, Sample.wrong_unknown, Sample.wrong_symbol, ?_⟩
  have h := Sample.wrong_open Sample.wrongValues (.inl rfl)
  cases hx : (openDictionary Sample.runtime (Sample.wrongDisk Sample.wrongValues) Settings.init (some Sample.settingFile) none none).2 with
  | error e => rw [hx] at h; cases h; rfl
  | ok x => rw [hx] at h; cases h

/-- `C96_settings` on an object with `null` for the left id and a list for the cost. -/
example (F : Floats) (p : Json) : lateGetOov F (.obj [(codes "class", .str (codes "sudachipy.plugin.oov.SimpleOovProviderPlugin")),
      (codes "leftId", .null), (codes "rightId", .bool true), (codes "cost", .list []), (codes "oovPOS", p)]) =
    .ok (.simple (.error .type) (.ok 1) (.error .type) p) := by
  exact ((C96_settings F _).2.1 _).2 ⟨⟨_, rfl, [], _, rfl, by simp⟩, ⟨_, rfl, [_, _, _, _], [], rfl, by decide⟩,
    ⟨.null, ⟨_, rfl, [_], _, rfl, by decide⟩, .inr (.inr ⟨.inl rfl, rfl⟩)⟩,
    ⟨.bool true, ⟨_, rfl, [_, _], _, rfl, by decide⟩, .inl ⟨1, .inr (.inl ⟨rfl, rfl⟩), rfl⟩⟩,
    ⟨.list [], ⟨_, rfl, [_, _, _], _, rfl, by decide⟩, .inr (.inr ⟨.inr (.inr (.inl ⟨_, rfl⟩)), rfl⟩)⟩⟩

/-- The length is compared only with that of words of the dictionary. -/
example : Sample.wrongRun Sample.wrongLength [97] = .error .type ∧ Sample.wrongRun Sample.wrongLength [120] = .ok [(0, 1)] :=
  ⟨Sample.wrong_length, Sample.wrong_length_unknown⟩

/-- `C96_open` and `C96_typed` on settings with values of the right type. -/
example : ∃ cfg dict, (lateOpen Sample.noFloats Sample.runtime (Sample.terminal.put Sample.textOutput []).toDisk Settings.init
      (some Sample.settingFile) none none).2 = .ok (DictConfig.late cfg, dict) ∧
    ∀ L text m, (lateCreate cfg.late dict none).tokenize L text m = (create cfg dict none).tokenize L text m := by
  obtain ⟨cfg, dict, h⟩ := Sample.file_opens
  refine ⟨cfg, dict, ?_, fun L text m => C96_typed cfg dict none L text m⟩
  rcases (C96_open Sample.noFloats Sample.runtime (Sample.terminal.put Sample.textOutput []).toDisk Settings.init (some Sample.settingFile)
    none none).2 with h1 | ⟨cfg', dict', h1, h2⟩ | ⟨e, h1, _⟩
  · rw [h] at h1; cases h1
  · rw [h] at h1
    cases h1
    exact h2
  · rw [h] at h1; cases h1

/-! ### A tokenizer with a value that cannot be used -/

namespace Sample

/-- `a` is the only word. -/
def onlyA : Lex := ⟨fun b i => .ok (if b[i]? = some 97 then [(0, i + 1)] else []), fun _ => .ok (0, 0, 5), fun _ => .ok WordInfo.unk⟩

/-- The cost of unknown words is no number. -/
def faulty : LateTokenizer :=
  ⟨fun _ => [.DEFAULT], id, id, [], fun _ _ => .ok 0, onlyA, [.simple (.ok 0) (.ok 0) (.error .type) 3], [], .C, 100⟩
def whole (cost : Int) : Tokenizer :=
  ⟨fun _ => [.DEFAULT], id, id, [], fun _ _ => .ok 0, onlyA, [.simple ⟨0, 0, cost, 3⟩], [], .C, 100⟩

theorem faulty_fits (cost : Int) : faulty.Fits (· = .type) (whole cost) :=
  ⟨rfl, rfl, rfl, rfl, rfl, rfl, rfl, .nil, .cons ⟨.inl rfl, .inl rfl, .inr ⟨_, rfl, rfl⟩, rfl⟩ .nil, .nil⟩

theorem faulty_a : ((faulty.tokenize Lattice.init [97] none).2.map fun ml => ml.path.map fun x => (x.begin_, x.end_)) = .ok [(0, 1)] := by
  decide +kernel

end Sample

/-- `a` is found with every cost: `C96_answer` twice. -/
example (cost cost' : Int) : ∃ L' ml, (Sample.whole cost).tokenize Lattice.init [97] none = (L', .ok ml) ∧
    (Sample.whole cost').tokenize Lattice.init [97] none = (L', .ok ml) ∧ ml.path.map (fun x => (x.begin_, x.end_)) = [(0, 1)] := by
  have h := Sample.faulty_a
  cases hx : Sample.faulty.tokenize Lattice.init [97] none with
  | mk L' r =>
    rw [hx] at h
    cases r with
    | error e => cases h
    | ok ml =>
      obtain ⟨h1, h2⟩ := C96_answer (Sample.faulty_fits cost) (Sample.faulty_fits cost') hx
      exact ⟨L', ml, h1, h2, Except.ok.inj h⟩

/-- `xa` raises, by `C96_raises`. -/
example (m : Option Mode) : (Sample.faulty.tokenize Lattice.init [120, 97] m).2 = .error .type :=
  C96_raises (Sample.faulty_fits 0) ⟨fun _ h => (by cases h), fun _ h => h, fun _ _ h => (by cases h)⟩ rfl
    (.inr ⟨⟨_, rfl⟩, .inr ⟨⟨_, rfl⟩, rfl⟩⟩) init_clean (by decide) rfl rfl m

namespace Sample

theorem everywhere_a (t : InputText) (h : (whole 7).buildInput [97, 97] = .ok t) : (whole 7).lex.Everywhere t := by
  obtain ⟨t', h', h1, h2⟩ : ∃ t, (whole 7).buildInput [97, 97] = .ok t ∧ t.bytes = [97, 97] ∧ t.canBow 1 = .ok true :=
    ⟨_, rfl, rfl, rfl⟩
  obtain rfl : t' = t := Except.ok.inj (h'.symm.trans h)
  intro i ws hb hl
  match i with
  | 0 =>
    rw [h1] at hl
    cases hl
    exact ⟨0, 1, by decide, .inr h2⟩
  | 1 =>
    rw [h1] at hl
    cases hl
    exact ⟨0, 2, by decide, .inl (by rw [h1]; decide)⟩
  | i + 2 =>
    unfold InputText.canBow at hb
    rw [h1] at hb
    cases hb

end Sample

/-- `aa`, by `C96_unasked`. -/
example (m : Option Mode) : Sample.faulty.tokenize Lattice.init [97, 97] m = (Sample.whole 7).tokenize Lattice.init [97, 97] m :=
  C96_unasked (Sample.faulty_fits 7) .nil .nil _ _ _ Sample.everywhere_a

/-- `aab` raises and `aba` does not if `a` is a mark. -/
example : (LateInput.psm [97] (.error .attribute)).rewrite id id (Builder.init [97, 97, 98]) = .error .attribute ∧
    (LateInput.psm [97] (.error .attribute)).rewrite id id (Builder.init [97, 98, 97]) = .ok (Builder.init [97, 98, 97]) := by
  refine ⟨(C96_symbol id id [97] .attribute _).1 ⟨[], 97, 97, [98], rfl, by decide, by decide⟩, (C96_symbol id id [97] .attribute _).2 ?_⟩
  rintro ⟨pre, a, b, post, h, ha, hb⟩
  obtain rfl := List.mem_singleton.1 ha
  obtain rfl := List.mem_singleton.1 hb
  match pre, h with
  | [], h => cases h
  | [_], h => cases h
  | [_, _], h => cases h
  | a :: b :: c :: pre, h =>
    have := congrArg List.length (show [97, 98, 97] = a :: b :: c :: pre ++ 97 :: 97 :: post from h)
    simp only [List.length_cons, List.length_append, List.length_nil] at this
    omega

/-- An unknown word, and one of the dictionary, with a length that is no number: `C96_length`. -/
example (t : InputText) (ht : t.codePointCount 0 1 = .ok 1) (L : Lattice) (d : NodeData) :
    (LatePath.katakana 7 fun _ => .error .type).rewrite Sample.onlyA 9 t L [{ d with oov := true }] =
      (PathPlugin.katakana ⟨7, 2⟩).rewrite Sample.onlyA 9 t L [{ d with oov := true }] ∧
    (LatePath.katakana 7 fun _ => .error .type).rewrite Sample.onlyA 9 t L [{ d with oov := false, begin_ := 0, end_ := 1 }] = .error .type :=
  ⟨(C96_length 7 _ _ _ _ _ _).1 (fun d' h => by rw [List.mem_singleton.1 h]) 2,
    (C96_length 7 _ _ _ _ _ _).2 _ [] 1 _ rfl rfl ht rfl⟩

end Sudachi
