/-
Properties of whole calls of the tokenizer: C01-C03, C18-C20, C22, C33, C54, C56.
-/
import Verif.Lemmas.Tokenizer5
namespace Sudachi

namespace DemoTok

/-- The words of `ws`, numbered from `k`, that begin at `i`. -/
def matchesAt (bytes : Bytes) (i : Nat) : List Bytes → Nat → List (Nat × Nat)
  | [], _ => []
  | w :: ws, k =>
    if w ≠ [] ∧ w.isPrefixOf (bytes.drop i) = true then (k, i + w.length) :: matchesAt bytes i ws (k + 1) else matchesAt bytes i ws (k + 1)

theorem matchesAt_inside (bytes : Bytes) (i : Nat) (hi : i < bytes.length) : ∀ (ws : List Bytes) (k w e : Nat),
    (w, e) ∈ matchesAt bytes i ws k → i < e ∧ e ≤ bytes.length := by
  intro ws
  induction ws with
  | nil => intro k w e h; cases h
  | cons x ws ih =>
    intro k w e h
    rw [matchesAt] at h
    split at h
    · rename_i hx
      rcases List.mem_cons.mp h with h | h
      · injection h with h1 h2
        subst h2
        have h3 := (List.isPrefixOf_iff_prefix.mp hx.2).length_le
        have h4 := List.length_pos_iff.mpr hx.1
        rw [List.length_drop] at h3
        omega
      · exact ih _ _ _ h
    · exact ih _ _ _ h

structure Word where
  head : Bytes
  cost : Int
  info : WordInfo

/-- A lexicon from a list of words. -/
def lexOf (ws : List Word) : Lex :=
  ⟨fun bytes i => .ok (matchesAt bytes i (ws.map (·.head)) 0),
   fun w => match ws[w]? with
     | some x => .ok (1, 1, x.cost)
     | none => .error .index,
   fun w => if w < 0 then .error .index else
     match ws[w.toNat]? with
     | some x => .ok x.info
     | none => .error .index⟩

theorem lexOf_ok (ws : List Word) (h : ∀ x ∈ ws, Short x.cost) : (lexOf ws).Ok := by
  constructor
  · intro bytes i r hi hl w e hm
    simp only [lexOf] at hl
    cases hl
    exact matchesAt_inside bytes i hi _ _ w e hm
  · intro w l r c hc
    simp only [lexOf] at hc
    split at hc
    · rename_i x hx
      cases hc
      exact h x (List.mem_of_getElem? hx)
    · cases hc

def info (s : PStr) (n : Nat) (pos : Int) (a : List Int) : WordInfo := ⟨s, n, pos, s, -1, s, s, a, [], [], []⟩

/-- 東京都 = 東京 + 都; the digits 1 and 2 (part of speech 7). -/
def words : List Word :=
  [⟨[230, 157, 177, 228, 186, 172, 233, 131, 189], 100, info [0x6771, 0x4EAC, 0x90FD] 9 1 [1, 2]⟩,
   ⟨[230, 157, 177, 228, 186, 172], 200, info [0x6771, 0x4EAC] 6 1 []⟩,
   ⟨[233, 131, 189], 200, info [0x90FD] 3 1 []⟩,
   ⟨[49], 50, info [49] 1 7 []⟩,
   ⟨[50], 50, info [50] 1 7 []⟩]

def cats : Nat → CatSet := fun c => if 48 ≤ c ∧ c ≤ 57 then [.NUMERIC] else [.KANJI]

/-- Full-width digits become ASCII. -/
def nfkc : PStr → PStr := fun s => s.map (fun c => if 0xFF10 ≤ c ∧ c ≤ 0xFF19 then c - 0xFF10 + 48 else c)

/-- `[[` becomes 東京都 by rewrite.def. -/
def table : RewriteTable := ⟨[], [(91, 2)], [([91, 91], [0x6771, 0x4EAC, 0x90FD])]⟩

def tok : Tokenizer :=
  ⟨cats, id, nfkc, [.default table], fun _ _ => .ok 10, lexOf words, [.simple ⟨0, 0, 30000, 3⟩], [.numeric ⟨7, true⟩], .C, 1000⟩

theorem plugins_ok : tok.PluginsOk := by
  refine ⟨fun c => by simp [tok], fun s hs => by simpa [tok, nfkc] using hs, ?_⟩
  intro marks sym h
  simp [tok] at h

theorem lex_ok : tok.lex.Ok := lexOf_ok words (by simp [words, Short])

/-- "東京都１２[[". -/
def text : PStr := [0x6771, 0x4EAC, 0x90FD, 0xFF11, 0xFF12, 91, 91]

end DemoTok

/-! ## C01 -/

/-- **C01** In mode C the morphemes are consecutive pieces of the original text, from its beginning to its end, and their
surfaces concatenate to it, in every history of the tokenizer, whatever the plugins did. -/
theorem C01_partition (T : Tokenizer) (hp : T.PluginsOk) (hlex : T.lex.Ok) (L : Lattice) (hL : T.History L) (text : PStr)
    (mode : Option Mode) (hm : mode.getD T.mode = .C) (L' : Lattice) (ml : MorphemeList) (h : T.tokenize L text mode = (L', .ok ml)) :
    ∃ spans, ml.Shows spans ∧ Partition text 0 spans ∧ (spans.map (·.2.2)).flatten = text := by
  obtain ⟨spans, h1, h2⟩ := tokenize_partition hp hlex hL (.inl hm) h
  exact ⟨spans, h1, h2, by rw [h2.concat]; rfl⟩

/-- A concrete call: two rewritten stretches, one of them length-changing, and a joined number. -/
example : DemoTok.tok.History Lattice.init ∧ ∃ ml, (DemoTok.tok.tokenize Lattice.init DemoTok.text none).2 = .ok ml ∧
    ml.Shows [(0, 3, [0x6771, 0x4EAC, 0x90FD]), (3, 5, [0xFF11, 0xFF12]), (5, 7, [91, 91])] := by
  refine ⟨.fresh, _, rfl, by decide +kernel, ?_⟩
  intro i b e s h
  match i with
  | 0 => cases h; decide +kernel
  | 1 => cases h; decide +kernel
  | 2 => cases h; decide +kernel
  | n + 3 => simp at h

/-! ## C02 -/

/-- **C02** In every mode, if the dictionary's splits are consistent. -/
theorem C02_partition (T : Tokenizer) (hp : T.PluginsOk) (hlex : T.lex.Ok) (hs : T.lex.SplitsOk) (L : Lattice) (hL : T.History L)
    (text : PStr) (mode : Option Mode) (L' : Lattice) (ml : MorphemeList) (h : T.tokenize L text mode = (L', .ok ml)) :
    ∃ spans, ml.Shows spans ∧ Partition text 0 spans ∧ (spans.map (·.2.2)).flatten = text := by
  obtain ⟨spans, h1, h2⟩ := tokenize_partition hp hlex hL (.inr hs) h
  exact ⟨spans, h1, h2, by rw [h2.concat]; rfl⟩

namespace DemoTok

theorem matchesAt_mem (bytes : Bytes) (i : Nat) : ∀ (ws : List Bytes) (k w e : Nat), (w, e) ∈ matchesAt bytes i ws k →
    k ≤ w ∧ ∃ x, ws[w - k]? = some x ∧ e = i + x.length := by
  intro ws
  induction ws with
  | nil => intro k w e h; cases h
  | cons x ws ih =>
    intro k w e h
    have step : (w, e) ∈ matchesAt bytes i ws (k + 1) → k ≤ w ∧ ∃ y, (x :: ws)[w - k]? = some y ∧ e = i + y.length := by
      intro h
      obtain ⟨h1, y, h2, h3⟩ := ih _ _ _ h
      refine ⟨by omega, y, ?_, h3⟩
      rw [show w - k = (w - (k + 1)) + 1 by omega, List.getElem?_cons_succ]
      exact h2
    rw [matchesAt] at h
    split at h
    · rcases List.mem_cons.mp h with h | h
      · injection h with h1 h2
        subst h1 h2
        exact ⟨Nat.le_refl _, x, by simp, rfl⟩
      · exact step h
    · exact step h

theorem lexOf_head (ws : List Word) (h : ∀ x ∈ ws, x.info.headWordLength = x.head.length) (bytes : Bytes) (i : Nat)
    (r : List (Nat × Nat)) (w e : Nat) (wi : WordInfo) (h1 : (lexOf ws).lookup bytes i = .ok r) (h2 : (w, e) ∈ r)
    (h3 : (lexOf ws).wordInfo w = .ok wi) : wi.headWordLength = e - i := by
  simp only [lexOf] at h1 h3
  cases h1
  obtain ⟨_, x, hx, rfl⟩ := matchesAt_mem _ _ _ _ _ _ h2
  rw [if_neg (by omega)] at h3
  simp only [Nat.sub_zero, List.getElem?_map, Option.map_eq_some_iff] at hx
  obtain ⟨y, hy, rfl⟩ := hx
  simp only [Int.toNat_natCast, hy] at h3
  cases h3
  rw [h y (List.mem_of_getElem? hy)]
  omega

theorem splits_ok : tok.lex.SplitsOk := by
  constructor
  · exact lexOf_head words (by simp [words, info])
  · intro _ _ _ w _ wi _ _ h hl infos hi
    have hmem : ∃ x ∈ words, x.info = wi := by
      simp only [tok, lexOf] at h
      split at h
      · cases h
      · split at h
        · rename_i x hx; cases h; exact ⟨x, List.mem_of_getElem? hx, rfl⟩
        · cases h
    obtain ⟨x, hx, rfl⟩ := hmem
    simp only [words, List.mem_cons, List.not_mem_nil, or_false] at hx
    rcases hx with rfl | rfl | rfl | rfl | rfl
    · have : [(1 : Int), 2].map tok.lex.wordInfo = [info [0x6771, 0x4EAC] 6 1 [], info [0x90FD] 3 1 []].map Except.ok := by decide
      have hi' : [(1 : Int), 2].map tok.lex.wordInfo = infos.map Except.ok := hi
      rw [this] at hi'
      have := (List.map_inj_right (fun a b (h : Except.ok a = Except.ok b) => by injection h)).mp hi'
      subst this
      rfl
    all_goals simp [info] at hl
  · intro _ _ _ w _ wi _ _ h hl infos hi
    have hmem : ∃ x ∈ words, x.info = wi := by
      simp only [tok, lexOf] at h
      split at h
      · cases h
      · split at h
        · rename_i x hx; cases h; exact ⟨x, List.mem_of_getElem? hx, rfl⟩
        · cases h
    obtain ⟨x, hx, rfl⟩ := hmem
    simp only [words, List.mem_cons, List.not_mem_nil, or_false] at hx
    rcases hx with rfl | rfl | rfl | rfl | rfl
    all_goals simp [info] at hl

end DemoTok

/-- A concrete call in mode A on a dictionary with consistent splits (`DemoTok.splits_ok`).  The last morpheme, 都 of the
rewritten `[[`, is empty in the original text. -/
example : ∃ ml, (DemoTok.tok.tokenize Lattice.init DemoTok.text (some .A)).2 = .ok ml ∧
    ml.Shows [(0, 2, [0x6771, 0x4EAC]), (2, 3, [0x90FD]), (3, 5, [0xFF11, 0xFF12]), (5, 7, [91, 91]), (7, 7, [])] := by
  refine ⟨_, rfl, by decide +kernel, ?_⟩
  intro i b e s h
  match i with
  | 0 => cases h; decide +kernel
  | 1 => cases h; decide +kernel
  | 2 => cases h; decide +kernel
  | 3 => cases h; decide +kernel
  | 4 => cases h; decide +kernel
  | n + 5 => simp at h

namespace DemoTok

/-- The same dictionary, except that 東京都 claims to consist of 東京 and 東京. -/
def badTok : Tokenizer :=
  { tok with lex := lexOf (⟨[230, 157, 177, 228, 186, 172, 233, 131, 189], 100, info [0x6771, 0x4EAC, 0x90FD] 9 1 [1, 1]⟩ :: words.tail) }

end DemoTok

/-- **C02, violated without consistency** Nothing checks the split columns.  With an inconsistent one the call succeeds, and
the morphemes overlap or have no end at all. -/
theorem C02_inconsistent_split : DemoTok.badTok.PluginsOk ∧ DemoTok.badTok.lex.Ok ∧
    (∃ ml, (DemoTok.badTok.tokenize Lattice.init [0x6771, 0x4EAC, 0x90FD, 0x90FD] (some .A)).2 = .ok ml ∧
      ml.getSurface 0 = .ok [0x6771, 0x4EAC] ∧ ml.getSurface 1 = .ok [0x90FD, 0x90FD] ∧ ml.getSurface 2 = .ok [0x90FD]) ∧
    (∃ ml, (DemoTok.badTok.tokenize Lattice.init [0x6771, 0x4EAC, 0x90FD] (some .A)).2 = .ok ml ∧ ml.len = 2 ∧
      ml.getEnd 1 = .error .index) := by
  refine ⟨⟨DemoTok.plugins_ok.1, DemoTok.plugins_ok.2, DemoTok.plugins_ok.3⟩, DemoTok.lexOf_ok _ (by simp [DemoTok.words, Short]), ⟨_, rfl, ?_⟩, _, rfl, ?_⟩
  · decide +kernel
  · decide +kernel

/-! ## C03 -/

/-- **C03** Whatever the mode and the dictionary, `begin() <= end() <= len(text)` and `surface()` is `text[begin():end()]`
wherever they are defined (by C01 and C02 they are defined for every morpheme unless a split is inconsistent). -/
theorem C03_offsets (T : Tokenizer) (hp : T.PluginsOk) (hlex : T.lex.Ok) (L : Lattice) (hL : T.History L) (text : PStr)
    (mode : Option Mode) (L' : Lattice) (ml : MorphemeList) (h : T.tokenize L text mode = (L', .ok ml)) (i b e : Nat)
    (hb : ml.getBegin i = .ok b) (he : ml.getEnd i = .ok e) :
    i < ml.len ∧ b ≤ e ∧ e ≤ text.length ∧ ml.getSurface i = .ok ((text.take e).drop b) := by
  rcases tokenize_run hp h with ⟨rfl, _, rfl⟩ | ⟨_, hr⟩
  · cases hb
  · obtain ⟨t, path, _, h1, h2, h3, _⟩ := run_spec hlex (hL.sane hp hlex) hr
    obtain ⟨_, h4⟩ := run_sound hlex (hL.sane hp hlex) hr
    have hs : ml.getSurface i = .ok ((text.take e).drop b) := by
      simp only [MorphemeList.getSurface, hb, he, bind, Except.bind, pure, Except.pure, MorphemeList.inputText, h3, h2, pySlice]
    simp only [MorphemeList.getBegin, MorphemeList.getEnd, MorphemeList.inputText, h3, bind, Except.bind] at hb he
    cases hd : pyGet ml.path i with
    | error x => rw [hd] at hb; cases hb
    | ok d =>
      rw [hd] at hb he
      obtain ⟨g1, g2⟩ := pyGet_ok hb
      obtain ⟨g3, g4⟩ := pyGet_ok he
      have hle := (h4 d (pyGet_mem hd)).order
      refine ⟨(pyGet_ok hd).1, h1.le hle g2 g4, ?_, hs⟩
      obtain ⟨o, ho, hle'⟩ := h1.get (i := d.end_) (by have := h1.len; omega)
      rw [g4] at ho
      injection ho with ho
      rw [ho, ← h2]
      exact hle'

example : ∃ ml, (DemoTok.tok.tokenize Lattice.init DemoTok.text (some .A)).2 = .ok ml ∧ ml.getBegin 3 = .ok 5 ∧ ml.getEnd 3 = .ok 7 :=
  ⟨_, rfl, by decide +kernel, by decide +kernel⟩

/-! ## C18 -/

/-- **C18** After successful calls only, the outcome of the next call (a result or an exception) is that of a fresh tokenizer. -/
theorem C18_stateless (T : Tokenizer) (hp : T.PluginsOk) (hlex : T.lex.Ok) (L : Lattice) (hL : T.CleanHistory L) (text : PStr)
    (mode : Option Mode) : (T.tokenize L text mode).2 = (T.tokenize Lattice.init text mode).2 :=
  tokenize_same hp hlex (hL.clean hp hlex) init_clean text mode

/-- A history: the lattice has grown and is used again. -/
example : ∃ L, DemoTok.tok.CleanHistory L ∧ 13 < L.endLists.length :=
  ⟨_, .call (ml := _) DemoTok.text none .fresh rfl, by decide +kernel⟩

/-! ## C19 -/

namespace DemoTok

/-- Words x, y, z; x (right id 5) may not end the sentence and may not be followed by left id 0. -/
def staleTok : Tokenizer :=
  { tok with
    inputPlugins := [], pathPlugins := []
    lex := ⟨fun bytes i => .ok (matchesAt bytes i [[120], [121], [122]] 0), fun w => if w = 0 then .ok (0, 5, 10) else if w = 1 then .ok (0, 0, 10) else .ok (1, 0, 10),
      fun w => if w = 0 then .ok (info [120] 1 1 []) else if w = 1 then .ok (info [121] 1 1 []) else .ok (info [122] 1 1 [])⟩
    conn := fun l r => if l = 0 ∧ r = 5 then .ok 0x7fff else .ok 0 }

theorem stale_ok : staleTok.PluginsOk ∧ staleTok.lex.Ok := by
  refine ⟨⟨plugins_ok.1, plugins_ok.2, fun marks sym h => by cases h⟩, ?_, ?_⟩
  · intro bytes i r hi hl w e hm
    simp only [staleTok] at hl
    cases hl
    exact matchesAt_inside bytes i hi _ _ w e hm
  · intro w l r c hc
    simp only [staleTok] at hc
    repeat' split at hc
    all_goals cases hc; simp [Short]

end DemoTok

/-- **C19, violated** A failed call leaves its nodes in the lattice.  Here the call on "x" raises; the same tokenizer then
analyses "yz" as the words x and z, a fresh one as y and z. -/
theorem C19_violated : DemoTok.staleTok.PluginsOk ∧ DemoTok.staleTok.lex.Ok ∧
    ∃ L ml ml', DemoTok.staleTok.tokenize Lattice.init [120] none = (L, .error .attribute) ∧
      (DemoTok.staleTok.tokenize L [121, 122] none).2 = .ok ml ∧ (DemoTok.staleTok.tokenize Lattice.init [121, 122] none).2 = .ok ml' ∧
      ml.getWordInfo DemoTok.staleTok.lex 0 = .ok (DemoTok.info [120] 1 1 []) ∧ ml.getSurface 0 = .ok [121] ∧
      ml'.getWordInfo DemoTok.staleTok.lex 0 = .ok (DemoTok.info [121] 1 1 []) :=
  ⟨DemoTok.stale_ok.1, DemoTok.stale_ok.2, _, _, _, rfl, rfl, rfl, by decide +kernel, by decide +kernel, by decide +kernel⟩

/-- **C19, what remains true (partial)** Even then the next result is a partition of the next text in mode C; missing is that it
equals the result of a fresh tokenizer, which `C19_violated` refutes. -/
theorem C19_still_partition_partial (T : Tokenizer) (hp : T.PluginsOk) (hlex : T.lex.Ok) (L L1 : Lattice) (hL : T.History L) (failed : PStr)
    (m : Option Mode) (x : Err) (hf : T.tokenize L failed m = (L1, .error x)) (text : PStr)
    (L' : Lattice) (ml : MorphemeList) (h : T.tokenize L1 text (some .C) = (L', .ok ml)) :
    ∃ spans, ml.Shows spans ∧ Partition text 0 spans :=
  tokenize_partition hp hlex (.call failed m hL hf) (.inl rfl) h

/-- **C19 (partial)** Failures before the lattice is used (in building the input text) or after it is cleared (in splitting) do not
influence later calls.  Missing are the failures in between, for which the claim is false. -/
theorem C19_harmless_partial (T : Tokenizer) (hp : T.PluginsOk) (hlex : T.lex.Ok) (L : Lattice) (hL : T.HarmlessHistory L) (text : PStr)
    (mode : Option Mode) : (T.tokenize L text mode).2 = (T.tokenize Lattice.init text mode).2 := by
  refine tokenize_same hp hlex ?_ init_clean text mode
  induction hL with
  | fresh => exact init_clean
  | @call L L' L'' r ml text mode _ h hC ih =>
    have h1 := tokenize_clean hp hlex ih hC
    have h2 := (tokenize_modes (T := T) L text (mode.getD T.mode)).1
    have h3 : T.tokenize L text (some (mode.getD T.mode)) = T.tokenize L text mode := by
      cases mode <;> rfl
    rw [h3, h, hC] at h2
    dsimp only at h2
    rw [h2]
    exact h1
  | @unbuilt L L' r x text mode _ h hb ih =>
    unfold Tokenizer.tokenize at h
    rw [hb] at h
    split at h <;> (cases h; exact ih)

/-- A surrogate cannot be encoded: such a failure is harmless. -/
example : ∃ L, DemoTok.tok.HarmlessHistory L :=
  ⟨_, .unbuilt (x := .unicode) [0xD800] none (.call (r := _) (ml := _) DemoTok.text (some .B) .fresh rfl rfl) rfl rfl⟩

/-! ## C20 -/

/-- **C20** In every history, while a text is analysed the lattice has room for each of its positions: after `resize`
and after any number of positions, whether or not an exception ended the loop. -/
theorem C20_large_enough (T : Tokenizer) (hp : T.PluginsOk) (hlex : T.lex.Ok) (L : Lattice) (hL : T.History L) (text : PStr)
    (t : InputText) (ht : T.buildInput text = .ok t) (k : Nat) (hk : k ≤ t.bytes.length) (M : Lattice) (r : Res Unit)
    (h : buildLoop T.conn T.lex T.oov t (List.range k) (L.resize t.bytes.length) = (M, r)) :
    M.size = t.bytes.length ∧ ∀ e, e ≤ t.bytes.length → ∃ ns, M.endLists[e]? = some ns := by
  obtain ⟨bd, b1, b2, _, B, _⟩ := buildInput_built hp ht
  obtain ⟨h1, h2, h3, h4⟩ := (hL.sane hp hlex).resize t.bytes.length
  obtain ⟨g1, _, g2, g3, g4, g5⟩ := (simulates_sane (conn := T.conn) (lex := T.lex) t.bytes.length).buildLoop (lex := T.lex) (plugins := T.oov)
    (t := t) (is := List.range k) (fun i hi => ⟨by have := List.mem_range.mp hi; omega, fun hbow => B.goodAt hlex T.oov hbow⟩) ⟨rfl, h1, h2, h3, h4⟩
  rw [h] at g3 g4
  exact ⟨g4, fun e he => ⟨_, List.getElem?_eq_getElem (by dsimp only at g3; omega)⟩⟩

/-- **C20** Where there is room, inserting a node reads and writes existing lists only: its outcome is that of connecting
it to the nodes ending at its beginning, and the number of lists stays the same. -/
theorem C20_insert_in_range (conn : Conn) (M : Lattice) (n : Nat) (hM : n < M.endLists.length) (d : NodeData) (hb : d.begin_ ≤ n)
    (he : d.end_ ≤ n) : ∃ prevs, M.endLists[d.begin_]? = some prevs ∧
      (M.insert conn d).2 = (connectNode conn d prevs).map (fun _ => ()) ∧ (M.insert conn d).1.endLists.length = M.endLists.length := by
  have h1 : d.begin_ < M.endLists.length := by omega
  have h2 : d.end_ < M.endLists.length := by omega
  refine ⟨_, List.getElem?_eq_getElem h1, ?_, (insert_frame rfl).2.2.2⟩
  unfold Lattice.insert
  rw [List.getElem?_eq_getElem h1, List.getElem?_eq_getElem h2]
  dsimp only
  cases connectNode conn d M.endLists[d.begin_] <;> rfl

/-- **C20** `clear` never fails. -/
theorem C20_clear (T : Tokenizer) (hp : T.PluginsOk) (hlex : T.lex.Ok) (L : Lattice) (hL : T.History L) : L.clear.2 = .ok () := by
  obtain ⟨L', h, _⟩ := (hL.sane hp hlex).clear
  rw [h]

/-- A history with a longer, a failed and a shorter text. -/
example : ∃ L, DemoTok.staleTok.History L ∧ L.size = 1 ∧ L.endLists.length = 3 :=
  ⟨_, .call (r := .error .attribute) [120] none (.call (r := _) [121, 122] none .fresh rfl) rfl, by decide +kernel, by decide +kernel⟩

/-! ## C22 -/

/-- **C22** Empty text gives the empty list, with any lattice and in any mode, and leaves the lattice alone. -/
theorem C22_empty (T : Tokenizer) (L : Lattice) (mode : Option Mode) :
    T.tokenize L [] mode = (L, .ok .empty) ∧ MorphemeList.empty.len = 0 ∧ MorphemeList.empty.iter = [] := ⟨rfl, rfl, rfl⟩

/-- **C22** The empty list has no text and no nodes: asking it for a place in the text is an `AttributeError`, asking it for a node or a
morpheme an `IndexError`. -/
theorem C22_nothing (lex : Lex) (i : Nat) (k : Int) :
    MorphemeList.empty.getItem k = .error .index ∧ MorphemeList.empty.getBegin i = .error .attribute ∧
    MorphemeList.empty.getEnd i = .error .attribute ∧ MorphemeList.empty.getSurface i = .error .attribute ∧
    MorphemeList.empty.getWordInfo lex i = .error .index ∧ MorphemeList.empty.isOov i = .error .index ∧
    MorphemeList.empty.wordId i = .error .index := by
  refine ⟨?_, rfl, rfl, rfl, rfl, rfl, rfl⟩
  unfold MorphemeList.getItem MorphemeList.empty
  rw [if_pos]
  dsimp only [List.length_nil]
  omega

/-- **C22** Only empty text does. -/
theorem C22_only_empty (T : Tokenizer) (hp : T.PluginsOk) (hlex : T.lex.Ok) (L : Lattice) (hL : T.History L) (text : PStr)
    (mode : Option Mode) (L' : Lattice) (ml : MorphemeList) (h : T.tokenize L text mode = (L', .ok ml)) : ml.len = 0 ↔ text = [] := by
  rcases tokenize_run hp h with ⟨rfl, _, rfl⟩ | ⟨hne, hr⟩
  · exact ⟨fun _ => rfl, fun _ => rfl⟩
  · have := (run_sound hlex (hL.sane hp hlex) hr).1
    refine ⟨fun h0 => absurd (List.length_eq_zero_iff.mp h0) this, fun h0 => absurd h0 hne⟩

/-! ## C33 -/

/-- **C33** Tokenizing in mode `m` gives the morphemes obtained by tokenizing in mode C and splitting each morpheme in
mode `m`; the lattice afterwards is the same. -/
theorem C33_split_agrees (T : Tokenizer) (L L' : Lattice) (text : PStr) (m : Mode) (mlC : MorphemeList)
    (hC : T.tokenize L text (some .C) = (L', .ok mlC)) (ms : List (MorphemeList × Nat)) (hs : mlC.splitAll T.lex m mlC.iter = .ok ms) :
    ∃ ml, T.tokenize L text (some m) = (L', .ok ml) ∧ ml.iter.map ml.node = ms.map (fun x => x.1.node x.2) := by
  obtain ⟨h1, h2⟩ := tokenize_modes (T := T) L text m
  rw [hC] at h1 h2
  dsimp only [Except.bind] at h1 h2
  rw [MorphemeList.iter, List.range_eq_range'] at hs
  have hpair : ∀ r, (T.tokenize L text (some m)).2 = r → T.tokenize L text (some m) = (L', r) := by
    intro r hr; rw [← hr, ← h1]
  by_cases hm : m = .C
  · subst hm
    refine ⟨mlC, hC, ?_⟩
    rw [splitAll_C _ _ (by omega) ms hs, MorphemeList.iter, List.range_eq_range']
  · have := splitAll_same (lex := T.lex) (ml := mlC) hm mlC.path.length 0 (by omega)
    rw [hs, List.drop_zero] at this
    unfold splitPath at h2
    rw [if_neg hm] at h2
    cases hn : splitNodes T.lex m mlC.path with
    | error x => rw [hn] at this; exact this.elim
    | ok nodes =>
      rw [hn] at this h2
      refine ⟨_, hpair _ h2, ?_⟩
      rw [iter_nodes]
      exact this.symm

/-- **C33, exceptions** If tokenizing in mode C fails, so does mode `m`, in the same way. If splitting the morphemes in mode A or B
raises, tokenizing in that mode raises the same exception. -/
theorem C33_errors_agree (T : Tokenizer) (L L' : Lattice) (text : PStr) (m : Mode) :
    (∀ x, T.tokenize L text (some .C) = (L', .error x) → T.tokenize L text (some m) = (L', .error x)) ∧
    (∀ mlC x, T.tokenize L text (some .C) = (L', .ok mlC) → m ≠ .C → mlC.splitAll T.lex m mlC.iter = .error x →
      T.tokenize L text (some m) = (L', .error x)) := by
  obtain ⟨h1, h2⟩ := tokenize_modes (T := T) L text m
  constructor
  · intro x hx
    rw [hx] at h1 h2
    dsimp only [Except.bind] at h1 h2
    rw [← h1, ← h2]
  · intro mlC x hC hm hs
    rw [hC] at h1 h2
    dsimp only [Except.bind] at h1 h2
    rw [MorphemeList.iter, List.range_eq_range'] at hs
    have := splitAll_same (lex := T.lex) (ml := mlC) hm mlC.path.length 0 (by omega)
    rw [hs, List.drop_zero] at this
    unfold splitPath at h2
    rw [if_neg hm] at h2
    cases hn : splitNodes T.lex m mlC.path with
    | ok x => rw [hn] at this; exact this.elim
    | error y =>
      rw [hn] at this h2
      have hyx : y = x := this
      subst hyx
      have h2' : (T.tokenize L text (some m)).2 = .error y := h2
      rw [← h1, ← h2']

/-- **C33** Morphemes with the same input text and node are indistinguishable by every accessor. -/
theorem C33_same_node (lex : Lex) (a b : MorphemeList) (i j : Nat) (h : a.node i = b.node j) :
    a.getBegin i = b.getBegin j ∧ a.getEnd i = b.getEnd j ∧ a.getSurface i = b.getSurface j ∧
    a.getWordInfo lex i = b.getWordInfo lex j ∧ a.isOov i = b.isOov j ∧ a.wordId i = b.wordId j ∧ a.dictionaryId i = b.dictionaryId j := by
  unfold MorphemeList.node at h
  injection h with h1 h2
  have hb : a.getBegin i = b.getBegin j := by simp only [MorphemeList.getBegin, MorphemeList.inputText, pyGet, h1, h2]
  have he : a.getEnd i = b.getEnd j := by simp only [MorphemeList.getEnd, MorphemeList.inputText, pyGet, h1, h2]
  refine ⟨hb, he, ?_, ?_, ?_, ?_, ?_⟩
  · simp only [MorphemeList.getSurface, hb, he, MorphemeList.inputText, h1]
  · simp only [MorphemeList.getWordInfo, pyGet, h2]
  · simp only [MorphemeList.isOov, pyGet, h2]
  · simp only [MorphemeList.wordId, pyGet, h2]
  · simp only [MorphemeList.dictionaryId, pyGet, h2]

example : ∃ ml ms, (DemoTok.tok.tokenize Lattice.init DemoTok.text (some .C)).2 = .ok ml ∧ ml.splitAll DemoTok.tok.lex .A ml.iter = .ok ms ∧
    ml.len = 3 ∧ ms.length = 5 := ⟨_, _, rfl, rfl, by decide +kernel, by decide +kernel⟩

/-! ## C54 -/

/-- **C54** `ms[i]` exists exactly for `-len <= i < len`, is the morpheme `i` or `len + i`, and is otherwise an `IndexError`. -/
theorem C54_getItem (ml : MorphemeList) (i : Int) :
    (∀ k, ml.getItem i = .ok k ↔ k < ml.len ∧ ((0 ≤ i ∧ i = k) ∨ (i < 0 ∧ (ml.len : Int) + i = k))) ∧
    (ml.getItem i = .error .index ↔ ¬ (-(ml.len : Int) ≤ i ∧ i < ml.len)) ∧
    (i < 0 → -(ml.len : Int) ≤ i → ml.getItem i = ml.getItem (ml.len + i)) := by
  unfold MorphemeList.getItem MorphemeList.len
  by_cases h1 : i ≥ ml.path.length ∨ i < -(ml.path.length : Int)
  · rw [if_pos h1]
    refine ⟨fun k => ⟨fun h => (by cases h), fun h => by omega⟩, ⟨fun _ => by omega, fun _ => rfl⟩, fun h2 h3 => by omega⟩
  · rw [if_neg h1]
    by_cases h2 : i < 0
    · rw [if_pos h2]
      refine ⟨fun k => ⟨fun h => ?_, fun h => ?_⟩, ⟨fun h => (by cases h), fun h => by omega⟩, fun _ h3 => ?_⟩
      · injection h with h; omega
      · congr 1; omega
      · rw [if_neg (by omega), if_neg (by omega)]
    · rw [if_neg h2]
      refine ⟨fun k => ⟨fun h => ?_, fun h => ?_⟩, ⟨fun h => (by cases h), fun h => by omega⟩, fun h3 => absurd h3 h2⟩
      · injection h with h; omega
      · congr 1; omega

/-- **C54** Iteration gives `ms[0]`, ..., `ms[len - 1]`. -/
theorem C54_iter (ml : MorphemeList) : ml.iter.length = ml.len ∧ ∀ i, i < ml.len → ∃ k, ml.iter[i]? = some k ∧ ml.getItem (i : Int) = .ok k := by
  refine ⟨by simp [MorphemeList.iter, MorphemeList.len], ?_⟩
  intro i hi
  exact ⟨i, List.getElem?_range hi, ((C54_getItem ml i).1 i).mpr ⟨hi, .inl ⟨by omega, rfl⟩⟩⟩

example : MorphemeList.getItem ⟨none, [NodeData.blank, NodeData.blank]⟩ (-1) = .ok 1 ∧
    MorphemeList.getItem ⟨none, [NodeData.blank, NodeData.blank]⟩ (-3) = .error .index := by decide

/-! ## C56 -/

/-- **C56** A morpheme reported as OOV has dictionary id -1; a morpheme with another dictionary id is not OOV and has the
word info of its word id. In every history and mode. -/
theorem C56_oov (T : Tokenizer) (hp : T.PluginsOk) (hlex : T.lex.Ok) (L : Lattice) (hL : T.History L) (text : PStr)
    (mode : Option Mode) (L' : Lattice) (ml : MorphemeList) (h : T.tokenize L text mode = (L', .ok ml)) (i : Nat) :
    (ml.isOov i = .ok true → ml.dictionaryId i = .ok (-1)) ∧
    (∀ k, ml.dictionaryId i = .ok k → 0 ≤ k → ml.isOov i = .ok false ∧ ∃ w, ml.wordId i = .ok w ∧ w / 2 ^ 28 = k ∧
      ml.getWordInfo T.lex i = T.lex.wordInfo w) := by
  have hs : ∀ d ∈ ml.path, Sound d := by
    rcases tokenize_run hp h with ⟨rfl, _, rfl⟩ | ⟨_, hr⟩
    · intro d hd; cases hd
    · exact (run_sound hlex (hL.sane hp hlex) hr).2
  unfold MorphemeList.isOov MorphemeList.dictionaryId MorphemeList.wordId MorphemeList.getWordInfo
  cases hd : pyGet ml.path i with
  | error x => exact ⟨fun h => (by cases h), fun k h => (by cases h)⟩
  | ok d =>
    obtain ⟨_, h2, h3⟩ := hs d (pyGet_mem hd)
    simp only [bind, Except.bind, pure, Except.pure, nodeDictionaryId, nodeWordInfo, h2, Bool.not_true, Bool.false_or, Bool.false_eq_true, if_false]
    constructor
    · intro ho
      injection ho with ho
      rw [if_pos (h3 ho)]
    · intro k hk hk0
      injection hk with hk
      cases hx : d.extra with
      | some w => rw [hx] at hk; simp at hk; omega
      | none =>
        rw [hx] at hk h3
        simp at hk
        refine ⟨?_, d.wordId, rfl, hk, rfl⟩
        cases ho : d.oov with
        | false => rfl
        | true => cases h3 ho

/-- **C56, the converse fails** The joined number has dictionary id -1 and is not OOV; its neighbour 東京都 is word 0 of
dictionary 0. -/
theorem C56_joined_number : ∃ ml, (DemoTok.tok.tokenize Lattice.init DemoTok.text none).2 = .ok ml ∧
    ml.dictionaryId 1 = .ok (-1) ∧ ml.isOov 1 = .ok false ∧ ml.dictionaryId 0 = .ok 0 ∧ ml.isOov 0 = .ok false :=
  ⟨_, rfl, by decide +kernel⟩

/-- An OOV morpheme. -/
example : ∃ ml, (DemoTok.tok.tokenize Lattice.init [0x6D77] none).2 = .ok ml ∧ ml.isOov 0 = .ok true ∧ ml.dictionaryId 0 = .ok (-1) :=
  ⟨_, rfl, by decide +kernel⟩

end Sudachi
