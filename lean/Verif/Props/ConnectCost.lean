/-
C78: pairs of ids that may not be neighbours.
-/
import Verif.Lemmas.ConnectCost
import Verif.Props.Lattice
import Verif.Props.Open
namespace Sudachi

/-- **C78** On a grammar whose matrix can be written, the plugin succeeds exactly when each of the items is too short to be looked at or
names a cell; then the named cells say that the connection is inhibited and nothing else has changed. -/
theorem C78_edit (g : Grammar) (hg : g.Full) (ps : List Json) :
    ((∃ g', inhibitEdit userWritable g (.list ps) = .ok g') ↔ ∀ p ∈ ps, p.Short ∨ ∃ l r, p.IsPair l r ∧ g.Has l r) ∧
    ∀ g', inhibitEdit userWritable g (.list ps) = .ok g' → Inhibits g ps g' := by
  rw [inhibitEdit_list]
  exact ⟨inhibitPairs_iff hg, fun _ => inhibitPairs_inhibits hg⟩

/-- **C78** It fails at the first item that is neither too short nor names a cell, with the exception that this item calls for. -/
theorem C78_raises (g : Grammar) (ps : List Json) (e : Err) : inhibitEdit userWritable g (.list ps) = .error e ↔
    ∃ pre p post, ps = pre ++ p :: post ∧ (∀ q ∈ pre, q.Short ∨ ∃ l r, q.IsPair l r ∧ g.Has l r) ∧ g.Refuses p e := by
  rw [inhibitEdit_list]
  exact inhibitPairs_fails

/-- **C78** Then the cells named before that item are inhibited and nothing else has changed: what the exception leaves behind. -/
theorem C78_left_behind (g g' : Grammar) (hg : g.Full) (ps : List Json) (e : Err)
    (h : inhibitEditM userWritable g (.list ps) = (g', .error e)) :
    ∃ pre p post, ps = pre ++ p :: post ∧ (∀ q ∈ pre, q.Short ∨ ∃ l r, q.IsPair l r ∧ g.Has l r) ∧ g.Refuses p e ∧ Inhibits g pre g' := by
  obtain ⟨pre, p, post, rfl, h1, h2⟩ := inhibitPairsM_stops (ps := ps) h
  have hi := inhibitPairs_inhibits hg h1
  refine ⟨pre, p, post, rfl, (inhibitPairs_iff hg).mp ⟨g', h1⟩, ?_, hi⟩
  have hr := inhibitPair_refuses h2
  unfold Grammar.Refuses Grammar.Has at hr ⊢
  rw [hi.left, hi.right] at hr
  exact hr

/-- **C78** The matrix of a system dictionary stays as it is, whatever the setting is and wherever the plugin stops. -/
theorem C78_system_unchanged (g : Grammar) (pairs : Json) : (inhibitEditM systemWritable g pairs).1 = g := by
  have key : ∀ ps : List Json, (inhibitPairsM false g ps).1 = g := by
    intro ps
    induction ps with
    | nil => rfl
    | cons p ps ih =>
      unfold inhibitPairsM
      cases hp : inhibitPair false g p with
      | error e => rfl
      | ok g' =>
        have : g' = g := by
          unfold inhibitPair at hp
          split at hp <;> cases hp <;> rfl
        rw [this]
        exact ih
  unfold inhibitEditM
  split
  · rfl
  · exact key _

/-- **C78** A setting that is no list never changes a cell.  A text, and an object whose keys have at most one character, do nothing;
anything else is a `TypeError`. -/
theorem C78_no_list (writable : Bool) (g : Grammar) (v : Json) (hv : ∀ ps, v ≠ .list ps) :
    (inhibitEditM writable g v).1 = g ∧
    ((inhibitEditM writable g v).2 = .ok () ↔ (∃ s, v = .str s) ∨ ∃ kvs, v = .obj kvs ∧ ∀ kv ∈ kvs, kv.1.length ≤ 1) ∧
    ((inhibitEditM writable g v).2 ≠ .ok () → (inhibitEditM writable g v).2 = .error .type) := by
  have set : ∀ w : Bool, g.setConnectCost w (.error .type) (.error .type) inhibited = .error .type := by
    intro w
    cases w <;> rfl
  have keys : ∀ ks : List PStr, (inhibitPairsM writable g (ks.map .str)).1 = g ∧
      ((inhibitPairsM writable g (ks.map .str)).2 = .ok () ↔ ∀ k ∈ ks, k.length ≤ 1) ∧
      ((inhibitPairsM writable g (ks.map .str)).2 ≠ .ok () → (inhibitPairsM writable g (ks.map .str)).2 = .error .type) := by
    intro ks
    induction ks with
    | nil => exact ⟨rfl, ⟨(fun _ _ h => by cases h), fun _ => rfl⟩, fun h => absurd rfl h⟩
    | cons k ks ih =>
      rw [List.map_cons]
      unfold inhibitPairsM
      match k with
      | [] => simpa [inhibitPair] using ih
      | [a] => simpa [inhibitPair] using ih
      | a :: b :: k => simp [inhibitPair, set]
  match v with
  | .null | .bool _ | .num _ | .real _ => exact ⟨rfl, ⟨(fun h => by cases h), (fun h => by simp at h)⟩, fun _ => rfl⟩
  | .list ps => exact absurd rfl (hv ps)
  | .str s =>
    have h := keys (s.map fun c => [c])
    rw [List.map_map] at h
    refine ⟨h.1, ?_, h.2.2⟩
    refine h.2.1.trans ⟨fun _ => .inl ⟨s, rfl⟩, fun _ k hk => ?_⟩
    obtain ⟨c, _, rfl⟩ := List.mem_map.1 hk
    exact Nat.le_refl _
  | .obj kvs =>
    have h := keys (kvs.map (·.1))
    rw [List.map_map] at h
    refine ⟨h.1, h.2.1.trans ⟨fun hk => .inr ⟨kvs, rfl, fun kv hkv => hk _ (List.mem_map_of_mem hkv)⟩, ?_⟩, h.2.2⟩
    rintro (⟨s, hs⟩ | ⟨kvs', hs, hk⟩)
    · cases hs
    · cases hs
      intro k hk'
      obtain ⟨kv, h1, rfl⟩ := List.mem_map.1 hk'
      exact hk kv h1

/-- An object with a key of two characters, and a number. -/
example (g : Grammar) : (inhibitEditM userWritable g (.obj [([97], .null), ([97, 98], .null)])).2 = .error .type ∧
    (inhibitEditM userWritable g (.num 3)).2 = .error .type ∧ (inhibitEditM userWritable g (.str [97, 98])).2 = .ok () := by
  refine ⟨(C78_no_list _ g _ (fun _ h => by cases h)).2.2 fun h => ?_, (C78_no_list _ g _ (fun _ h => by cases h)).2.2 fun h => ?_,
    (C78_no_list _ g _ (fun _ h => by cases h)).2.1.2 (.inl ⟨_, rfl⟩)⟩
  · rcases (C78_no_list _ g _ (fun _ h => by cases h)).2.1.1 h with ⟨_, h⟩ | ⟨_, h, hk⟩
    · cases h
    · cases h
      exact absurd (hk ([97, 98], .null) (by simp)) (by decide)
  · rcases (C78_no_list _ g _ (fun _ h => by cases h)).2.1.1 h with ⟨_, h⟩ | ⟨_, h, _⟩ <;> cases h

/-- **C78** `set_connect_cost` with any cost: it succeeds for the cells of the matrix and the costs of 16 bits, and sets that cell alone;
a cell with another cost is a `ValueError`. -/
theorem C78_set (g : Grammar) (hg : g.Full) (l r cost : Int) :
    ((∃ g', g.setConnectCost true (.ok l) (.ok r) cost = .ok g') ↔ g.Has l r ∧ -2 ^ 15 ≤ cost ∧ cost < 2 ^ 15) ∧
    (∀ g', g.setConnectCost true (.ok l) (.ok r) cost = .ok g' → ∀ l' r',
      (g.Same l r l' r' → g'.getConnectCost l' r' = .ok cost) ∧ (¬ g.Same l r l' r' → g'.getConnectCost l' r' = g.getConnectCost l' r')) ∧
    (g.setConnectCost true (.ok l) (.ok r) cost = .error .value ↔ g.Has l r ∧ ¬ (-2 ^ 15 ≤ cost ∧ cost < 2 ^ 15)) :=
  setConnectCost_all hg

/-- **C78** The grammar of every dictionary file has as many cells as its sizes say. -/
theorem C78_full (b : Bytes) (offset : Nat) (g : Grammar) (h : Grammar.read b offset = .ok g) : g.Full := grammar_full h

/-- **C78** Afterwards the sequences of words that may follow each other are those of before without the named pairs, at the same cost. -/
theorem C78_paths (g g' : Grammar) (ps : List Json) (h : Inhibits g ps g') (C : NodeData → Prop) (n : Nat) (p : List NodeData) (cost : Int) :
    IsPath g'.cell C n p cost ↔ IsPath g.cell C n p cost ∧ Avoids (g.Named ps) 0 p := by
  unfold IsPath
  rw [pathCost_inhibited h]
  exact ⟨fun ⟨a, b, c, d⟩ => ⟨⟨a, b, c⟩, d⟩, fun ⟨⟨a, b, c⟩, d⟩ => ⟨a, b, c, d⟩⟩

theorem Inhibits.short {g g' : Grammar} {ps : List Json} (h : Inhibits g ps g') (hg : Conn.Short g.cell) : Conn.Short g'.cell := by
  intro l r k hk
  by_cases hn : g.Named ps r l
  · have := h.named r l hn
    unfold Grammar.getConnectCost at this
    rw [this] at hk
    cases hk
    unfold Short
    decide
  · have := h.others r l hn
    unfold Grammar.getConnectCost at this
    rw [this] at hk
    exact hg l r k hk

/-- **C78** What is found afterwards has none of the pairs, and is the cheapest, at the costs of before, of all that have none; if there is
no such sequence nothing is found. -/
theorem C78_best (bd : Builder) (hv : bd.Valid) (catOf : Nat → CatSet) (t : InputText)
    (hb : bd.build catOf = .ok t) (g g' : Grammar) (hconn : Conn.Short g.cell) (ps : List Json) (hi : Inhibits g ps g')
    (lex : Lex) (hlex : lex.Ok) (plugins : List OovPlugin) (hpl : ∀ p ∈ plugins, p.Short) (hs : SafeLength t.bytes.length)
    (L L' : Lattice) (hL : L.Clean) (h : buildLattice g'.cell lex plugins t L = (L', .ok ())) :
    (∀ p, L'.getBestPath = .ok p → ∃ cost, IsPath g.cell L'.Cand t.bytes.length p cost ∧ Avoids (g.Named ps) 0 p ∧
      ∀ p' cost', IsPath g.cell L'.Cand t.bytes.length p' cost' → Avoids (g.Named ps) 0 p' → cost ≤ cost') ∧
    (L'.getBestPath = .error .attribute ↔ ¬ ∃ p cost, IsPath g.cell L'.Cand t.bytes.length p cost ∧ Avoids (g.Named ps) 0 p) := by
  have hsh := hi.short hconn
  constructor
  · intro p hp
    obtain ⟨cost, h1, h2⟩ := C14_cheapest_path bd hv catOf t hb _ hsh lex hlex plugins hpl hs L L' hL h p hp
    obtain ⟨a1, a2⟩ := (C78_paths g g' ps hi _ _ _ _).mp h1
    exact ⟨cost, a1, a2, fun p' cost' b1 b2 => h2 p' cost' ((C78_paths g g' ps hi _ _ _ _).mpr ⟨b1, b2⟩)⟩
  · rw [(C16_fails_iff_no_path bd hv catOf t hb _ hsh lex hlex plugins hpl hs L L' hL h).1]
    simp only [C78_paths g g' ps hi]

/-- **C78** The matrix of a system dictionary cannot be written: a single item that is long enough ends the plugin with an exception. -/
theorem C78_system (g : Grammar) (ps : List Json) (p : Json) (hp : p ∈ ps) (hs : ¬ p.Short) :
    ∀ g', inhibitEdit systemWritable g (.list ps) ≠ .ok g' := by
  have one : ∀ g g' q, inhibitPair false g q = .ok g' → q.Short ∧ g' = g := by
    intro g g' q h
    match q with
    | .list (x :: y :: rest) => cases h
    | .str (x :: y :: rest) => cases h
    | .obj (x :: y :: rest) => cases h
    | .null | .bool _ | .num _ => cases h
    | .list [] => cases h; exact ⟨.inl ⟨_, rfl, by decide⟩, rfl⟩
    | .list [x] => cases h; exact ⟨.inl ⟨_, rfl, Nat.lt_succ_self 1⟩, rfl⟩
    | .str [] => cases h; exact ⟨.inr (.inl ⟨_, rfl, by decide⟩), rfl⟩
    | .str [x] => cases h; exact ⟨.inr (.inl ⟨_, rfl, Nat.lt_succ_self 1⟩), rfl⟩
    | .obj [] => cases h; exact ⟨.inr (.inr ⟨_, rfl, by decide⟩), rfl⟩
    | .obj [x] => cases h; exact ⟨.inr (.inr ⟨_, rfl, Nat.lt_succ_self 1⟩), rfl⟩
  intro g' h
  rw [inhibitEdit_list] at h
  replace h : inhibitPairs false g ps = .ok g' := h
  induction ps generalizing g with
  | nil => cases hp
  | cons q qs ih =>
    obtain ⟨g1, h1, h2⟩ := bind_ok h
    obtain ⟨a1, rfl⟩ := one _ _ _ h1
    rcases List.mem_cons.mp hp with rfl | hp
    · exact hs a1
    · exact ih _ hp h2

/-- **C78** The pairs are looked for at the top of the settings, not in the object of the plugin; before the settings have been read, that
is an `AttributeError`, and nothing else raises. -/
theorem C78_set_up (s : Settings) :
    (∀ d v, s.dict = some d →
      (inhibitSetUp s = .ok v ↔ Says d (codes "inhibitedPair") v ∨ (Silent d (codes "inhibitedPair") ∧ v = .list []))) ∧
    ∀ x, inhibitSetUp s = .error x ↔ s.dict = none ∧ x = .attribute := by
  have hk : keyInhibited = codes "inhibitedPair" := by decide
  unfold inhibitSetUp
  refine ⟨fun d v hd => ?_, fun x => ?_⟩
  case refine_2 =>
    cases s.dict with
    | none => exact ⟨fun h => ⟨rfl, (Except.error.inj h).symm⟩, fun h => by rw [h.2]⟩
    | some d => exact ⟨fun h => (by cases h), fun h => (by cases h.1)⟩
  rw [hd, hk]
  dsimp only
  cases hf : d.find (codes "inhibitedPair") with
  | none =>
    have hsil := JDict.find_silent.mp hf
    constructor
    · intro h; exact .inr ⟨hsil, (Except.ok.inj h).symm⟩
    · rintro (h | ⟨_, rfl⟩)
      · rw [JDict.find_says.mpr h] at hf; cases hf
      · rfl
  | some w =>
    have hs := JDict.find_says.mp hf
    constructor
    · intro h; cases h; exact .inl hs
    · rintro (h | ⟨h, _⟩)
      · rw [JDict.find_says.mpr h] at hf; cases hf; rfl
      · rw [JDict.find_silent.mpr h] at hf; cases hf

/-- **C78** No setting changes a connection cost: the matrix a tokenizer works with is that of the system dictionary file, whatever the
settings ask for and whatever user dictionaries there are. -/
theorem C78_unused (R : Runtime) (M : Disk) (s s' : Settings) (c r t : Option PStr) (cfg : DictConfig) (dict : Dict)
    (h : openDictionary R M s c r t = (s', .ok (cfg, dict))) :
    ∃ path file sys, s'.systemDictPath = .ok path ∧ M.file path = .ok file ∧ Dict.readSystem file = .ok sys ∧ sys.grammar.Full ∧
      ∀ left right, dict.grammar.getConnectCost left right = sys.grammar.getConnectCost left right := by
  obtain ⟨_, d, dir, file, files, ho⟩ := (C68_opens R M s s' c r t cfg dict).mp h
  obtain ⟨p, h1, h2⟩ := ho.system
  obtain ⟨sys, h3, h4, h5, h6⟩ := load_matrix ho.loaded
  refine ⟨p, file, sys, h1, h2, h3, readSystem_full h3, fun l r => ?_⟩
  unfold Grammar.getConnectCost Grammar.cell
  rw [h4, h5, h6]

namespace Demo

/-- Everything costs 10 but for left id 2 after right id 1. -/
def grammar : Grammar := ⟨[], 3, 3, [10, 10, 10, 10, 10, 10, 10, 50, 10], 0⟩

/-- Right id 1 before left id 2. -/
def pairs : List Json := [.list [.num 1, .num 2]]

def edited : Grammar := { grammar with matrix := [10, 10, 10, 10, 10, 10, 10, 0x7fff, 10] }

theorem grammar_isFull : grammar.Full := by unfold Grammar.Full; decide

theorem edits : inhibitEdit userWritable grammar (.list pairs) = .ok edited := by rfl

/-- The theorem about a single cell: the cost -32768 is one, and 32768 is none. -/
example : (∃ g', grammar.setConnectCost true (.ok 1) (.ok 2) (-32768) = .ok g' ∧ g'.getConnectCost 1 2 = .ok (-32768) ∧
    g'.getConnectCost 2 1 = .ok 10) ∧ grammar.setConnectCost true (.ok 1) (.ok 2) 32768 = .error .value := by
  have hh : grammar.Has 1 2 := ⟨⟨2, by decide, .inl rfl⟩, 1, by decide, .inl rfl⟩
  obtain ⟨g', h⟩ := (C78_set grammar grammar_isFull 1 2 (-32768)).1.2 ⟨hh, by decide, by decide⟩
  have k := (C78_set grammar grammar_isFull 1 2 (-32768)).2.1 g' h
  refine ⟨⟨g', h, (k 1 2).1 ⟨⟨2, ⟨by decide, .inl rfl⟩, by decide, .inl rfl⟩, 1, ⟨by decide, .inl rfl⟩, by decide, .inl rfl⟩,
    ((k 2 1).2 ?_).trans rfl⟩, (C78_set grammar grammar_isFull 1 2 32768).2.2.2 ⟨hh, by decide⟩⟩
  rintro ⟨⟨a, ⟨_, h1⟩, _, h2⟩, _⟩
  have : grammar.left = 3 := rfl
  omega

theorem grammar_short : Conn.Short grammar.cell := by
  intro l r k h
  unfold Grammar.cell at h
  obtain ⟨a, _, h⟩ := bind_ok h
  obtain ⟨b, _, h⟩ := bind_ok h
  have : k ∈ grammar.matrix := by
    unfold pyGet at h
    split at h
    · rename_i hk; cases h; exact List.mem_of_getElem? hk
    · cases h
  have hall : ∀ k ∈ grammar.matrix, -32768 ≤ k ∧ k ≤ 32767 := by decide
  exact hall k this

/-- Before, 東京 and 都; afterwards 東 and 京都, as 都 may not come after 東京 nor after 京. -/
example : ∃ L L' p p', buildLattice grammar.cell lex plugins input Lattice.init = (L, .ok ()) ∧ L.getBestPath = .ok p ∧
    p.map (·.wordId) = [3, 2] ∧ buildLattice edited.cell lex plugins input Lattice.init = (L', .ok ()) ∧ L'.getBestPath = .ok p' ∧
    p'.map (·.wordId) = [0, 4] := by
  refine ⟨_, _, _, _, rfl, rfl, by decide, rfl, rfl, by decide⟩

/-- The theorem about it. -/
example : ∃ L' p, buildLattice edited.cell lex plugins input Lattice.init = (L', .ok ()) ∧ L'.getBestPath = .ok p ∧
    ∃ cost, IsPath grammar.cell L'.Cand 9 p cost ∧ Avoids (grammar.Named pairs) 0 p ∧
      ∀ p' cost', IsPath grammar.cell L'.Cand 9 p' cost' → Avoids (grammar.Named pairs) 0 p' → cost ≤ cost' := by
  refine ⟨_, _, rfl, rfl, ?_⟩
  exact (C78_best (Builder.init text) (.init text) cats input input_built grammar edited grammar_short pairs
    ((C78_edit grammar grammar_isFull pairs).2 _ edits) lex lex_ok plugins plugins_short (by unfold SafeLength; decide) Lattice.init _
    Lattice.init_clean rfl).1 _ rfl

/-- Ids counted from the end name the same cell, and other ids end the plugin. -/
example : inhibitEdit userWritable grammar (.list [.list [.num (-2), .num (-1)]]) = .ok edited ∧
    inhibitEdit userWritable grammar (.list [.list [.num 1, .num 3]]) = .error .index ∧
    inhibitEdit userWritable grammar (.list [.list [.num 1], .str [120]]) = .ok grammar ∧
    inhibitEdit userWritable grammar (.list [.num 1]) = .error .type := ⟨rfl, rfl, rfl, rfl⟩

/-- After a pair and something short, ids beyond the matrix are an `IndexError`; an object is a `KeyError` but does not come to it. -/
example : inhibitEdit userWritable grammar (.list [.list [.num 1, .num 2], .str [], .list [.num 1, .num 3], .obj [([], .null), ([1], .null)]]) =
    .error .index := by
  refine (C78_raises _ _ _).mpr ⟨[.list [.num 1, .num 2], .str []], .list [.num 1, .num 3], [.obj [([], .null), ([1], .null)]], rfl, ?_, ?_, ?_⟩
  · intro q hq
    rcases List.mem_cons.mp hq with rfl | hq
    · exact .inr ⟨1, 2, ⟨_, _, _, rfl, .inl rfl, .inl rfl⟩, ⟨2, by decide, .inl rfl⟩, 1, by decide, .inl rfl⟩
    · rw [List.mem_singleton.mp hq]
      exact .inl (.inr (.inl ⟨_, rfl, by decide⟩))
  · rintro (⟨_, h, h'⟩ | ⟨_, h, _⟩ | ⟨_, h, _⟩) <;> cases h
    exact absurd h' (by simp)
  · refine .inr (.inl ⟨rfl, by decide, by decide, 1, 3, ⟨_, _, _, rfl, .inl rfl, .inl rfl⟩, ?_⟩)
    rintro ⟨⟨a, h1, h2⟩, _⟩
    have : a < 3 := h1
    have h2 : (a : Int) = 3 ∨ (a : Int) = 3 + 3 := h2
    omega

/-- The pair before it has been inhibited. -/
example : inhibitEditM userWritable grammar (.list [.list [.num 1, .num 2], .str [], .list [.num 1, .num 3], .list [.num 0, .num 0]]) =
    (edited, .error .index) ∧ edited ≠ grammar ∧
    ∃ pre p, pre ++ [p] <+: [.list [.num 1, .num 2], .str [], .list [.num 1, .num 3], .list [.num 0, .num 0]] ∧ grammar.Refuses p .index ∧
      Inhibits grammar pre edited := by
  refine ⟨rfl, by decide, ?_⟩
  obtain ⟨pre, p, post, h1, _, h3, h4⟩ := C78_left_behind grammar edited grammar_isFull
    [.list [.num 1, .num 2], .str [], .list [.num 1, .num 3], .list [.num 0, .num 0]] .index rfl
  exact ⟨pre, p, ⟨post, by rw [h1]; simp⟩, h3, h4⟩

/-- A system dictionary: `TypeError`, and nothing is set. -/
example : inhibitEditM systemWritable grammar (.list pairs) = (grammar, .error .type) :=
  Prod.ext (C78_system_unchanged grammar (.list pairs)) rfl

/-- **C78** On a system dictionary a pair ends in a `TypeError`, though the same pair is possible on a matrix that can be written. -/
theorem C78_system_fails : inhibitEdit systemWritable grammar (.list pairs) = .error .type ∧
    ∃ g', inhibitEdit userWritable grammar (.list pairs) = .ok g' := ⟨rfl, edited, edits⟩

/-- **C78** The settings of the documentation, with the pairs in the object of the plugin, give no pairs. -/
theorem C78_documented : inhibitSetUp ⟨true, some [(codes "editConnectionCostPlugin", .list [.obj
      [(codes "class", .str (codes "sudachipy.plugin.connect_cost.InhibitConnectionPlugin")), (codes "inhibitedPair", .list pairs)]])],
    none, none⟩ = .ok (.list []) := by rfl

end Demo

end Sudachi
