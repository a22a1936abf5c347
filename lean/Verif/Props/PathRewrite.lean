/-
Properties of the path-rewrite plugins: C29-C32, C59, C60.
-/
import Verif.Lemmas.JoinNumeric4
import Verif.Lemmas.JoinKatakana
namespace Sudachi

namespace DemoPath

def cats : Nat → CatSet := fun c =>
  if 48 ≤ c ∧ c ≤ 57 then [.NUMERIC]
  else if c = 0x5341 ∨ c = 0x4E07 then [.KANJINUMERIC, .KANJI]
  else if c = 44 ∨ c = 46 then [.SYMBOL]
  else if c = 0x30A1 then [.KATAKANA, .NOOOVBOW]
  else if 0x30A0 ≤ c ∧ c ≤ 0x30FF then [.KATAKANA]
  else [.ALPHA]

/-- The analysed text (all the texts below are well formed). -/
def input (s : PStr) : InputText :=
  match (Builder.init s).build cats with
  | .ok t => t
  | .error _ => ⟨[], [], [], [], [], [], [], []⟩

def info (s : PStr) (pos : Int) : WordInfo := ⟨s, s.length, pos, s, -1, s, s, [], [], [], []⟩

/-- Word `w` is the character `w`; digits, kanji numbers and separators have part of speech 7. -/
def lex : Lex := ⟨fun _ _ => .ok [], fun _ => .ok (0, 0, 0),
  fun w => .ok (info [w.toNat] (if w < 58 ∨ w = 0x5341 ∨ w = 0x4E07 then 7 else 3))⟩

def node (b e : Nat) (w : Int) : NodeData := ⟨b, e, 0, 0, 0, w, false, none, true⟩
def oov (b e : Nat) (s : PStr) : NodeData := ⟨b, e, 0, 0, 0, 0, true, some (info s 5), true⟩

theorem honest : lex.Honest := fun _ h => by cases h

/-- "a12,345b". -/
def text1 : PStr := [97, 49, 50, 44, 51, 52, 53, 98]
def path1 : List NodeData := [node 0 1 97, node 1 2 49, node 2 3 50, node 3 4 44, node 4 5 51, node 5 6 52, node 6 7 53, node 7 8 98]

/-- "1十25." -/
def text2 : PStr := [49, 0x5341, 50, 53, 46]
def path2 : List NodeData := [node 0 1 49, node 1 4 0x5341, node 4 5 50, node 5 6 53, node 6 7 46]

end DemoPath

/-! ## C29 -/

/-- **C29** The new path consists of the old nodes, in order, except that disjoint blocks of neighbouring nodes are
replaced by one node each, as `NumJoin` says. -/
theorem C29_only_coarsens (cfg : JoinNumeric) (lex : Lex) (fuel : Nat) (t : InputText) (path path' : List NodeData)
    (h : cfg.rewrite lex fuel t path = .ok path') : Coarsens (NumJoin cfg lex path) path path' :=
  loop_coarsens fuel (JNInv.start cfg lex path .init) h

/-- **C29, C31** Replacing blocks by nodes that span them keeps a segmentation of the text a segmentation. -/
theorem C29_still_tiles {J : List NodeData → NodeData → Prop} (hJ : ∀ b n, J b n → Spans b n) {p p' : List NodeData}
    (h : Coarsens J p p') : ∀ {a b : Nat}, Tiles a b p → Tiles a b p' := by
  induction h with
  | nil => intro a b ht; exact ht
  | keep d _ ih => intro a b ht; exact ⟨ht.1, ht.2.1, ih ht.2.2⟩
  | @join p p' block n hj _ ih =>
    intro a b ht
    obtain ⟨f, l, hf, hl, h1, h2⟩ := hJ _ _ hj
    have key : ∀ (block : List NodeData) (f l : NodeData) (a : Nat), block.head? = some f → block.getLast? = some l →
        Tiles a b (block ++ p) → f.begin_ = a ∧ a < l.end_ ∧ Tiles l.end_ b p := by
      intro block
      induction block with
      | nil => intro f l a hf; cases hf
      | cons d ds ih =>
        intro f l a hf hl ht
        injection hf with hf
        subst hf
        obtain ⟨t1, t2, t3⟩ := ht
        cases ds with
        | nil =>
          simp at hl
          subst hl
          exact ⟨t1, by omega, t3⟩
        | cons d' ds =>
          have hl' : (d' :: ds).getLast? = some l := by rw [← hl, List.getLast?_cons_cons]
          obtain ⟨g1, g2, g3⟩ := ih d' l d.end_ rfl hl' t3
          exact ⟨t1, by omega, g3⟩
    obtain ⟨g1, g2, g3⟩ := key block f l a hf hl ht
    exact ⟨by omega, by omega, by rw [h2]; exact ih g3⟩

/-- "a12,345b": the six words of "12,345" become one with normalised form "12345". -/
example : JoinNumeric.rewrite ⟨7, true⟩ DemoPath.lex 20 (DemoPath.input DemoPath.text1) DemoPath.path1 =
    .ok [DemoPath.node 0 1 97,
      ⟨1, 7, 0, 0, 0, 0, false, some ⟨[49, 50, 44, 51, 52, 53], 6, 7, [49, 50, 51, 52, 53], -1, [49, 50, 44, 51, 52, 53],
        [49, 50, 44, 51, 52, 53], [], [], [], []⟩, true⟩, DemoPath.node 7 8 98] := by decide

example : Tiles 0 8 DemoPath.path1 := by simp [Tiles, DemoPath.path1, DemoPath.node]

/-! ## C30 -/

/-- **C30** If no number word has a separator in its normalised form, the loop stops after at most `3 (n + 1)²` turns on
a path of `n` nodes: with that much fuel it does not run out, and more fuel changes nothing.  (`Honest`: the lexicon
itself does not answer "out of fuel", which is not an exception of the code.) -/
theorem C30_terminates (cfg : JoinNumeric) (lex : Lex) (hlex : lex.Honest) (t : InputText) (path : List NodeData)
    (hpl : PlainNumerals lex t path) (fuel : Nat) (hf : 3 * (path.length + 1) * (path.length + 1) ≤ fuel) :
    cfg.rewrite lex fuel t path ≠ .error .outOfFuel ∧
      cfg.rewrite lex fuel t path = cfg.rewrite lex (3 * (path.length + 1) * (path.length + 1)) t path := by
  have key : NoFuel (cfg.rewrite lex (3 * (path.length + 1) * (path.length + 1)) t path) := by
    refine loop_noFuel hpl hlex _ (JNInv.start cfg lex path .init) (Nat.le_refl _) (Nat.zero_le _) (fun h => by cases h) ?_
    have h1 : JNState.mu path.length ⟨path, 0, none, true, true, .init⟩ =
        (path.length * 3 + 2) * (path.length + 1) + path.length := by
      simp [JNState.mu, JNState.lb, JNState.flags]
    rw [h1]
    have h2 : 3 * (path.length + 1) = path.length * 3 + 2 + 1 := by omega
    have h3 : (path.length * 3 + 2 + 1) * (path.length + 1) = (path.length * 3 + 2) * (path.length + 1) + (path.length + 1) :=
      Nat.succ_mul _ _
    rw [h2, h3]
    exact Nat.add_le_add_left (Nat.le_succ _) _
  have hm : cfg.rewrite lex fuel t path = cfg.rewrite lex (3 * (path.length + 1) * (path.length + 1)) t path := by
    have := loop_fuel_mono _ key (fuel - 3 * (path.length + 1) * (path.length + 1))
    rw [show 3 * (path.length + 1) * (path.length + 1) + (fuel - 3 * (path.length + 1) * (path.length + 1)) = fuel by omega] at this
    exact this
  exact ⟨by rw [hm]; exact key, hm⟩

/-- A path with a comma, a point and rewinding (the second comma is misplaced): it meets the hypotheses. -/
example : PlainNumerals DemoPath.lex (DemoPath.input DemoPath.text1) DemoPath.path1 := by
  intro d hd types w ht hw hc
  simp only [DemoPath.path1, List.mem_cons, List.not_mem_nil, or_false] at hd
  rcases hd with rfl | rfl | rfl | rfl | rfl | rfl | rfl | rfl <;> revert hc <;> revert hw <;> revert ht <;>
    (intro ht hw; cases hw; first | decide | (intro hc; cases ht; revert hc; decide))

/-- **C30** Otherwise the plugin may loop forever: a number word "5" whose normalised form is ".5". -/
theorem C30_may_loop_forever : ∃ (lex : Lex) (t : InputText) (path : List NodeData), lex.Honest ∧
    (Builder.init [53]).build DemoPath.cats = .ok t ∧ ∀ fuel cfg, JoinNumeric.rewrite cfg lex fuel t path = .error .outOfFuel := by
  refine ⟨⟨fun _ _ => .ok [], fun _ => .ok (0, 0, 0), fun _ => .ok ⟨[53], 1, 7, [46, 53], -1, [53], [53], [], [], [], []⟩⟩,
    DemoPath.input [53], [DemoPath.node 0 1 0], (fun _ h => by cases h), by decide, ?_⟩
  intro fuel cfg
  -- the state after the first turn repeats itself
  have hp : ∃ p, JNState.feed ⟨[DemoPath.node 0 1 0], 0, none, true, true, .init⟩ [46, 53] =
        ⟨[DemoPath.node 0 1 0], 0, none, true, false, p⟩ ∧
      ∀ q, JNState.feed ⟨[DemoPath.node 0 1 0], 0, none, true, false, q⟩ [46, 53] = ⟨[DemoPath.node 0 1 0], 0, none, true, false, p⟩ :=
    ⟨_, rfl, fun _ => rfl⟩
  obtain ⟨p, h1, h2⟩ := hp
  have hcat : (DemoPath.input [53]).charCategoryTypes 0 1 = .ok [.NUMERIC] := by decide
  have hloop : ∀ fuel q, JNState.loop cfg ⟨fun _ _ => .ok [], fun _ => .ok (0, 0, 0), fun _ => .ok ⟨[53], 1, 7, [46, 53], -1, [53], [53], [], [], [], []⟩⟩
      (DemoPath.input [53]) fuel ⟨[DemoPath.node 0 1 0], 0, none, true, false, q⟩ = .error .outOfFuel := by
    intro fuel
    induction fuel with
    | zero => intro q; rfl
    | succ fuel ih =>
      intro q
      unfold JNState.loop
      have hs : JNState.step cfg ⟨fun _ _ => .ok [], fun _ => .ok (0, 0, 0), fun _ => .ok ⟨[53], 1, 7, [46, 53], -1, [53], [53], [], [], [], []⟩⟩
          (DemoPath.input [53]) ⟨[DemoPath.node 0 1 0], 0, none, true, false, q⟩ = .ok ⟨[DemoPath.node 0 1 0], 0, none, true, false, p⟩ := by
        rw [← h2 q]
        unfold JNState.step
        simp only [pyGet, DemoPath.node, List.getElem?_cons_zero, bind, Except.bind, hcat]
        rfl
      rw [if_pos (by exact Nat.one_pos), hs]
      exact ih p
  cases fuel with
  | zero => rfl
  | succ fuel =>
    unfold JoinNumeric.rewrite JNState.loop
    have hs : JNState.step cfg ⟨fun _ _ => .ok [], fun _ => .ok (0, 0, 0), fun _ => .ok ⟨[53], 1, 7, [46, 53], -1, [53], [53], [], [], [], []⟩⟩
        (DemoPath.input [53]) ⟨[DemoPath.node 0 1 0], 0, none, true, true, .init⟩ = .ok ⟨[DemoPath.node 0 1 0], 0, none, true, false, p⟩ := by
      rw [← h1]
      unfold JNState.step
      simp only [pyGet, DemoPath.node, List.getElem?_cons_zero, bind, Except.bind, hcat]
      rfl
    rw [if_pos (by exact Nat.one_pos), hs]
    exact hloop fuel p

/-! ## C31 -/

/-- **C31** The loop stops: the fuel of the model is always enough. -/
theorem C31_terminates (cfg : JoinKatakana) (lex : Lex) (hlex : lex.Honest) (t : InputText) (L : Lattice) (path : List NodeData) :
    cfg.rewrite lex t L path ≠ .error .outOfFuel :=
  katLoop_noFuel hlex _ (by omega)

/-- **C31** Which nodes are joined and which are left, exactly. -/
theorem C31_exact (cfg : JoinKatakana) (lex : Lex) (t : InputText) (L : Lattice) (hL : L.EndsRight) (path path' : List NodeData)
    (h : cfg.rewrite lex t L path = .ok path') : KatRewrite cfg lex t L path path' := by
  obtain ⟨R', rfl, hR⟩ := katLoop_exact hL path.length (R := path) (A := []) (Nat.le_refl _) (fun d hd => by cases hd) h
  exact hR

/-- **C31** The new path consists of the old nodes, in order, except that disjoint blocks of neighbouring katakana nodes
are replaced by one node each, as `KatJoin` says. -/
theorem C31_only_coarsens (cfg : JoinKatakana) (lex : Lex) (t : InputText) (L : Lattice) (hL : L.EndsRight) (path path' : List NodeData)
    (h : cfg.rewrite lex t L path = .ok path') : Coarsens (KatJoin cfg lex t L) path path' :=
  (C31_exact cfg lex t L hL path path' h).coarsens

/-- **C31** Every lattice of a successful build meets the hypothesis. -/
theorem C31_lattice_ok (conn : Conn) (lex : Lex) (plugins : List OovPlugin) (t : InputText) (L L' : Lattice) (hL : L.Clean)
    (h : buildLattice conn lex plugins t L = (L', .ok ())) : L'.EndsRight := buildLattice_endsRight hL h

/-- "アイウ" with words ア, イ, ウ, of which only イ is unknown: all three are joined. -/
example : JoinKatakana.rewrite ⟨9, 1⟩ DemoPath.lex (DemoPath.input [0x30A2, 0x30A4, 0x30A6]) (Lattice.init.resize 9)
      [DemoPath.node 0 3 0x30A2, DemoPath.oov 3 6 [0x30A4], DemoPath.node 6 9 0x30A6] =
    .ok [⟨0, 9, 0, 0, 0, 0, true, some ⟨[0x30A2, 0x30A4, 0x30A6], 3, 9, [0x30A2, 0x30A4, 0x30A6], -1, [0x30A2, 0x30A4, 0x30A6], [],
      [], [], [], []⟩, true⟩] := by decide

/-- "ァイウ": a small ァ may not begin an unknown word and stays. -/
example : JoinKatakana.rewrite ⟨9, 1⟩ DemoPath.lex (DemoPath.input [0x30A1, 0x30A4, 0x30A6]) (Lattice.init.resize 9)
      [DemoPath.node 0 3 0x30A1, DemoPath.oov 3 6 [0x30A4], DemoPath.node 6 9 0x30A6] =
    .ok [DemoPath.node 0 3 0x30A1, ⟨3, 9, 0, 0, 0, 0, true, some ⟨[0x30A4, 0x30A6], 2, 9, [0x30A4, 0x30A6], -1, [0x30A4, 0x30A6], [],
      [], [], [], []⟩, true⟩] := by decide

/-! ## C32 -/

/-- **C32** `concatenate`: the spanned block is replaced by one node with the concatenated fields, the part of speech of
the first node, and the given normalised form (the concatenated one if none is given). -/
theorem C32_concatenate (lex : Lex) (path path' : List NodeData) (b e : Nat) (norm : PStr)
    (h : concatenate lex path b e norm = .ok path') :
    b < e ∧ e ≤ path.length ∧ ∃ n infos f, path' = path.take b ++ n :: path.drop e ∧ Spans (pySlice path b e) n ∧
      InfosOf lex (pySlice path b e) infos ∧ infos.head? = some f ∧
      Concatenation infos f.posId (if norm = [] then normText infos else norm) n := by
  obtain ⟨h1, h2, n, infos, f, h3, h4, h5, h6, h7⟩ := concatenate_spec h
  refine ⟨h1, h2, n, infos, f, h3, h4, h5, h6, ?_⟩
  cases norm with
  | nil => exact h7
  | cons => exact h7

/-- **C32** `concatenate_oov`: the block is replaced by the first cheapest lattice node with that span, or, if there is none,
by a new unknown node with the concatenated surface, an empty reading and the given part of speech. -/
theorem C32_concatenate_oov (lex : Lex) (L : Lattice) (path path' : List NodeData) (b e : Nat) (posId : Int)
    (h : concatenateOov lex L path b e posId = .ok path') :
    b < e ∧ e ≤ path.length ∧ ∃ n, path' = path.take b ++ n :: path.drop e ∧
      ((∃ f l, path[b]? = some f ∧ path[e - 1]? = some l ∧ ∃ ns, L.getNodes f.begin_ l.end_ = .ok ns ∧
          FirstCheapest ns n) ∨
       (Spans (pySlice path b e) n ∧ L.getNodes n.begin_ n.end_ = .ok [] ∧ n.oov = true ∧ n.defined = true ∧
          ∃ infos w, InfosOf lex (pySlice path b e) infos ∧ n.extra = some w ∧ w.surface = (infos.map (·.surface)).flatten ∧
          w.headWordLength = (infos.map (·.headWordLength)).sum ∧ w.posId = posId ∧ w.normalizedForm = w.surface ∧
          w.dictionaryForm = w.surface ∧ w.readingForm = [] ∧ w.dictionaryFormWordId = -1 ∧
          w.aUnitSplit = [] ∧ w.bUnitSplit = [] ∧ w.wordStructure = [] ∧ w.synonymGroupIds = [])) :=
  concatenateOov_spec h

/-- **C32** `concatenate` fails only for an empty or outlying block or when a word info cannot be read. -/
theorem C32_concatenate_ok (lex : Lex) (path : List NodeData) (b e : Nat) (norm : PStr) (infos : List WordInfo) (hbe : b < e)
    (he : e ≤ path.length) (hI : InfosOf lex (pySlice path b e) infos) : ∃ path', concatenate lex path b e norm = .ok path' :=
  concatenate_ok hbe he hI norm

example : concatenate DemoPath.lex DemoPath.path1 3 2 [] = .error .index := by decide
example : concatenate DemoPath.lex DemoPath.path1 1 9 [] = .error .index := by decide
example : ∃ p, concatenate DemoPath.lex DemoPath.path1 1 3 [] = .ok p ∧ p.length = 7 := ⟨_, rfl, by decide⟩

/-! ## C59 -/

/-- A joined node's normalised form is a numeral of exactly the value that its parts denote. -/
def SameValue (lex : Lex) (block : List NodeData) (n : NodeData) : Prop :=
  ∃ infos w v, InfosOf lex block infos ∧ n.extra = some w ∧ IsNumeral w.normalizedForm v ∧ denotes (normText infos) = some v

/-- **C59** (part) With normalisation, in a path without separator words every joined node has the value of its parts.
Missing: paths with separator words, where it is false (`C59_wrong_value`). -/
theorem C59_value_preserved_partial (posId : Int) (lex : Lex) (fuel : Nat) (t : InputText) (path path' : List NodeData)
    (hsep : ∀ d ∈ path, ∀ w, nodeWordInfo lex d = .ok w → w.normalizedForm ≠ [44] ∧ w.normalizedForm ≠ [46])
    (h : JoinNumeric.rewrite ⟨posId, true⟩ lex fuel t path = .ok path') : Coarsens (SameValue lex) path path' := by
  refine (C29_only_coarsens _ lex fuel t path path' h).mono ?_
  rintro b n ⟨_, infos, norm, h1, _, ⟨_, _, w, hw, _, _, _, hn, _⟩, _, h5⟩
  obtain ⟨_, h6⟩ := h5 rfl
  rcases h6 with h6 | ⟨_, _, d, hd, w', hw', hs⟩
  · obtain ⟨out, v, ho, hv, hden⟩ := C26_value_preserved _ _ h6
    injection ho with ho
    subst ho
    exact ⟨infos, w, v, h1, hw, by rw [hn]; exact hv, hden⟩
  · obtain ⟨g1, g2⟩ := hsep d hd w' hw'
    rcases hs with hs | hs
    · exact absurd hs g1
    · exact absurd hs g2

/-- **C59** Whatever the path: the value is that of the parts, or a separator word follows and the parts are not an
acceptable number. -/
theorem C59_value_or_refused_partial (posId : Int) (lex : Lex) (fuel : Nat) (t : InputText) (path path' : List NodeData)
    (h : JoinNumeric.rewrite ⟨posId, true⟩ lex fuel t path = .ok path') :
    Coarsens (fun b n => SameValue lex b n ∨ ∃ infos, InfosOf lex b infos ∧ parseNumber (normText infos) = none) path path' := by
  refine (C29_only_coarsens _ lex fuel t path path' h).mono ?_
  rintro b n ⟨_, infos, norm, h1, _, ⟨_, _, w, hw, _, _, _, hn, _⟩, _, h5⟩
  obtain ⟨_, h6⟩ := h5 rfl
  rcases h6 with h6 | ⟨hnone, _⟩
  · obtain ⟨out, v, ho, hv, hden⟩ := C26_value_preserved _ _ h6
    injection ho with ho
    subst ho
    exact .inl ⟨infos, w, v, h1, hw, by rw [hn]; exact hv, hden⟩
  · exact .inr ⟨infos, h1, hnone⟩

/-- **C59** The normalised form can be a wrong number: "1十25." - the words "1", "十", "2", "5" before the full stop are
joined into one word with normalised form "0". -/
theorem C59_wrong_value : ∃ fuel n,
    JoinNumeric.rewrite ⟨7, true⟩ DemoPath.lex fuel (DemoPath.input DemoPath.text2) DemoPath.path2 =
      .ok [n, DemoPath.node 6 7 46] ∧
    (n.extra.map (·.surface)) = some [49, 0x5341, 50, 53] ∧ (n.extra.map (·.normalizedForm)) = some [48] ∧
    parseNumber [49, 0x5341, 50, 53] = none :=
  ⟨20, ⟨0, 6, 0, 0, 0, 0, false, some ⟨[49, 0x5341, 50, 53], 4, 7, [48], -1, [49, 0x5341, 50, 53], [49, 0x5341, 50, 53], [], [], [], []⟩,
    true⟩, by decide⟩

/-! ## C60 -/

/-- **C60** A word that is neither number nor separator cuts the path in two parts that are rewritten independently. -/
theorem C60_cut_at_breaker (cfg : JoinNumeric) (lex : Lex) (fuel : Nat) (t : InputText) (A B : List NodeData) (brk : NodeData)
    (hbrk : Breaker lex t brk) (out : List NodeData) (h : cfg.rewrite lex fuel t (A ++ brk :: B) = .ok out) :
    ∃ A' B', out = A' ++ brk :: B' ∧ cfg.rewrite lex fuel t (A ++ [brk]) = .ok (A' ++ [brk]) ∧
      cfg.rewrite lex fuel t B = .ok B' := by
  have hi : JNInv cfg lex (A ++ [brk]) ⟨A ++ [brk], 0, none, true, true, .init⟩ := JNInv.start cfg lex (A ++ [brk]) .init
  have h' : JNState.loop cfg lex t fuel (JNState.ext ⟨A ++ [brk], 0, none, true, true, .init⟩ B) = .ok out := by
    unfold JNState.ext
    rw [List.append_assoc]
    exact h
  exact loop_breaker hbrk B fuel hi (P := A) rfl (.inl (Nat.zero_le _)) h'

/-- **C60** A run of number words (and separators) that the parser accepts as a whole and whose first word has the
numeric part of speech becomes one node, at the end of the path or before any word that is not number-like. -/
theorem C60_run_joined (cfg : JoinNumeric) (lex : Lex) (t : InputText) (run : List NodeData) (infos : List WordInfo) (f : WordInfo)
    (norm : PStr) (hI : InfosOf lex run infos) (hnl : ∀ d ∈ run, NumberLike lex t d) (hf : infos.head? = some f)
    (hpos : f.posId = cfg.posId) (hparse : parseNumber (normText infos) = some (.ok norm))
    (hwant : 2 ≤ run.length ∨ (cfg.normalize = true ∧ norm ≠ f.normalizedForm)) :
    ∃ n, Spans run n ∧ Concatenation infos cfg.posId (if cfg.normalize then norm else normText infos) n ∧
      (∀ fuel, run.length ≤ fuel → cfg.rewrite lex fuel t run = .ok [n]) ∧
      (∀ fuel brk, Breaker lex t brk → run.length + 1 ≤ fuel → cfg.rewrite lex fuel t (run ++ [brk]) = .ok [n, brk]) :=
  run_joined hI hnl hf hpos hparse hwant

/-- **C60** Together: such a run between two words that are not number-like is one node in the result, whatever else is
on the path. -/
theorem C60_run_joined_in_context (cfg : JoinNumeric) (lex : Lex) (t : InputText) (A run B : List NodeData) (b1 b2 : NodeData)
    (infos : List WordInfo) (f : WordInfo)
    (norm : PStr) (hI : InfosOf lex run infos) (hnl : ∀ d ∈ run, NumberLike lex t d) (hf : infos.head? = some f)
    (hpos : f.posId = cfg.posId) (hparse : parseNumber (normText infos) = some (.ok norm))
    (hwant : 2 ≤ run.length ∨ (cfg.normalize = true ∧ norm ≠ f.normalizedForm)) (h1 : Breaker lex t b1) (h2 : Breaker lex t b2)
    (fuel : Nat) (out : List NodeData) (h : cfg.rewrite lex fuel t (A ++ b1 :: (run ++ b2 :: B)) = .ok out) :
    ∃ A' B' n, out = A' ++ b1 :: n :: b2 :: B' ∧ Spans run n ∧
      Concatenation infos cfg.posId (if cfg.normalize then norm else normText infos) n := by
  obtain ⟨A', R, rfl, _, hR⟩ := C60_cut_at_breaker cfg lex fuel t A _ b1 h1 out h
  obtain ⟨X, B', rfl, hX, _⟩ := C60_cut_at_breaker cfg lex fuel t run B b2 h2 R hR
  obtain ⟨n, n1, n2, _, n4⟩ := C60_run_joined cfg lex t run infos f norm hI hnl hf hpos hparse hwant
  have hX' : cfg.rewrite lex (fuel + (run.length + 1)) t (run ++ [b2]) = .ok (X ++ [b2]) := by
    unfold JoinNumeric.rewrite at hX ⊢
    rw [loop_fuel_mono fuel (by rw [hX]; exact .ok _), hX]
  rw [n4 _ b2 h2 (by omega)] at hX'
  injection hX' with hX'
  have hX2 : X = [n] := by
    have := congrArg List.dropLast hX'
    simpa using this.symm
  subst hX2
  exact ⟨A', B', n, by simp, n1, n2⟩

/-- "12,345" between "a" and "b" meets the hypotheses. -/
example : Breaker DemoPath.lex (DemoPath.input DemoPath.text1) (DemoPath.node 0 1 97) ∧
    Breaker DemoPath.lex (DemoPath.input DemoPath.text1) (DemoPath.node 7 8 98) ∧
    NumberLike DemoPath.lex (DemoPath.input DemoPath.text1) (DemoPath.node 1 2 49) ∧
    NumberLike DemoPath.lex (DemoPath.input DemoPath.text1) (DemoPath.node 3 4 44) ∧
    parseNumber [49, 50, 44, 51, 52, 53] = some (.ok [49, 50, 51, 52, 53]) :=
  ⟨⟨_, _, rfl, rfl, by decide, by decide, by decide, by decide⟩, ⟨_, _, rfl, rfl, by decide, by decide, by decide, by decide⟩,
    ⟨_, _, rfl, rfl, by decide⟩, ⟨_, _, rfl, rfl, by decide⟩, by decide⟩

end Sudachi
