/-
C14-C17, C23-C25, C57: the lattice.
-/
import Verif.Lemmas.Build2
namespace Sudachi

/-! ## A concrete text, dictionary and connection table used in the examples below

"東京都" with the words 東 京 都 東京 京都 and a Simple OOV provider. -/
namespace Demo

def text : PStr := [0x6771, 0x4EAC, 0x90FD]
def cats : Nat → CatSet := fun _ => [.KANJI]
def lookup : Bytes → Nat → Res (List (Nat × Nat)) := fun b i =>
  if b.length = 9 then
    if i = 0 then .ok [(0, 3), (3, 6)] else if i = 3 then .ok [(1, 6), (4, 9)] else if i = 6 then .ok [(2, 9)] else .ok []
  else .ok []
def params : Nat → Res (Int × Int × Int) := fun w =>
  if w = 0 then .ok (1, 1, 500) else if w = 1 then .ok (1, 1, 400) else if w = 2 then .ok (2, 2, 100)
  else if w = 3 then .ok (1, 1, 200) else if w = 4 then .ok (1, 1, 300) else .error .index
def lex : Lex := ⟨lookup, params, fun _ => .ok WordInfo.unk⟩
/-- A 3 x 3 table: left id 2 after right id 1 costs 50, left id 1 after right id 1 is forbidden, all others cost 10. -/
def conn : Conn := fun l r =>
  if 0 ≤ l ∧ l < 3 ∧ 0 ≤ r ∧ r < 3 then
    if l = 2 ∧ r = 1 then .ok 50 else if l = 1 ∧ r = 1 then .ok 0x7fff else .ok 10
  else .error .index
def plugins : List OovPlugin := [.simple ⟨0, 0, 30000, 3⟩]

def input : InputText :=
  ⟨text, text, [230, 157, 177, 228, 186, 172, 233, 131, 189], [0, 0, 0, 1, 1, 1, 2, 2, 2, 3],
    [0, 0, 0, 1, 1, 1, 2, 2, 2, 3], [[.KANJI], [.KANJI], [.KANJI]], [9, 8, 7, 6, 5, 4, 3, 2, 1], [true, true, true]⟩

theorem input_built : (Builder.init text).build cats = .ok input := by decide
theorem lex_ok : lex.Ok := by
  constructor
  · intro bytes i ws hi h w e hm
    simp only [lex, lookup] at h
    split at h
    · rename_i hb
      repeat' split at h
      all_goals
        cases h
        simp at hm
        try omega
    · cases h; simp at hm
  · intro w l r c h
    simp only [lex, params] at h
    repeat' split at h
    all_goals
      cases h
      try simp [Short]
theorem conn_short : conn.Short := by
  intro l r k h
  simp only [conn] at h
  repeat' split at h
  all_goals
    cases h
    try simp [Short]
theorem plugins_short : ∀ p ∈ plugins, p.Short := by simp [plugins, OovPlugin.Short, Short]

end Demo

theorem Lattice.init_clean : Lattice.init.Clean := by
  refine ⟨rfl, ?_, by decide, by decide⟩
  intro e ns he hns
  cases e with
  | zero => omega
  | succ e => simp [Lattice.init] at hns

/-! ## C14 -/

/-- **C14** In the safe range the returned path is a cheapest segmentation of the text into the lattice's candidates
with allowed connections. -/
theorem C14_cheapest_path (bd : Builder) (hv : bd.Valid) (catOf : Nat → CatSet) (t : InputText)
    (hb : bd.build catOf = .ok t) (conn : Conn) (hconn : conn.Short) (lex : Lex) (hlex : lex.Ok)
    (plugins : List OovPlugin) (hpl : ∀ p ∈ plugins, p.Short) (hs : SafeLength t.bytes.length)
    (L L' : Lattice) (hL : L.Clean) (h : buildLattice conn lex plugins t L = (L', .ok ()))
    (p : List NodeData) (hp : L'.getBestPath = .ok p) :
    ∃ cost, IsPath conn L'.Cand t.bytes.length p cost ∧
      ∀ p' cost', IsPath conn L'.Cand t.bytes.length p' cost' → cost ≤ cost' := by
  have B := built hv.len hb
  obtain ⟨L1, h1, h2⟩ := buildLattice_ok h
  obtain ⟨_, heos, _, _, _, hinv⟩ := buildLoop_spec B hlex hL h1
  obtain ⟨e1, _, _, e2⟩ := eos_spec (hinv hconn hs hpl) hconn hs heos h2
  have hC : L'.Cand = L1.Cand := funext fun d => propext (cand_congr e1 d)
  rw [hC]
  rcases e2 with ⟨q, cost, hq, hpath, hmin⟩ | ⟨he, _⟩
  · rw [hp] at hq
    cases hq
    exact ⟨cost, hpath, hmin⟩
  · rw [hp] at he; cases he

/-- "東京都": 東京 + 都 wins with cost 10 + 200 + 50 + 100 + 10 (東 may not be followed by 京 or 京都). -/
example : ∃ L', buildLattice Demo.conn Demo.lex Demo.plugins Demo.input Lattice.init = (L', .ok ()) ∧
    L'.getBestPath = .ok [⟨0, 6, 1, 1, 200, 3, false, none, true⟩, ⟨6, 9, 2, 2, 100, 2, false, none, true⟩] ∧
    SafeLength Demo.input.bytes.length :=
  ⟨_, rfl, by decide, by simp [SafeLength, Demo.input]⟩

/-! ## C15 -/

/-- **C15** Every node of the returned path is a dictionary word or an unknown-word candidate offered at its
position; the nodes tile the text and all connections including sentence begin and end are allowed.  No assumption
about costs. -/
theorem C15_path_of_offered (bd : Builder) (hv : bd.Valid) (catOf : Nat → CatSet) (t : InputText)
    (hb : bd.build catOf = .ok t) (conn : Conn) (lex : Lex) (hlex : lex.Ok) (plugins : List OovPlugin)
    (L L' : Lattice) (hL : L.Clean) (h : buildLattice conn lex plugins t L = (L', .ok ()))
    (p : List NodeData) (hp : L'.getBestPath = .ok p) :
    (∃ cost, IsPath conn (Offered lex plugins t) t.bytes.length p cost) ∧
    ∀ d ∈ p, t.canBow d.begin_ = .ok true ∧ (d.oov = false → d.end_ = t.bytes.length ∨ t.canBow d.end_ = .ok true) := by
  have B := built hv.len hb
  obtain ⟨L1, h1, h2⟩ := buildLattice_ok h
  obtain ⟨hch, heos, _⟩ := buildLoop_spec B hlex hL h1
  rcases getBestPath_chain hch heos h2 with he | ⟨q, cost, hq, a1, a2, a3⟩
  · rw [hp] at he; cases he
  · rw [hp] at hq
    cases hq
    exact ⟨⟨cost, a1, fun d hd => (a2 d hd).offered, a3⟩, fun d hd => ⟨(a2 d hd).bow, (a2 d hd).eow⟩⟩

/-- **C15** With a lexicon whose lookup is sound (C42), the span of every dictionary word on the path holds exactly
the bytes of its headword. -/
theorem C15_headword_bytes (bd : Builder) (hv : bd.Valid) (catOf : Nat → CatSet) (t : InputText)
    (hb : bd.build catOf = .ok t) (conn : Conn) (lex : Lex) (hlex : lex.Ok) (plugins : List OovPlugin)
    (headword : Nat → Bytes)
    (hsound : ∀ bytes i ws, lex.lookup bytes i = .ok ws → ∀ w e, (w, e) ∈ ws → headword w = pySlice bytes i e)
    (L L' : Lattice) (hL : L.Clean) (h : buildLattice conn lex plugins t L = (L', .ok ()))
    (p : List NodeData) (hp : L'.getBestPath = .ok p) (d : NodeData) (hd : d ∈ p) (ho : d.oov = false) :
    headword d.wordId.toNat = pySlice t.bytes d.begin_ d.end_ := by
  obtain ⟨⟨_, _, hC, _⟩, _⟩ := C15_path_of_offered bd hv catOf t hb conn lex hlex plugins L L' hL h p hp
  rcases hC d hd with ⟨_, _, ws, w, h1, h2, h3, _⟩ | ⟨h1, _⟩
  · rw [h3]
    exact hsound _ _ _ h1 w _ h2
  · rw [ho] at h1; cases h1

example : Demo.lex.lookup Demo.input.bytes 3 = .ok [(1, 6), (4, 9)] := by decide

/-! ## C16 -/

/-- **C16** In the safe range, once the lattice is built: `get_best_path` raises exactly when no sequence of
candidates tiles the text over allowed connections; it raises `AttributeError` and nothing else. -/
theorem C16_fails_iff_no_path (bd : Builder) (hv : bd.Valid) (catOf : Nat → CatSet) (t : InputText)
    (hb : bd.build catOf = .ok t) (conn : Conn) (hconn : conn.Short) (lex : Lex) (hlex : lex.Ok)
    (plugins : List OovPlugin) (hpl : ∀ p ∈ plugins, p.Short) (hs : SafeLength t.bytes.length)
    (L L' : Lattice) (hL : L.Clean) (h : buildLattice conn lex plugins t L = (L', .ok ())) :
    (L'.getBestPath = .error .attribute ↔ ¬ ∃ p cost, IsPath conn L'.Cand t.bytes.length p cost) ∧
    ((∃ p, L'.getBestPath = .ok p) ↔ ∃ p cost, IsPath conn L'.Cand t.bytes.length p cost) := by
  have B := built hv.len hb
  obtain ⟨L1, h1, h2⟩ := buildLattice_ok h
  obtain ⟨_, heos, _, _, _, hinv⟩ := buildLoop_spec B hlex hL h1
  obtain ⟨e1, _, _, e2⟩ := eos_spec (hinv hconn hs hpl) hconn hs heos h2
  have hC : L'.Cand = L1.Cand := funext fun d => propext (cand_congr e1 d)
  rw [hC]
  rcases e2 with ⟨q, cost, hq, hpath, hmin⟩ | ⟨he, hno⟩
  · rw [hq]
    exact ⟨⟨fun h => (by cases h), fun h => absurd ⟨q, cost, hpath⟩ h⟩, ⟨fun _ => ⟨q, cost, hpath⟩, fun _ => ⟨q, rfl⟩⟩⟩
  · rw [he]
    refine ⟨⟨fun _ ⟨p, c, h⟩ => hno p c h, fun _ => rfl⟩, ⟨fun ⟨p, h⟩ => (by cases h), fun ⟨p, c, h⟩ => absurd h (hno p c)⟩⟩

/-- A table that forbids everything: the lattice is built and there is no path. -/
example : ∃ L', buildLattice (fun _ _ => .ok 0x7fff) Demo.lex Demo.plugins Demo.input Lattice.init = (L', .ok ()) ∧
    L'.getBestPath = .error .attribute := ⟨_, rfl, by decide⟩

/-! ## C17 -/

/-- **C17** In the safe range no 32-bit total overflows: every connected node of the lattice carries the exact cost
of its chain of predecessors, which is the least exact cost of any sequence of candidates ending with that node. -/
theorem C17_totals_exact (bd : Builder) (hv : bd.Valid) (catOf : Nat → CatSet) (t : InputText)
    (hb : bd.build catOf = .ok t) (conn : Conn) (hconn : conn.Short) (lex : Lex) (hlex : lex.Ok)
    (plugins : List OovPlugin) (hpl : ∀ p ∈ plugins, p.Short) (hs : SafeLength t.bytes.length)
    (L L' : Lattice) (hL : L.Clean) (h : buildLattice conn lex plugins t L = (L', .ok ()))
    (e : Nat) (ns : List LNode) (x : LNode) (he : L'.endLists[e]? = some ns) (hx : x ∈ ns) (hc : x.connected = true)
    (rest : List NodeData) (k : Int) (hk : pathCost conn x.data.rightId rest = some k) :
    ∃ q, Lattice.backtrace x = .ok q ∧ pathCost conn 0 (q.reverse ++ rest) = some (x.total + k) ∧
      -2147483648 ≤ x.total ∧ x.total ≤ 2147483647 ∧
      ∀ p' cost', Tiles 0 e p' → (∀ d ∈ p', L'.Cand d) → p'.getLast? = some x.data →
        pathCost conn 0 (p' ++ rest) = some cost' → x.total + k ≤ cost' := by
  have B := built hv.len hb
  obtain ⟨L1, h1, h2⟩ := buildLattice_ok h
  obtain ⟨_, heos, _, _, _, hinv⟩ := buildLoop_spec B hlex hL h1
  have I := hinv hconn hs hpl
  obtain ⟨e1, _, _, _⟩ := eos_spec I hconn hs heos h2
  have hC : L'.Cand = L1.Cand := funext fun d => propext (cand_congr e1 d)
  rw [e1] at he
  obtain ⟨q, hq, hr⟩ := I.sound he hx hc
  have hle : e ≤ t.bytes.length := by
    by_cases h0 : e = 0
    · omega
    · exact (I.node e ns x (by omega) he hx).2.2.2.1
  have hbd := hr.bound hconn (fun d hd => (I.cand hd).2.2.2)
  unfold SafeLength at hs
  refine ⟨q, hq, hr.tiles.2.2 rest k hk, by omega, by omega, ?_⟩
  intro p' cost' ht hCand hlast hcost
  rw [hC] at hCand
  -- split the other sequence into everything before its last word, and that word
  obtain ⟨ys, rfl⟩ : ∃ ys, p' = ys ++ [x.data] := by
    rw [List.getLast?_eq_some_iff] at hlast
    exact hlast
  have split_tiles : ∀ (a : Nat) (ys : List NodeData), Tiles a e (ys ++ [x.data]) →
      Tiles a x.data.begin_ ys ∧ x.data.begin_ < x.data.end_ ∧ x.data.end_ = e := by
    intro a ys
    induction ys generalizing a with
    | nil => intro h; simp only [List.nil_append, Tiles] at h ⊢; exact ⟨h.1.symm, h.2⟩
    | cons y ys ih =>
      intro h
      simp only [List.cons_append, Tiles] at h ⊢
      obtain ⟨i1, i2⟩ := ih _ h.2.2
      exact ⟨⟨h.1, h.2.1, i1⟩, i2⟩
  obtain ⟨t1, t2, t3⟩ := split_tiles 0 ys ht
  have split_cost : ∀ (ys : List NodeData) (r : Int) (cost' : Int), pathCost conn r (ys ++ (x.data :: rest)) = some cost' →
      ∀ (pos : Nat) (c : Int) (p : List NodeData), Reach conn L1.Cand pos r c p → Tiles pos x.data.begin_ ys →
      (∀ d ∈ ys, L1.Cand d) → ∃ r' c' k', Reach conn L1.Cand x.data.begin_ r' c' (p ++ ys) ∧
        linkCost conn r' x.data.leftId = some k' ∧ c + cost' = c' + k' + x.data.cost + k := by
    intro ys
    induction ys with
    | nil =>
      intro r cost' hcost pos c p hR hT _
      simp only [Tiles] at hT
      subst hT
      simp only [List.nil_append, pathCost] at hcost
      cases hl : linkCost conn r x.data.leftId with
      | none => simp [hl] at hcost
      | some k' =>
        rw [hl, hk] at hcost
        injection hcost with hcost
        exact ⟨r, c, k', by simpa using hR, hl, by omega⟩
    | cons y ys ih =>
      intro r cost' hcost pos c p hR hT hys
      simp only [Tiles] at hT
      obtain ⟨b1, b2, b3⟩ := hT
      simp only [List.cons_append, pathCost] at hcost
      cases hl : linkCost conn r y.leftId with
      | none => simp [hl] at hcost
      | some k1 =>
        cases hr2 : pathCost conn y.rightId (ys ++ x.data :: rest) with
        | none => simp [hl, hr2] at hcost
        | some k2 =>
          rw [hl, hr2] at hcost
          injection hcost with hcost
          subst b1
          obtain ⟨r', c', k', c1, c2, c3⟩ := ih _ _ hr2 _ _ _ (Reach.step y hR (hys y (by simp)) b2 hl) b3
            (fun d hd => hys d (by simp [hd]))
          exact ⟨r', c', k', by simpa using c1, c2, by omega⟩
  obtain ⟨r', c', k', c1, c2, c3⟩ := split_cost ys 0 cost' (by simpa using hcost) 0 0 [] Reach.bos t1
    (fun d hd => hCand d (by simp [hd]))
  have hok := I.node e ns x (by omega) he hx
  obtain ⟨_, _, _, _, _, hok⟩ := hok
  cases x with
  | bos d => exact absurd hok (by simp [NodeOk])
  | lone d tt => simp [LNode.connected] at hc
  | link d tt prev =>
    have := hok.2 _ _ _ _ c1 c2
    simp only [LNode.total, LNode.data] at this c3 ⊢
    omega

/-- Outside the safe range the claim fails: with two words of cost 2·10⁹ the total wraps to a negative number and
beats the single word of cost 5. -/
theorem C17_overflow_witness :
    ∃ (lex : Lex) (L' : Lattice),
      buildLattice (fun _ _ => .ok 0) lex [.simple ⟨0, 0, 0, 0⟩] Demo.input Lattice.init = (L', .ok ()) ∧
      L'.getBestPath = .ok [⟨0, 3, 0, 0, 2000000000, 0, false, none, true⟩, ⟨3, 9, 0, 0, 2000000000, 0, false, none, true⟩] ∧
      IsPath (fun _ _ => .ok 0) L'.Cand 9 [⟨0, 9, 0, 0, 5, 1, false, none, true⟩] 5 := by
  refine ⟨⟨fun _ i => if i = 0 then .ok [(0, 3), (1, 9)] else .ok [(0, 9)],
    fun w => if w = 0 then .ok (0, 0, 2000000000) else .ok (0, 0, 5), fun _ => .ok WordInfo.unk⟩, _, rfl, by decide, ?_⟩
  refine ⟨by simp [Tiles], ?_, by decide⟩
  intro d hd
  rw [List.mem_singleton.mp hd]
  exact ⟨9, _, .link ⟨0, 9, 0, 0, 5, 1, false, none, true⟩ 5 bosNode, by decide, rfl, by decide, rfl⟩

example : Demo.conn.Short ∧ Demo.lex.Ok ∧ (∀ p ∈ Demo.plugins, p.Short) ∧ Lattice.init.Clean :=
  ⟨Demo.conn_short, Demo.lex_ok, Demo.plugins_short, Lattice.init_clean⟩

/-! ## C23 -/

/-- **C23** Exactly the candidates the MeCab provider offers at character `k`, whose greedy category run ends at
character `b`; the provider raises only an `OverflowError`, exactly if an id or the cost of a candidate is no C `int`. -/
theorem C23_mecab_candidates (bd : Builder) (hv : bd.Valid) (catOf : Nat → CatSet) (t : InputText)
    (hb : bd.build catOf = .ok t) (categories : List (Cat × CategoryInfo)) (oovList : List (Cat × OovEntry))
    (k ch : Nat) (hk : bd.modified[k]? = some ch) (hasOther : Bool) :
    ∃ a b ns, RunStart t.charCats a ∧ IsRun t.charCats a b ∧ a ≤ k ∧ k < b ∧
      ((∀ d ∈ ns, CInt d.leftId ∧ CInt d.rightId ∧ CInt d.cost) →
        (OovPlugin.mecab categories oovList).getOov t (bytePos bd.modified k) hasOther = .ok ns) ∧
      ((∃ d ∈ ns, ¬ (CInt d.leftId ∧ CInt d.rightId ∧ CInt d.cost)) →
        (OovPlugin.mecab categories oovList).getOov t (bytePos bd.modified k) hasOther = .error .overflow) ∧
      ∀ d, d ∈ ns ↔ ∃ ty cinfo o j, ty ∈ catOf ch ∧ dictGet categories ty = some cinfo ∧ (ty, o) ∈ oovList ∧
        (cinfo.isInvoke = true ∨ hasOther = false) ∧
        -- the node spans the characters `[k, j)`
        d = ⟨bytePos bd.modified k, bytePos bd.modified j, o.leftId, o.rightId, o.cost, 0, true,
          some ⟨(bd.modified.take j).drop k, bytePos bd.modified j - bytePos bd.modified k, o.posId,
            (bd.modified.take j).drop k, -1, (bd.modified.take j).drop k, [], [], [], [], []⟩, true⟩ ∧
        ((cinfo.isGroup = true ∧ j = b) ∨
         ∃ m : Nat, 1 ≤ m ∧ (m : Int) ≤ cinfo.length ∧ j = min (k + m) bd.modified.length ∧
          (bytePos bd.modified j : Int) - bytePos bd.modified k ≤ (bytePos bd.modified b : Int) - bytePos bd.modified k -
            (if cinfo.isGroup then ((oovList.filter (fun p => p.1 = ty)).length : Int) else 0)) := by
  have B := built hv.len hb
  have hk' : k < bd.modified.length := by
    rcases Nat.lt_or_ge k bd.modified.length with h | h
    · exact h
    · rw [List.getElem?_eq_none h] at hk; cases hk
  have hch : bd.modified[k] = ch := by rw [List.getElem?_eq_getElem hk'] at hk; injection hk
  obtain ⟨b, ns, ⟨a, h1, h2, h3, h4⟩, h5, h6, h7⟩ := B.mecab_spec hk' categories oovList hasOther
  simp only [B.bytePos_wpos]
  refine ⟨a, b, ns, h1, h2, h3, h4, getOov_of_stores h6, getOov_of_not_stores h6, fun d => ?_⟩
  rw [h7 d, hch]
  have hnode : ∀ j o, k ≤ j → charsNode bd.modified k j o =
      ⟨wpos bd.modified k, wpos bd.modified j, o.leftId, o.rightId, o.cost, 0, true,
          some ⟨(bd.modified.take j).drop k, wpos bd.modified j - wpos bd.modified k, o.posId,
            (bd.modified.take j).drop k, -1, (bd.modified.take j).drop k, [], [], [], [], []⟩, true⟩ := by
    intro j o hj
    have := wpos_mono bd.modified hj
    simp only [charsNode, oovNode]
    congr 1
    omega
  have hlen : ∀ ty, (entriesOf oovList ty).length = (oovList.filter (fun p => p.1 = ty)).length := by
    intro ty; simp [entriesOf]
  have hsub : ∀ m, (sublen bd.modified k m : Int) =
      (wpos bd.modified (min (k + m) bd.modified.length) : Int) - wpos bd.modified k := by
    intro m
    have := wpos_mono bd.modified (show k ≤ min (k + m) bd.modified.length by omega)
    unfold sublen; omega
  have hbk := wpos_mono bd.modified (show k ≤ b by omega)
  constructor
  · rintro ⟨ty, g1, cinfo, o, g2, g3, g4, ⟨g5, g6⟩ | ⟨m, g5, g6, g7, g8⟩⟩
    · exact ⟨ty, cinfo, o, b, g1, g2, g3, g4, by rw [g6, hnode b o (by omega)], .inl ⟨g5, rfl⟩⟩
    · refine ⟨ty, cinfo, o, _, g1, g2, g3, g4, by rw [g8, hnode _ o (by omega)], .inr ⟨m, g5, g6, rfl, ?_⟩⟩
      rw [hsub, hlen] at g7
      omega
  · rintro ⟨ty, cinfo, o, j, g1, g2, g3, g4, g5, ⟨g6, g7⟩ | ⟨m, g6, g7, g8, g9⟩⟩
    · subst g7
      exact ⟨ty, g1, cinfo, o, g2, g3, g4, .inl ⟨g6, by rw [g5, hnode j o (by omega)]⟩⟩
    · subst g8
      refine ⟨ty, g1, cinfo, o, g2, g3, g4, .inr ⟨m, g6, g7, ?_, by rw [g5, hnode _ o (by omega)]⟩⟩
      rw [hsub, hlen]
      omega

/-- char.def says "KANJI 0 1 1" (group, and prefixes of up to one character) and unk.def has four KANJI entries.  For
"東京" (6 bytes) only the groups are offered: the one-character prefix has 3 > 6 - 4 bytes and is missing. -/
theorem C23_prefixes_suppressed :
    (OovPlugin.mecab [(.KANJI, ⟨false, true, 1⟩)]
        [(.KANJI, ⟨0, 0, 1, 0⟩), (.KANJI, ⟨0, 0, 2, 0⟩), (.KANJI, ⟨0, 0, 3, 0⟩), (.KANJI, ⟨0, 0, 4, 0⟩)]).getOov
      ⟨[0x6771, 0x4EAC], [0x6771, 0x4EAC], [230, 157, 177, 228, 186, 172], [0, 0, 0, 1, 1, 1, 2], [0, 0, 0, 1, 1, 1, 2],
        [[.KANJI], [.KANJI]], [6, 5, 4, 3, 2, 1], [true, true]⟩ 0 false =
      .ok ([⟨0, 0, 1, 0⟩, ⟨0, 0, 2, 0⟩, ⟨0, 0, 3, 0⟩, ⟨0, 0, 4, 0⟩].map (oovNode 0 6 [0x6771, 0x4EAC])) := by decide

/-- With one entry the same category offers the group and the one-character prefix. -/
example : (OovPlugin.mecab [(.KANJI, ⟨false, true, 1⟩)] [(.KANJI, ⟨0, 0, 1, 0⟩)]).getOov Demo.input 0 false =
    .ok [oovNode 0 9 Demo.text ⟨0, 0, 1, 0⟩, oovNode 0 3 [0x6771] ⟨0, 0, 1, 0⟩] := by decide

/-- A cost of unk.def above 31 bits: the provider raises. -/
example : (OovPlugin.mecab [(.KANJI, ⟨false, true, 1⟩)] [(.KANJI, ⟨0, 0, 2147483648, 0⟩)]).getOov Demo.input 0 false = .error .overflow := by
  decide

/-! ## C24 -/

/-- **C24** The Simple provider: nothing if other words exist, else exactly one node up to the next possible word
beginning (or the end of the text), whose surface is the text between; an `OverflowError` if an id or the cost is no C `int`. -/
theorem C24_simple (bd : Builder) (hv : bd.Valid) (catOf : Nat → CatSet) (t : InputText) (hb : bd.build catOf = .ok t)
    (o : OovEntry) (k : Nat) (hk : k < bd.modified.length) :
    (OovPlugin.simple o).getOov t (bytePos bd.modified k) true = .ok [] ∧
    ∃ j, k < j ∧ j ≤ bd.modified.length ∧ (j = bd.modified.length ∨ BowChar t.charCats j) ∧
      (∀ m, k < m → m < j → ¬ BowChar t.charCats m) ∧
      (o.Stores → (OovPlugin.simple o).getOov t (bytePos bd.modified k) false =
        .ok [⟨bytePos bd.modified k, bytePos bd.modified j, o.leftId, o.rightId, o.cost, 0, true,
          some ⟨(bd.modified.take j).drop k, bytePos bd.modified j - bytePos bd.modified k, o.posId,
            (bd.modified.take j).drop k, -1, (bd.modified.take j).drop k, [], [], [], [], []⟩, true⟩]) ∧
      (¬ o.Stores → (OovPlugin.simple o).getOov t (bytePos bd.modified k) false = .error .overflow) := by
  have B := built hv.len hb
  refine ⟨getOov_iff.mpr ⟨simple_has o _, by simp⟩, ?_⟩
  obtain ⟨j, h1, h2, h3, h4, h5⟩ := B.simple_spec hk o
  simp only [B.bytePos_wpos]
  refine ⟨j, h1, h2, h3, h4, fun hs => ?_, fun hs => ?_⟩
  rotate_left
  · unfold OovPlugin.getOov
    rw [h5]
    simp only [bind, Except.bind, List.all_cons, List.all_nil, Bool.and_true]
    rw [if_neg (fun h => hs (stores_charsNode.mp h))]
  rw [getOov_iff.mpr ⟨h5, fun d hd => by rw [List.mem_singleton.mp hd]; exact stores_charsNode.mpr hs⟩]
  have := wpos_mono bd.modified (show k ≤ j by omega)
  simp only [charsNode, oovNode]
  congr 3
  omega

example : (OovPlugin.simple ⟨5, -2147483649, 7, 8⟩).getOov Demo.input 3 false = .error .overflow := by decide

example : (OovPlugin.simple ⟨5, 6, 7, 8⟩).getOov Demo.input 3 false = .ok [oovNode 3 3 [0x4EAC] ⟨5, 6, 7, 8⟩] := by decide

/-! ## C25 -/

/-- **C25** An unknown word in the lattice at a NOOOVBOW character: no dictionary word starts there, and it comes from
the last provider, asked with "no other words". -/
theorem C25_nooovbow (bd : Builder) (hv : bd.Valid) (catOf : Nat → CatSet) (t : InputText) (hb : bd.build catOf = .ok t)
    (conn : Conn) (lex : Lex) (hlex : lex.Ok) (plugins : List OovPlugin) (L L' : Lattice) (hL : L.Clean)
    (h : buildLattice conn lex plugins t L = (L', .ok ())) (d : NodeData) (hd : L'.Cand d) (hoov : d.oov = true)
    (cats : CatSet) (hcats : t.charCategoryTypesAt d.begin_ = .ok cats) (hno : Cat.NOOOVBOW ∈ cats) :
    (∀ d', L'.Cand d' → d'.begin_ = d.begin_ → d'.oov = true) ∧
    ∃ p ns, plugins.getLast? = some p ∧ p.getOov t d.begin_ false = .ok ns ∧ d ∈ ns := by
  have B := built hv.len hb
  obtain ⟨L1, h1, h2⟩ := buildLattice_ok h
  obtain ⟨k1, _⟩ := buildLoop_cands B hlex hL h1
  have e1 := (connectEos_frame h2).1
  obtain ⟨hbow, _, ds, hds, hmem⟩ := k1 d ((cand_congr e1 d).mp hd)
  obtain ⟨ws, a, b, c, p1, p2, p3, p4, p5⟩ := posNodes_parts hds
  have hw : ∀ x ∈ a, x.oov = false := by
    intro x hx
    obtain ⟨w, e, _, _, h4⟩ := wordNodes_mem p2 x hx
    obtain ⟨_, _, _, _, _, rfl⟩ := wordNode_eq h4
    rfl
  have hb' : b = [] := by
    unfold oovPartNodes at p3
    rw [hcats] at p3
    simp only [hno, if_true, Except.ok.injEq] at p3
    exact p3.symm
  subst hb'
  have hdc : d ∈ c := by
    rw [p5] at hmem
    rcases List.mem_append.mp hmem with hm | hm
    · have := hw d hm; rw [hoov] at this; cases this
    · simpa using hm
  unfold defaultNodes at p4
  split at p4
  · cases p4; simp at hdc
  · rename_i hnot
    have ha : a = [] := by
      cases a with
      | nil => rfl
      | cons => simp at hnot
    split at p4
    · cases p4
    · rename_i p hp
      refine ⟨?_, p, c, hp, p4, hdc⟩
      intro d' hd' hbeg
      obtain ⟨_, _, ds', hds', hmem'⟩ := k1 d' ((cand_congr e1 d').mp hd')
      rw [hbeg, hds] at hds'
      cases hds'
      rw [p5, ha] at hmem'
      obtain ⟨k, hk, hke, _⟩ := B.bow_char hbow
      have n2 := getOov_spec B hk (hke ▸ p4)
      obtain ⟨_, _, _, _, rfl, _⟩ := n2 d' (by simpa using hmem')
      rfl

/-- The small tsu (NOOOVBOW) after a kanji with no dictionary word: the last of two providers is used. -/
example : (buildLattice (fun _ _ => .ok 0) ⟨fun _ _ => .ok [], fun _ => .error .index, fun _ => .ok WordInfo.unk⟩
      [.mecab [(.KANJI, ⟨true, true, 0⟩)] [(.KANJI, ⟨0, 0, 7, 0⟩)], .simple ⟨0, 0, 9, 0⟩]
      { Demo.input with charCats := [[.KANJI], [.KANJI, .NOOOVBOW], [.KANJI]], conts := [3, 2, 1, 6, 5, 4, 3, 2, 1] }
      Lattice.init).1.endLists.map (·.map (fun x => (x.data.begin_, x.data.cost))) =
    [[(0, 0)], [], [], [(0, 7)], [], [], [(3, 9)], [], [], [(6, 7)]] := by decide

/-! ## C57 -/

/-- **C57** No dictionary word is overlooked: at every possible word beginning where some candidate (or the sentence
begin) ends, every looked-up word whose end is the text end or a possible word beginning is a candidate; and every
candidate starts at such a position. -/
theorem C57_all_words_considered (bd : Builder) (hv : bd.Valid) (catOf : Nat → CatSet) (t : InputText)
    (hb : bd.build catOf = .ok t) (conn : Conn) (lex : Lex) (hlex : lex.Ok) (plugins : List OovPlugin)
    (L L' : Lattice) (hL : L.Clean) (h : buildLattice conn lex plugins t L = (L', .ok ())) :
    (∀ i ws w e, t.canBow i = .ok true → (i = 0 ∨ ∃ d, L'.Cand d ∧ d.end_ = i) → lex.lookup t.bytes i = .ok ws →
      (w, e) ∈ ws → (e = t.bytes.length ∨ t.canBow e = .ok true) →
      ∃ l r c, lex.params w = .ok (l, r, c) ∧ L'.Cand ⟨i, e, l, r, c, w, false, none, true⟩) ∧
    (∀ d, L'.Cand d → t.canBow d.begin_ = .ok true ∧ (d.begin_ = 0 ∨ ∃ d', L'.Cand d' ∧ d'.end_ = d.begin_)) := by
  have B := built hv.len hb
  obtain ⟨L1, h1, h2⟩ := buildLattice_ok h
  obtain ⟨k1, k2⟩ := buildLoop_cands B hlex hL h1
  have e1 := (connectEos_frame h2).1
  have hC : L'.Cand = L1.Cand := funext fun d => propext (cand_congr e1 d)
  rw [hC]
  refine ⟨?_, fun d hd => ⟨(k1 d hd).1, (k1 d hd).2.1⟩⟩
  intro i ws w e hbow hend hws hm he
  obtain ⟨ds, hds, hall⟩ := k2 i hbow hend
  obtain ⟨ws', a, b, c, p1, p2, p3, p4, p5⟩ := posNodes_parts hds
  rw [hws] at p1
  cases p1
  have hsk : skipEnd t e = .ok false := by
    unfold skipEnd
    rcases he with he | he
    · rw [if_neg (by omega)]; rfl
    · split
      · simp [he, bind, Except.bind, pure, Except.pure]
      · rfl
  obtain ⟨d, hd, hdn⟩ := wordNodes_complete p2 w e hm hsk
  obtain ⟨l, r, cc, hpar, _, rfl⟩ := wordNode_eq hdn
  exact ⟨l, r, cc, hpar, hall _ (by rw [p5]; simp [hd])⟩

/-- **C57** The providers of unknown words at a position without NOOOVBOW: the first provider is told there are other
words exactly when a dictionary word was inserted there. -/
theorem C57_first_provider_asked (bd : Builder) (hv : bd.Valid) (catOf : Nat → CatSet) (t : InputText)
    (hb : bd.build catOf = .ok t) (conn : Conn) (lex : Lex) (hlex : lex.Ok) (p : OovPlugin) (ps : List OovPlugin)
    (L L' : Lattice) (hL : L.Clean) (h : buildLattice conn lex (p :: ps) t L = (L', .ok ())) (i : Nat)
    (hbow : t.canBow i = .ok true) (hend : i = 0 ∨ ∃ d, L'.Cand d ∧ d.end_ = i) (cats : CatSet)
    (hcats : t.charCategoryTypesAt i = .ok cats) (hno : Cat.NOOOVBOW ∉ cats) (has : Bool)
    (hhas : has = true ↔ ∃ d, L'.Cand d ∧ d.begin_ = i ∧ d.oov = false) (ns : List NodeData)
    (hns : p.getOov t i has = .ok ns) : ∀ d ∈ ns, L'.Cand d := by
  have B := built hv.len hb
  obtain ⟨L1, h1, h2⟩ := buildLattice_ok h
  obtain ⟨k1, k2⟩ := buildLoop_cands B hlex hL h1
  have e1 := (connectEos_frame h2).1
  have hC : L'.Cand = L1.Cand := funext fun d => propext (cand_congr e1 d)
  rw [hC] at hhas hend ⊢
  obtain ⟨ds, hds, hall⟩ := k2 i hbow hend
  have hins := posNodes_inserted B hlex hbow hds
  obtain ⟨ws', a, b, c, p1, p2, p3, p4, p5⟩ := posNodes_parts hds
  have hahas : (!a.isEmpty) = has := by
    have hw : ∀ x ∈ a, x.oov = false := by
      intro x hx
      obtain ⟨w, e, _, _, h4⟩ := wordNodes_mem p2 x hx
      obtain ⟨_, _, _, _, _, rfl⟩ := wordNode_eq h4
      rfl
    have hoov : ∀ x ∈ b ++ c, x.oov = true := by
      obtain ⟨k, hk, rfl, _⟩ := B.bow_char hbow
      intro x hx
      have : ∃ q ∈ p :: ps, ∃ has' ns', q.getOov t (wpos bd.modified k) has' = .ok ns' ∧ x ∈ ns' := by
        rcases List.mem_append.mp hx with hx | hx
        · unfold oovPartNodes at p3
          rw [hcats] at p3
          simp only [hno, if_false] at p3
          exact oovNodes_mem p3 x hx
        · unfold defaultNodes at p4
          split at p4
          · cases p4; simp at hx
          · split at p4
            · cases p4
            · rename_i q hq
              exact ⟨q, List.mem_of_getLast? hq, false, c, p4, hx⟩
      obtain ⟨q, _, has', ns', n1, n2⟩ := this
      have m2 := getOov_spec B hk n1
      obtain ⟨_, _, _, _, rfl, _⟩ := m2 x n2
      rfl
    rw [Bool.eq_iff_iff, hhas]
    constructor
    · intro hne
      cases a with
      | nil => simp at hne
      | cons x xs => exact ⟨x, hall x (by rw [p5]; simp), (hins x (by rw [p5]; simp)).1, hw x (by simp)⟩
    · rintro ⟨d, hd, hdi, hdo⟩
      obtain ⟨_, _, ds', q1, q2⟩ := k1 d hd
      rw [hdi, hds] at q1
      cases q1
      rw [p5] at q2
      rcases List.mem_append.mp q2 with q2 | q2
      · cases a with
        | nil => simp at q2
        | cons => simp
      · have := hoov d q2; rw [hdo] at this; cases this
  have hb' : ∀ d ∈ ns, d ∈ b := by
    intro d hd
    unfold oovPartNodes at p3
    rw [hcats] at p3
    simp only [hno, if_false, hahas, oovNodes, hns] at p3
    split at p3
    · cases p3
    · cases p3; simp [hd]
  intro d hd
  exact hall d (by rw [p5]; simp [hb' d hd])

/-- "東京都": the words 京 and 京都 at byte 3 are candidates although the best path does not use them. -/
example : Lattice.Cand (buildLattice Demo.conn Demo.lex Demo.plugins Demo.input Lattice.init).1
    ⟨3, 9, 1, 1, 300, 4, false, none, true⟩ :=
  ⟨9, _, .lone ⟨3, 9, 1, 1, 300, 4, false, none, true⟩ (-2147483349), by decide, rfl, by decide, rfl⟩

end Sudachi
