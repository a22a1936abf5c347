import Verif.Lemmas.Installed
import Verif.Props.Total
namespace Sudachi

/-! ### UTF-8 is injective -/

theorem utf8Cp_cons {a b : Nat} {x y : Bytes} (h : utf8Cp a ++ x = utf8Cp b ++ y) : a = b ∧ x = y := by
  unfold utf8Cp at h
  split at h
  · split at h
    · simp only [List.cons_append, List.nil_append, List.cons.injEq] at h; exact h
    · exfalso
      split at h
      · simp only [List.cons_append, List.cons.injEq] at h; omega
      · split at h <;> simp only [List.cons_append, List.cons.injEq] at h <;> omega
  · split at h
    · split at h
      · exfalso; simp only [List.cons_append, List.cons.injEq] at h; omega
      · split at h
        · simp only [List.cons_append, List.nil_append, List.cons.injEq] at h; exact ⟨by omega, h.2.2⟩
        · exfalso
          split at h <;> simp only [List.cons_append, List.cons.injEq] at h <;> omega
    · split at h
      · split at h
        · exfalso; simp only [List.cons_append, List.cons.injEq] at h; omega
        · split at h
          · exfalso; simp only [List.cons_append, List.cons.injEq] at h; omega
          · split at h
            · simp only [List.cons_append, List.nil_append, List.cons.injEq] at h; exact ⟨by omega, h.2.2.2⟩
            · exfalso; simp only [List.cons_append, List.cons.injEq] at h; omega
      · split at h
        · exfalso; simp only [List.cons_append, List.cons.injEq] at h; omega
        · split at h
          · exfalso; simp only [List.cons_append, List.cons.injEq] at h; omega
          · split at h
            · exfalso; simp only [List.cons_append, List.cons.injEq] at h; omega
            · simp only [List.cons_append, List.nil_append, List.cons.injEq] at h; exact ⟨by omega, h.2.2.2.2⟩

theorem utf8Cp_ne (c : Nat) : utf8Cp c ≠ [] := by
  unfold utf8Cp
  split
  · simp
  · split
    · simp
    · split <;> simp

theorem utf8_injective : ∀ {s s' : PStr}, s.flatMap utf8Cp = s'.flatMap utf8Cp → s = s'
  | [], [], _ => rfl
  | [], b :: s', h => by
    rw [List.flatMap_nil, List.flatMap_cons] at h
    exact absurd (List.append_eq_nil_iff.1 h.symm).1 (utf8Cp_ne b)
  | a :: s, [], h => by
    rw [List.flatMap_nil, List.flatMap_cons] at h
    exact absurd (List.append_eq_nil_iff.1 h).1 (utf8Cp_ne a)
  | a :: s, b :: s', h => by
    rw [List.flatMap_cons, List.flatMap_cons] at h
    obtain ⟨h1, h2⟩ := utf8Cp_cons h
    rw [h1, utf8_injective h2]

/-! ### Reading a word info never runs out of fuel -/

theorem NoFuel.error {α : Type} {e : Err} (h : e ≠ .outOfFuel) : NoFuel (.error e : Res α) := fun h' => h (Except.error.inj h')

theorem NoFuel.mReadByte (b : Bytes) (i : Nat) : NoFuel (mReadByte b i) := by
  unfold Sudachi.mReadByte
  split
  · exact .ok _
  · exact .error (by decide)

theorem NoFuel.getStringLength (b : Bytes) (i : Nat) : NoFuel (getStringLength b i) := by
  unfold Sudachi.getStringLength
  refine (NoFuel.mReadByte _ _).bind fun a _ => ?_
  obtain ⟨a1, a2⟩ := a
  exact .ite (.ok _) ((NoFuel.mReadByte _ _).bind fun _ _ => .ok _)

theorem NoFuel.unitsLe : ∀ b : Bytes, NoFuel (unitsLe b)
  | [] => .ok _
  | [_] => .error (by decide)
  | a :: c :: r => by
    unfold Sudachi.unitsLe
    exact (NoFuel.unitsLe r).bind fun _ _ => .ok _

theorem NoFuel.decodeUnits : ∀ us : List Nat, NoFuel (decodeUnits us)
  | [] => .ok _
  | [u] => by
    unfold Sudachi.decodeUnits
    exact .ite ((NoFuel.decodeUnits []).bind fun _ _ => .ok _) (.error (by decide))
  | u :: v :: r => by
    unfold Sudachi.decodeUnits
    exact .ite ((NoFuel.decodeUnits (v :: r)).bind fun _ _ => .ok _)
      (.ite ((NoFuel.decodeUnits r).bind fun _ _ => .ok _) (.error (by decide)))

theorem NoFuel.getString (b : Bytes) (i : Nat) : NoFuel (getString b i) := by
  unfold Sudachi.getString
  refine (NoFuel.getStringLength _ _).bind fun a _ => ?_
  obtain ⟨a1, a2⟩ := a
  refine NoFuel.bind ?_ fun _ _ => .ok _
  unfold decodeUtf16Le
  exact (NoFuel.unitsLe _).bind fun _ _ => .decodeUnits _

theorem NoFuel.unpackI32 : ∀ (n : Nat) (b : Bytes), NoFuel (unpackI32 n b)
  | 0, b => .ite (.ok _) (.error (by decide))
  | n + 1, b => .ite ((NoFuel.unpackI32 n _).bind fun _ _ => .ok _) (.error (by decide))

theorem NoFuel.getIntArray (b : Bytes) (i : Nat) : NoFuel (getIntArray b i) := by
  unfold Sudachi.getIntArray
  refine (NoFuel.mReadByte _ _).bind fun a _ => ?_
  obtain ⟨a1, a2⟩ := a
  exact (NoFuel.unpackI32 _ _).bind fun _ _ => .ok _

theorem NoFuel.getStoredInfo (b : Bytes) (hasSyn : Bool) (i : Nat) : NoFuel (getStoredInfo b hasSyn i) := by
  unfold Sudachi.getStoredInfo
  refine NoFuel.bind ?_ fun i0 _ => ?_
  · unfold mSeek
    exact .ite (.ok _) (.error (by decide))
  refine (NoFuel.getString _ _).bind fun a _ => ?_
  obtain ⟨a1, a2⟩ := a
  refine (NoFuel.getStringLength _ _).bind fun a _ => ?_
  obtain ⟨a3, a4⟩ := a
  refine (NoFuel.getString _ _).bind fun a _ => ?_
  obtain ⟨a5, a6⟩ := a
  refine (NoFuel.getString _ _).bind fun a _ => ?_
  obtain ⟨a7, a8⟩ := a
  refine (NoFuel.getIntArray _ _).bind fun a _ => ?_
  obtain ⟨b1, b2⟩ := a
  refine (NoFuel.getIntArray _ _).bind fun a _ => ?_
  obtain ⟨b3, b4⟩ := a
  refine (NoFuel.getIntArray _ _).bind fun a _ => ?_
  obtain ⟨b5, b6⟩ := a
  exact .ite ((NoFuel.getIntArray _ _).bind fun _ _ => .ok _) (NoFuel.bind (.ok _) fun _ _ => .ok _)

theorem NoFuel.dalWordInfo (x : DALex) : ∀ depth w, NoFuel (x.wordInfo depth w)
  | 0, _ => .error (by decide)
  | depth + 1, w => by
    unfold DALex.wordInfo
    exact (NoFuel.getStoredInfo _ _ _).bind fun _ _ => .ite ((NoFuel.dalWordInfo x depth _).bind fun _ _ => .ok _) (.ok _)

theorem NoFuel.pyGetI {α : Type} (l : List α) (i : Int) : NoFuel (pyGetI l i) := by
  unfold Sudachi.pyGetI
  exact .ite (.ite (.error (by decide)) (.pyGet _ _)) (.pyGet _ _)

theorem NoFuel.convertSplit (s : LexSet) (d : Int) : ∀ us, NoFuel (s.convertSplit d us)
  | [] => .ok _
  | u :: us => by
    unfold LexSet.convertSplit
    refine NoFuel.bind ?_ fun _ _ => (NoFuel.convertSplit s d us).bind fun _ _ => .ok _
    unfold LexSet.convertUnit LexSet.buildWordId
    exact .ite (.ite (.error (by decide)) (.ite (.error (by decide)) (.ite (.ok _) (.ok _)))) (.ok _)

/-- Word infos of dictionaries in files never run out of fuel. -/
theorem set_honest (D : Darts) (depth : Nat) (s : LexSet) : (s.toLex D depth).Honest := by
  intro w
  show NoFuel (s.wordInfo depth w)
  unfold LexSet.wordInfo
  refine (NoFuel.pyGetI _ _).bind fun x _ => (NoFuel.dalWordInfo x _ _).bind fun wi _ => NoFuel.bind ?_ fun _ _ =>
    (NoFuel.convertSplit _ _ _).bind fun _ _ => (NoFuel.convertSplit _ _ _).bind fun _ _ =>
    (NoFuel.convertSplit _ _ _).bind fun _ _ => .ok _
  unfold LexSet.convertPos
  exact .ite ((NoFuel.pyGet _ _).bind fun _ _ => .ite ((NoFuel.pyGetI _ _).bind fun _ _ => .ok _) (.ok _)) (.ok _)

/-! ### Connection costs -/

theorem matrixLines_short {n : Int} : ∀ {lines : List PStr} {m m' : Stream}, matrixLines n m lines = .ok m' →
    ∀ e ∈ lines.filterMap matrixEntry, Short e.2.2 := by
  intro lines
  induction lines with
  | nil => intro m m' _ e he; cases he
  | cons line lines ih =>
    intro m m' h
    unfold matrixLines at h
    by_cases hc : (strip line).isEmpty ∨ (strip line).head? = some 35
    · rw [if_pos hc] at h
      have he : matrixEntry line = none := by
        unfold matrixEntry
        rw [if_pos]
        rcases hc with hc | hc
        · left; simpa using hc
        · right; exact hc
      rw [List.filterMap_cons_none he]
      exact ih h
    · rw [if_neg hc] at h
      by_cases h3 : (splitWs (strip line)).length < 3
      · rw [if_pos h3] at h
        have he : matrixEntry line = none := by
          unfold matrixEntry
          split
          · rfl
          · split
            · rename_i h4; rw [h4] at h3; simp at h3
            · rfl
        rw [List.filterMap_cons_none he]
        exact ih h
      · rw [if_neg h3] at h
        obtain ⟨vs, hvs, h⟩ := bind_ok h
        split at h
        · rename_i l r cost
          obtain ⟨m1, hm1, h⟩ := bind_ok h
          obtain ⟨b, hb, h⟩ := bind_ok h
          obtain ⟨m2, hm2, hrest⟩ := bind_ok h
          obtain ⟨a', b', c', hw, e1, e2, e3⟩ := pyInts_three hvs
          have he : matrixEntry line = some (l, r, cost) := by
            unfold matrixEntry
            rw [if_neg (by intro hx; apply hc; rcases hx with hx | hx; · left; simp [hx]
                           · right; exact hx)]
            rw [hw]
            simp only [e1, e2, e3]
          rw [List.filterMap_cons_some he]
          intro e hm
          rcases List.mem_cons.1 hm with rfl | hm
          · exact (writeInt_short hb).2.2.2
          · exact ih hrest e hm
        · cases h

theorem lastCost_short {es : List (Int × Int × Int)} (h : ∀ e ∈ es, Short e.2.2) (l r : Int) : Short (lastCost es l r) := by
  unfold lastCost
  split
  · rename_i e he
    exact h e (List.mem_filter.1 (List.mem_of_getLast? he)).1
  · exact ⟨by decide, by decide⟩

theorem viewIndex_lt {n : Nat} {i : Int} {a : Nat} (h : Grammar.viewIndex n i = .ok a) : a < n := by
  unfold Grammar.viewIndex at h
  split at h
  · split at h
    · cases h
    · cases h; omega
  · split at h
    · cases h; omega
    · cases h

theorem viewIndex_nat {n a : Nat} (h : a < n) : Grammar.viewIndex n a = .ok a := by
  unfold Grammar.viewIndex
  rw [if_neg (by omega), if_pos (by omega)]
  rfl

namespace Sources
variable {S : Sources} {cfg : DictConfig} {dict : Dict}

theorem Installed.matrixSays (hD : cfg.D.Ok) (h : S.Installed cfg dict) :
    MatrixSays dict.grammar S.system.matrix ∧ MatrixOk S.system.matrix ∧
    ∀ header lines, S.system.matrix = some (header, lines) → ∀ e ∈ lines.filterMap matrixEntry, Short e.2.2 := by
  obtain ⟨file, files, ds, depth, hb, hr, hs, hlen, husers, hload⟩ := h
  obtain ⟨ds', gs, e1, e2, e3, _, _, _, ⟨ps, hg⟩, _⟩ := load_user hload
  have e1' := system_read e1
  rw [hr] at e1'
  cases e1'
  have hC0 := hb.compiled hr
  refine ⟨?_, hb.1.matrix, ?_⟩
  · obtain ⟨g0, F0⟩ := compiled_facts hD hb.1 hC0
    have hgg := F0.grammar
    rw [e2] at hgg
    cases hgg
    have := F0.matrix
    rw [hg]
    cases hm : S.system.matrix with
    | none => rw [hm] at this; exact this
    | some m => rw [hm] at this; exact this
  · intro header lines hm
    obtain ⟨P, g, hB, _⟩ := hC0.parts hb.1 hD
    have := hB.matrix
    rw [hm] at this
    obtain ⟨l, r, a, b, m, _, _, _, hml, _⟩ := convertMatrix_ok this
    exact matrixLines_short hml

/-- The costs between ids of the matrix are those of the lines. -/
theorem Installed.cell (hD : cfg.D.Ok) (h : S.Installed cfg dict) {n : Nat} {entries : List (Int × Int × Int)} (hm : S.Matrix n entries)
    {l r : Int} (hl : InRange n l) (hr : InRange n r) : dict.grammar.cell l r = conn entries l r := by
  obtain ⟨header, lines, m1, m2, rfl⟩ := hm
  obtain ⟨h1, _, _⟩ := h.matrixSays hD
  rw [m1] at h1
  obtain ⟨_, _, h2⟩ := h1 n m2
  obtain ⟨l0, l1⟩ := hl
  obtain ⟨r0, r1⟩ := hr
  have := h2 r.toNat l.toNat (by omega) (by omega)
  rw [show ((r.toNat : Nat) : Int) = r by omega, show ((l.toNat : Nat) : Int) = l by omega] at this
  exact this

theorem Installed.connShort (hD : cfg.D.Ok) (h : S.Installed cfg dict) : Conn.Short dict.grammar.cell := by
  intro l r k hk
  obtain ⟨h1, h2, h3⟩ := h.matrixSays hD
  unfold Grammar.cell at hk
  obtain ⟨a, ha, hk⟩ := bind_ok hk
  obtain ⟨b, hb, hk⟩ := bind_ok hk
  have ha := viewIndex_lt ha
  have hb := viewIndex_lt hb
  cases hm : S.system.matrix with
  | none =>
    rw [hm] at h1
    have := h1.1
    omega
  | some m =>
    obtain ⟨header, lines⟩ := m
    rw [hm] at h1 h2
    obtain ⟨n, m1, _⟩ := h2
    obtain ⟨g1, g2, g3⟩ := h1 n m1
    have := g3 b a (by omega) (by omega)
    unfold Grammar.getConnectCost Grammar.cell at this
    rw [viewIndex_nat ha, viewIndex_nat hb] at this
    have : pyGet dict.grammar.matrix (a * dict.grammar.right + b) = _ := this
    rw [this] at hk
    cases hk
    exact lastCost_short (h3 header lines hm) _ _

theorem Installed.matrix_pos (hD : cfg.D.Ok) (h : S.Installed cfg dict) {n : Nat} {entries : List (Int × Int × Int)} (hm : S.Matrix n entries) :
    0 < n := by
  obtain ⟨header, lines, m1, m2, _⟩ := hm
  obtain ⟨_, h2, _⟩ := h.matrixSays hD
  rw [m1] at h2
  obtain ⟨n', m3, m4, e, he, e1, e2⟩ := h2
  rw [m2] at m3
  have := m4 e he
  injection m3 with m3
  injection m3 with m3 _
  omega

/-! ### Word infos -/

theorem convertSplit_ok {s : LexSet} {d : Nat} (hd : d ≤ s.lexicons.length) : ∀ us : List Int, ∃ r, s.convertSplit d us = .ok r
  | [] => ⟨_, rfl⟩
  | u :: us => by
    obtain ⟨r, hr⟩ := convertSplit_ok hd us
    unfold LexSet.convertSplit LexSet.convertUnit
    split
    · have : localId u < 268435456 := by unfold localId; rw [pow28i]; omega
      rw [buildWordId_nat hd this, hr]
      exact ⟨_, rfl⟩
    · rw [hr]
      exact ⟨_, rfl⟩

/-- The word info of a row can be read. -/
theorem Installed.readable (hD : cfg.D.Ok) (h : S.Installed cfg dict) (hf : S.Fit) {depth : Nat} (hch : S.ChainsEnd depth) {d w : Nat} {c : Cols}
    (hc : S.Row d w c) : ∃ info, dict.set.wordInfo depth (combinedId d w : Nat) = .ok info := by
  have hw := h.row_lt hD hc
  obtain ⟨src, hs, hc⟩ := hc
  obtain ⟨x, table, F⟩ := h.facts hD hs
  obtain ⟨k, hk, hlt⟩ := hch d src w c hs hc
  obtain ⟨wi, hi⟩ := F.answers (fun w c hc => hf d w c ⟨src, hs, hc⟩) w k hk depth hlt
  have hlen := h.set.1.lengths.1
  have hd : d < dict.set.lexicons.length := by rw [h.set.2.1]; exact at?_lt hs
  have hg : pyGet dict.set.lexicons d = .ok x := by unfold pyGet; rw [F.lexicon]
  unfold LexSet.wordInfo
  rw [dictionaryIdOf_combined hw, localId_combined hw, pyGetI_nat, hg]
  simp only [bind, Except.bind]
  rw [hi]
  obtain ⟨a, ha⟩ := convertSplit_ok (Nat.le_of_lt hd) wi.aUnitSplit
  obtain ⟨b, hb⟩ := convertSplit_ok (Nat.le_of_lt hd) wi.bUnitSplit
  obtain ⟨c', hc'⟩ := convertSplit_ok (Nat.le_of_lt hd) wi.wordStructure
  have hp : ∃ p, dict.set.convertPos d wi.posId = .ok p := by
    unfold LexSet.convertPos
    split
    · rename_i h0
      have g1 : pyGet dict.set.posOffsets 1 = .ok (dict.set.posOffsets[1]'(by omega)) := by
        unfold pyGet; rw [List.getElem?_eq_getElem (by omega)]
      have g2 : pyGet dict.set.posOffsets d = .ok (dict.set.posOffsets[d]'(by omega)) := by
        unfold pyGet; rw [List.getElem?_eq_getElem (by omega)]
      rw [pyGetI_nat, g1]
      simp only [bind, Except.bind]
      split
      · rw [g2]; exact ⟨_, rfl⟩
      · exact ⟨_, rfl⟩
    · exact ⟨_, rfl⟩
  obtain ⟨p, hp⟩ := hp
  simp only [hp, ha, hb, hc']
  exact ⟨_, rfl⟩

theorem Installed.splitsOk (hD : cfg.D.Ok) (h : S.Installed cfg dict) (hf : S.Fit) (hadd : S.SplitsAddUp) :
    (dict.set.toLex cfg.D cfg.depth).SplitsOk := by
  have hlook : ∀ bytes i ws w e, (dict.set.toLex cfg.D cfg.depth).lookup bytes i = .ok ws → (w, e) ∈ ws → ∃ d w0 c, w = combinedId d w0 ∧
      S.Row d w0 c ∧ c.left ≠ [45, 49] ∧ e = i + (headBytes c).length := by
    intro bytes i ws w e hws hm
    obtain ⟨found, h1, h2⟩ := h.lookup hD bytes i
    have hws : dict.set.lookup cfg.D bytes i = .ok ws := hws
    rw [h1] at hws
    cases hws
    obtain ⟨d, w0, c, e1, e2, e3, e4, _⟩ := (h2 w e).1 hm
    exact ⟨d, w0, c, e1, e2, e3, e4⟩
  have hinfo : ∀ d w c wi, S.Row d w c → (dict.set.toLex cfg.D cfg.depth).wordInfo (combinedId d w : Nat) = .ok wi →
      wi.headWordLength = (headBytes c).length := by
    intro d w c wi hc hi
    obtain ⟨src, wi', table, _, h2, _, h3, _⟩ := h.info hD hc (hf d w c hc) hi
    rw [h3, h2.headWordLength]
    rfl
  have hsplit : ∀ d w c wi col (ids us : List Int) src, S.Row d w c → c.left ≠ [45, 49] → S.at? d = some src →
      (col = c.aSplit ∨ col = c.bSplit) → (dict.set.toLex cfg.D cfg.depth).wordInfo (combinedId d w : Nat) = .ok wi →
      SplitMeans (S.against d) src.rows col ids → us = ids.map (ownUnit d) → 2 ≤ us.length →
      SplitConsistent (dict.set.toLex cfg.D cfg.depth) us wi.headWordLength := by
    intro d w c wi col ids us src hc hleft hs hcol hi hm hus hlen infos hinfos
    obtain ⟨cs, hcs, hl, hk⟩ := h.units hD hs hm
    have hul : us.length = ids.length := by rw [hus, List.length_map]
    have hil : infos.length = us.length := by
      have := congrArg List.length hinfos
      simpa using this.symm
    rw [hinfo d w c wi hc hi]
    have hsum := hadd d w c cs hc hleft (hcol.elim (fun e => .inl (e ▸ hcs)) fun e => .inr (e ▸ hcs)) (by omega)
    rw [← hsum]
    congr 1
    apply List.ext_getElem?
    intro k
    rw [List.getElem?_map, List.getElem?_map]
    by_cases hlt : k < ids.length
    · have hi1 := List.getElem?_eq_getElem (show k < infos.length by omega)
      have hc1 := List.getElem?_eq_getElem (show k < cs.length by omega)
      have hu1 := List.getElem?_eq_getElem hlt
      obtain ⟨k1, k2⟩ := hk k _ _ hu1 hc1
      rw [hi1, hc1]
      have := congrArg (fun l => l[k]?) hinfos
      simp only [List.getElem?_map, hus, hu1, hi1, Option.map_some] at this
      rw [k1] at this
      have := hinfo _ _ _ _ k2 (Option.some.inj this)
      simp only [Option.map_some, this]
    · rw [List.getElem?_eq_none (by omega), List.getElem?_eq_none (by omega)]
      rfl
  constructor
  · intro bytes i ws w e wi hws hm hi
    obtain ⟨d, w0, c, rfl, hc, _, he⟩ := hlook bytes i ws w e hws hm
    rw [hinfo d w0 c wi hc hi]
    omega
  · intro bytes i ws w e wi hws hm hi hlen
    obtain ⟨d, w0, c, rfl, hc, hleft, he⟩ := hlook bytes i ws w e hws hm
    obtain ⟨src, wi', table, hs, h2, _, _, _, _, _, h3, _⟩ := h.info hD hc (hf d w0 c hc) hi
    exact hsplit d w0 c wi _ _ _ src hc hleft hs (.inl rfl) hi h2.aSplit h3 hlen
  · intro bytes i ws w e wi hws hm hi hlen
    obtain ⟨d, w0, c, rfl, hc, hleft, he⟩ := hlook bytes i ws w e hws hm
    obtain ⟨src, wi', table, hs, h2, _, _, _, _, _, _, h3, _⟩ := h.info hD hc (hf d w0 c hc) hi
    exact hsplit d w0 c wi _ _ _ src hc hleft hs (.inr rfl) hi h2.bSplit h3 hlen

theorem Row.dict_lt {S : Sources} {d w : Nat} {c : Cols} (h : S.Row d w c) : d < S.users.length + 1 := by
  obtain ⟨src, hs, _⟩ := h
  exact at?_lt hs

theorem combined_small {d w : Nat} (hd : d < 8) (hw : w < 268435456) : combinedId d w < 2147483648 := by
  unfold combinedId; omega

theorem Installed.answers (hD : cfg.D.Ok) (h : S.Installed cfg dict) {n : Nat} {entries : List (Int × Int × Int)}
    (hS : S.Complete n entries cfg.depth) : (dict.set.toLex cfg.D cfg.depth).Answers (InRange n) (InRange n) := by
  constructor
  · intro bytes i _
    obtain ⟨found, h1, h2⟩ := h.lookup hD bytes i
    refine ⟨found, h1, fun w e hm => ?_⟩
    obtain ⟨d, w0, c, rfl, hc, hleft, _⟩ := (h2 w e).1 hm
    obtain ⟨l, r, v, p1, p2, p3, _⟩ := h.params hD hc
    obtain ⟨q1, q2⟩ := hS.ids d w0 c hc hleft l r p1 p2
    exact ⟨combined_small (by have := hc.dict_lt; have := hS.few; omega) (h.row_lt hD hc), l, r, v, p3, q1, q2⟩
  · intro bytes i ws w e hws hm
    obtain ⟨found, h1, h2⟩ := h.lookup hD bytes i
    have hws : dict.set.lookup cfg.D bytes i = .ok ws := hws
    rw [h1] at hws
    cases hws
    obtain ⟨d, w0, c, rfl, hc, hleft, _⟩ := (h2 w e).1 hm
    exact h.readable hD hS.fit hS.chains hc

theorem Installed.unitsReadable (hD : cfg.D.Ok) (h : S.Installed cfg dict) (hf : S.Fit) (hch : S.ChainsEnd cfg.depth) (hfew : S.users.length ≤ 7) :
    (dict.set.toLex cfg.D cfg.depth).UnitsReadable := by
  intro bytes i ws w e wi hws hm hi u hu
  obtain ⟨found, h1, h2⟩ := h.lookup hD bytes i
  have hws : dict.set.lookup cfg.D bytes i = .ok ws := hws
  rw [h1] at hws
  cases hws
  obtain ⟨d, w0, c, rfl, hc, _, _⟩ := (h2 w e).1 hm
  obtain ⟨src, wi', table, hs, h3, _, _, _, _, _, h4, h5, _⟩ := h.info hD hc (hf d w0 c hc) hi
  have key : ∀ col (ids : List Int), SplitMeans (S.against d) src.rows col ids → u ∈ ids.map (ownUnit d) →
      -2147483648 ≤ u ∧ u ≤ 2147483647 ∧ ∃ wi', (dict.set.toLex cfg.D cfg.depth).wordInfo u = .ok wi' := by
    intro col ids hm hu
    obtain ⟨u0, h6, rfl⟩ := List.mem_map.1 hu
    obtain ⟨k1, c', k2⟩ := h.unitRow hD hs (DictBuilder.SplitMeans.exists (h.againstOk hD d) hm u0 h6)
    rw [k1]
    have := combined_small (d := (unitWord d u0).1) (by have := k2.dict_lt; omega) (h.row_lt hD k2)
    exact ⟨by omega, by omega, h.readable hD hf hch k2⟩
  rcases hu with hu | hu
  · rw [h4] at hu
    exact key _ _ h3.aSplit hu
  · rw [h5] at hu
    exact key _ _ h3.bSplit hu

theorem Installed.noSeparators (hD : cfg.D.Ok) (h : S.Installed cfg dict) (hf : S.Fit) (hS : S.NoSeparators cfg.catOf)
    (hc : ∀ c, c = 44 ∨ c = 46 → Cat.NUMERIC ∉ cfg.catOf c ∧ Cat.KANJINUMERIC ∉ cfg.catOf c) (ps : List PathPlugin) (mode : Mode) :
    (dict.tokenizer cfg ps mode).NoSeparators := by
  constructor
  · exact hc
  · intro bytes i ws w e wi s ty hws hm hi hs hty hcat
    obtain ⟨found, h1, h2⟩ := h.lookup hD bytes i
    have hws : dict.set.lookup cfg.D bytes i = .ok ws := hws
    rw [h1] at hws
    cases hws
    obtain ⟨d, w0, c, rfl, hc, hleft, _, h3⟩ := (h2 w e).1 hm
    rw [h3] at hs
    have hs := utf8_injective hs
    obtain ⟨src, wi', table, _, h4, _, _, h5, _⟩ := h.info hD hc (hf d w0 c hc) hi
    rw [h5, h4.normalized]
    exact hS d w0 c ty hc hleft hty (by rw [hs]; exact hcat)

/-- The number of ids of a compiled matrix is a C `short`. -/
theorem Installed.matrix_small (hD : cfg.D.Ok) (h : S.Installed cfg dict) {n : Nat} {entries : List (Int × Int × Int)} (hm : S.Matrix n entries) :
    n ≤ 32767 := by
  obtain ⟨header, lines, m1, m2, rfl⟩ := hm
  obtain ⟨file, files, ds, depth, hb, hr, _⟩ := h
  have hC0 := hb.compiled hr
  obtain ⟨P, g, hB, _⟩ := hC0.parts hb.1 hD
  have := hB.matrix
  rw [m1] at this
  obtain ⟨l, r, a, b, m, e, ha, _⟩ := convertMatrix_ok this
  rw [m2] at e
  cases e
  have := (writeInt_short ha).2.2.2.2
  omega

/-- Unknown words with ids of the matrix fit the nodes. -/
theorem stores_of_ids {n : Nat} (hn : n ≤ 32767) {ps : List OovPlugin} (hs : ∀ p ∈ ps, p.Short)
    (hi : ∀ p ∈ ps, ∀ o, p.Entry o → InRange n o.leftId ∧ InRange n o.rightId) : ∀ p ∈ ps, p.Stores := by
  intro p hp
  have h1 := hs p hp
  have h2 := hi p hp
  cases p with
  | mecab categories oovList =>
    intro q hq
    have h3 := h1 q hq
    have h4 := h2 q.2 ⟨q.1, hq⟩
    simp only [InRange, Short] at h3 h4
    simp only [OovEntry.Stores, CInt]
    omega
  | simple o =>
    have h4 := h2 o rfl
    simp only [InRange, Short, OovPlugin.Short] at h1 h4
    simp only [OovPlugin.Stores, OovEntry.Stores, CInt]
    omega

/-- The tokenizers of an installation are complete. -/
theorem Installed.cells (hD : cfg.D.Ok) (h : S.Installed cfg dict) {n : Nat} {entries : List (Int × Int × Int)}
    (hm : S.Matrix n entries) : dict.noCells = false := by
  have hn := h.matrix_pos hD hm
  have hc := h.cell hD hm (l := 0) (r := 0) ⟨Int.le_refl _, by omega⟩ ⟨Int.le_refl _, by omega⟩
  unfold Grammar.cell Grammar.viewIndex at hc
  unfold Dict.noCells
  rw [decide_eq_false_iff_not]
  intro h0
  rcases Nat.mul_eq_zero.1 h0 with h0 | h0
  · rw [h0] at hc
    cases hc
  · rw [h0] at hc
    obtain ⟨_, _, hc⟩ := bind_ok hc
    cases hc

theorem Installed.complete (hD : cfg.D.Ok) (h : S.Installed cfg dict) {n : Nat} {entries : List (Int × Int × Int)}
    (hS : S.Complete n entries cfg.depth) (hcfg : cfg.Complete n) (ps : List PathPlugin) (mode : Mode) :
    (dict.tokenizer cfg ps mode).Complete (InRange n) (InRange n) := by
  have hn := h.matrix_pos hD hS.matrix
  exact ⟨⟨hcfg.plugins.lower, hcfg.plugins.nfkc, hcfg.plugins.psm⟩, hcfg.lowerEnc, hcfg.nfkcEnc, hcfg.pluginEnc, hcfg.categorised, hcfg.single,
    hcfg.prefixes, hcfg.simpleLast, hcfg.oovShort, stores_of_ids (h.matrix_small hD hS.matrix) hcfg.oovShort hcfg.oovIds, hcfg.oovIds, h.connShort hD,
    ⟨⟨Int.le_refl _, by omega⟩, ⟨Int.le_refl _, by omega⟩, fun l r hl hr => ⟨_, h.cell hD hS.matrix hl hr, hS.allowed r l hr hl⟩⟩,
    h.lexOk hD, h.answers hD hS⟩

end Sources
end Sudachi
