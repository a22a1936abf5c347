/-
Lemmas: what a build leaves that raises an exception.
-/
import Verif.Lemmas.BuildRaises3
import Verif.Props.Interrupted
import Verif.Props.DictFile
namespace Sudachi
namespace DictBuilder

/-! ### Rows -/

theorem decodeCols_fails {row : List PStr} : (∃ s ∈ row, ∀ t, decodeText s ≠ .ok t) ↔ decodeCols row = .error .unicode := by
  induction row with
  | nil => exact ⟨fun ⟨_, h, _⟩ => (by cases h), fun h => (by cases h)⟩
  | cons s row ih =>
    unfold decodeCols
    cases hs : decodeText s with
    | error x =>
      cases decodeText_error hs
      exact ⟨fun _ => rfl, fun _ => ⟨s, by simp, fun t ht => by rw [hs] at ht; cases ht⟩⟩
    | ok a =>
      rw [ok_bind]
      constructor
      · rintro ⟨t, ht, hn⟩
        rcases List.mem_cons.1 ht with rfl | ht
        · exact (hn _ hs).elim
        · rw [ih.1 ⟨t, ht, hn⟩]; rfl
      · intro h
        rcases bind_error h with h | ⟨b, _, h⟩
        · obtain ⟨t, ht, hn⟩ := ih.2 h
          exact ⟨t, by simp [ht], hn⟩
        · cases h

theorem decodeCols_len {row l : List PStr} : decodeCols row = .ok l → l.length = row.length := by
  induction row generalizing l with
  | nil => intro h; cases h; rfl
  | cons s row ih =>
    intro h
    unfold decodeCols at h
    obtain ⟨a, _, h⟩ := bind_ok h
    obtain ⟨b, hb, h⟩ := bind_ok h
    cases h
    rw [List.length_cons, ih hb, List.length_cons]

theorem addRow_exact (db : DictBuilder) (row : List PStr) : Exact (db.addRow row) (rowChecks row) := by
  obtain ⟨r1, r2, r3⟩ := C44_refused db row
  have herr : ∀ {x}, db.parseLine row = .error x → db.addRow row = .error x := by
    intro x h
    unfold addRow
    rw [h]
    rfl
  intro e
  simp only [rowChecks, Fails]
  by_cases h1 : row.length < 18
  · rw [herr (r1 h1)]
    simp only [h1, true_and, not_true_eq_false, false_and, or_false]
    exact ⟨fun h => (by cases h; rfl), fun h => h ▸ rfl⟩
  · simp only [h1, false_and, not_false_eq_true, true_and, false_or]
    by_cases h2 : ∃ s ∈ row, ∀ t, decodeText s ≠ .ok t
    · rw [herr (r2 .unicode (by omega) (decodeCols_fails.1 h2))]
      simp only [h2, true_and, not_true_eq_false, false_and, or_false]
      exact ⟨fun h => (by cases h; rfl), fun h => h ▸ rfl⟩
    · simp only [h2, false_and, not_false_eq_true, true_and, false_or]
      have hrd : ∃ c, RowReads row c := by
        cases hd : decodeCols row with
        | error x =>
          exfalso
          apply h2
          rw [decodeCols_fails, hd]
          congr 1
          clear h1 h2 r1 r2 r3 herr
          induction row generalizing x with
          | nil => cases hd
          | cons s row ih =>
            unfold decodeCols at hd
            rcases bind_error hd with h | ⟨a, _, h⟩
            · exact decodeText_error h
            · rcases bind_error h with h | ⟨b, _, h⟩
              · exact ih _ h
              · cases h
        | ok l =>
          have hl := decodeCols_len hd
          obtain ⟨c, hc⟩ := cols_of_length (l := l) (by omega)
          exact ⟨c, by unfold RowReads; rw [← hc]; exact hd⟩
      obtain ⟨c, hc⟩ := hrd
      obtain ⟨r3, r4⟩ := r3 c hc
      have hu : ∀ c', RowReads row c' → c' = c := fun c' h => Sample.reads_unique h hc
      by_cases h3 : Clean c.headword
      · have n3 : ¬ ∃ c, RowReads row c ∧ ¬ Clean c.headword := by
          rintro ⟨c', h, hn⟩
          rw [hu c' h] at hn
          exact hn h3
        simp only [n3, false_and, not_false_eq_true, true_and, false_or, and_false, or_false]
        by_cases h4 : c.Ok
        · obtain ⟨db', hdb⟩ := addRow_accepts db hc h4
          have n4 : ¬ ∃ c, RowReads row c ∧ ¬ c.Ok := by
            rintro ⟨c', h, hn⟩
            rw [hu c' h] at hn
            exact hn h4
          simp only [n4, false_and, hdb]
          exact ⟨fun h => (by cases h), fun h => h.elim⟩
        · rw [herr (r4 h3 h4)]
          have y4 : ∃ c, RowReads row c ∧ ¬ c.Ok := ⟨c, hc, h4⟩
          simp only [y4, true_and]
          exact ⟨fun h => (by cases h; rfl), fun h => h ▸ rfl⟩
      · have y3 : ∃ c, RowReads row c ∧ ¬ Clean c.headword := ⟨c, hc, h3⟩
        have hex : ∃ y ∈ c.headword, encodable y = false := by
          refine Classical.byContradiction fun hn => h3 fun y hy => ?_
          cases he : encodable y with
          | true => rfl
          | false => exact (hn ⟨y, hy, he⟩).elim
        rw [herr (r3 hex)]
        simp only [y3, true_and, not_true_eq_false, false_and, or_false]
        exact ⟨fun h => (by cases h; rfl), fun h => h ▸ rfl⟩

theorem addRows_exact {rows : List (List PStr)} : ∀ (db : DictBuilder), Exact (db.addRows rows) (rows.flatMap rowChecks) := by
  induction rows with
  | nil => intro db; exact Exact.nil ⟨db, rfl⟩
  | cons row rows ih =>
    intro db
    unfold addRows
    rw [List.flatMap_cons]
    exact (addRow_exact db row).bind fun db' _ => ih db'

/-! ### Files -/

/-- What follows the word-id table, such that the file loads: nothing, or the number of words and whole parameters. -/
def ParamsLoad (tl : Bytes) : Prop :=
  tl = [] ∨ ∃ n rest, n < 4294967296 ∧ tl = leBytes 4 n ++ rest ∧ (rest.length % 2 = 0 ∨ 6 * n ≤ rest.length)

/-- The bytes up to the number of words. -/
def tablesBytes (hb posb sizes cells arr table : Bytes) : Bytes :=
  hb ++ posb ++ sizes ++ cells ++ (leBytes 4 (arr.length / 4) ++ arr ++ leBytes 4 table.length ++ table)

theorem tables_load {sys : Option SysDict} {header : Header} {rows : List (List PStr)} {matrix : Option (PStr × List PStr)}
    {db : DictBuilder} {hb posb sizes cells : Bytes} (hrows : (init sys).addRows rows = .ok db) (hheader : header.toBytes = .ok hb)
    (hpos : convertPosTable db.posTable = .ok posb) (hm : MatrixParts sizes cells matrix) (hS : SourceOk header rows matrix) :
    ∃ g, g.posList = db.posTable.map (splitOn 44) ∧ MatrixSays g matrix ∧
      ∀ (arr table tl : Bytes), arr.length % 4 = 0 → arr.length / 4 < 2147483648 → table.length < 2147483648 → ParamsLoad tl →
        ∃ x, readDictionary (tablesBytes hb posb sizes cells arr table ++ tl) = .ok ⟨header, some g, x⟩ ∧
          x.widOff + x.widLen = (tablesBytes hb posb sizes cells arr table).length := by
  obtain ⟨g, g1, g2, g3, g4⟩ := grammar_read_parts hrows hheader hpos hm hS
  refine ⟨g, g2, g4, ?_⟩
  intro arr table tl h4 ha ht htl
  generalize hF : tablesBytes hb posb sizes cells arr table ++ tl = F
  have hgr : Grammar.read F HEADER_SIZE = .ok g := by
    apply g1
    refine ⟨leBytes 4 (arr.length / 4) ++ arr ++ leBytes 4 table.length ++ table ++ tl, ?_⟩
    rw [← hF]
    unfold tablesBytes
    simp only [List.append_assoc]
  have hv : isDictionary header.version.toNat = true ∧ hasGrammar header.version.toNat = true ∧
      hasSynonymGroupIds header.version.toNat = true := by
    rcases hS.header.version with h | h <;> rw [h] <;> decide
  have hdiv : arr.length / 4 * 4 = arr.length := by omega
  generalize hG : hb ++ posb ++ sizes ++ cells = G at *
  have hFG : F = G ++ (leBytes 4 (arr.length / 4) ++ arr ++ leBytes 4 table.length ++ table ++ tl) := by
    rw [← hF]
    unfold tablesBytes
    rw [hG]
    simp only [List.append_assoc]
  have hA : At F G.length (leBytes 4 (arr.length / 4) ++ arr ++ leBytes 4 table.length ++ table ++ tl) := by
    rw [hFG]
    have := At.mid G (leBytes 4 (arr.length / 4) ++ arr ++ leBytes 4 table.length ++ table ++ tl) []
    rwa [List.append_nil] at this
  have A0 := hA.left.left.left.left
  have A2 := hA.left.left.right
  have A4 := hA.right
  simp only [List.length_append, leBytes_length, ← Nat.add_assoc] at A2 A4
  have hlen : F.length = G.length + 4 + arr.length + 4 + table.length + tl.length := by
    rw [hFG]
    simp only [List.length_append, leBytes_length]
    omega
  have s0 : fromLe (pySlice F G.length (G.length + 4)) = arr.length / 4 := by
    have := A0.slice
    rw [leBytes_length] at this
    rw [this, fromLe_le4 (by omega)]
  have s1 : fromLe (pySlice F (G.length + 4 + arr.length) (G.length + 4 + arr.length + 4)) = table.length := by
    have := A2.slice
    rw [leBytes_length] at this
    rw [this, fromLe_le4 (by omega)]
  have hpar : (pySlice F (mRead F (G.length + 4 + arr.length + 4 + table.length) 4).2
      ((mRead F (G.length + 4 + arr.length + 4 + table.length) 4).2 +
        fromLe (mRead F (G.length + 4 + arr.length + 4 + table.length) 4).1 * 6)).length % 2 = 0 := by
    rw [slice_length]
    rcases htl with rfl | ⟨n, rest, hn, rfl, hr⟩
    · have : mRead F (G.length + 4 + arr.length + 4 + table.length) 4 = ([], G.length + 4 + arr.length + 4 + table.length) := by
        unfold mRead pySlice
        rw [hlen]
        have : List.drop (G.length + 4 + arr.length + 4 + table.length) (List.take (G.length + 4 + arr.length + 4 + table.length + 4) F) = [] := by
          apply List.drop_of_length_le
          rw [List.length_take]
          simp only [List.length_nil] at hlen
          omega
        rw [this]
        refine Prod.ext rfl ?_
        simp only [List.length_nil]
        omega
      rw [this]
      dsimp only
      simp only [fromLe, List.length_nil] at hlen ⊢
      omega
    · have := A4.left.mRead' (n := 4) (leBytes_length _ _).symm
      rw [this]
      dsimp only
      rw [fromLe_le4 hn, hlen, List.length_append, leBytes_length]
      omega
  obtain ⟨x, hx, hxw⟩ : ∃ x, DALex.read F G.length true = .ok x ∧ x.widOff + x.widLen = G.length + 4 + arr.length + 4 + table.length := by
    refine ⟨_, dalex_iff.2 ⟨arr.length / 4, table.length, ?_, ?_, ?_, G.length + 4 + arr.length + 4 + table.length, ?_, hpar, rfl⟩, ?_⟩
    · rw [hdiv]; omega
    · exact s0.symm
    · rw [hdiv]; exact s1.symm
    · rw [hdiv]; omega
    · dsimp only; rw [hdiv]
  refine ⟨x, readDictionary_iff.2 ⟨?_, ?_, hv.1, fun _ => ⟨g, rfl, hgr⟩, fun h => ?_, ?_⟩, ?_⟩
  · intro e
    rw [e] at hlen
    simp only [List.length_nil] at hlen
    omega
  · have hh := C35_round_trip header hb hheader hS.header.time hS.header.description [] 
      (posb ++ (sizes ++ (cells ++ (leBytes 4 (arr.length / 4) ++ (arr ++ (leBytes 4 table.length ++ (table ++ tl)))))))
    rw [hFG, ← hG]
    simp only [List.append_assoc, List.nil_append, List.length_nil] at hh ⊢
    exact hh
  · rw [hv.2.1] at h; cases h
  · have hlo : BinDict.lexiconOffset ⟨header, some g, x⟩ = G.length := g3
    rw [hlo, hv.2.2]
    exact hx
  · rw [hxw]
    unfold tablesBytes
    rw [hG]
    simp only [List.length_append, leBytes_length]
    omega

/-- A file that ends within the grammar is refused. -/
theorem front_refused {sys : Option SysDict} {header : Header} {rows : List (List PStr)} {matrix : Option (PStr × List PStr)}
    {db : DictBuilder} {hb posb sizes cells : Bytes} (hrows : (init sys).addRows rows = .ok db) (hheader : header.toBytes = .ok hb)
    (hpos : convertPosTable db.posTable = .ok posb) (hm : MatrixParts sizes cells matrix) (hS : SourceOk header rows matrix)
    {F rest : Bytes} (hF : F ++ rest = hb ++ posb ++ sizes ++ cells) : ¬ ∃ d, readDictionary F = .ok d := by
  obtain ⟨g, _, _, h⟩ := tables_load hrows hheader hpos hm hS
  obtain ⟨x, h1, h2⟩ := h [] [] [] rfl (by decide) (by decide) (.inl rfl)
  rw [List.append_nil] at h1
  have hlen : F.length + rest.length = (hb ++ posb ++ sizes ++ cells).length := by rw [← hF, List.length_append]
  have htl : (tablesBytes hb posb sizes cells [] []).length = (hb ++ posb ++ sizes ++ cells).length + 8 := by
    unfold tablesBytes
    rw [List.length_append]
    rfl
  have ht : (tablesBytes hb posb sizes cells [] []).take F.length = F := by
    unfold tablesBytes
    rw [← hF, List.append_assoc, List.take_left]
  have := (C55_truncated _ _ h1 F.length (by omega)).1
  rw [ht] at this
  rw [this]
  rintro ⟨hle, _⟩
  have hw : BinDict.wordCountAt ⟨header, some g, x⟩ = (tablesBytes hb posb sizes cells [] []).length := h2
  omega

/-- The parameters written before an exception, if there is one. -/
theorem writeParams_left {es : List Entry} : ∀ {pending : Bytes}, ∃ bs : List Bytes, (writeParams pending es).1 = bs.map OutOp.write ∧
    (bs.flatten = [] ∨ ∃ rest, bs.flatten = pending ++ rest ∧ rest.length % 2 = 0) := by
  induction es with
  | nil => intro pending; exact ⟨[], rfl, .inl rfl⟩
  | cons e es ih =>
    intro pending
    unfold writeParams
    generalize hr : (do
      let a ← writeInt e.params.1 .short
      let b ← writeInt e.params.2.1 .short
      let c ← writeInt e.params.2.2 .short
      pure (a ++ b ++ c) : Res Bytes) = r
    cases r with
    | error x => exact ⟨[], rfl, .inl rfl⟩
    | ok b =>
      obtain ⟨a1, h1, hr⟩ := bind_ok hr
      obtain ⟨a2, h2, hr⟩ := bind_ok hr
      obtain ⟨a3, h3, hr⟩ := bind_ok hr
      cases hr
      have l1 := (writeInt_short h1).1
      have l2 := (writeInt_short h2).1
      have l3 := (writeInt_short h3).1
      obtain ⟨bs, b1, b2⟩ := ih (pending := [])
      refine ⟨(pending ++ (a1 ++ a2 ++ a3)) :: bs, ?_, .inr ?_⟩
      · show OutOp.write (pending ++ (a1 ++ a2 ++ a3)) :: (writeParams [] es).1 = _
        rw [b1]; rfl
      · rw [List.flatten_cons]
        rcases b2 with b2 | ⟨rest, b2, b3⟩
        · exact ⟨a1 ++ a2 ++ a3, by rw [b2, List.append_nil], by simp only [List.length_append]; omega⟩
        · exact ⟨a1 ++ a2 ++ a3 ++ rest, by rw [b2, List.nil_append, List.append_assoc], by simp only [List.length_append]; omega⟩

/-- The word infos written before an exception. -/
theorem writeInfos_left {mark : Nat} {es : List Entry} {x : Err} : ∀ {db : DictBuilder} {tell : Nat} {offs : Bytes},
    (writeInfos mark db tell offs es).2 = .error x →
    ∃ ws : List Bytes, (writeInfos mark db tell offs es).1 = ws.map OutOp.write ∧ ∀ b ∈ ws, b ≠ [] := by
  induction es with
  | nil => intro db tell offs h; cases h
  | cons e es ih =>
    intro db tell offs h
    unfold writeInfos at h ⊢
    generalize hr : (do
      let o ← writeInt (tell : Int) .int
      let (b, db') ← db.wordInfoBytes e
      pure (o, b, db') : Res (Bytes × Bytes × DictBuilder)) = r at h ⊢
    cases r with
    | error y => exact ⟨[], rfl, fun _ h => (by cases h)⟩
    | ok a =>
      obtain ⟨o, b, db'⟩ := a
      obtain ⟨o', _, hr⟩ := bind_ok hr
      obtain ⟨⟨b', db''⟩, hb, hr⟩ := bind_ok hr
      cases hr
      obtain ⟨ws, w1, w2⟩ := ih (show (writeInfos mark db' (tell + b.length) (offs ++ o) es).2 = .error x from h)
      refine ⟨b :: ws, ?_, ?_⟩
      · show OutOp.write b :: (writeInfos mark db' (tell + b.length) (offs ++ o) es).1 = _
        rw [w1]; rfl
      · intro y hy
        rcases List.mem_cons.1 hy with rfl | hy
        · exact wordInfoBytes_ne hb
        · exact w2 y hy

/-- Writes from the beginning. -/
theorem data_writes (bs : List Bytes) : runOps (bs.map OutOp.write) = ⟨bs.flatten, bs.flatten.length⟩ := by
  have := run_writes bs Stream.empty rfl
  unfold runOps
  rw [this]
  simp [Stream.empty]

theorem withRes_error {α : Type} {r : Res α} {f : α → Out} {e : Err} (h : r = .error e) : Out.withRes r f = ([], .error e) := by
  subst h; rfl

theorem withRes_eq {α : Type} {r : Res α} {f : α → Out} {a : α} (h : r = .ok a) : Out.withRes r f = f a := by
  subst h; rfl

theorem andThen_ops {a : Out} {b : Unit → Out} {ops : List OutOp} (h : a = (ops, .ok ())) : (a.andThen b) = (ops ++ (b ()).1, (b ()).2) := by
  subst h; rfl

theorem andThen_fst {a : Out} {b : Unit → Out} {ops : List OutOp} (h : a = (ops, .ok ())) : (a.andThen b).1 = ops ++ (b ()).1 := by
  subst h; rfl

theorem andThen_stops {a : Out} {b : Unit → Out} {e : Err} (h : a.2 = .error e) : (a.andThen b) = a := by
  obtain ⟨ops, r⟩ := a
  dsimp only at h
  subst h
  rfl

theorem stages_aux {og ot : Out} {w : Nat → Out} {a : Out} {ops : List OutOp} (ha : a = (ops, .ok ())) : ∃ mark,
    (a.andThen fun _ => og.andThen fun _ => ot.andThen fun _ => w (runOps (a.andThen fun _ => og.andThen fun _ => ot).1).pos) =
      (ops ++ (og.andThen fun _ => ot.andThen fun _ => w mark).1, (og.andThen fun _ => ot.andThen fun _ => w mark).2) ∧
      mark = (runOps (ops ++ (og.andThen fun _ => ot).1)).pos := by
  subst ha
  exact ⟨_, rfl, rfl⟩

/-- The writes of a build with a header and rows that are accepted. -/
theorem build_stages {D : Darts} {db0 db : DictBuilder} {header : Header} {rows : List (List PStr)} {matrix : Option (PStr × List PStr)} {hb : Bytes}
    (hh : header.toBytes = .ok hb) (hr : db0.addRows rows = .ok db) : ∃ mark, db0.build D header rows matrix =
      ([OutOp.write hb] ++ ((db.writeGrammar matrix).andThen fun _ => (db.writeTables D).andThen fun _ => db.writeWordInfo mark).1,
        ((db.writeGrammar matrix).andThen fun _ => (db.writeTables D).andThen fun _ => db.writeWordInfo mark).2) ∧
      mark = (runOps ([OutOp.write hb] ++ ((db.writeGrammar matrix).andThen fun _ => db.writeTables D).1)).pos := by
  have hwr : Out.withRes header.toBytes Out.write = ([.write hb], .ok ()) := withRes_total hh rfl
  unfold build
  rw [withRes_eq hr]
  exact stages_aux hwr

theorem not_passes {l : List Check} (h : ¬ Passes l) : ∃ e, Fails l e := (passes_or_fails l).resolve_left h

/-- A build that fails in the grammar. -/
theorem grammar_left {sys : Option SysDict} {header : Header} {rows : List (List PStr)} {matrix : Option (PStr × List PStr)} {db : DictBuilder}
    {hb : Bytes} {e : Err} (hh : header.toBytes = .ok hb) (hr : (init sys).addRows rows = .ok db) (hS : SourceOk header rows matrix)
    (hg : (db.writeGrammar matrix).2 = .error e) :
    ¬ ∃ d, readDictionary (runOps ([OutOp.write hb] ++ (db.writeGrammar matrix).1)).data = .ok d := by
  cases hp : convertPosTable db.posTable with
  | error x =>
    have : (db.writeGrammar matrix).1 = [] := by
      unfold writeGrammar
      rw [withRes_error hp, andThen_stops rfl]
    rw [this, List.append_nil]
    have hd1 := data_writes [hb]
    rw [List.map_cons, List.map_nil] at hd1
    rw [hd1]
    exact front_refused (sys := none) (rows := []) (matrix := none) (db := init none) (posb := [0, 0]) (sizes := [0, 0, 0, 0]) (cells := [])
      rfl hh (by decide) ⟨rfl, rfl⟩ ⟨hS.header, fun _ h => (by cases h), trivial⟩ (rest := [0, 0, 0, 0, 0, 0]) (by simp)
  | ok posb =>
    have hpw : Out.withRes (convertPosTable db.posTable) Out.write = ([.write posb], .ok ()) := withRes_total hp rfl
    have : (db.writeGrammar matrix).1 = [OutOp.write posb] := by
      unfold writeGrammar at hg ⊢
      rw [andThen_ops hpw] at hg ⊢
      dsimp only at hg ⊢
      cases hm : matrix with
      | none => 
        rw [hm] at hg
        have e0 : writeInt 0 .short = .ok [0, 0] := by decide
        dsimp only at hg
        rw [e0] at hg
        cases hg
      | some m =>
        obtain ⟨h', ls⟩ := m
        rw [hm] at hg
        cases hcm : convertMatrix h' ls with
        | ok y => 
          dsimp only at hg
          rw [hcm] at hg
          cases hg
        | error y =>
          dsimp only
          rw [withRes_error hcm]
          exact List.append_nil _
    rw [this]
    have hd1 := data_writes [hb, posb]
    rw [show [OutOp.write hb] ++ [OutOp.write posb] = [hb, posb].map OutOp.write from rfl, hd1]
    exact front_refused (matrix := none) hr hh hp ⟨rfl, rfl⟩ ⟨hS.header, hS.pos, trivial⟩ (rest := [0, 0, 0, 0]) (by simp)

/-- A build that fails in the word infos. -/
theorem infos_left {D : Darts} {db0 db : DictBuilder} {header : Header} {rows : List (List PStr)} {matrix : Option (PStr × List PStr)} {hb : Bytes}
    {og ot : List OutOp} {x : Err} (hh : header.toBytes = .ok hb) (hr : db0.addRows rows = .ok db) (hg : db.writeGrammar matrix = (og, .ok ()))
    (ht : db.writeTables D = (ot, .ok ())) (he : (db0.build D header rows matrix).2 = .error x) :
    ∃ P : Parts, P.Front D db0 header rows matrix ∧ P.db.entries ≠ [] ∧
      Unfinished P.front (P.base - P.front.length) (runOps (db0.build D header rows matrix).1).data := by
  obtain ⟨mark, hbuild, hmark⟩ := build_stages (D := D) (matrix := matrix) hh hr
  obtain ⟨posb, sizes, cells, g1, g2, bs1, rfl, g4⟩ := writeGrammar_ok hg
  obtain ⟨table, kvs, arr, t1, t2, t3, t4, t5, t6, bs2, rfl, t8⟩ := writeTables_ok ht
  rw [andThen_ops hg] at hbuild hmark
  dsimp only at hbuild hmark
  rw [andThen_ops ht] at hbuild
  rw [ht] at hmark
  dsimp only at hbuild hmark
  let P : Parts := ⟨db, hb, posb, sizes, cells, arr, table, kvs, []⟩
  have hfr : (hb :: (bs1 ++ bs2)).flatten = P.front := by
    rw [List.flatten_cons, List.flatten_append, g4, t8]
    simp only [Parts.front, Parts.params, List.append_assoc, P]
  have hall : [OutOp.write hb] ++ (bs1.map OutOp.write ++ bs2.map OutOp.write) = (hb :: (bs1 ++ bs2)).map OutOp.write := by simp
  rw [hall, data_writes, hfr] at hmark
  dsimp only at hmark
  have hent : db.entries ≠ [] := by
    intro e
    have h1 : (db.writeWordInfo mark).2 = .ok () := by
      unfold writeWordInfo
      rw [e]
      rfl
    rw [hbuild, h1] at he
    cases he
  have hbase : P.base = mark * 4 + db.entries.length := by rw [hmark]; rfl
  have hw : db.writeWordInfo mark = ([OutOp.seek P.base] ++ (writeInfos mark db P.base [] db.entries).1, (writeInfos mark db P.base [] db.entries).2) := by
    rw [hbase]
    rfl
  rw [hw] at hbuild
  rw [hbuild] at he
  dsimp only at he
  obtain ⟨ws, w1, w2⟩ := writeInfos_left he
  refine ⟨P, ⟨hr, hh, g1, g2, t1, t2, t3, t4, t5, t6⟩, hent, ?_⟩
  rw [hbuild, w1]
  dsimp only
  have hassoc : [OutOp.write hb] ++ (bs1.map OutOp.write ++ (bs2.map OutOp.write ++ ([OutOp.seek P.base] ++ ws.map OutOp.write))) =
      (hb :: (bs1 ++ bs2)).map OutOp.write ++ ([OutOp.seek P.base] ++ ws.map OutOp.write) := by simp
  rw [hassoc]
  have hd := data_writes (hb :: (bs1 ++ bs2))
  unfold runOps at hd ⊢
  rw [List.foldl_append, hd, hfr]
  exact writes_after_seek P.front P.base ws w2 (by omega)

/-- Which builds leave a file that loads. -/
theorem left_iff {D : Darts} {sys : Option SysDict} {src : DictSource} {cs : List Cols} {T : Nat} (hD : D.Ok)
    (hS : SourceOk src.header src.rows src.matrix) (hc : RowsRead src.rows cs) (hok : ∀ c ∈ cs, c.Ok) (hroom : src.HasRoom D sys cs T) :
    ((∃ d, readDictionary (runOps ((init sys).build D src.header src.rows src.matrix).1).data = .ok d) ↔ Passes (src.tableChecks sys cs)) ∧
    ∀ d, readDictionary (runOps ((init sys).build D src.header src.rows src.matrix).1).data = .ok d → d.header = src.header ∧
      ∃ g, d.grammar = some g ∧ g.posList = ownPos (sysPos sys) [] (cs.map Cols.pos) ∧ MatrixSays g src.matrix := by
  suffices h : (¬ Passes (src.tableChecks sys cs) → ¬ ∃ d, readDictionary (runOps ((init sys).build D src.header src.rows src.matrix).1).data = .ok d) ∧
      (Passes (src.tableChecks sys cs) → ∃ g x, readDictionary (runOps ((init sys).build D src.header src.rows src.matrix).1).data = .ok ⟨src.header, some g, x⟩ ∧
        g.posList = ownPos (sysPos sys) [] (cs.map Cols.pos) ∧ MatrixSays g src.matrix) by
    refine ⟨⟨fun hd => Classical.byContradiction fun hn => h.1 hn hd, fun hp => ?_⟩, fun d hd => ?_⟩
    · obtain ⟨g, x, h1, _⟩ := h.2 hp
      exact ⟨_, h1⟩
    · have hp : Passes (src.tableChecks sys cs) := Classical.byContradiction fun hn => h.1 hn ⟨d, hd⟩
      obtain ⟨g, x, h1, h2⟩ := h.2 hp
      rw [h1] at hd
      cases hd
      exact ⟨rfl, g, rfl, h2⟩
  obtain ⟨db, hr⟩ := addRows_accepts (init sys) hc hok
  have hown := own_table hr hS.pos hc
  have hTG : Passes (src.tableChecks sys cs) ↔ Passes src.header.checks ∧
      Passes (posChecks (ownPos (sysPos sys) [] (cs.map Cols.pos)) ++ matrixChecks src.matrix) ∧ Passes [headCheck cs] := by
    unfold DictSource.tableChecks
    rw [passes_append, List.append_assoc, passes_append, and_assoc]
  cases hh : src.header.toBytes with
  | error e =>
    have hno : ¬ Passes src.header.checks := fun hp => by
      obtain ⟨b, hb⟩ := (header_exact (h := src.header)).passes_iff.2 hp
      rw [hh] at hb; cases hb
    refine ⟨fun _ => ?_, fun hp => (hno (hTG.1 hp).1).elim⟩
    have hb : ((init sys).build D src.header src.rows src.matrix).1 = [] := by
      unfold build
      rw [withRes_error hh, andThen_stops rfl]
    rw [hb]
    rintro ⟨d, hd⟩
    exact (readDictionary_iff.1 hd).1 rfl
  | ok hb =>
    have hhp := (header_exact (h := src.header)).passes_iff.1 ⟨hb, hh⟩
    obtain ⟨mark, hbuild, hmark⟩ := build_stages (D := D) (matrix := src.matrix) hh hr
    have hgx := writeGrammar_exact hr hS.pos hc (matrix := src.matrix)
    cases hg : (db.writeGrammar src.matrix).2 with
    | error e =>
      have hno : ¬ Passes (posChecks (ownPos (sysPos sys) [] (cs.map Cols.pos)) ++ matrixChecks src.matrix) := fun hp => by
        rw [hgx.passes_iff.2 hp] at hg; cases hg
      refine ⟨fun _ => ?_, fun hp => (hno (hTG.1 hp).2.1).elim⟩
      have hb1 : ((init sys).build D src.header src.rows src.matrix).1 = [OutOp.write hb] ++ (db.writeGrammar src.matrix).1 := by
        rw [hbuild, andThen_stops hg]
      rw [hb1]
      exact grammar_left hh hr hS hg
    | ok u =>
      cases u
      obtain ⟨og, hg⟩ := out_ok hg
      have hgp := hgx.passes_iff.1 (by rw [hg])
      obtain ⟨posb, sizes, cells, g1, g2, bs1, rfl, g4⟩ := writeGrammar_ok hg
      rw [andThen_ops hg] at hbuild hmark
      dsimp only at hbuild hmark
      have hhead : ∃ r, wordIdTable 0 db.trieKeys = r := ⟨_, rfl⟩
      have htx := wordIdTable_head hr hc hroom
      cases ht : wordIdTable 0 db.trieKeys with
      | error e =>
        have hno : ¬ Passes [headCheck cs] := fun hp => by
          obtain ⟨y, hy⟩ := htx.passes_iff.2 hp
          rw [ht] at hy; cases hy
        refine ⟨fun _ => ?_, fun hp => (hno (hTG.1 hp).2.2).elim⟩
        have htab : db.writeTables D = ([], .error e) := by
          unfold writeTables
          rw [ht]
          exact withRes_error rfl
        rw [htab] at hbuild
        rw [andThen_stops (show (([], .error e) : Out).2 = .error e from rfl)] at hbuild
        rw [hbuild]
        dsimp only
        rw [List.append_nil, show [OutOp.write hb] ++ bs1.map OutOp.write = (hb :: bs1).map OutOp.write from rfl, data_writes]
        exact front_refused hr hh g1 g2 hS (rest := []) (by rw [List.flatten_cons, g4]; simp only [List.append_assoc, List.append_nil])
      | ok tk =>
        obtain ⟨table, kvs⟩ := tk
        obtain ⟨hlen, _⟩ := rows_list hr hc
        have hsize := hroom.size
        have hfs : 272 + 11 * cs.length + T ≤ frontSize sys src cs T := by unfold frontSize; omega
        have htl : table.length ≤ 5 * cs.length := by
          rw [wordIdTable_len ht, ← hlen]
          exact (rows_count hr).size
        obtain ⟨k1, k2⟩ := kvs_facts hr hc ht
        obtain ⟨arr, harr, hal⟩ := hroom.trie kvs k1 k2
        have h4 := hD.units _ _ harr
        obtain ⟨sz, hsz⟩ := (writeInt_int_iff (v := ((arr.length / 4 : Nat) : Int))).2 ⟨by omega, by omega⟩
        obtain ⟨tz, htz⟩ := (writeInt_int_iff (v := ((table.length : Nat) : Int))).2 ⟨by omega, by omega⟩
        obtain ⟨nz, hnz⟩ := (writeInt_int_iff (v := ((db.entries.length : Nat) : Int))).2 ⟨by omega, by omega⟩
        have hp := htx.passes_iff.1 ⟨_, ht⟩
        refine ⟨fun hn => (hn (hTG.2 ⟨hhp, hgp, hp⟩)).elim, fun _ => ?_⟩
        have htab : db.writeTables D = ([sz, arr, tz, table].map OutOp.write ++ (writeParams nz db.entries).1, (writeParams nz db.entries).2) := by
          unfold writeTables
          rw [ht, ok_bind]
          dsimp only
          rw [harr, ok_bind, hsz, ok_bind]
          rw [withRes_eq (show (pure (table, arr, sz) : Res (Bytes × Bytes × Bytes)) = .ok (table, arr, sz) from rfl)]
          dsimp only
          rw [htz, hnz]
          rfl
        obtain ⟨e1, l1⟩ := writeInt_int_eq hsz
        obtain ⟨e2, l2⟩ := writeInt_int_eq htz
        obtain ⟨e3, l3⟩ := writeInt_int_eq hnz
        obtain ⟨g, q1, q2, q3⟩ := tables_load hr hh g1 g2 hS
        rw [hown] at q1
        have hfin : ∀ tl, ParamsLoad tl → ∃ g x, readDictionary (tablesBytes hb posb sizes cells arr table ++ tl) = .ok ⟨src.header, some g, x⟩ ∧
            g.posList = ownPos (sysPos sys) [] (cs.map Cols.pos) ∧ MatrixSays g src.matrix := by
          intro tl htl
          obtain ⟨x, hx, _⟩ := q3 arr table tl h4 (by omega) (by omega) htl
          exact ⟨g, x, hx, q1, q2⟩
        have hflat : (hb :: (bs1 ++ [sz, arr, tz, table])).flatten = tablesBytes hb posb sizes cells arr table := by
          unfold tablesBytes
          rw [List.flatten_cons, List.flatten_append, g4, e1, e2]
          simp only [List.flatten_cons, List.flatten_nil, List.append_assoc, List.append_nil]
        cases hpar : (writeParams nz db.entries).2 with
        | error e =>
          obtain ⟨bs, w1, w2⟩ := writeParams_left (es := db.entries) (pending := nz)
          rw [andThen_stops (show (db.writeTables D).2 = .error e by rw [htab]; exact hpar), htab, w1] at hbuild
          rw [hbuild]
          dsimp only
          rw [show [OutOp.write hb] ++ (bs1.map OutOp.write ++ ([sz, arr, tz, table].map OutOp.write ++ bs.map OutOp.write)) =
            ((hb :: (bs1 ++ [sz, arr, tz, table])) ++ bs).map OutOp.write by
              simp, data_writes]
          dsimp only
          rw [List.flatten_append, hflat]
          apply hfin
          rcases w2 with w2 | ⟨rest, w2, w3⟩
          · exact .inl w2
          · exact .inr ⟨db.entries.length, rest, by omega, by rw [w2, e3], .inl w3⟩
        | ok u =>
          cases u
          obtain ⟨op, hpo⟩ := out_ok hpar
          obtain ⟨p1, bs, rfl, p3⟩ := writeParams_ok hpo
          rw [hpo] at htab
          cases hwi : ((init sys).build D src.header src.rows src.matrix).2 with
          | ok u =>
            obtain ⟨ops, hbo⟩ := out_ok hwi
            rw [hbo]
            obtain ⟨P', hB, hf⟩ := DictBuilder.build_ok hbo
            obtain ⟨g', j1, j2, j3⟩ := load_built hB hS hD
            have hdb : P'.db = db := by
              have := hB.rows
              rw [hr] at this
              cases this
              rfl
            rw [← hf] at j1
            rw [hdb, hown] at j2
            exact ⟨g', _, j1, j2, j3⟩
          | error x =>
            obtain ⟨P', hB, hne, hU⟩ := infos_left hh hr hg htab hwi
            obtain ⟨g', j1, j2, j3⟩ := load_front hB hS hD
            have hdb : P'.db = db := by
              have := hB.rows
              rw [hr] at this
              cases this
              rfl
            rw [hdb, hown] at j2
            refine ⟨g', _, j1 _ ?_ (fun e => (hne e).elim), j2, j3⟩
            rcases hU with e | ⟨z, e⟩
            · exact ⟨[], by rw [e, List.append_nil]⟩
            · exact ⟨_, by rw [e, List.append_assoc]⟩

end DictBuilder
end Sudachi
