/-
Lemmas: exceptions of a whole build.
-/
import Verif.Lemmas.BuildRaises2
import Verif.Spec.Open
namespace Sudachi
namespace DictBuilder

theorem wordIdTable_error {keys : List (Bytes × List Nat)} : ∀ {tell : Nat} {x : Err}, wordIdTable tell keys = .error x → x = .overflow := by
  have hint : ∀ {v : Int} {t : IntType} {s : Bool} {x : Err}, writeInt v t s = .error x → x = .overflow := by
    intro v t s x h
    have h2 := (writeInt_exact (v := v) (t := t) (s := s) (p := ¬ ∃ b, writeInt v t s = .ok b) (by rw [Classical.not_not]) x).1 h
    rcases h2 with ⟨_, h⟩ | ⟨_, h⟩
    · exact h
    · exact h.elim
  induction keys with
  | nil => intro tell x h; cases h
  | cons kw rest ih =>
    obtain ⟨key, ids⟩ := kw
    intro tell x h
    unfold wordIdTable at h
    rcases bind_error h with h | ⟨n, _, h⟩
    · exact hint h
    · rcases bind_error h with h | ⟨b, _, h⟩
      · rcases (writeInts_exact x).1 h with ⟨_, h⟩ | ⟨_, h⟩
        · exact h
        · exact h.elim
      · rcases bind_error h with h | ⟨a, _, h⟩
        · exact ih h
        · cases h

theorem posTable_exact {sys : Option SysDict} {rows : List (List PStr)} {db : DictBuilder} (hr : (init sys).addRows rows = .ok db)
    (hp : PosColumnsOk rows) {cs : List Cols} (hc : RowsRead rows cs) :
    Exact (convertPosTable db.posTable) (posChecks (ownPos (sysPos sys) [] (cs.map Cols.pos))) := by
  rw [← own_table hr hp hc]
  refine convertPosTable_exact ?_
  intro p hpm s hs
  have hmem : splitOn 44 p ∈ ownPos (sysPos sys) [] (cs.map Cols.pos) := by rw [← own_table hr hp hc]; exact List.mem_map_of_mem hpm
  have h1 := ((own_no_commas hp hc hmem).2 s hs).1
  have h2 : s.length ≤ units s := by
    unfold units
    rw [List.length_flatMap]
    clear h1 hs hmem
    induction s with
    | nil => exact Nat.le_refl _
    | cons c s ih =>
      simp only [List.map_cons, List.sum_cons, List.length_cons]
      have : 1 ≤ (utf16Units c).length := by unfold utf16Units; split <;> simp
      omega
  omega

theorem writeGrammar_exact {sys : Option SysDict} {rows : List (List PStr)} {db : DictBuilder} (hr : (init sys).addRows rows = .ok db)
    (hp : PosColumnsOk rows) {cs : List Cols} (hc : RowsRead rows cs) {matrix : Option (PStr × List PStr)} :
    ExactOut (db.writeGrammar matrix) (posChecks (ownPos (sysPos sys) [] (cs.map Cols.pos)) ++ matrixChecks matrix) := by
  unfold writeGrammar
  refine ExactOut.andThen (ExactOut.write ?_) fun _ => ?_
  · exact posTable_exact hr hp hc
  · cases matrix with
    | none =>
      refine ExactOut.write (Exact.nil ?_)
      exact ⟨[0, 0, 0, 0], by decide⟩
    | some m =>
      obtain ⟨header, lines⟩ := m
      dsimp only
      have := ExactOut.withRes (f := fun x : Bytes × Bytes => (Out.write x.1).andThen fun _ => Out.write x.2) (m := [])
        (convertMatrix_exact (header := header) (lines := lines)) fun a _ => ExactOut.ok _
      rw [List.append_nil] at this
      exact this

theorem writeParams_exact {cs : List Cols} : ∀ {pending : Bytes} {es : List Entry}, Each (fun (c : Cols) (e : Entry) => pyInt c.left = .ok e.params.1 ∧
      pyInt c.right = .ok e.params.2.1 ∧ pyInt c.cost = .ok e.params.2.2) cs es → ExactOut (writeParams pending es) (cs.map Cols.numberCheck) := by
  induction cs with
  | nil => intro pending es h; cases h; exact ExactOut.ok []
  | cons c cs ih =>
    intro pending es h
    cases h with
    | cons h1 h2 =>
      rename_i e es
      obtain ⟨hl, hrt, hco⟩ := h1
      unfold writeParams
      rw [List.map_cons]
      refine ExactOut.withRes (l := [_]) ?_ fun b _ => ?_
      · refine Exact.one' ?_ ?_
        · intro x hx
          have hs : ∀ {v : Int} {x : Err}, writeInt v .short = .error x → x = .overflow := by
            intro v x h
            rcases (writeInt_short_exact x).1 h with ⟨_, h⟩ | ⟨_, h⟩
            · exact h
            · exact h.elim
          rcases bind_error hx with hx | ⟨a, _, hx⟩
          · exact hs hx
          · rcases bind_error hx with hx | ⟨b, _, hx⟩
            · exact hs hx
            · rcases bind_error hx with hx | ⟨c, _, hx⟩
              · exact hs hx
              · cases hx
        · constructor
          · rintro ⟨b, hb⟩ ⟨v, hv, hnv⟩
            obtain ⟨x, hx, hb⟩ := bind_ok hb
            obtain ⟨y, hy, hb⟩ := bind_ok hb
            obtain ⟨z, hz, hb⟩ := bind_ok hb
            rw [hl, hrt, hco] at hv
            rcases hv with hv | hv | hv <;> cases hv
            · exact hnv (writeInt_short_iff.1 ⟨x, hx⟩)
            · exact hnv (writeInt_short_iff.1 ⟨y, hy⟩)
            · exact hnv (writeInt_short_iff.1 ⟨z, hz⟩)
          · intro hno
            obtain ⟨x, hx⟩ := (writeInt_short_iff (v := e.params.1)).2 (Classical.byContradiction fun hn => hno ⟨_, .inl hl, hn⟩)
            obtain ⟨y, hy⟩ := (writeInt_short_iff (v := e.params.2.1)).2 (Classical.byContradiction fun hn => hno ⟨_, .inr (.inl hrt), hn⟩)
            obtain ⟨z, hz⟩ := (writeInt_short_iff (v := e.params.2.2)).2 (Classical.byContradiction fun hn => hno ⟨_, .inr (.inr hco), hn⟩)
            exact ⟨x ++ y ++ z, by rw [hx, hy, hz]; rfl⟩
      · exact ExactOut.andThen (l := []) (ExactOut.ok _) fun _ => ih h2

/-- The rows and their entries. -/
theorem rows_params {sys : Option SysDict} {rows : List (List PStr)} {db : DictBuilder} (hr : (init sys).addRows rows = .ok db)
    {cs : List Cols} (hc : RowsRead rows cs) : Each (fun (c : Cols) (e : Entry) => pyInt c.left = .ok e.params.1 ∧
      pyInt c.right = .ok e.params.2.1 ∧ pyInt c.cost = .ok e.params.2.2) cs db.entries := by
  obtain ⟨hlen, hl⟩ := rows_list hr hc
  have : ∀ {cs : List Cols} {es : List Entry}, es.length = cs.length → (∀ (w : Nat) (c : Cols), cs[w]? = some c → ∃ e, es[w]? = some e ∧
      pyInt c.left = .ok e.params.1 ∧ pyInt c.right = .ok e.params.2.1 ∧ pyInt c.cost = .ok e.params.2.2) →
      Each (fun (c : Cols) (e : Entry) => pyInt c.left = .ok e.params.1 ∧ pyInt c.right = .ok e.params.2.1 ∧ pyInt c.cost = .ok e.params.2.2) cs es := by
    intro cs
    induction cs with
    | nil => intro es h _; cases es with
      | nil => exact .nil
      | cons e es => cases h
    | cons c cs ih =>
      intro es h h1
      cases es with
      | nil => cases h
      | cons e es =>
        obtain ⟨e', h2, h3⟩ := h1 0 c rfl
        cases h2
        exact .cons h3 (ih (by simpa using h) fun w c hw => by simpa using h1 (w + 1) c (by simpa using hw))
  exact this hlen fun w c hw => by
    obtain ⟨_, e, p, he, hE, _⟩ := hl w c hw
    exact ⟨e, he, hE.left, hE.right, hE.cost⟩

theorem wordIdTable_head {D : Darts} {sys : Option SysDict} {src : DictSource} {cs : List Cols} {T : Nat} {db : DictBuilder}
    (hr : (init sys).addRows src.rows = .ok db) (hc : RowsRead src.rows cs) (hroom : src.HasRoom D sys cs T) :
    Exact (wordIdTable 0 db.trieKeys) [headCheck cs] := by
  obtain ⟨hlen, _⟩ := rows_list hr hc
  obtain ⟨_, _, hi, _⟩ := rows_entries hr
  have hsize := hroom.size
  have hfs : 272 + 11 * cs.length + T ≤ frontSize sys src cs T := by unfold frontSize; omega
  refine Exact.one' (fun e he => wordIdTable_error he) ?_
  rw [wordIdTable_iff]
  constructor
  · rintro h ⟨hd, hlt⟩
    have := (heads_iff hr hc).1 (fun kw hkw => (h kw hkw).1) hd
    omega
  · intro hno kw hkw
    refine ⟨(heads_iff hr hc).2 (fun hd => Nat.le_of_not_lt fun hlt => hno ⟨hd, hlt⟩) kw hkw, ?_⟩
    intro v hv
    have := hi.lt ⟨kw.2, hkw, hv⟩
    omega

theorem writeTables_exact {D : Darts} {sys : Option SysDict} {src : DictSource} {cs : List Cols} {T : Nat} {db : DictBuilder}
    (hr : (init sys).addRows src.rows = .ok db) (hc : RowsRead src.rows cs) (hroom : src.HasRoom D sys cs T) :
    ExactOut (db.writeTables D) ([headCheck cs] ++ cs.map Cols.numberCheck) := by
  obtain ⟨hlen, _⟩ := rows_list hr hc
  obtain ⟨_, _, hi, _⟩ := rows_entries hr
  have hcnt := rows_count hr
  have hsize := hroom.size
  have hfs : 272 + 11 * cs.length + T ≤ frontSize sys src cs T := by unfold frontSize; omega
  unfold writeTables
  have htabx := wordIdTable_head hr hc hroom
  refine ExactOut.withRes (l := [headCheck cs]) (htabx.map fun a ha => ?_) fun x hx => ?_
  · obtain ⟨table, kvs⟩ := a
    obtain ⟨k1, k2⟩ := kvs_facts hr hc ha
    obtain ⟨arr, harr, hal⟩ := hroom.trie kvs k1 k2
    obtain ⟨sz, hsz⟩ := (writeInt_int_iff (v := ((arr.length / 4 : Nat) : Int))).2 ⟨by omega, by omega⟩
    refine ⟨(table, arr, sz), ?_⟩
    dsimp only
    rw [harr, ok_bind, hsz]
    rfl
  · obtain ⟨table, arr, sz⟩ := x
    obtain ⟨⟨table', kvs⟩, ht, hx⟩ := bind_ok hx
    obtain ⟨arr', _, hx⟩ := bind_ok hx
    obtain ⟨sz', _, hx⟩ := bind_ok hx
    cases hx
    have htl : table.length ≤ 5 * cs.length := by
      rw [wordIdTable_len ht, ← hlen]
      exact hcnt.size
    dsimp only
    refine ExactOut.andThen (l := []) (ExactOut.ok _) fun _ => ExactOut.andThen (l := []) (ExactOut.ok _) fun _ => ?_
    refine ExactOut.andThen (l := []) (ExactOut.write (Exact.nil (writeInt_int_iff.2 ⟨by omega, by omega⟩))) fun _ => ?_
    refine ExactOut.andThen (l := []) (ExactOut.ok _) fun _ => ?_
    exact ExactOut.withRes (l := []) (Exact.nil (writeInt_int_iff.2 ⟨by omega, by omega⟩)) fun n _ => writeParams_exact (rows_params hr hc)

theorem writeInfos_exact {sys : Option SysDict} {rows : List (List PStr)} {db : DictBuilder} (hr : (init sys).addRows rows = .ok db)
    (hp : PosColumnsOk rows) {cs : List Cols} (hc : RowsRead rows cs) (hn : rows.length < 2 ^ 28)
    (hk : ∀ s, sys = some s → s.KnowsPos ∧ s.Answers) (hpar : ∀ e ∈ db.entries, ShortParams e.params)
    (hpos : ∀ c ∈ cs, c.pos ∈ sysPos sys ∨ ∀ s ∈ c.pos, Clean s) {mark : Nat} :
    ∀ (m k : Nat) {db1 : DictBuilder} {tell : Nat} {offs : Bytes}, k + m = cs.length → Same db db1 →
      tell + ((cs.drop k).map Cols.infoSize).sum < 2 ^ 31 →
      ExactOut (writeInfos mark db1 tell offs (db.entries.drop k)) ((cs.drop k).flatMap (Cols.infoChecks sys rows cs)) := by
  obtain ⟨hlen, _⟩ := rows_list hr hc
  intro m
  induction m with
  | zero =>
    intro k db1 tell offs hk _ _
    rw [List.drop_of_length_le (by omega), List.drop_of_length_le (by omega)]
    exact ExactOut.ok _
  | succ m ih =>
    intro k db1 tell offs hkm hS ht
    have hkc : k < cs.length := by omega
    have hke : k < db.entries.length := by omega
    rw [List.drop_eq_getElem_cons hkc, List.map_cons, List.sum_cons] at ht
    rw [List.drop_eq_getElem_cons hke, List.drop_eq_getElem_cons hkc, List.flatMap_cons]
    unfold writeInfos
    refine ExactOut.withRes (l := cs[k].infoChecks sys rows cs) ?_ fun x hx => ?_
    · refine (Exact.nil (writeInt_int_iff.2 ⟨by omega, by omega⟩)).bind fun o _ => ?_
      exact (wordInfoBytes_exact hr hp hc hS hn hk (List.getElem?_eq_getElem hkc) (List.getElem?_eq_getElem hke)).map fun a _ => ⟨_, rfl⟩
    · obtain ⟨o, b, db2⟩ := x
      obtain ⟨o', ho, hx⟩ := bind_ok hx
      obtain ⟨⟨b', db2'⟩, hb, hx⟩ := bind_ok hx
      cases hx
      have hwr := wordInfoBytes_writable hr hp hc hS (fun s hs => (hk s hs).1) (List.getElem?_eq_getElem hkc) (List.getElem?_eq_getElem hke) hb
        (hpar _ (List.getElem_mem hke)) (hpos _ (List.getElem_mem hkc))
      obtain ⟨e', b', db2', he', hb', hbl⟩ := wordInfoBytes_total hr hp hc hS hn (List.getElem?_eq_getElem hkc) hwr
      rw [List.getElem?_eq_getElem hke] at he'
      cases he'
      rw [hb] at hb'
      cases hb'
      exact ExactOut.andThen (l := []) (ExactOut.ok _) fun _ => ih (k + 1) (by omega) (hS.trans (wordInfoBytes_same hb)) (by omega)

/-- What is before the word infos is not larger than `frontSize`. -/
theorem front_mark {D : Darts} {sys : Option SysDict} {src : DictSource} {cs : List Cols} {T : Nat} {db : DictBuilder}
    (hS : SourceOk src.header src.rows src.matrix) (hr : (init sys).addRows src.rows = .ok db) (hc : RowsRead src.rows cs)
    (hroom : src.HasRoom D sys cs T) {hb : Bytes} (hhb : src.header.toBytes = .ok hb) {og ot : List OutOp}
    (hg : db.writeGrammar src.matrix = (og, .ok ())) (ht : db.writeTables D = (ot, .ok ())) :
    (runOps ((Out.withRes src.header.toBytes Out.write).andThen fun _ => (db.writeGrammar src.matrix).andThen fun _ => db.writeTables D).1).pos ≤
      frontSize sys src cs T := by
  obtain ⟨hlen, _⟩ := rows_list hr hc
  have hcnt := rows_count hr
  obtain ⟨posb, sizes, cells, g1, g2, bs1, g3, g4⟩ := writeGrammar_ok hg
  obtain ⟨table, kvs, arr, t1, t2, _, _, _, _, bs2, t7, t8⟩ := writeTables_ok ht
  have htl : table.length ≤ 5 * cs.length := by
    rw [wordIdTable_len t1, ← hlen]
    exact hcnt.size
  obtain ⟨k1, k2⟩ := kvs_facts hr hc t1
  have hal : arr.length ≤ T := by
    obtain ⟨arr', harr, hal⟩ := hroom.trie kvs k1 k2
    rw [t2] at harr
    cases harr
    exact hal
  have hhl : hb.length = 272 := header_length hhb
  have hposl : posb.length ≤ 2 + ((ownPos (sysPos sys) [] (cs.map Cols.pos)).map fun p => (p.map fun s => 2 + 2 * units s).sum).sum := by
    have := convertPosTable_len g1
    rw [← own_table hr hS.pos hc, List.map_map]
    exact this
  have hmat : sizes.length + cells.length = matrixSize src.matrix := by
    cases hm : src.matrix with
    | none =>
      rw [hm] at g2
      obtain ⟨rfl, rfl⟩ := g2
      rfl
    | some m =>
      obtain ⟨h', ls⟩ := m
      rw [hm] at g2
      have g2 : convertMatrix h' ls = .ok (sizes, cells) := g2
      obtain ⟨sizes', cells', m1, m2⟩ := convertMatrix_total (hm ▸ hS.matrix) (convertMatrix_writable (hm ▸ hS.matrix) g2)
      rw [m1] at g2
      cases g2
      exact m2
  have hhead : Out.withRes src.header.toBytes Out.write = ([.write hb], .ok ()) := withRes_total hhb rfl
  have hall : ((Out.withRes src.header.toBytes Out.write).andThen fun _ => (db.writeGrammar src.matrix).andThen fun _ => db.writeTables D) =
      ([OutOp.write hb] ++ (og ++ ot), .ok ()) := andThen_total hhead (andThen_total hg ht)
  rw [hall, g3, t7]
  have := run_writes (hb :: (bs1 ++ bs2)) Stream.empty rfl
  simp only [List.map_cons, List.map_append, List.flatten_cons, List.flatten_append] at this
  unfold runOps
  rw [List.cons_append, List.nil_append, this]
  simp only [Stream.empty, List.length_append, Nat.zero_add, g4, t8, leBytes_length]
  have hparl : (if db.entries = [] then [] else leBytes 4 db.entries.length ++ db.entries.flatMap (fun e => paramBytes e.params) : Bytes).length ≤
      4 + 6 * cs.length := by
    split
    · simp
    · rw [List.length_append, leBytes_length, params_flat_length]
      omega
  unfold frontSize
  omega

theorem out_ok {o : Out} (h : o.2 = .ok ()) : ∃ ops, o = (ops, .ok ()) := by
  obtain ⟨ops, r⟩ := o
  dsimp only at h
  subst h
  exact ⟨ops, rfl⟩

/-- A whole build. -/
theorem build_exact {D : Darts} {sys : Option SysDict} {src : DictSource} {cs : List Cols} {T : Nat}
    (hS : SourceOk src.header src.rows src.matrix) (hc : RowsRead src.rows cs) (hok : ∀ c ∈ cs, c.Ok) (hroom : src.HasRoom D sys cs T)
    (hk : ∀ s, sys = some s → s.KnowsPos ∧ s.Answers) :
    ExactOut ((init sys).build D src.header src.rows src.matrix) (src.frontChecks sys cs ++ src.infoChecks sys cs) := by
  obtain ⟨db, hr⟩ := addRows_accepts (init sys) hc hok
  have hsize := hroom.size
  obtain ⟨hlen, hl⟩ := rows_list hr hc
  have hfs : 272 + 11 * cs.length + T ≤ frontSize sys src cs T := by unfold frontSize; omega
  have hlist : src.frontChecks sys cs ++ src.infoChecks sys cs = src.header.checks ++ ([] ++
      ((posChecks (ownPos (sysPos sys) [] (cs.map Cols.pos)) ++ matrixChecks src.matrix) ++ (([headCheck cs] ++ cs.map Cols.numberCheck) ++
        ([] ++ src.infoChecks sys cs)))) := by
    unfold DictSource.frontChecks DictSource.tableChecks
    simp only [List.append_assoc, List.nil_append]
  rw [hlist]
  unfold build
  refine ExactOut.andThen (ExactOut.write header_exact) fun h0 => ?_
  refine ExactOut.withRes (l := []) (Exact.nil ⟨db, hr⟩) fun db' hr' => ?_
  rw [hr] at hr'
  cases hr'
  refine ExactOut.andThen (writeGrammar_exact hr hS.pos hc) fun hg => ?_
  refine ExactOut.andThen (writeTables_exact hr hc hroom) fun ht => ?_
  obtain ⟨og, hg⟩ := out_ok hg
  obtain ⟨ot, ht⟩ := out_ok ht
  have hhb : ∃ hb, src.header.toBytes = .ok hb := by
    cases hh : src.header.toBytes with
    | ok b => exact ⟨b, rfl⟩
    | error x => rw [hh] at h0; cases h0
  obtain ⟨hb, hhb⟩ := hhb
  have hmark := front_mark hS hr hc hroom hhb hg ht
  obtain ⟨posb, _, _, g1, _⟩ := writeGrammar_ok hg
  obtain ⟨_, _, _, _, _, _, _, _, hpar, _⟩ := writeTables_ok ht
  have hpos := (posTable_total hr hS.pos hc).1 ⟨_, g1⟩
  unfold writeWordInfo
  refine ExactOut.andThen (l := []) (ExactOut.ok _) fun _ => ?_
  have := writeInfos_exact hr hS.pos hc (by rw [← hc.1]; omega) hk hpar hpos.2
    (mark := (runOps ((Out.withRes src.header.toBytes Out.write).andThen fun _ => (db.writeGrammar src.matrix).andThen fun _ => db.writeTables D).1).pos)
    cs.length 0 (db1 := db)
    (tell := (runOps ((Out.withRes src.header.toBytes Out.write).andThen fun _ => (db.writeGrammar src.matrix).andThen fun _ => db.writeTables D).1).pos * 4 +
      db.entries.length) (offs := []) (by omega) (.refl db) (by rw [List.drop_zero]; omega)
  rw [List.drop_zero, List.drop_zero] at this
  exact this

end DictBuilder
end Sudachi
