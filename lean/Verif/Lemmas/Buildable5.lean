/-
Sources that can be built: the whole build.
-/
import Verif.Lemmas.Buildable4
namespace Sudachi
namespace DictBuilder

theorem andThen_total {a : Out} {b : Unit → Out} {oa ob : List OutOp} (ha : a = (oa, .ok ())) (hb : b () = (ob, .ok ())) :
    a.andThen b = (oa ++ ob, .ok ()) := by
  subst ha
  simp only [Out.andThen, hb]

theorem withRes_total {α : Type} {r : Res α} {f : α → Out} {a : α} {o : List OutOp} (hr : r = .ok a) (hf : f a = (o, .ok ())) :
    Out.withRes r f = (o, .ok ()) := by
  subst hr
  exact hf

theorem writeParams_total {es : List Entry} : ∀ {pending : Bytes}, (∀ e ∈ es, ShortParams e.params) →
    ∃ ops, writeParams pending es = (ops, .ok ()) := by
  induction es with
  | nil => intro _ _; exact ⟨[], rfl⟩
  | cons e es ih =>
    intro pending h
    obtain ⟨h1, h2, h3⟩ := h e (by simp)
    obtain ⟨a, ha⟩ := writeInt_short_iff.2 h1
    obtain ⟨b, hb⟩ := writeInt_short_iff.2 h2
    obtain ⟨c, hc⟩ := writeInt_short_iff.2 h3
    obtain ⟨ops, ho⟩ := ih (pending := []) (fun x hx => h x (by simp [hx]))
    unfold writeParams
    exact ⟨_, withRes_total (a := a ++ b ++ c) (by rw [ha, hb, hc]; rfl) (andThen_total rfl ho)⟩

theorem writeTables_total {D : Darts} {db : DictBuilder} {table : Bytes} {kvs : List (Bytes × Nat)} {arr : Bytes}
    (h1 : wordIdTable 0 db.trieKeys = .ok (table, kvs)) (h2 : D.build kvs = .ok arr) (h3 : arr.length < 2147483648)
    (h4 : table.length < 2147483648) (h5 : db.entries.length < 2147483648) (h6 : ∀ e ∈ db.entries, ShortParams e.params) :
    ∃ ops, db.writeTables D = (ops, .ok ()) := by
  obtain ⟨a, ha⟩ := (writeInt_int_iff (v := ((arr.length / 4 : Nat) : Int))).2 ⟨by omega, by omega⟩
  obtain ⟨b, hb⟩ := (writeInt_int_iff (v := (table.length : Int))).2 ⟨by omega, by omega⟩
  obtain ⟨c, hc⟩ := (writeInt_int_iff (v := (db.entries.length : Int))).2 ⟨by omega, by omega⟩
  obtain ⟨ops, ho⟩ := writeParams_total (pending := c) h6
  unfold writeTables
  refine ⟨_, withRes_total (a := (table, arr, a)) ?_ (andThen_total rfl (andThen_total rfl
    (andThen_total (withRes_total hb rfl) (andThen_total rfl (withRes_total hc ho)))))⟩
  rw [h1, ok_bind]
  dsimp only
  rw [h2, ok_bind, ha, ok_bind]
  rfl

theorem writeGrammar_total {db : DictBuilder} {matrix : Option (PStr × List PStr)} (h1 : ∃ b, convertPosTable db.posTable = .ok b)
    (hm : MatrixOk matrix) (hw : MatrixWritable matrix) : ∃ ops, db.writeGrammar matrix = (ops, .ok ()) := by
  obtain ⟨p, hp⟩ := h1
  unfold writeGrammar
  cases matrix with
  | none =>
    refine ⟨_, andThen_total (withRes_total hp rfl) (withRes_total (a := [0, 0, 0, 0]) ?_ rfl)⟩
    have e : writeInt 0 .short = .ok [0, 0] := by decide
    simp only [e]
    rfl
  | some m =>
    obtain ⟨header, lines⟩ := m
    obtain ⟨sizes, cells, h2, _⟩ := convertMatrix_total hm hw
    exact ⟨_, andThen_total (withRes_total hp rfl) (withRes_total h2 (andThen_total rfl rfl))⟩

theorem writeInfos_total {sys : Option SysDict} {rows : List (List PStr)} {db : DictBuilder} (hr : (init sys).addRows rows = .ok db)
    (hp : PosColumnsOk rows) {cs : List Cols} (hc : RowsRead rows cs) (hn : rows.length < 2 ^ 28) (h : ∀ c ∈ cs, c.Writable sys rows cs) {mark : Nat} :
    ∀ (m k : Nat) {db1 : DictBuilder} {tell : Nat} {offs : Bytes}, k + m = cs.length → Same db db1 →
      tell + ((cs.drop k).map Cols.infoSize).sum < 2 ^ 31 → ∃ ops, writeInfos mark db1 tell offs (db.entries.drop k) = (ops, .ok ()) := by
  obtain ⟨hlen, _⟩ := rows_list hr hc
  intro m
  induction m with
  | zero =>
    intro k db1 tell offs hk _ _
    rw [List.drop_of_length_le (by omega)]
    exact ⟨_, rfl⟩
  | succ m ih =>
    intro k db1 tell offs hk hS ht
    have hkc : k < cs.length := by omega
    obtain ⟨e, b, db2, he, hb, hbl⟩ := wordInfoBytes_total hr hp hc hS hn (List.getElem?_eq_getElem hkc) (h cs[k] (List.getElem_mem hkc))
    rw [List.drop_eq_getElem_cons hkc, List.map_cons, List.sum_cons] at ht
    have hke : k < db.entries.length := by omega
    have hek : db.entries[k] = e := by rw [List.getElem?_eq_getElem hke] at he; exact Option.some.inj he
    rw [List.drop_eq_getElem_cons hke, hek]
    obtain ⟨o, ho⟩ := (writeInt_int_iff (v := (tell : Int))).2 ⟨by omega, by omega⟩
    obtain ⟨ops, hops⟩ := ih (k + 1) (db1 := db2) (tell := tell + b.length) (offs := offs ++ o) (by omega) (hS.trans (wordInfoBytes_same hb)) (by omega)
    unfold writeInfos
    refine ⟨_, withRes_total (a := (o, b, db2)) ?_ (andThen_total rfl hops)⟩
    rw [ho, ok_bind, hb, ok_bind]
    rfl

theorem sum_map_le {α : Type} {f g : α → Nat} : ∀ {l : List α}, (∀ a ∈ l, f a ≤ g a) → (l.map f).sum ≤ (l.map g).sum
  | [], _ => Nat.le_refl _
  | a :: l, h => by
    have h1 := h a (by simp)
    have h2 := sum_map_le (l := l) (fun a ha => h a (by simp [ha]))
    simp only [List.map_cons, List.sum_cons]
    omega

/-- The bytes of the part-of-speech table. -/
theorem own_table {sys : Option SysDict} {rows : List (List PStr)} {db : DictBuilder} (hr : (init sys).addRows rows = .ok db)
    (hp : PosColumnsOk rows) {cs : List Cols} (hc : RowsRead rows cs) :
    db.posTable.map (splitOn 44) = ownPos (sysPos sys) [] (cs.map Cols.pos) := by
  rw [posTable_own hr hp hc, List.map_map]
  conv => rhs; rw [← List.map_id (ownPos (sysPos sys) [] (cs.map Cols.pos))]
  apply List.map_congr_left
  intro p hpm
  obtain ⟨h6, h7⟩ := own_no_commas (sys := sys) hp hc hpm
  exact splitOn_joinOn (by intro h0; rw [h0] at h6; simp at h6) (fun s hs => (h7 s hs).2.1)

theorem ownPos_not_known {known ps : List (List PStr)} : ∀ {added : List (List PStr)}, (∀ p ∈ added, p ∉ known) →
    ∀ p ∈ ownPos known added ps, p ∉ known := by
  induction ps with
  | nil => intro added h p hp; exact h p hp
  | cons q ps ih =>
    intro added h p hp
    unfold ownPos at hp
    split at hp
    · exact ih h p hp
    · rename_i hq
      refine ih ?_ p hp
      intro x hx
      rcases List.mem_append.1 hx with hx | hx
      · exact h x hx
      · rw [List.mem_singleton.1 hx]
        exact fun hk => hq (.inl hk)

theorem posTable_total {sys : Option SysDict} {src : DictSource} {cs : List Cols} {db : DictBuilder} (hr : (init sys).addRows src.rows = .ok db)
    (hp : PosColumnsOk src.rows) (hc : RowsRead src.rows cs) :
    (∃ b, convertPosTable db.posTable = .ok b) ↔ (ownPos (sysPos sys) [] (cs.map Cols.pos)).length ≤ 32767 ∧
      ∀ c ∈ cs, c.pos ∈ sysPos sys ∨ ∀ s ∈ c.pos, Clean s := by
  have ht := own_table hr hp hc
  rw [convertPosTable_iff]
  have hl : db.posTable.length = (ownPos (sysPos sys) [] (cs.map Cols.pos)).length := by rw [← ht, List.length_map]
  have hmem : (∀ p ∈ db.posTable, ∀ s ∈ splitOn 44 p, Clean s ∧ units s < 65536) ↔
      ∀ p ∈ ownPos (sysPos sys) [] (cs.map Cols.pos), ∀ s ∈ p, Clean s ∧ units s < 65536 := by
    rw [← ht]
    simp only [List.mem_map, forall_exists_index, and_imp, forall_apply_eq_imp_iff₂]
  rw [hl, hmem]
  constructor
  · rintro ⟨h1, h2⟩
    refine ⟨h1, ?_⟩
    intro c hcm
    by_cases hk : c.pos ∈ sysPos sys
    · exact .inl hk
    · right
      intro s hs
      refine (h2 c.pos ?_ s hs).1
      obtain ⟨w, hw⟩ := List.mem_iff_getElem?.1 hcm
      obtain ⟨r1, _⟩ := rows_entries hr
      obtain ⟨_, hl⟩ := rows_list hr hc
      obtain ⟨_, e, p, _, _, _, i, _, h | ⟨_, h⟩⟩ := hl w c hw
      · rw [r1] at h
        exact (hk (List.mem_of_getElem? h)).elim
      · have hj := List.mem_of_getElem? h
        rw [← ht]
        refine List.mem_map.2 ⟨_, hj, ?_⟩
        obtain ⟨row, h4, h5⟩ := RowIs.mem (hc.2 w c hw)
        exact splitOn_joinOn (by simp [Cols.pos]) (fun s hs => (hp row h4 c h5 s hs).2.1)
  · rintro ⟨h1, h2⟩
    refine ⟨h1, ?_⟩
    intro p hpm s hs
    obtain ⟨_, h7⟩ := own_no_commas (sys := sys) hp hc hpm
    refine ⟨?_, by have := (h7 s hs).1; omega⟩
    rcases ownPos_ok p hpm with h | h
    · cases h
    · obtain ⟨c, hcm, rfl⟩ := List.mem_map.1 h
      rcases h2 c hcm with h3 | h3
      · exact (ownPos_not_known (fun _ h => (by cases h)) _ hpm h3).elim
      · exact h3 s hs

/-- A source that can be written is built. -/
theorem build_total {D : Darts} {sys : Option SysDict} {src : DictSource} {cs : List Cols} {T : Nat}
    (hS : SourceOk src.header src.rows src.matrix) (hc : RowsRead src.rows cs) (hroom : src.HasRoom D sys cs T) (hw : src.Writable sys cs) :
    ∃ ops, (init sys).build D src.header src.rows src.matrix = (ops, .ok ()) := by
  obtain ⟨hb, hhb⟩ := header_iff.2 hw.header
  obtain ⟨db, hr⟩ := addRows_accepts (init sys) hc (fun c hcm => (hw.rows c hcm).ok)
  have hsize := hroom.size
  obtain ⟨hlen, hl⟩ := rows_list hr hc
  have hpos := (posTable_total hr hS.pos hc).2 ⟨hw.pos, fun c hcm => (hw.rows c hcm).pos⟩
  obtain ⟨og, hg⟩ := writeGrammar_total hpos hS.matrix hw.matrix
  have hcnt := rows_count hr
  obtain ⟨_, hrl, hi, _⟩ := rows_entries hr
  have hfs : 272 + 11 * cs.length + T ≤ frontSize sys src cs T := by unfold frontSize; omega
  have hheads := (heads_iff hr hc).2 hw.heads
  obtain ⟨⟨table, kvs⟩, htab⟩ := (wordIdTable_iff (keys := db.trieKeys) (tell := 0)).2 (fun kw hkw => ⟨hheads kw hkw, fun v hv => by
    have := hi.lt ⟨kw.2, hkw, hv⟩
    omega⟩)
  have htl : table.length ≤ 5 * cs.length := by
    rw [wordIdTable_len htab, ← hlen]
    exact hcnt.size
  obtain ⟨k1, k2⟩ := kvs_facts hr hc htab
  obtain ⟨arr, harr, hal⟩ := hroom.trie kvs k1 k2
  have hpar : ∀ e ∈ db.entries, ShortParams e.params := by
    intro e he
    obtain ⟨v, hv⟩ := List.mem_iff_getElem?.1 he
    have hvl : v < cs.length := by rw [← hlen]; exact (List.getElem?_eq_some_iff.1 hv).1
    obtain ⟨_, e', p, he', hE, _⟩ := hl v cs[v] (List.getElem?_eq_getElem hvl)
    rw [hv] at he'
    cases he'
    have hwr := hw.rows _ (List.getElem_mem hvl)
    exact ⟨hwr.left _ hE.left, hwr.right _ hE.right, hwr.cost _ hE.cost⟩
  obtain ⟨ot, ht⟩ := writeTables_total htab harr (by omega) (by omega) (by omega) hpar
  -- the position of the word infos
  obtain ⟨posb, sizes, cells, g1, g2, bs1, g3, g4⟩ := writeGrammar_ok hg
  obtain ⟨table', kvs', arr', t1, t2, _, _, _, _, bs2, t7, t8⟩ := writeTables_ok ht
  rw [htab] at t1
  cases t1
  rw [harr] at t2
  cases t2
  have hhl : hb.length = 272 := header_length hhb
  have hposl : posb.length ≤ 2 + ((ownPos (sysPos sys) [] (cs.map Cols.pos)).map fun p => (p.map fun s => 2 + 2 * units s).sum).sum := by
    have := convertPosTable_len g1
    rw [← own_table hr hS.pos hc, List.map_map]
    exact this
  have hmat : sizes.length + cells.length = matrixSize src.matrix := by
    cases hm : src.matrix with
    | none =>
      rw [hm] at g2
      obtain ⟨rfl, rfl⟩ := g2
      rfl
    | some m =>
      obtain ⟨h', ls⟩ := m
      rw [hm] at g2
      obtain ⟨sizes', cells', m1, m2⟩ := convertMatrix_total (hm ▸ hS.matrix) (hm ▸ hw.matrix)
      have g2 : convertMatrix h' ls = .ok (sizes, cells) := g2
      rw [m1] at g2
      cases g2
      exact m2
  have hhead : Out.withRes src.header.toBytes Out.write = ([.write hb], .ok ()) := withRes_total hhb rfl
  let front := ((Out.withRes src.header.toBytes Out.write).andThen fun _ => (db.writeGrammar src.matrix).andThen fun _ => db.writeTables D).1
  have hfront : front = [OutOp.write hb] ++ (bs1.map OutOp.write ++ bs2.map OutOp.write) := by
    show ((Out.withRes src.header.toBytes Out.write).andThen fun _ => (db.writeGrammar src.matrix).andThen fun _ => db.writeTables D).1 = _
    have hall : ((Out.withRes src.header.toBytes Out.write).andThen fun _ => (db.writeGrammar src.matrix).andThen fun _ => db.writeTables D) =
        ([OutOp.write hb] ++ (og ++ ot), .ok ()) := andThen_total hhead (andThen_total hg ht)
    rw [hall, g3, t7]
  have hmark : (runOps front).pos ≤ frontSize sys src cs T := by
    have := run_writes (hb :: (bs1 ++ bs2)) Stream.empty rfl
    simp only [List.map_cons, List.map_append, List.flatten_cons, List.flatten_append] at this
    rw [hfront]
    unfold runOps
    rw [List.cons_append, List.nil_append, this]
    simp only [Stream.empty, List.length_append, Nat.zero_add, g4, t8, leBytes_length]
    have hparl : (if db.entries = [] then [] else leBytes 4 db.entries.length ++ db.entries.flatMap (fun e => paramBytes e.params) : Bytes).length ≤
        4 + 6 * cs.length := by
      split
      · simp
      · rw [List.length_append, leBytes_length, params_flat_length]
        omega
    unfold frontSize
    omega
  obtain ⟨ow, hwi⟩ := writeInfos_total hr hS.pos hc (by rw [← hc.1]; omega) hw.rows (mark := (runOps front).pos) cs.length 0 (db1 := db)
    (tell := (runOps front).pos * 4 + db.entries.length) (offs := []) (by omega) (.refl db) (by rw [List.drop_zero]; omega)
  rw [List.drop_zero] at hwi
  have hinfo : db.writeWordInfo (runOps front).pos = ([.seek ((runOps front).pos * 4 + db.entries.length)] ++ ow, .ok ()) := by
    unfold writeWordInfo
    exact andThen_total rfl hwi
  refine ⟨[.write hb] ++ (og ++ (ot ++ ([.seek ((runOps front).pos * 4 + db.entries.length)] ++ ow))), ?_⟩
  unfold build
  exact andThen_total hhead (withRes_total hr (andThen_total hg (andThen_total ht hinfo)))

/-- The rows of a source that was built can be read. -/
theorem rows_readable {sys : Option SysDict} {rows : List (List PStr)} {db : DictBuilder} (hr : (init sys).addRows rows = .ok db) :
    ∃ cs, RowsRead rows cs := by
  have : ∀ n, n ≤ rows.length → ∃ cs : List Cols, cs.length = n ∧ ∀ (w : Nat) (c : Cols), cs[w]? = some c → RowIs rows w c := by
    intro n
    induction n with
    | zero => intro _; exact ⟨[], rfl, fun w c h => (by simp at h)⟩
    | succ n ih =>
      intro hn
      obtain ⟨cs, h1, h2⟩ := ih (by omega)
      obtain ⟨c, hc⟩ := rows_read hr (w := n) (by omega)
      refine ⟨cs ++ [c], by simp [h1], ?_⟩
      intro w c' h
      rcases (getElem?_append_singleton cs c c' w).1 h with h | ⟨rfl, rfl⟩
      · exact h2 w c' h
      · rw [h1]; exact hc
  exact this rows.length (Nat.le_refl _)

/-- A source that was built can be written. -/
theorem build_writable {D : Darts} {sys : Option SysDict} {src : DictSource} {cs : List Cols} {ops : List OutOp}
    (hS : SourceOk src.header src.rows src.matrix) (hc : RowsRead src.rows cs) (hk : ∀ s, sys = some s → s.KnowsPos)
    (h : (init sys).build D src.header src.rows src.matrix = (ops, .ok ())) : src.Writable sys cs := by
  obtain ⟨P, hB, _⟩ := build_calls h
  obtain ⟨hlen, hl⟩ := rows_list hB.rows hc
  have hpos := (posTable_total hB.rows hS.pos hc).1 ⟨_, hB.pos⟩
  refine ⟨header_iff.1 ⟨_, hB.header⟩, ?_, hpos.1, ?_, ?_⟩
  · intro c hcm
    obtain ⟨w, hw⟩ := List.mem_iff_getElem?.1 hcm
    obtain ⟨_, e, p, he, _⟩ := hl w c hw
    have hwl : w < P.infos.length := by
      rw [hB.infosLength]
      exact (List.getElem?_eq_some_iff.1 he).1
    obtain ⟨db1, db2, hsame, hb⟩ := hB.infos w e P.infos[w] he (List.getElem?_eq_getElem hwl)
    exact wordInfoBytes_writable hB.rows hS.pos hc hsame hk hw he hb (hB.params e (List.mem_of_getElem? he)) (hpos.2 c hcm)
  · exact (heads_iff hB.rows hc).1 fun kw hkw => (wordIdTable_iff.1 ⟨_, hB.table⟩ kw hkw).1
  · have hm := hB.matrix
    cases hmx : src.matrix with
    | none => trivial
    | some m =>
      obtain ⟨h', ls⟩ := m
      rw [hmx] at hm
      exact convertMatrix_writable (hmx ▸ hS.matrix) hm

end DictBuilder

namespace SimpleTrie

theorem sum_subset {α : Type} [DecidableEq α] {f : α → Nat} : ∀ {l m : List α}, l.Nodup → (∀ a ∈ l, a ∈ m) → (l.map f).sum ≤ (m.map f).sum
  | [], m, _, _ => by simp
  | a :: l, m, hn, h => by
    obtain ⟨h1, h2⟩ := List.nodup_cons.1 hn
    have ih := sum_subset (f := f) (l := l) (m := m.erase a) h2 (by
      intro b hb
      have hne : b ≠ a := fun he => h1 (he ▸ hb)
      exact (List.mem_erase_of_ne hne).2 (h b (by simp [hb])))
    have hp : (m.map f).sum = ((a :: m.erase a).map f).sum := ((List.perm_cons_erase (h a (by simp))).map f).sum_nat
    rw [hp]
    simp only [List.map_cons, List.sum_cons]
    omega

theorem encKvs_size : ∀ kvs : List (Bytes × Nat), (encKvs kvs).length = (kvs.map fun kv => 2 + kv.1.length).sum
  | [] => rfl
  | (k, v) :: r => by
    have := encKvs_size r
    simp only [encKvs, List.length_cons, List.length_append, List.map_cons, List.sum_cons]
    omega

/-- The simple library needs at most so much. -/
def bound (cs : List Cols) : Nat := 4 * (cs.map fun c => 2 + (Sources.headBytes c).length).sum

theorem room {cs : List Cols} {kvs : List (Bytes × Nat)} (hs : SortedKeys kvs) (h : ∀ kv ∈ kvs, ∃ c ∈ cs, c.left ≠ [45, 49] ∧ kv.1 = Sources.headBytes c) :
    ∃ arr, trie.build kvs = .ok arr ∧ arr.length ≤ bound cs := by
  refine ⟨_, rfl, ?_⟩
  rw [enc_length, encKvs_size]
  unfold bound
  apply Nat.mul_le_mul_left
  have h1 : (kvs.map fun kv => 2 + kv.1.length) = (kvs.map (·.1)).map fun k => 2 + k.length := by rw [List.map_map]; rfl
  have h2 : (cs.map fun c => 2 + (Sources.headBytes c).length) = (cs.map Sources.headBytes).map fun k => 2 + k.length := by rw [List.map_map]; rfl
  rw [h1, h2]
  apply sum_subset
  · unfold List.Nodup
    rw [List.pairwise_map]
    exact hs.imp (fun {a b} hab he => by rw [he, DictBuilder.bytesLt_irrefl] at hab; cases hab)
  · intro k hk
    obtain ⟨kv, hkv, rfl⟩ := List.mem_map.1 hk
    obtain ⟨c, hc, _, he⟩ := h kv hkv
    rw [he]
    exact List.mem_map_of_mem hc

end SimpleTrie
end Sudachi
