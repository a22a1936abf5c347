/-
Lemmas on builds that are interrupted.
-/
import Verif.Lemmas.Compiled
namespace Sudachi
open DictBuilder

/-- What has been written before the word-info offsets. -/
def Unfinished (F : Bytes) (n : Nat) (data : Bytes) : Prop :=
  data = F ∨ ∃ x, data = F ++ List.replicate n 0 ++ x

theorem writes_after_seek (F : Bytes) (base : Nat) (ws : List Bytes) (hne : ∀ b ∈ ws, b ≠ []) (hb : F.length ≤ base) :
    Unfinished F (base - F.length) ((ws.map OutOp.write).foldl OutOp.run ⟨F, base⟩).data := by
  cases ws with
  | nil => exact .inl rfl
  | cons b bs =>
    have hb0 := hne b (by simp)
    simp only [List.map_cons, List.foldl_cons, OutOp.run]
    have hw : (⟨F, base⟩ : Stream).write b = ⟨F ++ List.replicate (base - F.length) 0 ++ b, base + b.length⟩ := by
      unfold Stream.write
      rw [if_neg (by simpa using hb0)]
      simp only
      rw [List.take_of_length_le (by simp; omega), List.drop_of_length_le (by omega), List.append_nil]
    rw [hw, run_writes bs _ (by simp; omega)]
    exact .inr ⟨b ++ bs.flatten, by simp only [List.append_assoc]⟩

theorem cut_data (F : Bytes) (base : Nat) (infos : List Bytes) (last : OutOp) (hne : ∀ b ∈ infos, b ≠ []) (hb : F.length ≤ base)
    (m : Nat) (hm : m < infos.length + 3) :
    Unfinished F (base - F.length)
      ((([OutOp.seek base] ++ (infos.map OutOp.write ++ [OutOp.seek F.length, last])).take m).foldl OutOp.run ⟨F, F.length⟩).data := by
  cases m with
  | zero => exact .inl rfl
  | succ m =>
    rw [List.singleton_append, List.take_succ_cons, List.foldl_cons]
    show Unfinished F _ (List.foldl OutOp.run ⟨F, base⟩ _).data
    by_cases h : m ≤ infos.length
    · rw [List.take_append_of_le_length (by simpa using h), ← List.map_take]
      exact writes_after_seek F base _ (fun b hbm => hne b (List.mem_of_mem_take hbm)) hb
    · have hm' : m = (infos.map OutOp.write).length + 1 := by simp; omega
      rw [hm', List.take_length_add_append, List.take_succ_cons, List.take_zero, List.foldl_append]
      exact writes_after_seek F base infos hne hb

theorem fromLe_zeros : ∀ n, fromLe (List.replicate n 0) = 0
  | 0 => rfl
  | n + 1 => by
    rw [List.replicate_succ]
    show 0 + 256 * fromLe (List.replicate n 0) = 0
    rw [fromLe_zeros n]

theorem unfinished_zero {F data : Bytes} {n : Nat} (h : Unfinished F n data) (i : Nat) (hi : i + 4 ≤ n) :
    fromLe (pySlice data (F.length + i) (F.length + i + 4)) = 0 := by
  rcases h with rfl | ⟨x, rfl⟩
  · have : pySlice data (data.length + i) (data.length + i + 4) = [] := by
      unfold pySlice
      apply List.drop_of_length_le
      rw [List.length_take]
      omega
    rw [this]
    rfl
  · have : pySlice (F ++ List.replicate n 0 ++ x) (F.length + i) (F.length + i + 4) = List.replicate 4 0 := by
      unfold pySlice
      rw [List.append_assoc, Nat.add_assoc, List.take_length_add_append, List.drop_length_add_append,
        List.take_append_of_le_length (by simpa using hi), List.take_replicate, List.drop_replicate]
      congr 1
      omega
    rw [this]
    rfl

/-- From the last word parameter on everything before the word infos is there. -/
theorem cut_front {D : Darts} {db0 : DictBuilder} {header : Header} {rows : List (List PStr)} {matrix : Option (PStr × List PStr)}
    {P : Parts} (hB : P.Built D db0 header rows matrix) {bs : List Bytes} (hbs : bs.flatten = P.front) {ops : List OutOp}
    (hops : ops = bs.map OutOp.write ++ ([.seek P.base] ++ (P.infos.map OutOp.write ++ [.seek P.front.length, .write P.offs])))
    {k : Nat} (hkb : bs.length ≤ k) (hk : k < ops.length) : ∃ tl, (runOps (ops.take k)).data = P.front ++ tl := by
  have hil := hB.infosLength
  have hlen : ops.length = bs.length + (P.infos.length + 3) := by
    rw [hops]
    simp only [List.length_append, List.length_map, List.length_cons, List.length_nil]
    omega
  have hinf : ∀ b ∈ P.infos, b ≠ [] := by
    intro b hb
    obtain ⟨j, hj⟩ := List.getElem?_of_mem hb
    have hjl : j < P.db.entries.length := by
      rw [← hil]; exact (List.getElem?_eq_some_iff.1 hj).1
    obtain ⟨db1, db2, _, hw⟩ := hB.infos j P.db.entries[j] b (List.getElem?_eq_getElem hjl) hj
    exact wordInfoBytes_ne hw
  have hbase : P.base = P.front.length * 4 + P.db.entries.length := rfl
  have hU : Unfinished P.front (P.base - P.front.length) (runOps (ops.take k)).data := by
    have hsplit : ops.take k = bs.map OutOp.write ++
        ([OutOp.seek P.base] ++ (P.infos.map OutOp.write ++ [OutOp.seek P.front.length, OutOp.write P.offs])).take (k - bs.length) := by
      rw [hops, List.take_append, List.take_of_length_le (by simpa using hkb), List.length_map]
    have hr := run_writes bs Stream.empty rfl
    rw [hsplit]
    unfold runOps
    rw [List.foldl_append, hr, hbs]
    show Unfinished P.front _ (List.foldl OutOp.run ⟨[] ++ P.front, 0 + P.front.length⟩ _).data
    rw [List.nil_append, Nat.zero_add]
    exact cut_data P.front P.base P.infos _ hinf (by omega) _ (by omega)
  rcases hU with e | ⟨x, e⟩
  · exact ⟨[], by rw [e, List.append_nil]⟩
  · exact ⟨_, by rw [e, List.append_assoc]⟩

/-- The dictionary read from a file that lacks the word-info offsets. -/
theorem interrupted {D : Darts} {sys : Option SysDict} {header : Header} {rows : List (List PStr)} {matrix : Option (PStr × List PStr)}
    {ops : List OutOp} (hD : D.Ok) (hS : SourceOk header rows matrix) (hne : rows ≠ [])
    (h : (DictBuilder.init sys).build D header rows matrix = (ops, .ok ())) (k : Nat) (hk : k < ops.length)
    (hk2 : ops.length ≤ k + rows.length + 3) :
    ∃ d d', readDictionary (runOps ops).data = .ok d ∧ readDictionary (runOps (ops.take k)).data = .ok d' ∧
      d'.header = d.header ∧ d'.grammar = d.grammar ∧ d'.lexicon.size = d.lexicon.size ∧
      (∀ w, w < rows.length → d'.lexicon.leftId w = d.lexicon.leftId w ∧ d'.lexicon.rightId w = d.lexicon.rightId w ∧
        d'.lexicon.cost w = d.lexicon.cost w) ∧
      (∀ text offset, d'.lexicon.lookup D text offset = d.lexicon.lookup D text offset) ∧
      (∀ w, w < rows.length → HEADER_SIZE ≤ d.lexicon.infoOffset w ∧ d'.lexicon.infoOffset w = 0) := by
  obtain ⟨P, hB, hf, bs, hbs, hops⟩ := build_calls h
  obtain ⟨r1, r2, r3, r4⟩ := rows_entries hB.rows
  have hent : P.db.entries ≠ [] := by
    intro e
    rw [e] at r2
    exact hne (List.length_eq_zero_iff.1 r2.symm)
  have hil := hB.infosLength
  have hlen : ops.length = bs.length + (P.infos.length + 3) := by
    rw [hops]
    simp only [List.length_append, List.length_map, List.length_cons, List.length_nil]
    omega
  have hkb : bs.length ≤ k := by omega
  have hinf : ∀ b ∈ P.infos, b ≠ [] := by
    intro b hb
    obtain ⟨j, hj⟩ := List.getElem?_of_mem hb
    have hjl : j < P.db.entries.length := by
      rw [← hil]; exact (List.getElem?_eq_some_iff.1 hj).1
    obtain ⟨db1, db2, _, hw⟩ := hB.infos j P.db.entries[j] b (List.getElem?_eq_getElem hjl) hj
    exact wordInfoBytes_ne hw
  have hge := front_ge P
  have hbase : P.base = P.front.length * 4 + P.db.entries.length := rfl
  have hU : Unfinished P.front (P.base - P.front.length) (runOps (ops.take k)).data := by
    have hsplit : ops.take k = bs.map OutOp.write ++
        ([OutOp.seek P.base] ++ (P.infos.map OutOp.write ++ [OutOp.seek P.front.length, OutOp.write P.offs])).take (k - bs.length) := by
      rw [hops, List.take_append, List.take_of_length_le (by simpa using hkb), List.length_map]
    have hr := run_writes bs Stream.empty rfl
    rw [hsplit]
    unfold runOps
    rw [List.foldl_append, hr, hbs]
    show Unfinished P.front _ (List.foldl OutOp.run ⟨[] ++ P.front, 0 + P.front.length⟩ _).data
    rw [List.nil_append, Nat.zero_add]
    exact cut_data P.front P.base P.infos _ hinf (by omega) _ (by omega)
  obtain ⟨g, g1, g2, g3⟩ := load_in hB hS hD
  have hF : ∃ tl, (runOps (ops.take k)).data = P.front ++ tl := by
    rcases hU with e | ⟨x, e⟩
    · exact ⟨[], by rw [e, List.append_nil]⟩
    · exact ⟨_, by rw [e, List.append_assoc]⟩
  have hA : At (runOps (ops.take k)).data 0 P.front := by
    obtain ⟨tl, htl⟩ := hF
    rw [htl]
    exact (At.whole _).extend _
  refine ⟨⟨header, some g, P.lexicon true⟩, ⟨header, some g, P.lexiconIn (runOps (ops.take k)).data true⟩, ?_, ?_, rfl, rfl, rfl, ?_, ?_, ?_⟩
  · rw [hf]
    exact g1 P.file ⟨_, rfl⟩ (fun _ => rfl)
  · exact g1 _ hF (fun e => absurd e hent)
  · intro w hw
    rw [← r2] at hw
    obtain ⟨a1, a2, a3⟩ := lex_params hB true w _ (List.getElem?_eq_getElem hw)
    obtain ⟨b1, b2, b3⟩ := lex_params_in hB true w _ hA (List.getElem?_eq_getElem hw)
    exact ⟨b1.trans a1.symm, b2.trans a2.symm, b3.trans a3.symm⟩
  · intro text offset
    exact (lex_lookup_in hB hD true hA r3.sorted text offset).trans (lex_lookup hB hD true r3.sorted text offset).symm
  · intro w hw
    rw [← r2] at hw
    obtain ⟨b, _, _, hlo⟩ := lex_info hB true w _ (List.getElem?_eq_getElem hw)
    constructor
    · have h1 := header_length hB.header
      have h2 : P.hb.length ≤ P.front.length := by
        unfold Parts.front
        simp only [List.length_append]
        omega
      have h3 : HEADER_SIZE = 272 := rfl
      show HEADER_SIZE ≤ (P.lexicon true).infoOffset w
      omega
    · have hfl := P.front_length
      rw [P.params_length, if_neg hent] at hfl
      show fromLe (pySlice _ (P.parStart + (4 + 6 * P.db.entries.length) + 4 * w) (P.parStart + (4 + 6 * P.db.entries.length) + 4 * w + 4)) = 0
      rw [← hfl]
      exact unfinished_zero hU (4 * w) (by omega)

end Sudachi
