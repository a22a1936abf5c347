import Verif.Lemmas.Total2
namespace Sudachi
open Lattice

variable {bd : Builder} {catOf : Nat → CatSet} {t : InputText} {conn : Conn} {left right : Int → Prop}

/-! ### Path rewriting never raises -/

def Readable (lex : Lex) (d : NodeData) : Prop := ∃ wi, nodeWordInfo lex d = .ok wi

theorem index_ok (B : Built bd catOf t) {b : Nat} (hb : b < t.bytes.length) : ∃ k, t.byteIndexes[b]? = some k ∧ k < bd.modified.length := by
  obtain ⟨k, j, hk, _, _, h⟩ := B.char_of_byte hb
  exact ⟨k, h, hk⟩

theorem index_ok' (B : Built bd catOf t) {b : Nat} (hb : b ≤ t.bytes.length) : ∃ k, t.byteIndexes[b]? = some k ∧ k ≤ bd.modified.length := by
  rcases Nat.lt_or_ge b t.bytes.length with h | h
  · obtain ⟨k, h1, h2⟩ := index_ok B h
    exact ⟨k, h1, by omega⟩
  · have : b = t.bytes.length := by omega
    subst this
    exact ⟨_, B.biEnd, Nat.le_refl _⟩

theorem types_ok (B : Built bd catOf t) {b e : Nat} (hbe : b < e) (he : e ≤ t.bytes.length) : ∃ r, t.charCategoryTypes b e = .ok r := by
  obtain ⟨_, _, _, _, _, _, h⟩ := B.contRun (p := b) (by omega)
  obtain ⟨i, hi1, hi2⟩ := index_ok B (b := b) (by omega)
  obtain ⟨j, hj1, hj2⟩ := index_ok' B he
  have hcl : t.charCats.length = bd.modified.length := by rw [B.cats]; simp
  unfold InputText.charCategoryTypes
  rw [h]
  simp only [bind, Except.bind]
  split
  · exact ⟨_, rfl⟩
  · simp only [pyGet, hi1, hj1, List.getElem?_eq_getElem (show i < t.charCats.length by omega)]
    obtain ⟨r, hr, _⟩ := Built.commonCats_spec t (List.range' (i + 1) (j - (i + 1))) t.charCats[i] (by
      intro k hk; rw [List.mem_range'_1] at hk; omega)
    exact ⟨r, hr⟩

/-- A path over the text whose words can all be read. -/
structure GoodPath (lex : Lex) (n : Nat) (path : List NodeData) : Prop where
  tiles : Tiles 0 n path
  readable : ∀ d ∈ path, Readable lex d

theorem GoodPath.infos {lex : Lex} {ds : List NodeData} (h : ∀ d ∈ ds, Readable lex d) : ∃ infos, InfosOf lex ds infos := by
  induction ds with
  | nil => exact ⟨[], rfl⟩
  | cons d ds ih =>
    obtain ⟨w, hw⟩ := h d (by simp)
    obtain ⟨ws, hws⟩ := ih (fun x hx => h x (by simp [hx]))
    exact ⟨w :: ws, by unfold InfosOf at *; simp [hw, hws]⟩

theorem pySlice_mem {α : Type} {l : List α} {b e : Nat} {x : α} (h : x ∈ pySlice l b e) : x ∈ l :=
  List.mem_of_mem_take (List.mem_of_mem_drop h)

theorem GoodPath.get {lex : Lex} {n : Nat} {path : List NodeData} (h : GoodPath lex n path) {i : Nat} (hi : i < path.length) :
    ∃ d, pyGet path i = .ok d ∧ d ∈ path ∧ d.begin_ < d.end_ ∧ d.end_ ≤ n ∧ Readable lex d := by
  have hm : path[i] ∈ path := List.getElem_mem hi
  have ht := h.tiles.mem _ hm
  exact ⟨path[i], by unfold pyGet; rw [List.getElem?_eq_getElem hi], hm, ht.2.1, ht.2.2, h.readable _ hm⟩

theorem concat_ok {cfg : JoinNumeric} {lex : Lex} {n : Nat} {path : List NodeData} (h : GoodPath lex n path) {b e : Nat} {p : NumParser}
    (hbe : b < e) (he : e ≤ path.length) {norm : PStr} (hp : p.getNormalized.2 = .ok norm) :
    ∃ path', cfg.concat lex path b e p = .ok path' := by
  obtain ⟨d, h1, _, _, _, wi, h2⟩ := h.get (i := b) (by omega)
  obtain ⟨infos, hI⟩ := GoodPath.infos (lex := lex) (ds := pySlice path b e) (fun x hx => h.readable x (pySlice_mem hx))
  unfold JoinNumeric.concat
  simp only [h1, h2, hp, bind, Except.bind, pure, Except.pure]
  split
  · exact ⟨_, rfl⟩
  · split
    · split
      · exact concatenate_ok hbe he hI _
      · exact ⟨_, rfl⟩
    · split
      · exact concatenate_ok hbe he hI _
      · exact ⟨_, rfl⟩

theorem JNInv.good {cfg : JoinNumeric} {lex : Lex} {n : Nat} {orig : List NodeData} {st : JNState} (hi : JNInv cfg lex orig st)
    (h : GoodPath lex n orig) : GoodPath lex n st.path := by
  have hc := hi.prog.coarsens
  refine ⟨hc.tiles (fun b n hj => hj.spans) h.tiles, ?_⟩
  intro d hd
  rcases hc.mem d hd with hm | ⟨b, hj⟩
  · exact h.readable d hm
  · obtain ⟨_, infos, norm, _, _, ⟨_, hdef, w, hw, _⟩, _⟩ := hj
    exact ⟨w, by simp [nodeWordInfo, hdef, hw]⟩

/-- After a hanging separator there is something in front of it. -/
theorem sep_not_first {lex : Lex} {st : JNState} {b : Nat} (c : Collect lex st b) {prev : NodeData} {wi : WordInfo}
    (hprev : st.path[st.next - 1]? = some prev) (hwi : nodeWordInfo lex prev = .ok wi)
    (hs : wi.normalizedForm = [44] ∨ wi.normalizedForm = [46]) : b < st.next - 1 := by
  obtain ⟨infos, h1, h2⟩ := c.last hprev hwi
  have hlt := c.lt
  rcases Nat.lt_or_ge b (st.next - 1) with h | h
  · exact h
  · exfalso
    have h0 : pySlice st.path b (st.next - 1) = [] := by
      unfold pySlice; rw [List.drop_eq_nil_of_le]; rw [List.length_take]; omega
    rw [h0] at h1
    have : infos = [] := by
      unfold InfosOf at h1
      cases infos with
      | nil => rfl
      | cons => simp at h1
    subst this
    have h3 : (NumParser.init.appendAll [44]).2 = false := by decide
    have h4 : (NumParser.init.appendAll [46]).2 = false := by decide
    rcases hs with hs | hs <;> rw [hs] at h2 <;> simp only [normText, List.map_nil, List.flatten_nil, List.nil_append] at h2
    · rw [h2] at h3; cases h3
    · rw [h2] at h4; cases h4

theorem hangs_sep {p : NumParser} {s : PStr} (h : hangs p s = true) : s = [44] ∨ s = [46] := by
  simp only [hangs, Bool.or_eq_true, Bool.and_eq_true, decide_eq_true_eq] at h
  rcases h with h | h
  · exact .inl h.2
  · exact .inr h.2

theorem close_ok {cfg : JoinNumeric} {lex : Lex} {n : Nat} {orig : List NodeData} {st : JNState} (hi : JNInv cfg lex orig st)
    (h : GoodPath lex n orig) : ∃ r, st.close cfg lex = .ok r := by
  have hg := hi.good h
  unfold JNState.close
  split
  · exact ⟨_, rfl⟩
  · rename_i b hb
    have c := hi.collect b hb
    have hlt := c.lt
    have hle := c.le
    split
    · rename_i p hd
      obtain ⟨infos, g1, g2⟩ := c.fed
      obtain ⟨norm, hn, _⟩ := read_number (S := normText infos) (tail := []) (.inl rfl) (by rw [List.append_nil]; exact g2) (fun _ => by rw [hd])
      rw [hd] at hn
      obtain ⟨path', hp⟩ := concat_ok (cfg := cfg) hg hlt hle hn
      simp only [hp, bind, Except.bind]
      exact ⟨_, rfl⟩
    · rename_i p hd
      obtain ⟨prev, h1, _, _, _, wi, h2⟩ := hg.get (i := st.next - 1) (by omega)
      simp only [h1, h2, bind, Except.bind]
      split
      · rename_i hh
        have hs := hangs_sep hh
        have hb' := sep_not_first c (pyGet_ok h1).2 h2 hs
        obtain ⟨infos, g1, g2⟩ := c.last (pyGet_ok h1).2 h2
        obtain ⟨norm, hn, _⟩ := read_number (S := normText infos) (tail := wi.normalizedForm) (.inr hs) g2 (fun he => by rw [he] at hs; simp at hs)
        rw [hd] at hn
        obtain ⟨path', hp⟩ := concat_ok (cfg := cfg) hg hb' (by omega) hn
        simp only [hp]
        exact ⟨_, rfl⟩
      · exact ⟨_, rfl⟩

theorem finish_ok {cfg : JoinNumeric} {lex : Lex} {n : Nat} {orig : List NodeData} {st : JNState} (hi : JNInv cfg lex orig st)
    (h : GoodPath lex n orig) (hend : ¬ st.next < st.path.length) : ∃ r, st.finish cfg lex = .ok r := by
  have hg := hi.good h
  unfold JNState.finish
  split
  · exact ⟨_, rfl⟩
  · rename_i b hb
    have c := hi.collect b hb
    have hlt := c.lt
    have hle := c.le
    have hnx : st.next = st.path.length := by omega
    split
    · rename_i p hd
      obtain ⟨infos, g1, g2⟩ := c.fed
      obtain ⟨norm, hn, _⟩ := read_number (S := normText infos) (tail := []) (.inl rfl) (by rw [List.append_nil]; exact g2) (fun _ => by rw [hd])
      rw [hd] at hn
      exact concat_ok (cfg := cfg) hg (by omega) (Nat.le_refl _) hn
    · rename_i p hd
      obtain ⟨prev, h1, _, _, _, wi, h2⟩ := hg.get (i := st.next - 1) (by omega)
      have hl : st.path.getLast? = some prev := by
        rw [List.getLast?_eq_getElem?, ← hnx]; exact (pyGet_ok h1).2
      simp only [hl, h2, bind, Except.bind]
      split
      · rename_i hh
        have hs := hangs_sep hh
        have hb' := sep_not_first c (pyGet_ok h1).2 h2 hs
        obtain ⟨infos, g1, g2⟩ := c.last (pyGet_ok h1).2 h2
        obtain ⟨norm, hn, _⟩ := read_number (S := normText infos) (tail := wi.normalizedForm) (.inr hs) g2 (fun he => by rw [he] at hs; simp at hs)
        rw [hd] at hn
        exact concat_ok (cfg := cfg) hg (by omega) (by omega) hn
      · exact ⟨_, rfl⟩

theorem step_ok (B : Built bd catOf t) {cfg : JoinNumeric} {lex : Lex} {orig : List NodeData} {st : JNState} (hi : JNInv cfg lex orig st)
    (h : GoodPath lex t.bytes.length orig) (hlt : st.next < st.path.length) : ∃ st', st.step cfg lex t = .ok st' := by
  obtain ⟨d, h1, _, h2, h3, wi, h4⟩ := (hi.good h).get hlt
  obtain ⟨types, h5⟩ := types_ok B h2 h3
  obtain ⟨⟨p', n'⟩, h6⟩ := close_ok hi h
  unfold JNState.step
  simp only [h1, h5, h4, bind, Except.bind]
  split
  · exact ⟨_, rfl⟩
  · simp only [h6]
    exact ⟨_, rfl⟩

/-- The outcome is a value, or the bound on the number of turns was reached. -/
def OkOrFuel {α : Type} (r : Res α) : Prop := (∃ a, r = .ok a) ∨ r = .error .outOfFuel

theorem loop_ok (B : Built bd catOf t) {cfg : JoinNumeric} {lex : Lex} {orig : List NodeData}
    (h : GoodPath lex t.bytes.length orig) : ∀ (fuel : Nat) {st : JNState}, JNInv cfg lex orig st →
    OkOrFuel (JNState.loop cfg lex t fuel st) := by
  intro fuel
  induction fuel with
  | zero =>
    intro st hi
    unfold JNState.loop
    split
    · exact .inr rfl
    · rename_i hend
      exact .inl (finish_ok hi h hend)
  | succ fuel ih =>
    intro st hi
    unfold JNState.loop
    split
    · rename_i hlt
      obtain ⟨st', hst⟩ := step_ok B hi h hlt
      simp only [hst]
      exact ih (step_inv hi hst)
    · rename_i hend
      exact .inl (finish_ok hi h hend)

/-! ### Katakana -/

theorem isKatakanaNode_ok (B : Built bd catOf t) {d : NodeData} (h1 : d.begin_ < d.end_) (h2 : d.end_ ≤ t.bytes.length) :
    ∃ r, isKatakanaNode t d = .ok r := by
  obtain ⟨r, h⟩ := types_ok B h1 h2
  unfold isKatakanaNode
  simp only [h, bind, Except.bind]
  exact ⟨_, rfl⟩

theorem canOovBowNode_ok (B : Built bd catOf t) {d : NodeData} (h1 : d.begin_ < t.bytes.length) : ∃ r, canOovBowNode t d = .ok r := by
  obtain ⟨k, h, hk⟩ := index_ok B h1
  have hcl : t.charCats.length = bd.modified.length := by rw [B.cats]; simp
  unfold canOovBowNode InputText.charCategoryTypesAt
  simp only [pyGet, h, List.getElem?_eq_getElem (show k < t.charCats.length by omega), bind, Except.bind]
  exact ⟨_, rfl⟩

theorem katakanaStart_ok (B : Built bd catOf t) {cfg : JoinKatakana} {d : NodeData} (h1 : d.begin_ < d.end_) (h2 : d.end_ ≤ t.bytes.length) :
    ∃ r, katakanaStart cfg t d = .ok r := by
  have ht : ∃ r, katakanaTrigger cfg t d = .ok r := by
    unfold katakanaTrigger
    split
    · exact ⟨_, rfl⟩
    · obtain ⟨i, hi, _⟩ := index_ok' B (b := d.begin_) (by omega)
      obtain ⟨j, hj, _⟩ := index_ok' B h2
      unfold InputText.codePointCount
      simp only [pyGet, hi, hj, bind, Except.bind, pure, Except.pure]
      exact ⟨_, rfl⟩
  obtain ⟨r, hr⟩ := ht
  obtain ⟨r', hr'⟩ := isKatakanaNode_ok B h1 h2
  unfold katakanaStart
  simp only [hr, hr', bind, Except.bind]
  split
  · exact ⟨_, rfl⟩
  · exact ⟨_, rfl⟩

theorem scanBack_ok (B : Built bd catOf t) {lex : Lex} {path : List NodeData} (h : GoodPath lex t.bytes.length path) :
    ∀ k, k ≤ path.length → ∃ b, scanBack t path k = .ok b := by
  intro k
  induction k with
  | zero => intro _; exact ⟨0, rfl⟩
  | succ k ih =>
    intro hk
    obtain ⟨d, h1, _, h2, h3, _⟩ := h.get (i := k) (by omega)
    obtain ⟨r, hr⟩ := isKatakanaNode_ok B h2 h3
    unfold scanBack
    simp only [h1, hr, bind, Except.bind]
    split
    · exact ih (by omega)
    · exact ⟨_, rfl⟩

theorem scanForward_ok (B : Built bd catOf t) : ∀ (ds : List NodeData) (e : Nat),
    (∀ d ∈ ds, d.begin_ < d.end_ ∧ d.end_ ≤ t.bytes.length) → ∃ r, scanForward t ds e = .ok r := by
  intro ds
  induction ds with
  | nil => intro e _; exact ⟨e, rfl⟩
  | cons d ds ih =>
    intro e h
    obtain ⟨h2, h3⟩ := h d (by simp)
    obtain ⟨r, hr⟩ := isKatakanaNode_ok B h2 h3
    unfold scanForward
    simp only [hr, bind, Except.bind]
    split
    · exact ih _ (fun x hx => h x (by simp [hx]))
    · exact ⟨_, rfl⟩

theorem skipNoBow_ok (B : Built bd catOf t) {lex : Lex} {path : List NodeData} (h : GoodPath lex t.bytes.length path) :
    ∀ n b, b + n ≤ path.length → ∃ r, skipNoBow t path n b = .ok r := by
  intro n
  induction n with
  | zero => intro b _; exact ⟨b, rfl⟩
  | succ n ih =>
    intro b hb
    obtain ⟨d, h1, _, h2, h3, _⟩ := h.get (i := b) (by omega)
    obtain ⟨r, hr⟩ := canOovBowNode_ok B (d := d) (by omega)
    unfold skipNoBow
    simp only [h1, hr, bind, Except.bind]
    split
    · exact ⟨_, rfl⟩
    · exact ih _ (by omega)

/-- What `concatenate_oov` puts in for nodes of a good path. -/
theorem concatenateOov_ok {lex : Lex} {n : Nat} {path : List NodeData} (h : GoodPath lex n path) {L : Lattice} (hroom : n < L.endLists.length)
    {b e : Nat} (hbe : b < e) (he : e ≤ path.length) (posId : Int) : ∃ path', concatenateOov lex L path b e posId = .ok path' := by
  obtain ⟨f, h1, _⟩ := h.get (i := b) (by omega)
  obtain ⟨l, h2, _, _, h3, _⟩ := h.get (i := e - 1) (by omega)
  obtain ⟨infos, hI⟩ := GoodPath.infos (lex := lex) (ds := pySlice path b e) (fun x hx => h.readable x (pySlice_mem hx))
  have hg : ∃ r, L.getMinimumNode f.begin_ l.end_ = .ok r := by
    unfold Lattice.getMinimumNode Lattice.getNodes
    simp only [pyGet, List.getElem?_eq_getElem (show l.end_ < L.endLists.length by omega), bind, Except.bind, pure, Except.pure]
    split
    · exact ⟨_, rfl⟩
    · exact ⟨_, rfl⟩
  obtain ⟨r, hr⟩ := hg
  unfold concatenateOov
  rw [if_neg (by omega)]
  simp only [h1, h2, hr, bind, Except.bind]
  cases r with
  | some x => exact ⟨_, rfl⟩
  | none =>
    simp only [nodeWordInfos_ok.mpr hI]
    exact ⟨_, rfl⟩

theorem Known.readable {lex : Lex} {d : NodeData} (h : Known lex d)
    (hr : ∀ bytes i ws w e, lex.lookup bytes i = .ok ws → (w, e) ∈ ws → ∃ wi, lex.wordInfo w = .ok wi) : Readable lex d := by
  obtain ⟨h1, ⟨_, h2, bytes, i, ws, w, e, h3, h4, _, h5, _⟩ | ⟨_, w, h3, _⟩⟩ := h
  · obtain ⟨wi, hwi⟩ := hr bytes i ws w e h3 h4
    exact ⟨wi, by simp [nodeWordInfo, h1, h2, h5, hwi]⟩
  · exact ⟨w, by simp [nodeWordInfo, h1, h3]⟩

theorem concatenateOov_good {lex : Lex} {n : Nat} {path path' : List NodeData} (h : GoodPath lex n path) {L : Lattice}
    (hL : Sane conn lex L)
    (hr : ∀ bytes i ws w e, lex.lookup bytes i = .ok ws → (w, e) ∈ ws → ∃ wi, lex.wordInfo w = .ok wi)
    {b e : Nat} {posId : Int} (hc : concatenateOov lex L path b e posId = .ok path') : GoodPath lex n path' := by
  obtain ⟨hbe, he, nd, rfl, hcase⟩ := concatenateOov_spec hc
  have hsp : Spans (pySlice path b e) nd ∧ (n = n → Readable lex nd ∨ ∃ ns, (∃ x ∈ ns, x.data = nd) ∧ L.getNodes nd.begin_ nd.end_ = .ok ns) := by
    rcases hcase with ⟨f, l, hf, hl, ns, hns, hfc⟩ | ⟨hs, _, _, hd, infos, w, _, hw, _⟩
    · obtain ⟨x, hx, rfl⟩ := hfc.mem
      obtain ⟨all, ha, hb⟩ := getNodes_mem hns
      have h1 := (hb x hx).2
      have h2 := hL.endsRight _ _ ha x (hb x hx).1
      refine ⟨⟨f, l, ?_, ?_, h1, h2⟩, fun _ => .inr ⟨ns, ⟨x, hx, rfl⟩, by rw [h1, h2]; exact hns⟩⟩
      · rw [pySlice_head? _ hbe, hf]
      · rw [pySlice_getLast? _ hbe he, hl]
    · exact ⟨hs, fun _ => .inl ⟨w, by simp [nodeWordInfo, hd, hw]⟩⟩
  have hco : Coarsens (fun b n => Spans b n) path (path.take b ++ nd :: path.drop e) := by
    have h1 := ((Coarsens.refl (J := fun b n => Spans b n) (path.take b)).append (Coarsens.single hsp.1)).append (Coarsens.refl (path.drop e))
    rw [slice_split path (by omega)] at h1
    simpa using h1
  have ht := hco.tiles (fun _ _ hj => hj) h.tiles
  refine ⟨ht, ?_⟩
  intro d hd
  have hcases : d ∈ path ∨ d = nd := by
    rcases List.mem_append.mp hd with hd | hd
    · exact .inl (List.mem_of_mem_take hd)
    · rcases List.mem_cons.mp hd with hd | hd
      · exact .inr hd
      · exact .inl (List.mem_of_mem_drop hd)
  rcases hcases with hp | rfl
  · exact h.readable d hp
  · rcases hsp.2 rfl with h1 | ⟨ns, ⟨x, hx, hxd⟩, hns⟩
    · exact h1
    · rw [← hxd]
      exact (hL.node hns (by have := ht.mem _ hd; omega) hx).readable hr

theorem katStep_ok (B : Built bd catOf t) {cfg : JoinKatakana} {lex : Lex} {path : List NodeData} (h : GoodPath lex t.bytes.length path)
    {L : Lattice} (hroom : t.bytes.length < L.endLists.length) {i : Nat} (hi : i < path.length) :
    ∃ r, cfg.step lex t L path i = .ok r := by
  obtain ⟨d, h1, _, h2, h3, _⟩ := h.get hi
  obtain ⟨go, hgo⟩ := katakanaStart_ok B (cfg := cfg) h2 h3
  obtain ⟨b0, hb0⟩ := scanBack_ok B h i (by omega)
  obtain ⟨e, he⟩ := scanForward_ok B (path.drop (i + 1)) (i + 1) (fun x hx => by
    have := h.tiles.mem x (List.mem_of_mem_drop hx); exact this.2)
  have hb0' := scanBack_spec hb0
  obtain ⟨e1, e2⟩ := scanForward_spec he
  simp only [List.length_drop] at e2
  obtain ⟨b, hb⟩ := skipNoBow_ok B h (e - b0) b0 (by omega)
  obtain ⟨hb1, hb2⟩ := skipNoBow_spec hb
  unfold JoinKatakana.step
  simp only [h1, hgo, hb0, he, hb, bind, Except.bind, pure, Except.pure]
  split
  · exact ⟨_, rfl⟩
  · split
    · obtain ⟨path', hp⟩ := concatenateOov_ok (L := L) h hroom (b := b) (e := e) (by omega) (by omega) cfg.posId
      rw [hp]
      exact ⟨_, rfl⟩
    · exact ⟨_, rfl⟩

theorem katLoop_ok (B : Built bd catOf t) {cfg : JoinKatakana} {lex : Lex} {L : Lattice} (hL : Sane conn lex L)
    (hroom : t.bytes.length < L.endLists.length)
    (hr : ∀ bytes i ws w e, lex.lookup bytes i = .ok ws → (w, e) ∈ ws → ∃ wi, lex.wordInfo w = .ok wi) :
    ∀ (fuel : Nat) {path : List NodeData} {i : Nat}, GoodPath lex t.bytes.length path → path.length - i ≤ fuel →
    ∃ path', cfg.loop lex t L fuel path i = .ok path' ∧ GoodPath lex t.bytes.length path' := by
  intro fuel
  induction fuel with
  | zero =>
    intro path i h hle
    unfold JoinKatakana.loop
    rw [if_neg (by omega)]
    exact ⟨path, rfl, h⟩
  | succ fuel ih =>
    intro path i h hle
    unfold JoinKatakana.loop
    split
    · rename_i hi
      obtain ⟨⟨p', i'⟩, hs⟩ := katStep_ok B (cfg := cfg) h hroom hi
      have hsm := katStep_smaller hs
      simp only [hs]
      refine ih ?_ (by omega)
      obtain ⟨_, _, ⟨rfl, _⟩ | ⟨_, b0, b, e, _, _, _, ⟨rfl, _⟩ | ⟨_, _, hc⟩⟩⟩ := katStep_spec hs
      · exact h
      · exact h
      · exact concatenateOov_good h hL hr hc
    · exact ⟨path, rfl, h⟩

/-! ### All plugins -/

theorem rewritePath_ok (B : Built bd catOf t) {lex : Lex} {L : Lattice} (hL : Sane conn lex L) (hroom : t.bytes.length < L.endLists.length)
    (hr : ∀ bytes i ws w e, lex.lookup bytes i = .ok ws → (w, e) ∈ ws → ∃ wi, lex.wordInfo w = .ok wi) {fuel : Nat} :
    ∀ {ps : List PathPlugin} {path : List NodeData}, GoodPath lex t.bytes.length path → OkOrFuel (rewritePath lex fuel t L ps path) := by
  intro ps
  induction ps with
  | nil => intro path h; exact .inl ⟨path, rfl⟩
  | cons p ps ih =>
    intro path h
    unfold rewritePath
    cases p with
    | numeric cfg =>
      have h1 := loop_ok B h fuel (JNInv.start cfg lex path .init)
      rcases h1 with ⟨path', h1⟩ | h1
      · simp only [PathPlugin.rewrite, JoinNumeric.rewrite, h1, bind, Except.bind]
        have hc := loop_coarsens fuel (JNInv.start cfg lex path .init) h1
        refine ih ⟨hc.tiles (fun b n hj => hj.spans) h.tiles, ?_⟩
        intro d hd
        rcases hc.mem d hd with hm | ⟨b, hj⟩
        · exact h.readable d hm
        · obtain ⟨_, infos, norm, _, _, ⟨_, hdef, w, hw, _⟩, _⟩ := hj
          exact ⟨w, by simp [nodeWordInfo, hdef, hw]⟩
      · simp only [PathPlugin.rewrite, JoinNumeric.rewrite, h1, bind, Except.bind]
        exact .inr rfl
    | katakana cfg =>
      obtain ⟨path', h1, h2⟩ := katLoop_ok B (cfg := cfg) hL hroom hr (path.length + 1) (i := 0) h (by omega)
      simp only [PathPlugin.rewrite, JoinKatakana.rewrite, h1, bind, Except.bind]
      exact ih h2

theorem rewritePath_katakana (B : Built bd catOf t) {lex : Lex} {L : Lattice} (hL : Sane conn lex L) (hroom : t.bytes.length < L.endLists.length)
    (hr : ∀ bytes i ws w e, lex.lookup bytes i = .ok ws → (w, e) ∈ ws → ∃ wi, lex.wordInfo w = .ok wi) {fuel : Nat} :
    ∀ {ps : List PathPlugin} {path : List NodeData}, (∀ p ∈ ps, ∃ cfg, p = .katakana cfg) → GoodPath lex t.bytes.length path →
    ∃ path', rewritePath lex fuel t L ps path = .ok path' := by
  intro ps
  induction ps with
  | nil => intro path _ h; exact ⟨path, rfl⟩
  | cons p ps ih =>
    intro path hp h
    obtain ⟨cfg, rfl⟩ := hp p (by simp)
    obtain ⟨path', h1, h2⟩ := katLoop_ok B (cfg := cfg) hL hroom hr (path.length + 1) (i := 0) h (by omega)
    unfold rewritePath
    simp only [PathPlugin.rewrite, JoinKatakana.rewrite, h1, bind, Except.bind]
    exact ih (fun q hq => hp q (by simp [hq])) h2

end Sudachi
