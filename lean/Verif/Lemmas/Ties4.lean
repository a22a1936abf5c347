import Verif.Lemmas.Ties3

/-!
# The order of the words of an installation: lemmas
-/

namespace Sudachi

/-! ### Words of the dictionaries -/

/-- The order of matches with the same end. -/
def MatchBefore (p q : Nat × Nat) : Prop :=
  p.2 = q.2 → ∃ d w d' w', p.1 = combinedId d w ∧ q.1 = combinedId d' w' ∧ w < 268435456 ∧ w' < 268435456 ∧
    ((d = d' ∧ w < w') ∨ (d ≠ 0 ∧ (d' = 0 ∨ d < d')))

theorem askOrder_pairwise (n : Nat) : (askOrder n).Pairwise (fun d d' => d ≠ 0 ∧ (d' = 0 ∨ d < d')) := by
  unfold askOrder
  rw [List.pairwise_append]
  refine ⟨?_, List.pairwise_singleton _ _, ?_⟩
  · rw [List.pairwise_map]
    exact List.pairwise_lt_range.imp fun h => ⟨Nat.succ_ne_zero _, .inr (Nat.succ_lt_succ h)⟩
  · intro d hd d' hd'
    obtain ⟨e, _, rfl⟩ := List.mem_map.1 hd
    exact ⟨Nat.succ_ne_zero _, .inl (List.mem_singleton.1 hd')⟩

theorem combineMatches_pairwise {n : Nat} {found : Nat → List (Nat × Nat)}
    (h : ∀ d ∈ askOrder n, (∀ p ∈ found d, p.1 < 268435456) ∧ (found d).Pairwise (fun a b => a.2 < b.2 ∨ (a.2 = b.2 ∧ a.1 < b.1))) :
    (combineMatches (askOrder n) found).Pairwise MatchBefore := by
  unfold combineMatches
  rw [List.pairwise_flatMap]
  refine ⟨fun d hd => ?_, (List.Pairwise.and_mem.1 (askOrder_pairwise n)).imp ?_⟩
  · rw [List.pairwise_map]
    refine (List.Pairwise.and_mem.1 (h d hd).2).imp ?_
    rintro a b ⟨ha, hb, hlt⟩ heq
    dsimp only at heq
    exact ⟨d, a.1, d, b.1, rfl, rfl, (h d hd).1 a ha, (h d hd).1 b hb, .inl ⟨rfl, by omega⟩⟩
  · rintro d d' ⟨hd, hd', hlt⟩ x hx y hy _
    obtain ⟨a, ha, rfl⟩ := List.mem_map.1 hx
    obtain ⟨b, hb, rfl⟩ := List.mem_map.1 hy
    exact ⟨d, a.1, d', b.1, rfl, rfl, (h d hd).1 a ha, (h d' hd').1 b hb, .inr hlt⟩

/-- The order in which compiled dictionaries give their matches. -/
theorem compiled_lookup_order {D : Darts} (hD : D.Ok) {s : LexSet} (hs : s.Made) (rows : Nat → List (List PStr))
    (hx : ∀ d x, s.lexicons[d]? = some x → LexiconOf D (rows d) x) {text : Bytes} {offset : Nat} {found : List (Nat × Nat)}
    (hfound : s.lookup D text offset = .ok found) : found.Pairwise MatchBefore := by
  have hex : ∀ d : Nat, ∃ found : List (Nat × Nat), ∀ x : DALex, s.lexicons[d]? = some x → x.lookup D text offset = .ok found ∧
      (∀ p ∈ found, p.1 < 2 ^ 28) ∧ found.Pairwise (fun a b => a.2 < b.2 ∨ (a.2 = b.2 ∧ a.1 < b.1)) := by
    intro d
    cases hd : s.lexicons[d]? with
    | none => exact ⟨[], fun x h => by cases h⟩
    | some x =>
      obtain ⟨sys, header, matrix, b, h1, h2, h3⟩ := hx d x hd
      obtain ⟨g, F⟩ := compiled_facts hD h1 h2
      obtain ⟨found, f1, f2, f3⟩ := C42_lookup hD h1 h2 text offset
      refine ⟨found, fun y hy => ?_⟩
      cases hy
      refine ⟨by rw [history_lookup F.layout h3]; exact f1, ?_, f3⟩
      rintro ⟨w, e⟩ hp
      obtain ⟨c, ⟨row, hr, _⟩, _⟩ := (f2 w e).1 hp
      obtain ⟨hlt, _⟩ := List.getElem?_eq_some_iff.1 hr
      have := F.small
      rw [pow28]
      show w < _
      omega
  obtain ⟨f, hf⟩ := Classical.axiomOfChoice hex
  obtain ⟨h1, _⟩ := C46_lookup D s hs text offset f fun d x hd => ⟨(hf d x hd).1, (hf d x hd).2.1⟩
  rw [hfound] at h1
  cases h1
  refine combineMatches_pairwise fun d hd => ?_
  have hlt := (mem_askOrder hs.lengths.2).1 hd
  have := hf d _ (List.getElem?_eq_getElem hlt)
  rw [pow28] at this
  exact this.2

theorem wordNodes_pairwise {lex : Lex} {t : InputText} {i : Nat} {ws : List (Nat × Nat)} : ∀ {a : List NodeData},
    ws.Pairwise MatchBefore → wordNodes lex t i ws = .ok a → a.Pairwise (fun x y => x.end_ = y.end_ → WordBefore x y) := by
  induction ws with
  | nil =>
    intro a _ h
    cases h
    exact .nil
  | cons we rest ih =>
    obtain ⟨w, e⟩ := we
    intro a hp h
    obtain ⟨hp1, hp2⟩ := List.pairwise_cons.1 hp
    simp only [wordNodes] at h
    split at h
    · cases h
    · exact ih hp2 h
    · rename_i hs
      split at h
      · cases h
      rename_i d0 hd0
      split at h
      · cases h
      rename_i ds' hds'
      cases h
      refine List.pairwise_cons.2 ⟨fun y hy hend => ?_, ih hp2 hds'⟩
      obtain ⟨w', e', g1, g2, g3⟩ := wordNodes_mem hds' y hy
      obtain ⟨l, r, c, _, _, rfl⟩ := wordNode_eq hd0
      obtain ⟨l', r', c', _, _, rfl⟩ := wordNode_eq g3
      obtain ⟨d, v, d', v', k1, k2, k3⟩ := hp1 _ g1 hend
      dsimp only at k1 k2
      subst k1 k2
      exact ⟨d, v, d', v', rfl, rfl, k3⟩

variable {bd : Builder} {catOf : Nat → CatSet} {t : InputText}

namespace Sources
variable {S : Sources} {cfg : DictConfig} {dict : Dict}

/-- The order of the words at a character. -/
theorem Installed.order_at (hD : cfg.D.Ok) (h : S.Installed cfg dict) (hv : bd.Valid) (hb : bd.build cfg.catOf = .ok t) {k : Nat}
    (hk : k < bd.modified.length) (hbow : t.canBow (bytePos bd.modified k) = .ok true) {ds : List NodeData}
    (hds : posNodes (dict.set.toLex cfg.D cfg.depth) cfg.oov t (bytePos bd.modified k) = .ok ds) {x y : NodeData} (hne : x ≠ y)
    (hend : x.end_ = y.end_) (hfirst : FirstIn ds x y) (hy : y ∈ ds) :
    (x.oov = false ∧ (y.oov = true ∨ WordBefore x y)) ∨ (x.oov = true ∧ y.oov = true ∧
      UnknownBefore bd.modified cfg.catOf cfg.oov (∃ w, S.Word (loadedCost dict) t w ∧ w.begin_ = bytePos bd.modified k) k x y) := by
  obtain ⟨ws, a, b, c, p1, p2, p3, p4, p5⟩ := posNodes_parts hds
  have hword := h.words_at hD hv hb hk hbow p1 p2
  have hunk := unknown_nodes hv hb hk p3 p4
  have hflag : (!a.isEmpty) = true ↔ ∃ y, S.Word (loadedCost dict) t y ∧ y.begin_ = bytePos bd.modified k := by
    constructor
    · intro ha
      cases a with
      | nil => simp at ha
      | cons y ys => exact ⟨y, (hword y).1 List.mem_cons_self⟩
    · rintro ⟨y, hy⟩
      have := (hword y).2 hy
      cases a with
      | nil => cases this
      | cons _ _ => rfl
  subst p5
  have hyu : y ∈ b ++ c → y.oov = true := fun hy => ((hunk y).1 (List.mem_append.1 hy)).entry.1
  rcases hfirst.append with hfirst | ⟨hya, hfirst⟩
  · refine .inl ⟨((hword x).1 hfirst.mem).1.1, ?_⟩
    rcases List.mem_append.1 hy with hy | hy
    · refine .inr (FirstIn.pairwise hfirst (wordNodes_pairwise ?_ p2) hne hy hend)
      exact compiled_lookup_order hD h.set.1 S.rowsAt (h.lexicons hD) p1
    · exact .inl (hyu hy)
  · have hy : y ∈ b ++ c := (List.mem_append.1 hy).resolve_left hya
    refine .inr ⟨((hunk x).1 (List.mem_append.1 hfirst.mem)).entry.1, hyu hy, ?_⟩
    have := unknown_first hv hb hk p3 p4 hend hfirst
    rw [propext hflag] at this
    exact this

/-- The order of the words in the lists of the lattice. -/
theorem Installed.listed_before (hD : cfg.D.Ok) (h : S.Installed cfg dict) (hv : bd.Valid) (hb : bd.build cfg.catOf = .ok t)
    {L L1 : Lattice} (hL : L.Clean) (hbl : buildLoop dict.grammar.cell (dict.set.toLex cfg.D cfg.depth) cfg.oov t
      (List.range' 0 t.bytes.length) (L.resize t.bytes.length) = (L1, .ok ())) {x y : NodeData} (hx : L1.Cand x) (hy : L1.Cand y)
    (hends : L1.EndsRight) (hne : x ≠ y) (hend : x.end_ = y.end_) (hlist : L1.Listed x y) :
    S.Before (loadedCost dict) cfg.catOf cfg.oov t x y := by
  have B := built hv.len hb
  obtain ⟨ho, _⟩ := buildLoop_order B (h.lexOk hD) hL hbl
  have hx0 : 0 < x.end_ := by
    obtain ⟨e, ns, z, he, hns, hz, rfl⟩ := hx
    rw [hends e ns hns z hz]
    exact he
  obtain ⟨g1, g2⟩ := ho.listed B (h.lexOk hD) hx0 hlist hend hy fun e ns z hns hz _ => hends e ns hns z hz
  rcases g2 with hlt | ⟨heq, ds, hds, hfirst, hyd⟩
  · exact .inl hlt
  · obtain ⟨k, hk, hkb, _⟩ := B.bow_char g1
    rw [← B.bytePos_wpos] at hkb
    rw [hkb] at g1 hds
    have hmod : t.modified = bd.modified := B.modif
    refine .inr ⟨heq, ?_⟩
    rcases h.order_at hD hv hb hk g1 hds hne hend hfirst hyd with h1 | ⟨h1, h2, h3⟩
    · exact .inl h1
    · exact .inr ⟨h1, h2, k, by rw [hmod]; exact hk, by rw [hmod]; exact hkb, by rw [hmod]; exact h3⟩

end Sources
end Sudachi
