import Verif.Lemmas.Ties2

/-!
# The order of unknown words: lemmas
-/

namespace Sudachi

variable {bd : Builder} {catOf : Nat → CatSet} {t : InputText}

theorem makes_iff {m : PStr} {k : Nat} {other : Prop} {p : OovPlugin} {x : NodeData} :
    p.Makes m catOf k other x ↔ ∃ r, p.MakesBy m catOf k other r x := by
  cases p with
  | mecab categories oovList =>
    constructor
    · rintro ⟨a, b, ch, ty, cinfo, o, j, h1, h2, h3, h4, h5, h6, h7, h8, h9, h10, h11⟩
      obtain ⟨ci, hci⟩ := List.mem_iff_getElem?.1 h6
      obtain ⟨oi, hoi⟩ := List.mem_iff_getElem?.1 h8
      exact ⟨(ci, oi), ch, ty, o, h5, hci, hoi, a, b, cinfo, j, h1, h2, h3, h4, h7, h9, h10, h11⟩
    · rintro ⟨r, ch, ty, o, h5, hci, hoi, a, b, cinfo, j, h1, h2, h3, h4, h7, h9, h10, h11⟩
      exact ⟨a, b, ch, ty, cinfo, o, j, h1, h2, h3, h4, h5, List.mem_of_getElem? hci, h7, List.mem_of_getElem? hoi, h9, h10, h11⟩
  | simple o =>
    constructor
    · intro h; exact ⟨(0, 0), rfl, h⟩
    · rintro ⟨r, _, h⟩; exact h

theorem madeBy_iff {m : PStr} {k : Nat} {x : NodeData} : ∀ {ps : List OovPlugin} {other : Prop},
    MadeBy m catOf k other ps x ↔ ∃ i r, MadeAt m catOf k other ps i r x
  | [], _ => ⟨fun h => h.elim, fun ⟨_, _, h⟩ => h.elim⟩
  | p :: ps, other => by
    constructor
    · rintro (h | h)
      · obtain ⟨r, hr⟩ := makes_iff.1 h
        exact ⟨0, r, hr⟩
      · obtain ⟨i, r, hr⟩ := madeBy_iff.1 h
        exact ⟨i + 1, r, hr⟩
    · rintro ⟨i, r, h⟩
      cases i with
      | zero => exact .inl (makes_iff.2 ⟨r, h⟩)
      | succ i => exact .inr (madeBy_iff.2 ⟨i, r, h⟩)

theorem unknownAt_iff {m : PStr} {k : Nat} {x : NodeData} {ps : List OovPlugin} {other : Prop} :
    UnknownAt m catOf ps other k x ↔ ∃ i r, UnknownBy m catOf ps other k i r x := by
  constructor
  · rintro ⟨ch, hch, ⟨h1, h2⟩ | ⟨h1, h2, p, h3, h4⟩⟩
    · obtain ⟨i, r, h⟩ := madeBy_iff.1 h2
      exact ⟨i, r, ch, hch, .inl ⟨h1, h⟩⟩
    · obtain ⟨r, h⟩ := makes_iff.1 h4
      exact ⟨0, r, ch, hch, .inr ⟨h1, h2, rfl, p, h3, h⟩⟩
  · rintro ⟨i, r, ch, hch, ⟨h1, h2⟩ | ⟨h1, h2, _, p, h3, h4⟩⟩
    · exact ⟨ch, hch, .inl ⟨h1, madeBy_iff.2 ⟨i, r, h2⟩⟩⟩
    · exact ⟨ch, hch, .inr ⟨h1, h2, p, h3, makes_iff.2 ⟨r, h4⟩⟩⟩

/-! ### The lists a provider gives -/

/-- The nodes of all entries of a category for one length. -/
def blockOf (oovList : List (Cat × OovEntry)) (ty : Cat) (offset : Nat) (q : Nat × PStr) : List NodeData :=
  (oovList.filter (fun p => p.1 = ty)).map (fun e => oovNode offset q.1 q.2 e.2)

theorem blockOf_eq {oovList : List (Cat × OovEntry)} {ty : Cat} {offset sub : Nat} {s : PStr} :
    ((oovList.filter (fun p => p.1 = ty)).map Prod.snd).map (oovNode offset sub s) = blockOf oovList ty offset (sub, s) := by
  unfold blockOf
  rw [List.map_map]
  rfl

theorem mecabPrefixes_blocks {oovList : List (Cat × OovEntry)} {ty : Cat} {offset : Nat} {llength : Int} :
    ∀ {is : List Nat} {ns : List NodeData},
      mecabPrefixes t offset llength ((oovList.filter (fun p => p.1 = ty)).map Prod.snd) is = .ok ns →
      ∃ J : List (Nat × PStr), ns = J.flatMap (blockOf oovList ty offset) ∧ ∀ q ∈ J, t.getSubstring offset (offset + q.1) = .ok q.2
  | [], ns, h => by
    cases h
    exact ⟨[], rfl, fun q hq => by cases hq⟩
  | i :: is, ns, h => by
    unfold mecabPrefixes at h
    obtain ⟨sub, h1, h⟩ := bind_ok h
    split at h
    · cases h
      exact ⟨[], rfl, fun q hq => by cases hq⟩
    · obtain ⟨s, h2, h⟩ := bind_ok h
      obtain ⟨rest, h3, h⟩ := bind_ok h
      cases h
      obtain ⟨J, h4, h5⟩ := mecabPrefixes_blocks h3
      refine ⟨(sub, s) :: J, by rw [List.flatMap_cons, h4, blockOf_eq], fun q hq => ?_⟩
      rcases List.mem_cons.1 hq with rfl | hq
      · exact h2
      · exact h5 q hq

theorem mecabCategory_blocks {categories : List (Cat × CategoryInfo)} {oovList : List (Cat × OovEntry)} {ty : Cat} {offset length : Nat}
    {has : Bool} {ns : List NodeData} (h : mecabCategory categories oovList t offset length has ty = .ok ns) :
    ∃ J : List (Nat × PStr), ns = J.flatMap (blockOf oovList ty offset) ∧ ∀ q ∈ J, t.getSubstring offset (offset + q.1) = .ok q.2 := by
  unfold mecabCategory at h
  split at h
  · cases h
    exact ⟨[], rfl, fun q hq => by cases hq⟩
  dsimp only at h
  split at h
  · cases h
    exact ⟨[], rfl, fun q hq => by cases hq⟩
  split at h
  · cases h
    exact ⟨[], rfl, fun q hq => by cases hq⟩
  split at h
  · obtain ⟨s, h3, h⟩ := bind_ok h
    obtain ⟨grouped, h1, h⟩ := bind_ok h
    obtain ⟨rest, h2, h⟩ := bind_ok h
    cases h1
    cases h
    obtain ⟨J, h4, h5⟩ := mecabPrefixes_blocks h2
    refine ⟨(length, s) :: J, by rw [List.flatMap_cons, h4, blockOf_eq], fun q hq => ?_⟩
    rcases List.mem_cons.1 hq with rfl | hq
    · exact h3
    · exact h5 q hq
  · obtain ⟨grouped, h1, h⟩ := bind_ok h
    obtain ⟨rest, h2, h⟩ := bind_ok h
    cases h1
    cases h
    obtain ⟨J, h4, h5⟩ := mecabPrefixes_blocks h2
    exact ⟨J, h4, h5⟩

theorem mecabCategories_flat {categories : List (Cat × CategoryInfo)} {oovList : List (Cat × OovEntry)} {offset length : Nat}
    {has : Bool} {A : Cat → List NodeData} (hA : ∀ ty, mecabCategory categories oovList t offset length has ty = .ok (A ty)) :
    ∀ tys, mecabCategories categories oovList t offset length has tys = .ok (tys.flatMap A)
  | [] => rfl
  | ty :: tys => by
    rw [mecabCategories, hA ty, mecabCategories_flat hA tys]
    rfl

theorem oovNode_inj {offset len : Nat} {s : PStr} {o o' : OovEntry} (h : oovNode offset len s o = oovNode offset len s o') : o = o' := by
  cases o
  cases o'
  simp only [oovNode, NodeData.mk.injEq, Option.some.injEq, WordInfo.mk.injEq, true_and, and_true] at h
  obtain ⟨h1, h2, h3, h4⟩ := h
  subst h1 h2 h3 h4
  rfl

theorem Built.unknownWord_eq (B : Built bd catOf t) {k j : Nat} (hkj : k ≤ j) (o : OovEntry) :
    unknownWord bd.modified k j o = charsNode bd.modified k j o := by
  have := wpos_mono bd.modified hkj
  unfold unknownWord charsNode oovNode
  simp only [B.bytePos_wpos]
  congr 1
  omega

/-- What a category of the MeCab provider gives. -/
theorem Built.category (B : Built bd catOf t) {k : Nat} (hk : k < bd.modified.length) (categories : List (Cat × CategoryInfo))
    (oovList : List (Cat × OovEntry)) (has : Bool) : ∃ A : Cat → List NodeData,
    (OovPlugin.mecab categories oovList).provideOov t (bytePos bd.modified k) has = .ok ((catOf bd.modified[k]).flatMap A) ∧
    (∀ ty x, x ∈ A ty ↔ ∃ o, (ty, o) ∈ oovList ∧ MecabMakes bd.modified catOf k (has = true) categories oovList ty o x) ∧
    (∀ ty, ∃ J : List (Nat × PStr), A ty = J.flatMap (blockOf oovList ty (bytePos bd.modified k)) ∧
      ∀ q ∈ J, t.getSubstring (bytePos bd.modified k) (bytePos bd.modified k + q.1) = .ok q.2) := by
  have hcl : t.charCats.length = bd.modified.length := by rw [B.cats]; simp
  have hp : wpos bd.modified k < t.bytes.length := by rw [B.blen]; exact wpos_lt B.enc hk (Nat.le_refl _)
  obtain ⟨a, b, h1, h2, h3, h4, h5⟩ := B.contRun hp
  have hb := h2.le
  have hab := h2.lt
  have hkb : k < b := by
    rcases Nat.lt_or_ge k b with h | h
    · exact h
    · have := wpos_mono bd.modified h; omega
  have hak : a ≤ k := by
    rcases Nat.lt_or_ge k a with h | h
    · have := wpos_lt B.enc h (by omega); omega
    · exact h
  rw [hcl] at hb
  have hspec := fun ty => mecabCategory_spec B hkb hb categories oovList has ty
  obtain ⟨A, hA⟩ := Classical.axiomOfChoice hspec
  have hbk := wpos_mono bd.modified (show k ≤ b by omega)
  have hlen : ∀ ty, (entriesOf oovList ty).length = (oovList.filter (fun p => p.1 = ty)).length := by
    intro ty; simp [entriesOf]
  have hsub : ∀ m, (sublen bd.modified k m : Int) =
      (wpos bd.modified (min (k + m) bd.modified.length) : Int) - wpos bd.modified k := by
    intro m
    have := wpos_mono bd.modified (show k ≤ min (k + m) bd.modified.length by omega)
    unfold sublen; omega
  rw [B.cats] at h1 h2
  refine ⟨A, ?_, fun ty x => ?_, fun ty => ?_⟩
  · rw [B.bytePos_wpos]
    simp only [OovPlugin.provideOov, h5, B.cats_at hk, bind, Except.bind]
    rw [if_neg (by omega)]
    exact mecabCategories_flat (fun ty => (hA ty).1) _
  · rw [(hA ty).2 x]
    have hhas : has = false ↔ ¬ (has = true) := by cases has <;> simp
    constructor
    · rintro ⟨cinfo, o, g2, g3, g4, ⟨g5, g6⟩ | ⟨m, g5, g6, g7, g8⟩⟩
      · exact ⟨o, g3, a, b, cinfo, b, h1, h2, hak, hkb, g2, g4.imp_right hhas.1, by rw [g6, B.unknownWord_eq (by omega)], .inl ⟨g5, rfl⟩⟩
      · refine ⟨o, g3, a, b, cinfo, _, h1, h2, hak, hkb, g2, g4.imp_right hhas.1, by rw [g8, B.unknownWord_eq (by omega)],
          .inr ⟨m, g5, g6, rfl, ?_⟩⟩
        rw [hsub, hlen] at g7
        simp only [B.bytePos_wpos]
        omega
    · rintro ⟨o, g3, a', b', cinfo, j, r1, r2, r3, r4, g2, g4, g5, g6⟩
      have hbb := run_unique h1 h2 hak hkb r1 r2 r3 r4
      subst hbb
      refine ⟨cinfo, o, g2, g3, g4.imp_right hhas.2, ?_⟩
      rcases g6 with ⟨g6, g7⟩ | ⟨m, g6, g7, g8, g9⟩
      · subst g7
        exact .inl ⟨g6, by rw [g5, B.unknownWord_eq (by omega)]⟩
      · subst g8
        refine .inr ⟨m, g6, g7, ?_, by rw [g5, B.unknownWord_eq (by omega)]⟩
        rw [hsub, hlen]
        simp only [B.bytePos_wpos] at g9
        omega
  · have := mecabCategory_blocks (hA ty).1
    rw [← B.bytePos_wpos] at this
    exact this

/-- The order of what one provider gives. -/
theorem getOov_first (hv : bd.Valid) (hb : bd.build catOf = .ok t) {k : Nat} (hk : k < bd.modified.length) (p : OovPlugin) (has : Bool)
    {ns : List NodeData} (hns : p.getOov t (bytePos bd.modified k) has = .ok ns) {x y : NodeData} (hend : x.end_ = y.end_)
    (h : FirstIn ns x y) : ∃ r, p.MakesBy bd.modified catOf k (has = true) r x ∧
      ∀ r', p.MakesBy bd.modified catOf k (has = true) r' y → r.1 < r'.1 ∨ (r.1 = r'.1 ∧ r.2 ≤ r'.2) := by
  have B := built hv.len hb
  cases p with
  | mecab categories oovList =>
    obtain ⟨A, h1, h2, h3⟩ := B.category hk categories oovList has
    have hns := (getOov_iff.mp hns).1
    rw [h1] at hns
    cases hns
    obtain ⟨ci, ty, hci, hfirst, hmin⟩ := h.flatMap
    obtain ⟨J, hJ, hJs⟩ := h3 ty
    rw [hJ] at hfirst
    obtain ⟨_, q, hq, hfirst, _⟩ := hfirst.flatMap
    have hqm := List.mem_of_getElem? hq
    have hxA : x ∈ A ty := by rw [hJ]; exact List.mem_flatMap.2 ⟨q, hqm, hfirst.mem⟩
    obtain ⟨oi, e, hoi, he, hex, hmin2⟩ := FirstIn.filterMap hfirst
    have hety : e.1 = ty := by simpa using he
    have hblock : ∀ z o, (ty, o) ∈ oovList → MecabMakes bd.modified catOf k (has = true) categories oovList ty o z → z.end_ = x.end_ →
        z = oovNode (bytePos bd.modified k) q.1 q.2 o := by
      intro z o ho hz hze
      have hzA : z ∈ A ty := (h2 ty z).2 ⟨o, ho, hz⟩
      rw [hJ] at hzA
      obtain ⟨q', hq', hz'⟩ := List.mem_flatMap.1 hzA
      obtain ⟨e', _, rfl⟩ := List.mem_map.1 hz'
      have hlen : q'.1 = q.1 := by
        rw [← hex] at hze
        simp only [oovNode] at hze
        omega
      have hs := hJs q' hq'
      rw [hlen, hJs q hqm] at hs
      have hs := Except.ok.inj hs
      rw [hlen, ← hs] at hz ⊢
      congr 1
      obtain ⟨_, _, _, j, _, _, _, _, _, _, hz, _⟩ := hz
      obtain ⟨l1, r1, c1, p1⟩ := o
      obtain ⟨ty1, l2, r2, c2, p2⟩ := e'
      simp only [oovNode, unknownWord, NodeData.mk.injEq, Option.some.injEq, WordInfo.mk.injEq] at hz
      simp only [OovEntry.mk.injEq]
      exact ⟨hz.2.2.1, hz.2.2.2.1, hz.2.2.2.2.1, hz.2.2.2.2.2.2.2.1.2.2.1⟩
    obtain ⟨o, ho, hmk⟩ := (h2 ty x).1 hxA
    have hxo := hblock x o ho hmk rfl
    have hoe : o = e.2 := oovNode_inj (hxo.symm.trans hex.symm)
    refine ⟨(ci, oi), ⟨_, ty, o, List.getElem?_eq_getElem hk, hci, ?_, hmk⟩, ?_⟩
    · rw [hoi, hoe, ← hety]
    · rintro ⟨ci', oi'⟩ ⟨ch', ty', o', hch', hci', hoi', hmk'⟩
      dsimp only at hci' hoi' ⊢
      rw [List.getElem?_eq_getElem hk] at hch'
      cases hch'
      have hyA : y ∈ A ty' := (h2 ty' y).2 ⟨o', List.mem_of_getElem? hoi', hmk'⟩
      have hle := hmin ci' ty' hci' hyA
      rcases Nat.lt_or_eq_of_le hle with hlt | heq
      · exact .inl hlt
      · subst heq
        rw [hci] at hci'
        cases hci'
        refine .inr ⟨rfl, hmin2 oi' _ hoi' (by simp) ?_⟩
        exact (hblock y o' (List.mem_of_getElem? hoi') hmk' hend.symm).symm
  | simple o =>
    have h2 := getOov_makes hv hb hk hns
    refine ⟨(0, 0), ⟨rfl, (h2 x).1 h.mem⟩, ?_⟩
    rintro r' ⟨rfl, _⟩
    exact .inr ⟨rfl, Nat.le_refl _⟩

theorem madeAt_congr {m : PStr} {k : Nat} {P Q : Prop} (h : P ↔ Q) {ps : List OovPlugin} {i : Nat} {r : Nat × Nat} {x : NodeData} :
    MadeAt m catOf k P ps i r x ↔ MadeAt m catOf k Q ps i r x := by rw [propext h]

/-- The order of what the providers give, one after the other. -/
theorem oovNodes_first (hv : bd.Valid) (hb : bd.build catOf = .ok t) {k : Nat} (hk : k < bd.modified.length) {x y : NodeData}
    (hend : x.end_ = y.end_) : ∀ (ps : List OovPlugin) (has : Bool) {ns : List NodeData},
      oovNodes t (bytePos bd.modified k) ps has = .ok ns → FirstIn ns x y →
      ∃ i r, MadeAt bd.modified catOf k (has = true) ps i r x ∧
        ∀ i' r', MadeAt bd.modified catOf k (has = true) ps i' r' y → RankLe i r i' r'
  | [], has, ns, h1, h => by
    cases h1
    cases h.mem
  | p :: ps, has, ns, h1, h => by
    rw [oovNodes] at h1
    split at h1
    · cases h1
    rename_i ns1 g1
    have g2 := getOov_makes hv hb hk g1
    split at h1
    · cases h1
    rename_i ms g3
    cases h1
    have hflag : (has || !ns1.isEmpty) = true ↔ (has = true ∨ ∃ y, p.Makes bd.modified catOf k (has = true) y) := by
      rw [Bool.or_eq_true]
      refine or_congr Iff.rfl ?_
      constructor
      · intro h
        cases ns1 with
        | nil => simp at h
        | cons y ys => exact ⟨y, (g2 y).1 List.mem_cons_self⟩
      · rintro ⟨y, hy⟩
        have := (g2 y).2 hy
        cases ns1 with
        | nil => cases this
        | cons _ _ => rfl
    rcases h.append with h | ⟨hy, h⟩
    · obtain ⟨r, r1, r2⟩ := getOov_first hv hb hk p has g1 hend h
      refine ⟨0, r, r1, fun i' r' hr' => ?_⟩
      cases i' with
      | zero => exact .inr ⟨rfl, r2 r' hr'⟩
      | succ i' => exact .inl (Nat.succ_pos _)
    · obtain ⟨i, r, r1, r2⟩ := oovNodes_first hv hb hk hend ps _ g3 h
      refine ⟨i + 1, r, (madeAt_congr hflag).1 r1, fun i' r' hr' => ?_⟩
      cases i' with
      | zero => exact absurd ((g2 y).2 (makes_iff.2 ⟨r', hr'⟩)) hy
      | succ i' =>
        rcases r2 i' r' ((madeAt_congr hflag).2 hr') with h | ⟨h, h'⟩
        · exact .inl (Nat.succ_lt_succ h)
        · exact .inr ⟨congrArg (· + 1) h, h'⟩

/-- The order of the unknown words at a character. -/
theorem unknown_first (hv : bd.Valid) (hb : bd.build catOf = .ok t) {k : Nat} (hk : k < bd.modified.length) {plugins : List OovPlugin}
    {has : Bool} {b c : List NodeData} (h1 : oovPartNodes plugins t (bytePos bd.modified k) has = .ok b)
    (h2 : defaultNodes plugins t (bytePos bd.modified k) (has || !b.isEmpty) = .ok c) {x y : NodeData} (hend : x.end_ = y.end_)
    (h : FirstIn (b ++ c) x y) : UnknownBefore bd.modified catOf plugins (has = true) k x y := by
  have B := built hv.len hb
  have hcat : t.charCategoryTypesAt (bytePos bd.modified k) = .ok (catOf bd.modified[k]) := by
    rw [B.bytePos_wpos]; exact B.cats_at hk
  have hch : bd.modified[k]? = some bd.modified[k] := List.getElem?_eq_getElem hk
  unfold oovPartNodes at h1
  rw [hcat] at h1
  dsimp only at h1
  -- the default words
  have hdef : b = [] → (Cat.NOOOVBOW ∈ catOf bd.modified[k] ∨ ∀ y, ¬ MadeBy bd.modified catOf k (has = true) plugins y) →
      UnknownBefore bd.modified catOf plugins (has = true) k x y := by
    intro hb0 hnone
    subst hb0
    rw [List.nil_append] at h
    unfold defaultNodes at h2
    cases has with
    | true =>
      rw [if_pos (by simp)] at h2
      cases h2
      cases h.mem
    | false =>
      rw [if_neg (by simp)] at h2
      split at h2
      · cases h2
      rename_i p hp
      obtain ⟨r, r1, r2⟩ := getOov_first hv hb hk p false h2 hend h
      have hcongr : ∀ r z, p.MakesBy bd.modified catOf k (false = true) r z ↔ p.MakesBy bd.modified catOf k False r z := by
        intro r z
        rw [show (false = true) = False from by simp]
      refine ⟨0, r, ⟨_, hch, .inr ⟨by simp, hnone, rfl, p, hp, (hcongr r x).1 r1⟩⟩, ?_⟩
      rintro i' r' ⟨ch', hch', ⟨g1, g2⟩ | ⟨_, _, rfl, p', hp', g2⟩⟩
      · rw [hch] at hch'
        cases hch'
        rcases hnone with hn | hn
        · exact absurd hn g1
        · exact absurd (madeBy_iff.2 ⟨i', r', g2⟩) (hn y)
      · rw [hp] at hp'
        cases hp'
        exact .inr ⟨rfl, r2 r' ((hcongr r' y).2 g2)⟩
  split at h1
  · rename_i hno
    cases h1
    exact hdef rfl (.inl hno)
  · rename_i hno
    by_cases hb0 : b = []
    · have g2 := oovNodes_madeBy hv hb hk plugins has h1
      refine hdef hb0 (.inr fun y hy => ?_)
      have := (g2 y).2 hy
      rw [hb0] at this
      cases this
    · have hc0 : c = [] := by
        unfold defaultNodes at h2
        cases b with
        | nil => exact absurd rfl hb0
        | cons z b =>
          rw [if_pos (by simp)] at h2
          exact (Except.ok.inj h2).symm
      subst hc0
      rw [List.append_nil] at h
      obtain ⟨i, r, r1, r2⟩ := oovNodes_first hv hb hk hend plugins has h1 h
      refine ⟨i, r, ⟨_, hch, .inl ⟨hno, r1⟩⟩, ?_⟩
      rintro i' r' ⟨ch', hch', ⟨_, g2⟩ | ⟨_, g1, _, _, _⟩⟩
      · exact r2 i' r' g2
      · exfalso
        rw [hch] at hch'
        cases hch'
        rcases g1 with g1 | g1
        · exact hno g1
        · have g4 := oovNodes_madeBy hv hb hk plugins has h1
          cases b with
          | nil => exact hb0 rfl
          | cons z b => exact g1 z ((g4 z).1 (by simp))

end Sudachi
