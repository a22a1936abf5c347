import Verif.Lemmas.Text3
import Verif.Lemmas.Lattice3
namespace Sudachi

variable {bd : Builder} {catOf : Nat → CatSet} {t : InputText}

/-- Byte length of the next `m` characters from character `k` (or of all that remain). -/
def sublen (s : PStr) (k m : Nat) : Nat := wpos s (min (k + m) s.length) - wpos s k

theorem sublen_mono (s : PStr) (k : Nat) {m m' : Nat} (h : m ≤ m') : sublen s k m ≤ sublen s k m' := by
  unfold sublen
  have := wpos_mono s (show min (k + m) s.length ≤ min (k + m') s.length by omega)
  omega

theorem mecabPrefixes_spec (B : Built bd catOf t) {k : Nat} (hk : k ≤ bd.modified.length) (llength : Int)
    (oovs : List OovEntry) : ∀ m a, ∃ ns,
      mecabPrefixes t (wpos bd.modified k) llength oovs (List.range' a m) = .ok ns ∧
      ∀ d, d ∈ ns ↔ ∃ j o, a ≤ j ∧ j < a + m ∧ o ∈ oovs ∧ (sublen bd.modified k j : Int) ≤ llength ∧
        d = oovNode (wpos bd.modified k) (sublen bd.modified k j)
          ((bd.modified.take (min (k + j) bd.modified.length)).drop k) o := by
  intro m
  induction m with
  | zero =>
    intro a
    refine ⟨[], rfl, fun d => ?_⟩
    simp only [List.not_mem_nil, false_iff]
    rintro ⟨j, o, h1, h2, _⟩
    omega
  | succ m ih =>
    intro a
    rw [List.range'_succ, mecabPrefixes, B.codePointsOffsetLength_spec hk]
    simp only [bind, Except.bind]
    have hsub : wpos bd.modified (min (k + a) bd.modified.length) - wpos bd.modified k = sublen bd.modified k a := rfl
    rw [hsub]
    by_cases hgt : (sublen bd.modified k a : Int) > llength
    · rw [if_pos hgt]
      refine ⟨[], rfl, fun d => ?_⟩
      simp only [List.not_mem_nil, false_iff]
      rintro ⟨j, o, h1, h2, h3, h4, h5⟩
      have := sublen_mono bd.modified k h1
      omega
    · rw [if_neg hgt]
      have hw := wpos_mono bd.modified (show k ≤ min (k + a) bd.modified.length by omega)
      have he : wpos bd.modified k + sublen bd.modified k a = wpos bd.modified (min (k + a) bd.modified.length) := by
        unfold sublen; omega
      rw [he, B.substring (by omega) (by omega)]
      obtain ⟨ns, h1, h2⟩ := ih (a + 1)
      rw [h1]
      simp only [pure, Except.pure]
      refine ⟨_, rfl, fun d => ?_⟩
      rw [List.mem_append, h2 d, List.mem_map]
      constructor
      · rintro (⟨o, ho, rfl⟩ | ⟨j, o, h3, h4, h5⟩)
        · exact ⟨a, o, by omega, by omega, ho, by omega, rfl⟩
        · exact ⟨j, o, by omega, by omega, h5⟩
      · rintro ⟨j, o, h3, h4, h5, h6, h7⟩
        by_cases hja : j = a
        · subst hja; exact .inl ⟨o, h5, h7.symm⟩
        · exact .inr ⟨j, o, by omega, by omega, h5, h6, h7⟩

/-- Entries of unk.def for a category. -/
def entriesOf (oovList : List (Cat × OovEntry)) (ty : Cat) : List OovEntry :=
  (oovList.filter (fun p => p.1 = ty)).map Prod.snd

theorem mem_entriesOf {oovList : List (Cat × OovEntry)} {ty : Cat} {o : OovEntry} :
    o ∈ entriesOf oovList ty ↔ (ty, o) ∈ oovList := by
  unfold entriesOf
  simp only [List.mem_map, List.mem_filter, decide_eq_true_eq, Prod.exists, exists_eq_right]

/-- The node for the characters `[k, j)`. -/
def charsNode (s : PStr) (k j : Nat) (o : OovEntry) : NodeData :=
  oovNode (wpos s k) (wpos s j - wpos s k) ((s.take j).drop k) o

theorem mecabCategory_spec (B : Built bd catOf t) {k b : Nat} (hkb : k < b) (hb : b ≤ bd.modified.length)
    (categories : List (Cat × CategoryInfo)) (oovList : List (Cat × OovEntry)) (hasOther : Bool) (ty : Cat) : ∃ ns,
    mecabCategory categories oovList t (wpos bd.modified k) (wpos bd.modified b - wpos bd.modified k) hasOther ty = .ok ns ∧
    ∀ d, d ∈ ns ↔ ∃ cinfo o, dictGet categories ty = some cinfo ∧ (ty, o) ∈ oovList ∧
      (cinfo.isInvoke = true ∨ hasOther = false) ∧
      ((cinfo.isGroup = true ∧ d = charsNode bd.modified k b o) ∨
       ∃ m : Nat, 1 ≤ m ∧ (m : Int) ≤ cinfo.length ∧
        (sublen bd.modified k m : Int) ≤ (wpos bd.modified b - wpos bd.modified k : Nat) -
          (if cinfo.isGroup then ((entriesOf oovList ty).length : Int) else 0) ∧
        d = charsNode bd.modified k (min (k + m) bd.modified.length) o) := by
  unfold mecabCategory
  cases hcat : dictGet categories ty with
  | none => exact ⟨[], rfl, by simp⟩
  | some cinfo =>
    dsimp only
    have hent : (oovList.filter (fun p => p.1 = ty)).map Prod.snd = entriesOf oovList ty := rfl
    rw [hent]
    by_cases hemp : (entriesOf oovList ty).isEmpty = true
    · rw [if_pos hemp]
      refine ⟨[], rfl, fun d => ?_⟩
      simp only [List.not_mem_nil, false_iff]
      rintro ⟨c, o, _, h, _⟩
      rw [← mem_entriesOf, List.isEmpty_iff.mp hemp] at h
      simp at h
    · rw [if_neg hemp]
      by_cases hinv : (!cinfo.isInvoke && hasOther) = true
      · rw [if_pos hinv]
        refine ⟨[], rfl, fun d => ?_⟩
        simp only [List.not_mem_nil, false_iff]
        rintro ⟨c, o, h1, _, h2, _⟩
        cases h1
        simp only [Bool.and_eq_true, Bool.not_eq_true'] at hinv
        rcases h2 with h2 | h2
        · rw [hinv.1] at h2; cases h2
        · rw [hinv.2] at h2; cases h2
      · rw [if_neg hinv]
        have hw := wpos_mono bd.modified (show k ≤ b by omega)
        have he : wpos bd.modified k + (wpos bd.modified b - wpos bd.modified k) = wpos bd.modified b := by omega
        have hinv' : cinfo.isInvoke = true ∨ hasOther = false := by
          cases h1 : cinfo.isInvoke <;> cases h2 : hasOther <;> simp_all
        obtain ⟨ns, h1, h2⟩ := mecabPrefixes_spec B (show k ≤ bd.modified.length by omega)
          (if cinfo.isGroup then ((wpos bd.modified b - wpos bd.modified k : Nat) : Int) - (entriesOf oovList ty).length
            else ((wpos bd.modified b - wpos bd.modified k : Nat) : Int)) (entriesOf oovList ty) cinfo.length.toNat 1
        have hll : ∀ x : Int, (x ≤ (if cinfo.isGroup then ((wpos bd.modified b - wpos bd.modified k : Nat) : Int) -
            (entriesOf oovList ty).length else ((wpos bd.modified b - wpos bd.modified k : Nat) : Int))) ↔
            x ≤ (wpos bd.modified b - wpos bd.modified k : Nat) -
              (if cinfo.isGroup then ((entriesOf oovList ty).length : Int) else 0) := by
          intro x; split <;> omega
        rw [he, h1, B.substring (by omega) hb]
        refine ⟨(if cinfo.isGroup then (entriesOf oovList ty).map (charsNode bd.modified k b) else []) ++ ns,
          by split <;> rfl, fun d => ?_⟩
        rw [List.mem_append, h2 d]
        constructor
        · rintro (h | ⟨j, o, a1, a2, a3, a4, a5⟩)
          · split at h
            · rename_i hg
              obtain ⟨o, ho, rfl⟩ := List.mem_map.mp h
              exact ⟨cinfo, o, rfl, mem_entriesOf.mp ho, hinv', .inl ⟨hg, rfl⟩⟩
            · simp at h
          · exact ⟨cinfo, o, rfl, mem_entriesOf.mp a3, hinv', .inr ⟨j, a1, by omega, (hll _).mp a4, a5⟩⟩
        · rintro ⟨c, o, hc, ho, _, h⟩
          cases hc
          rcases h with ⟨hg, rfl⟩ | ⟨m, a1, a2, a3, a4⟩
          · left
            rw [if_pos hg]
            exact List.mem_map.mpr ⟨o, mem_entriesOf.mpr ho, rfl⟩
          · right
            exact ⟨m, o, a1, by omega, mem_entriesOf.mpr ho, (hll _).mpr a3, a4⟩

theorem mecabCategories_spec (B : Built bd catOf t) {k b : Nat} (hkb : k < b) (hb : b ≤ bd.modified.length)
    (categories : List (Cat × CategoryInfo)) (oovList : List (Cat × OovEntry)) (hasOther : Bool) (tys : CatSet) : ∃ ns,
    mecabCategories categories oovList t (wpos bd.modified k) (wpos bd.modified b - wpos bd.modified k) hasOther tys
      = .ok ns ∧
    ∀ d, d ∈ ns ↔ ∃ ty ∈ tys, ∃ cinfo o, dictGet categories ty = some cinfo ∧ (ty, o) ∈ oovList ∧
      (cinfo.isInvoke = true ∨ hasOther = false) ∧
      ((cinfo.isGroup = true ∧ d = charsNode bd.modified k b o) ∨
       ∃ m : Nat, 1 ≤ m ∧ (m : Int) ≤ cinfo.length ∧
        (sublen bd.modified k m : Int) ≤ (wpos bd.modified b - wpos bd.modified k : Nat) -
          (if cinfo.isGroup then ((entriesOf oovList ty).length : Int) else 0) ∧
        d = charsNode bd.modified k (min (k + m) bd.modified.length) o) := by
  induction tys with
  | nil => exact ⟨[], rfl, by simp⟩
  | cons ty tys ih =>
    obtain ⟨a, a1, a2⟩ := mecabCategory_spec B hkb hb categories oovList hasOther ty
    obtain ⟨c, c1, c2⟩ := ih
    refine ⟨a ++ c, by simp [mecabCategories, a1, c1, bind, Except.bind, pure, Except.pure], fun d => ?_⟩
    rw [List.mem_append, a2 d, c2 d]
    constructor
    · rintro (h | ⟨ty', h1, h2⟩)
      · exact ⟨ty, by simp, h⟩
      · exact ⟨ty', by simp [h1], h2⟩
    · rintro ⟨ty', h1, h2⟩
      rcases List.mem_cons.mp h1 with rfl | h1
      · exact .inl h2
      · exact .inr ⟨ty', h1, h2⟩

theorem Built.cats_at (B : Built bd catOf t) {k : Nat} (hk : k < bd.modified.length) :
    t.charCategoryTypesAt (wpos bd.modified k) = .ok (catOf bd.modified[k]) := by
  unfold InputText.charCategoryTypesAt
  rw [pyGet, B.bi_boundary (by omega)]
  simp [bind, Except.bind, pyGet, B.cats, hk]

/-- The greedy run the character `k` is in ends at character `b`. -/
def RunEnd (cats : List CatSet) (k b : Nat) : Prop := ∃ a, RunStart cats a ∧ IsRun cats a b ∧ a ≤ k ∧ k < b

theorem Built.mecab_spec (B : Built bd catOf t) {k : Nat} (hk : k < bd.modified.length)
    (categories : List (Cat × CategoryInfo)) (oovList : List (Cat × OovEntry)) (hasOther : Bool) :
    ∃ b ns, RunEnd t.charCats k b ∧ b ≤ bd.modified.length ∧
    (OovPlugin.mecab categories oovList).provideOov t (wpos bd.modified k) hasOther = .ok ns ∧
    ∀ d, d ∈ ns ↔ ∃ ty ∈ catOf bd.modified[k], ∃ cinfo o, dictGet categories ty = some cinfo ∧ (ty, o) ∈ oovList ∧
      (cinfo.isInvoke = true ∨ hasOther = false) ∧
      ((cinfo.isGroup = true ∧ d = charsNode bd.modified k b o) ∨
       ∃ m : Nat, 1 ≤ m ∧ (m : Int) ≤ cinfo.length ∧
        (sublen bd.modified k m : Int) ≤ (wpos bd.modified b - wpos bd.modified k : Nat) -
          (if cinfo.isGroup then ((entriesOf oovList ty).length : Int) else 0) ∧
        d = charsNode bd.modified k (min (k + m) bd.modified.length) o) := by
  have hcl : t.charCats.length = bd.modified.length := by rw [B.cats]; simp
  have hp : wpos bd.modified k < t.bytes.length := by rw [B.blen]; exact wpos_lt B.enc hk (Nat.le_refl _)
  obtain ⟨a, b, h1, h2, h3, h4, h5⟩ := B.contRun hp
  have hb := h2.le
  have hab := h2.lt
  have hkb : k < b := by
    rcases Nat.lt_or_ge k b with h | h
    · exact h
    · have := wpos_mono bd.modified h; omega
  have hak : a ≤ k := by
    rcases Nat.lt_or_ge k a with h | h
    · have := wpos_lt B.enc h (by omega); omega
    · exact h
  obtain ⟨ns, n1, n2⟩ := mecabCategories_spec B hkb (by omega) categories oovList hasOther (catOf bd.modified[k])
  refine ⟨b, ns, ⟨a, h1, h2, hak, hkb⟩, by omega, ?_, n2⟩
  simp only [OovPlugin.provideOov, h5, B.cats_at hk, bind, Except.bind]
  rw [if_neg (by omega)]
  exact n1

theorem Built.simple_spec (B : Built bd catOf t) {k : Nat} (hk : k < bd.modified.length) (o : OovEntry) :
    ∃ j, k < j ∧ j ≤ bd.modified.length ∧
    (j = bd.modified.length ∨ BowChar t.charCats j) ∧ (∀ m, k < m → m < j → ¬ BowChar t.charCats m) ∧
    (OovPlugin.simple o).provideOov t (wpos bd.modified k) false = .ok [charsNode bd.modified k j o] := by
  have hp : wpos bd.modified k < t.bytes.length := by rw [B.blen]; exact wpos_lt B.enc hk (Nat.le_refl _)
  obtain ⟨q, h1, h2, h3, h4, h5⟩ := B.wordCandidateLength_spec hp
  have hj : ∃ j, k < j ∧ j ≤ bd.modified.length ∧ q = wpos bd.modified j ∧
      (j = bd.modified.length ∨ BowChar t.charCats j) := by
    by_cases hq : q < t.bytes.length
    · obtain ⟨b, hb1, hb2⟩ := B.canBow_spec hq
      rw [h4 hq] at hb1
      cases hb1
      obtain ⟨j, j1, j2, j3⟩ := hb2.mp rfl
      refine ⟨j, ?_, by omega, j2, .inr j3⟩
      rcases Nat.lt_or_ge k j with h | h
      · exact h
      · have := wpos_mono bd.modified h; omega
    · exact ⟨bd.modified.length, hk, Nat.le_refl _, by rw [← B.blen]; omega, .inl rfl⟩
  obtain ⟨j, j1, j2, j3, j4⟩ := hj
  refine ⟨j, j1, j2, j4, ?_, ?_⟩
  · intro m hm1 hm2 hbow
    have e1 := wpos_lt B.enc hm1 (by omega)
    have e2 := wpos_lt B.enc hm2 j2
    have hlt : wpos bd.modified m < t.bytes.length := by omega
    obtain ⟨b, hb1, hb2⟩ := B.canBow_spec hlt
    rw [h5 _ e1 (by omega)] at hb1
    cases hb1
    have := hb2.mpr ⟨m, by omega, rfl, hbow⟩
    cases this
  · have he : wpos bd.modified k + (q - wpos bd.modified k) = wpos bd.modified j := by omega
    simp only [OovPlugin.provideOov, Bool.false_eq_true, if_false, h1, bind, Except.bind, he,
      B.substring (show k ≤ j by omega) j2, pure, Except.pure]
    rw [j3]; rfl

theorem simple_has (o : OovEntry) (i : Nat) : (OovPlugin.simple o).provideOov t i true = .ok [] := by
  simp [OovPlugin.provideOov]

/-! ### The ids and costs must fit the nodes -/

theorem isCInt_iff {v : Int} : isCInt v = true ↔ CInt v := by
  unfold isCInt CInt
  rw [Bool.and_eq_true, decide_eq_true_eq, decide_eq_true_eq]

theorem stores_charsNode {m : PStr} {k j : Nat} {o : OovEntry} : (charsNode m k j o).stores = true ↔ o.Stores := by
  unfold NodeData.stores OovEntry.Stores
  rw [Bool.and_eq_true, Bool.and_eq_true, isCInt_iff, isCInt_iff, isCInt_iff, and_assoc]
  rfl

/-- What a provider gives, unless a node cannot be made. -/
theorem getOov_iff {p : OovPlugin} {i : Nat} {has : Bool} {ns : List NodeData} :
    p.getOov t i has = .ok ns ↔ p.provideOov t i has = .ok ns ∧ ∀ d ∈ ns, d.stores = true := by
  unfold OovPlugin.getOov
  cases h : p.provideOov t i has with
  | error e => exact ⟨fun k => (by cases k), fun k => (by cases k.1)⟩
  | ok ms =>
    simp only [bind, Except.bind]
    split
    · rename_i hs
      constructor
      · intro k
        cases k
        exact ⟨rfl, List.all_eq_true.mp hs⟩
      · intro k
        cases k.1
        rfl
    · rename_i hs
      refine ⟨fun k => (by cases k), fun k => ?_⟩
      cases k.1
      exact absurd (List.all_eq_true.mpr k.2) hs

theorem stores_iff {d : NodeData} : d.stores = true ↔ CInt d.leftId ∧ CInt d.rightId ∧ CInt d.cost := by
  unfold NodeData.stores
  rw [Bool.and_eq_true, Bool.and_eq_true, isCInt_iff, isCInt_iff, isCInt_iff, and_assoc]

theorem getOov_of_stores {p : OovPlugin} {i : Nat} {has : Bool} {ns : List NodeData} (h : p.provideOov t i has = .ok ns)
    (hs : ∀ d ∈ ns, CInt d.leftId ∧ CInt d.rightId ∧ CInt d.cost) : p.getOov t i has = .ok ns :=
  getOov_iff.mpr ⟨h, fun d hd => stores_iff.mpr (hs d hd)⟩

theorem getOov_of_not_stores {p : OovPlugin} {i : Nat} {has : Bool} {ns : List NodeData} (h : p.provideOov t i has = .ok ns)
    (hs : ∃ d ∈ ns, ¬ (CInt d.leftId ∧ CInt d.rightId ∧ CInt d.cost)) : p.getOov t i has = .error .overflow := by
  unfold OovPlugin.getOov
  rw [h]
  obtain ⟨d, hd, hn⟩ := hs
  simp only [bind, Except.bind]
  rw [if_neg (fun k => hn (stores_iff.mp (List.all_eq_true.mp k d hd)))]

end Sudachi
