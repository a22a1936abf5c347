import Verif.Lemmas.Total3
import Verif.Lemmas.Tokenizer5
import Verif.Props.PathRewrite
namespace Sudachi
open Lattice

variable {bd : Builder} {catOf : Nat → CatSet} {t : InputText} {conn : Conn} {left right : Int → Prop} {T : Tokenizer}

/-! ### The best path holds words the lexicon found and unknown words of the text -/

theorem bestPath_inserted (B : Built bd catOf t) {lex : Lex} (hlex : lex.Ok) {plugins : List OovPlugin} {L L' : Lattice} (hL : L.Clean)
    (h : buildLattice conn lex plugins t L = (L', .ok ())) {p : List NodeData} (hp : L'.getBestPath = .ok p) :
    ∀ d ∈ p, Inserted lex plugins t bd.modified d := by
  obtain ⟨L1, h1, h2⟩ := buildLattice_ok h
  obtain ⟨hch, heos, _⟩ := buildLoop_spec B hlex hL h1
  rcases getBestPath_chain hch heos h2 with he | ⟨q, cost, hq, a1, a2, a3⟩
  · rw [hp] at he; cases he
  · rw [hp] at hq
    cases hq
    exact a2

theorem bytes_slice (B : Built bd catOf t) {k j : Nat} (hkj : k ≤ j) :
    pySlice t.bytes (wpos bd.modified k) (wpos bd.modified j) = (pySlice bd.modified k j).flatMap utf8Cp := by
  have h1 : ∀ m, ((bd.modified.take m).flatMap utf8Cp).length = wpos bd.modified m := fun m => bytePos_eq B.enc m
  have h2 : t.bytes = (bd.modified.take j).flatMap utf8Cp ++ (bd.modified.drop j).flatMap utf8Cp := by
    rw [← List.flatMap_append, List.take_append_drop, B.bytes]
  have h3 : (bd.modified.take j).flatMap utf8Cp = (bd.modified.take k).flatMap utf8Cp ++ (pySlice bd.modified k j).flatMap utf8Cp := by
    rw [← List.flatMap_append]
    congr 1
    unfold pySlice
    rw [show bd.modified.take k = (bd.modified.take j).take k by rw [List.take_take, Nat.min_eq_left hkj], List.take_append_drop]
  unfold pySlice
  rw [h2, ← h1 j, List.take_left, h3, ← h1 k, List.drop_left]
  rfl

/-- The numbers of the best path have no separators in them. -/
theorem plainNumerals (hT : T.NoSeparators) (B : Built bd T.catOf t) {p : List NodeData}
    (hp : ∀ d ∈ p, Inserted T.lex T.oov t bd.modified d) (hdef : ∀ d ∈ p, d.defined = true) : PlainNumerals T.lex t p := by
  intro d hd types w hty hw hnum
  obtain ⟨ty, hor, hmem⟩ : ∃ ty, (ty = Cat.NUMERIC ∨ ty = Cat.KANJINUMERIC) ∧ ty ∈ types := by
    rcases hnum with h | h
    · exact ⟨_, .inl rfl, h⟩
    · exact ⟨_, .inr rfl, h⟩
  have hin := hp d hd
  obtain ⟨k, j, hkj, hj, hb, he⟩ := hin.onChars
  have hall : ∀ c ∈ pySlice bd.modified k j, ty ∈ T.catOf c := by
    obtain ⟨i, m, _, _, _, _, r, h1, h2, h3⟩ := B.types_span hkj hj
    rw [hb, he, h1] at hty
    injection hty with hty
    subst hty
    rcases Nat.lt_or_ge m j with h | h
    · rw [h3 h] at hmem; cases hmem
    · have hcom := (h2 h ty).mp hmem
      intro c hc
      obtain ⟨x, hx, hxe⟩ := List.mem_iff_getElem.mp hc
      have hxl : x < j - k := by
        unfold pySlice at hx
        rw [List.length_drop, List.length_take] at hx
        omega
      have hx' : bd.modified[k + x]? = some c := by
        have := List.getElem?_eq_some_iff.mpr ⟨hx, hxe⟩
        unfold pySlice at this
        rw [List.getElem?_drop, List.getElem?_take_of_lt (by omega)] at this
        exact this
      refine hcom (k + x) _ (by omega) (by omega) ?_
      rw [B.cats, List.getElem?_map, hx']
      rfl
  have hsep : ∀ c ∈ pySlice bd.modified k j, c ≠ 44 ∧ c ≠ 46 := by
    intro c hc
    have h1 := hall c hc
    have h2 := hT.chars c
    constructor
    · rintro rfl
      have := h2 (.inl rfl)
      rcases hor with rfl | rfl
      · exact this.1 h1
      · exact this.2 h1
    · rintro rfl
      have := h2 (.inr rfl)
      rcases hor with rfl | rfl
      · exact this.1 h1
      · exact this.2 h1
  rcases hin.offered with ⟨ho, hx, ws, wd, h1, h2, h3, _⟩ | ⟨ho, q, hq, has, ns, h1, h2⟩
  · have hwi : T.lex.wordInfo wd = .ok w := by
      unfold nodeWordInfo at hw
      rw [hdef d hd, hx, h3] at hw
      exact hw
    refine hT.words t.bytes d.begin_ ws wd d.end_ w (pySlice bd.modified k j) ty h1 h2 hwi ?_ hor hall
    rw [hb, he]
    exact bytes_slice B (Nat.le_of_lt hkj)
  · have hk : k < bd.modified.length := by omega
    rw [hb] at h1
    have g2 := getOov_spec B hk h1
    obtain ⟨j', o, g3, g4, g5, _⟩ := g2 d h2
    have hjj : j' = j := by
      have hend : d.end_ = wpos bd.modified j' := by
        rw [g5]
        have := wpos_lt B.enc g3 g4
        simp only [charsNode, oovNode]
        omega
      rw [he] at hend
      rcases Nat.lt_trichotomy j j' with h | h | h
      · have := wpos_lt B.enc h g4; omega
      · exact h.symm
      · have := wpos_lt B.enc h hj; omega
    subst hjj
    have hwn : w.normalizedForm = pySlice bd.modified k j' := by
      rw [g5] at hw
      simp only [nodeWordInfo, charsNode, oovNode] at hw
      injection hw with hw
      rw [← hw]
      rfl
    rw [hwn]
    exact ⟨fun h => (hsep _ h).1 rfl, fun h => (hsep _ h).2 rfl⟩

/-! ### Splitting -/

theorem splitUnits_ok {lex : Lex} : ∀ {wids : List Int} {o : Nat},
    (∀ u ∈ wids, -2147483648 ≤ u ∧ u ≤ 2147483647 ∧ ∃ wi, lex.wordInfo u = .ok wi) → ∃ ns, splitUnits lex o wids = .ok ns := by
  intro wids
  induction wids with
  | nil => intro o _; exact ⟨[], rfl⟩
  | cons u wids ih =>
    intro o h
    obtain ⟨h1, h2, wi, h3⟩ := h u (by simp)
    obtain ⟨ns, h4⟩ := ih (o := o + wi.headWordLength) (fun x hx => h x (by simp [hx]))
    have h5 : unitNode o u = .ok ⟨o, o, 0, 0, 0, u, false, none, true⟩ := by
      unfold unitNode; rw [if_neg (by omega)]
    have h6 : nodeWordInfo lex ⟨o, o, 0, 0, 0, u, false, none, true⟩ = .ok wi := by simp [nodeWordInfo, h3]
    unfold splitUnits
    simp only [h5, h6, h4, bind, Except.bind]
    exact ⟨_, rfl⟩

theorem splitNode_ok {lex : Lex} (hu : lex.UnitsReadable) {mode : Mode} {d : NodeData} (hp : Plain lex d) (hr : Readable lex d) :
    ∃ ns, splitNode lex mode d = .ok ns := by
  obtain ⟨wi, hw⟩ := hr
  unfold splitNode
  simp only [hw, bind, Except.bind]
  split
  · exact ⟨_, rfl⟩
  · rename_i hlen
    rcases hp.info hw with ⟨_, _, g1, bytes, i, ws, w, e, g2, g3, _, g5, _⟩ | ⟨_, g2, g3⟩
    · refine splitUnits_ok (fun u hm => hu bytes i ws w e wi g2 g3 (by rw [← g5]; exact g1) u ?_)
      unfold unitsOf at hm
      split at hm
      · exact .inl hm
      · exact .inr hm
    · exfalso
      apply hlen
      unfold unitsOf
      split
      · rw [g2]; exact Nat.zero_le _
      · rw [g3]; exact Nat.zero_le _

theorem splitNodes_ok {lex : Lex} (hu : lex.UnitsReadable) {mode : Mode} : ∀ {path : List NodeData}, (∀ d ∈ path, Plain lex d) →
    (∀ d ∈ path, Readable lex d) → ∃ ns, splitNodes lex mode path = .ok ns := by
  intro path
  induction path with
  | nil => intro _ _; exact ⟨[], rfl⟩
  | cons d ds ih =>
    intro h1 h2
    obtain ⟨a, ha⟩ := splitNode_ok hu (mode := mode) (h1 d (by simp)) (h2 d (by simp))
    obtain ⟨b, hb⟩ := ih (fun x hx => h1 x (by simp [hx])) (fun x hx => h2 x (by simp [hx]))
    unfold splitNodes
    simp only [ha, hb, bind, Except.bind]
    exact ⟨_, rfl⟩

theorem Plain.readable {lex : Lex} {d : NodeData} (h : Plain lex d)
    (hr : ∀ bytes i ws w e, lex.lookup bytes i = .ok ws → (w, e) ∈ ws → ∃ wi, lex.wordInfo w = .ok wi) : Readable lex d := by
  obtain ⟨h1, ⟨_, h2, bytes, i, ws, w, e, h3, h4, _, h5, _⟩ | ⟨w, h3, _⟩⟩ := h
  · obtain ⟨wi, hwi⟩ := hr bytes i ws w e h3 h4
    exact ⟨wi, by simp [nodeWordInfo, h1, h2, h5, hwi]⟩
  · exact ⟨w, by simp [nodeWordInfo, h1, h3]⟩

theorem Tiles.length_le {a b : Nat} {p : List NodeData} (h : Tiles a b p) : a + p.length ≤ b := by
  induction p generalizing a with
  | nil => have : a = b := h; simp [this]
  | cons d ds ih =>
    have h1 := ih h.2.2
    have h2 := h.1
    have h3 := h.2.1
    rw [List.length_cons]
    omega

/-! ### The whole call -/

theorem tokenize_cases (hT : T.Complete left right) {L : Lattice} (hL : L.Clean) {text : PStr} (hne : text ≠ [])
    (henc : ∀ c ∈ text, encodable c = true) (hlen : ∀ t, T.buildInput text = .ok t → SafeLength t.bytes.length)
    {mode : Option Mode} (hm : mode.getD T.mode = .C ∨ T.lex.UnitsReadable) :
    OkOrFuel (T.tokenize L text mode).2 ∧ (T.pathPlugins = [] → ∃ ml, (T.tokenize L text mode).2 = .ok ml) ∧
    (NumericFirst T.pathPlugins → T.NoSeparators → T.lex.Honest →
      (∀ t, T.buildInput text = .ok t → 3 * (t.bytes.length + 1) * (t.bytes.length + 1) ≤ T.fuel) →
      ∃ ml, (T.tokenize L text mode).2 = .ok ml) := by
  obtain ⟨t, ht⟩ := hT.buildInput henc
  obtain ⟨bd, b1, b2, _, B, b5⟩ := buildInput_built hT.plugins ht
  obtain ⟨L1, p, hb, hp⟩ := lattice_total hT B (b5 hne) (hlen t ht) hL
  have hs := hL.sane T.conn T.lex
  obtain ⟨hs1, _, hroom⟩ := hs.buildLattice B hT.lexOk hb
  obtain ⟨q1, q2⟩ := hs.bestPath B hT.lexOk hb hp
  have hr := hT.answers.readable
  have hgood : GoodPath T.lex t.bytes.length p := ⟨q1, fun d hd => (q2 d hd).readable hr⟩
  obtain ⟨L2, hcl, _⟩ := hs1.clear
  have hend : ∀ path, rewritePath T.lex T.fuel t L1 T.pathPlugins p = .ok path →
      ∃ ml, (T.tokenize L text mode).2 = .ok ml := by
    intro path hrw
    obtain ⟨k1, k2⟩ := rewritePath_keeps hs1 hrw q1 (fun d hd => (q2 d hd).plain)
    have hsp : ∃ path', splitPath T.lex (mode.getD T.mode) path = .ok path' := by
      unfold splitPath
      split
      · exact ⟨_, rfl⟩
      · rename_i hnc
        rcases hm with hm | hm
        · exact absurd hm hnc
        · exact splitNodes_ok hm k2 (fun d hd => (k2 d hd).readable hr)
    obtain ⟨path', hsp⟩ := hsp
    unfold Tokenizer.tokenize
    rw [if_neg (by cases text with | nil => exact absurd rfl hne | cons => simp), ht]
    simp only [hb, Tokenizer.bestPath, hp, bind, Except.bind, hrw, hcl, hsp]
    exact ⟨_, rfl⟩
  refine ⟨?_, ?_, ?_⟩
  · rcases rewritePath_ok B hs1 hroom hr (fuel := T.fuel) (ps := T.pathPlugins) hgood with ⟨path, hrw⟩ | hrw
    · exact .inl (hend path hrw)
    · right
      unfold Tokenizer.tokenize
      rw [if_neg (by cases text with | nil => exact absurd rfl hne | cons => simp), ht]
      simp only [hb, Tokenizer.bestPath, hp, bind, Except.bind, hrw]
  · intro hpp
    refine hend p ?_
    rw [hpp]
    rfl
  · intro hnf hns hh hfuel
    have hins := bestPath_inserted B hT.lexOk hL hb hp
    have hpn := plainNumerals hns B hins (fun d hd => (q2 d hd).1)
    have hrw : ∃ path, rewritePath T.lex T.fuel t L1 T.pathPlugins p = .ok path := by
      cases hpp : T.pathPlugins with
      | nil => exact ⟨p, rfl⟩
      | cons x xs =>
        rw [hpp] at hnf
        cases x with
        | katakana cfg =>
          refine rewritePath_katakana B hs1 hroom hr (fun q hq => ?_) hgood
          rcases List.mem_cons.mp hq with rfl | hq
          · exact ⟨_, rfl⟩
          · exact hnf q hq
        | numeric cfg =>
          have hlen2 := q1.length_le
          have hlen3 : 3 * (p.length + 1) * (p.length + 1) ≤ T.fuel :=
            Nat.le_trans (Nat.mul_le_mul (Nat.mul_le_mul_left 3 (by omega)) (by omega)) (hfuel t ht)
          have hnofuel := (C30_terminates cfg T.lex hh t p hpn T.fuel hlen3).1
          rcases loop_ok B hgood T.fuel (JNInv.start cfg T.lex p .init) with ⟨path', h1⟩ | h1
          · have hc := loop_coarsens T.fuel (JNInv.start cfg T.lex p .init) h1
            have hg' : GoodPath T.lex t.bytes.length path' := by
              refine ⟨hc.tiles (fun b n hj => hj.spans) hgood.tiles, ?_⟩
              intro d hd
              rcases hc.mem d hd with hm | ⟨b, hj⟩
              · exact hgood.readable d hm
              · obtain ⟨_, infos, norm, _, _, ⟨_, hdef, w, hw, _⟩, _⟩ := hj
                exact ⟨w, by simp [nodeWordInfo, hdef, hw]⟩
            obtain ⟨path, h2⟩ := rewritePath_katakana B hs1 hroom hr (fuel := T.fuel) hnf hg'
            refine ⟨path, ?_⟩
            unfold rewritePath
            simp only [PathPlugin.rewrite, JoinNumeric.rewrite, h1, bind, Except.bind]
            exact h2
          · exact absurd h1 hnofuel
    obtain ⟨path, hrw⟩ := hrw
    exact hend path hrw

theorem tokenize_total (hT : T.Complete left right) {L : Lattice} (hL : L.Clean) {text : PStr} (hne : text ≠ [])
    (henc : ∀ c ∈ text, encodable c = true) (hlen : ∀ t, T.buildInput text = .ok t → SafeLength t.bytes.length)
    {mode : Option Mode} (hm : mode.getD T.mode = .C ∨ T.lex.UnitsReadable) :
    OkOrFuel (T.tokenize L text mode).2 ∧
    (NumericFirst T.pathPlugins → T.NoSeparators → T.lex.Honest →
      (∀ t, T.buildInput text = .ok t → 3 * (t.bytes.length + 1) * (t.bytes.length + 1) ≤ T.fuel) →
      ∃ ml, (T.tokenize L text mode).2 = .ok ml) :=
  have h := tokenize_cases hT hL hne henc hlen hm
  ⟨h.1, h.2.2⟩

end Sudachi
