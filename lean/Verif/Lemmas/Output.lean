/-
From nodes of paths to what the sources say about them.
-/
import Verif.Spec.Output
import Verif.Lemmas.Unknown
import Verif.Lemmas.Open
import Verif.Lemmas.Printing
import Verif.Props.EndToEnd
import Verif.Props.PathRewrite
namespace Sudachi

/-! ### Lists -/

theorem Each.append {α β : Type} {R : α → β → Prop} {l l' : List α} {m m' : List β} (h : Each R l m) (h' : Each R l' m') :
    Each R (l ++ l') (m ++ m') := by
  induction h with
  | nil => exact h'
  | cons h1 _ ih => exact .cons h1 ih

theorem Each.split {α β : Type} {R : α → β → Prop} : ∀ {l l' : List α} {m : List β}, Each R (l ++ l') m →
    ∃ a b, m = a ++ b ∧ Each R l a ∧ Each R l' b
  | [], _, m, h => ⟨[], m, rfl, .nil, h⟩
  | x :: l, l', _, h => by
    cases h with
    | cons h1 h2 =>
      obtain ⟨a, b, rfl, h3, h4⟩ := Each.split h2
      exact ⟨_ :: a, b, rfl, .cons h1 h3, h4⟩

theorem Each.all_of {α β : Type} {R : α → β → Prop} {P : α → Prop} {Q : β → Prop} (hPQ : ∀ a b, R a b → P a → Q b) {l : List α} {m : List β}
    (h : Each R l m) (hP : ∀ a ∈ l, P a) : ∀ b ∈ m, Q b := by
  induction h with
  | nil => intro b hb; cases hb
  | cons h1 _ ih =>
    intro b hb
    rcases List.mem_cons.1 hb with rfl | hb
    · exact hPQ _ _ h1 (hP _ (by simp))
    · exact ih (fun a ha => hP a (by simp [ha])) b hb

theorem Each.left {α β : Type} {R : α → β → Prop} {l : List α} {m : List β} (h : Each R l m) : ∀ a ∈ l, ∃ b ∈ m, R a b := by
  induction h with
  | nil => intro b hb; cases hb
  | cons h1 _ ih =>
    intro a ha
    rcases List.mem_cons.1 ha with rfl | ha
    · exact ⟨_, by simp, h1⟩
    · obtain ⟨b, hb, r⟩ := ih a ha
      exact ⟨b, by simp [hb], r⟩

theorem Each.head {α β : Type} {R : α → β → Prop} {l : List α} {m : List β} (h : Each R l m) {b : β} (hb : m.head? = some b) :
    ∃ a, l.head? = some a ∧ R a b := by
  cases h with
  | nil => cases hb
  | cons h1 _ => cases hb; exact ⟨_, rfl, h1⟩

theorem Each.head' {α β : Type} {R : α → β → Prop} {l : List α} {m : List β} (h : Each R l m) {a : α} (ha : l.head? = some a) :
    ∃ b, m.head? = some b ∧ R a b := by
  cases h with
  | nil => cases ha
  | cons h1 _ => cases ha; exact ⟨_, rfl, h1⟩

theorem Each.last' {α β : Type} {R : α → β → Prop} {l : List α} {m : List β} (h : Each R l m) {a : α} (ha : l.getLast? = some a) :
    ∃ b, m.getLast? = some b ∧ R a b := by
  induction h with
  | nil => cases ha
  | @cons x y l m h1 h2 ih =>
    cases h2 with
    | nil => cases ha; exact ⟨_, rfl, h1⟩
    | cons h3 h4 =>
      rw [List.getLast?_cons_cons] at ha
      obtain ⟨b, hb, r⟩ := ih ha
      exact ⟨b, by rw [List.getLast?_cons_cons]; exact hb, r⟩

theorem Each.get {α β : Type} {R : α → β → Prop} {l : List α} {m : List β} (h : Each R l m) : ∀ {i : Nat} {a : α}, l[i]? = some a →
    ∃ b, m[i]? = some b ∧ R a b := by
  induction h with
  | nil => intro i a ha; cases ha
  | cons h1 _ ih =>
    intro i a ha
    cases i with
    | zero => cases ha; exact ⟨_, rfl, h1⟩
    | succ i => exact ih ha

theorem each_of_exists {α β : Type} {R : α → β → Prop} : ∀ {l : List α}, (∀ a ∈ l, ∃ b, R a b) → ∃ m, Each R l m
  | [], _ => ⟨[], .nil⟩
  | a :: l, h => by
    obtain ⟨b, hb⟩ := h a (by simp)
    obtain ⟨m, hm⟩ := each_of_exists (l := l) fun x hx => h x (by simp [hx])
    exact ⟨b :: m, .cons hb hm⟩

theorem each_and {α β : Type} {R R' : α → β → Prop} {l : List α} {m : List β} (h : Each R l m) (h' : Each R' l m) :
    Each (fun a b => R a b ∧ R' a b) l m := by
  induction h with
  | nil => exact .nil
  | cons h1 _ ih => cases h' with | cons h2 h3 => exact .cons ⟨h1, h2⟩ (ih h3)

theorem each_of_get {α β : Type} {R : α → β → Prop} : ∀ {l : List α} {m : List β}, l.length = m.length →
    (∀ (i : Nat) a b, l[i]? = some a → m[i]? = some b → R a b) → Each R l m
  | [], [], _, _ => .nil
  | a :: _, b :: _, hl, h => .cons (h 0 a b rfl rfl) (each_of_get (Nat.succ.inj hl) fun i a b ha hb => h (i + 1) a b ha hb)

theorem posAt_of {g : Grammar} {id : Int} {pos : List PStr} (h : g.posString id = .ok pos) : PosAt g.posList id pos := by
  unfold Grammar.posString pyGet at h
  split at h
  · rename_i h0
    split at h
    · cases h
    · rename_i h1
      split at h
      · rename_i x hx
        cases h
        exact ⟨_, hx, .inr ⟨h0, by omega⟩⟩
      · cases h
  · rename_i h0
    split at h
    · rename_i x hx
      cases h
      exact ⟨_, hx, .inl (by omega)⟩
    · cases h

/-! ### What a node reads as -/

namespace Sources
variable {S : Sources} {cfg : DictConfig} {dict : Dict}

/-- The word info of a node says what the piece tells. -/
structure Reads (S : Sources) (g : Grammar) (lex : Lex) (x : NodeData) (p : Piece) : Prop where
  begin_ : p.begin_ = x.begin_
  end_ : p.end_ = x.end_
  unknown : p.told.unknown = x.oov
  dictionary : p.told.dictionary = nodeDictionaryId x
  info : ∃ wi, nodeWordInfo lex x = .ok wi ∧ g.posString wi.posId = .ok p.told.pos ∧ p.told.surface = wi.surface ∧
    p.told.normalized = wi.normalizedForm ∧ p.told.form = wi.dictionaryForm ∧ p.told.reading = wi.readingForm ∧
    p.told.synonyms = wi.synonymGroupIds ∧ (p.row = none → wi.aUnitSplit = [] ∧ wi.bUnitSplit = [])
  row : ∀ d w c, p.row = some (d, w, c) → S.Row d w c ∧ x.wordId = (combinedId d w : Nat) ∧ x.extra = none ∧ x.defined = true

/-- A row can be read, and its word info says what the row tells. -/
theorem Installed.rowTells (hD : cfg.D.Ok) (h : S.Installed cfg dict) (hf : S.Fit) (hch : S.ChainsEnd cfg.depth) {d w : Nat} {c : Cols}
    (hc : S.Row d w c) : ∃ info, dict.set.wordInfo cfg.depth (combinedId d w : Nat) = .ok info ∧ S.InfoSays dict d w c info ∧
      S.RowTells d w c ⟨c.pos, info.surface, info.normalizedForm, info.dictionaryForm, info.readingForm, d, info.synonymGroupIds, false⟩ := by
  obtain ⟨info, hi⟩ := h.readable hD hf hch hc
  have hs := h.infoSays hD hf hc hi
  refine ⟨info, hi, hs, rfl, hs.surface, hs.normalized, ?_, hs.reading, rfl, hs.synonyms, rfl⟩
  obtain ⟨src, h1, h2⟩ := id hc
  obtain ⟨k, hk, _⟩ := hch d src w c h1 h2
  cases hk with
  | here hv hend =>
    obtain ⟨c', r1, r2⟩ := hv
    rw [← rowIs_unique h2 r1] at r2
    exact ⟨_, r2, .inl ⟨hend, hs.ownForm _ r2 hend⟩⟩
  | @next _ v n hv hne hk =>
    obtain ⟨c', r1, r2⟩ := hv
    rw [← rowIs_unique h2 r1] at r2
    have : ∃ c2, RowIs src.rows v c2 := by
      cases hk with
      | here hv _ => obtain ⟨c2, q, _⟩ := hv; exact ⟨c2, q⟩
      | next hv _ _ => obtain ⟨c2, q, _⟩ := hv; exact ⟨c2, q⟩
    obtain ⟨c2, hc2⟩ := this
    exact ⟨_, r2, .inr ⟨v, c2, rfl, hne, ⟨src, h1, hc2⟩, hs.otherForm v c2 r2 hne ⟨src, h1, hc2⟩⟩⟩

/-- A node of a row reads as its row. -/
theorem Installed.readsRow (hD : cfg.D.Ok) (h : S.Installed cfg dict) (hf : S.Fit) (hch : S.ChainsEnd cfg.depth) {d w : Nat} {c : Cols}
    (hc : S.Row d w c) {x : NodeData} (h1 : x.oov = false) (h2 : x.extra = none) (h3 : x.defined = true) (h4 : x.wordId = (combinedId d w : Nat)) :
    ∃ told, S.RowTells d w c told ∧ S.Reads dict.grammar (dict.set.toLex cfg.D cfg.depth) x ⟨x.begin_, x.end_, told, some (d, w, c)⟩ := by
  obtain ⟨info, hi, hs, ht⟩ := h.rowTells hD hf hch hc
  refine ⟨_, ht, rfl, rfl, h1.symm, ?_, ⟨info, ?_, hs.pos, rfl, rfl, rfl, rfl, rfl, fun h => by cases h⟩, ?_⟩
  · unfold nodeDictionaryId
    rw [h3, h2, h4]
    exact (dictionaryIdOf_combined (h.row_lt hD hc)).symm
  · unfold nodeWordInfo
    rw [h3, h2, h4]
    exact hi
  · intro d' w' c' he
    cases he
    exact ⟨hc, h4, h2, h3⟩

theorem _root_.Sudachi.OovPlugin.Makes.word {m : PStr} {catOf : Nat → CatSet} {k : Nat} {P : Prop} {p : OovPlugin} {x : NodeData}
    (h : p.Makes m catOf k P x) : ∃ j o, p.Entry o ∧ x = unknownWord m k j o := by
  cases p with
  | mecab categories oovList =>
    obtain ⟨a, b, ch, ty, cinfo, o, j, _, _, _, _, _, _, _, g, _, rfl, _⟩ := h
    exact ⟨j, o, ⟨ty, g⟩, rfl⟩
  | simple o =>
    obtain ⟨_, j, _, _, _, _, rfl⟩ := h
    exact ⟨j, o, rfl, rfl⟩

theorem _root_.Sudachi.MadeBy.word {m : PStr} {catOf : Nat → CatSet} {k : Nat} {x : NodeData} : ∀ {ps : List OovPlugin} {P : Prop},
    MadeBy m catOf k P ps x → ∃ p ∈ ps, ∃ j o, p.Entry o ∧ x = unknownWord m k j o
  | [], _, h => h.elim
  | p :: _, _, .inl h => ⟨p, List.mem_cons_self, h.word⟩
  | _ :: _, _, .inr h => by
    obtain ⟨q, hq, h3⟩ := MadeBy.word h
    exact ⟨q, List.mem_cons_of_mem _ hq, h3⟩

theorem _root_.Sudachi.UnknownAt.word {m : PStr} {catOf : Nat → CatSet} {k : Nat} {P : Prop} {ps : List OovPlugin} {x : NodeData}
    (h : UnknownAt m catOf ps P k x) : ∃ p ∈ ps, ∃ j o, p.Entry o ∧ x = unknownWord m k j o := by
  obtain ⟨ch, _, ⟨_, h⟩ | ⟨_, _, p, hp, h⟩⟩ := h
  · exact h.word
  · exact ⟨p, List.mem_of_getLast? hp, h.word⟩

/-- What is said about a candidate. -/
theorem Installed.piece (hD : cfg.D.Ok) (h : S.Installed cfg dict) (hf : S.Fit) (hch : S.ChainsEnd cfg.depth)
    (hpos : ∀ p ∈ cfg.oov, ∀ o, p.Entry o → PosIndex dict.grammar.posList.length o.posId) {auto : Nat → Nat → Int} {t : InputText}
    {x : NodeData} (hx : S.Candidate auto cfg.catOf cfg.oov t x) :
    ∃ p, S.PieceOf dict.grammar.posList t.modified x p ∧ S.Reads dict.grammar (dict.set.toLex cfg.D cfg.depth) x p := by
  rcases hx with ⟨h1, h2, h3, d, w, c, hc, _, h4, _⟩ | ⟨k, _, hu⟩
  · obtain ⟨told, ht, hr⟩ := h.readsRow hD hf hch hc h1 h2 h3 h4
    exact ⟨_, .row hc h1 h4 ht, hr⟩
  · obtain ⟨p, hp, j, o, ho, rfl⟩ := hu.word
    obtain ⟨pos, hs⟩ := posString_index (hpos p hp o ho)
    exact ⟨_, .unknown (posAt_of hs), rfl, rfl, rfl, rfl, ⟨_, rfl, hs, rfl, rfl, rfl, rfl, rfl, fun _ => ⟨rfl, rfl⟩⟩,
      fun _ _ _ he => by cases he⟩

/-! ### Joining -/

theorem merged_of_coarsens {R : NodeData → Piece → Prop} {J : List NodeData → NodeData → Prop} {J' : List Piece → Piece → Prop}
    (hJ : ∀ block n, J block n → ∀ bps, Each R block bps → ∃ q, J' bps q ∧ R n q) {p p' : List NodeData} (h : Coarsens J p p') :
    ∀ {ps : List Piece}, Each R p ps → ∃ ps', Merged J' ps ps' ∧ Each R p' ps' := by
  induction h with
  | nil => intro ps hp; cases hp; exact ⟨[], .nil, .nil⟩
  | keep d _ ih =>
    intro ps hp
    cases hp with
    | cons h1 h2 =>
      obtain ⟨ps', h3, h4⟩ := ih h2
      exact ⟨_, .keep _ h3, .cons h1 h4⟩
  | join block n hj _ ih =>
    intro ps hp
    obtain ⟨a, b, rfl, h1, h2⟩ := hp.split
    obtain ⟨q, h3, h4⟩ := hJ block n hj a h1
    obtain ⟨ps', h5, h6⟩ := ih h2
    exact ⟨_, .join a q h3 h5, .cons h4 h6⟩

theorem Reads.covers {g : Grammar} {lex : Lex} {block : List NodeData} {bps : List Piece} (h : Each (S.Reads g lex) block bps)
    {n : NodeData} (hs : Spans block n) {q : Piece} (h1 : q.begin_ = n.begin_) (h2 : q.end_ = n.end_) : q.Covers bps := by
  obtain ⟨f, l, hf, hl, e1, e2⟩ := hs
  obtain ⟨f', hf', r1⟩ := h.head' hf
  obtain ⟨l', hl', r2⟩ := h.last' hl
  exact ⟨f', l', hf', hl', by rw [h1, e1, r1.begin_], by rw [h2, e2, r2.end_]⟩

theorem Reads.texts {g : Grammar} {lex : Lex} : ∀ {block : List NodeData} {bps : List Piece} {infos : List WordInfo},
    Each (S.Reads g lex) block bps → InfosOf lex block infos →
    bps.map (·.told.surface) = infos.map (·.surface) ∧ bps.map (·.told.normalized) = infos.map (·.normalizedForm) ∧
    bps.map (·.told.form) = infos.map (·.dictionaryForm) ∧ bps.map (·.told.reading) = infos.map (·.readingForm)
  | _, _, [], .nil, _ => ⟨rfl, rfl, rfl, rfl⟩
  | _, _, _ :: _, .nil, h => by cases h
  | _, _, [], .cons _ _, h => by cases h
  | _, _, w :: infos, .cons h1 h2, h => by
    unfold InfosOf at h
    rw [List.map_cons, List.map_cons] at h
    obtain ⟨e1, e2⟩ := List.cons.inj h
    obtain ⟨g1, g2, g3, g4⟩ := Reads.texts h2 e2
    obtain ⟨wi, k1, _, k3, k4, k5, k6, _⟩ := h1.info
    rw [k1] at e1
    cases e1
    simp only [List.map_cons, g1, g2, g3, g4, k3, k4, k5, k6, and_self]

/-- JoinNumericPlugin on pieces. -/
theorem Reads.number {g : Grammar} {lex : Lex} {k : JoinNumeric} (hpos : PosIndex g.posList.length k.posId) {path : List NodeData}
    {all : List Piece} (hall : Each (S.Reads g lex) path all) {block : List NodeData} {n : NodeData} (hj : NumJoin k lex path block n)
    {bps : List Piece} (hb : Each (S.Reads g lex) block bps) : ∃ q, NumberPiece k g.posList all bps q ∧ S.Reads g lex n q := by
  obtain ⟨infos, norm, hi, ⟨f, hf, hfp⟩, ⟨c1, c2, w, c3, c4, _, c6, c7, c8, c9, _, c11, c12, _, c14⟩, hplain, hnum⟩ := hj.fields
  obtain ⟨pos, hp⟩ := posString_index hpos
  obtain ⟨t1, t2, t3, t4⟩ := Reads.texts hb hi
  have hlen := hb.length
  have hnt : normalizedText bps = normText infos := by unfold normalizedText normText; rw [t2]
  refine ⟨⟨n.begin_, n.end_, ⟨pos, (infos.map (·.surface)).flatten, norm, (infos.map (·.dictionaryForm)).flatten,
    (infos.map (·.readingForm)).flatten, -1, [], false⟩, none⟩, ?_, ?_⟩
  · refine ⟨Reads.covers hb hj.spans rfl rfl, rfl, posAt_of hp, ?_, ?_, ?_, ?_, rfl, rfl, rfl, fun h => ?_, fun h => ?_⟩
    · obtain ⟨f0, _, e1, _⟩ := hj.spans
      obtain ⟨f', e2, r⟩ := hb.head' e1
      refine ⟨f', e2, ?_⟩
      obtain ⟨wi, k1, k2, _⟩ := r.info
      have : wi = f := by
        cases block with
        | nil => cases e1
        | cons b bs =>
          cases e1
          cases infos with
          | nil => cases hf
          | cons w ws =>
            cases hf
            unfold InfosOf at hi
            rw [List.map_cons, List.map_cons] at hi
            have := (List.cons.inj hi).1
            rw [k1] at this
            exact Except.ok.inj this
      rw [this, hfp, hp] at k2
      exact (Except.ok.inj k2).symm
    · rw [t1]
    · rw [t3]
    · rw [t4]
    · rw [hnt, ← hlen]; exact hplain h
    · rw [hnt, ← hlen, t2]
      obtain ⟨n1, n2⟩ := hnum h
      refine ⟨n1, n2.imp id fun ⟨m1, m2, d, hd, wi, m3, m4⟩ => ⟨m1, m2, ?_⟩⟩
      obtain ⟨q, hq, r⟩ := hall.left d hd
      obtain ⟨wi', k1, _, _, k4, _⟩ := r.info
      rw [m3] at k1
      cases k1
      exact ⟨q, hq, by rw [k4]; exact m4⟩
  · refine ⟨rfl, rfl, c1.symm, ?_, ⟨w, ?_, by rw [c6]; exact hp, c4.symm, c7.symm, c8.symm, c9.symm, c14.symm, fun _ => ⟨c11, c12⟩⟩,
      fun _ _ _ he => by cases he⟩
    · unfold nodeDictionaryId; rw [c2, c3]; rfl
    · unfold nodeWordInfo; rw [c2, c3]; rfl

section katakana
variable {auto : Nat → Nat → Int} {t : InputText} {L : Lattice} {g : Grammar} {lex : Lex}

theorem Reads.katakana {x : NodeData} {p : Piece} (h : S.Reads g lex x p) : KatakanaNode t x ↔ p.Katakana t := by
  unfold KatakanaNode Piece.Katakana; rw [h.begin_, h.end_]

theorem Reads.noOovBow {x : NodeData} {p : Piece} (h : S.Reads g lex x p) : NoOovBow t x ↔ p.NoOovBow t := by
  unfold Sudachi.NoOovBow Piece.NoOovBow; rw [h.begin_]

theorem Reads.triggers {k : JoinKatakana} {x : NodeData} {p : Piece} (h : S.Reads g lex x p) : KatTrigger k t x ↔ p.Triggers k t := by
  unfold KatTrigger Piece.Triggers; rw [h.begin_, h.end_, h.unknown]

theorem Reads.calm {k : JoinKatakana} {x : NodeData} {p : Piece} (h : S.Reads g lex x p) : KatQuiet k t x ↔ p.Calm k t := by
  unfold KatQuiet Piece.Calm; rw [h.begin_, h.end_, h.unknown]

/-- A node that JoinKatakanaOovPlugin makes, on pieces. -/
theorem Reads.joined {k : JoinKatakana} (hpos : PosIndex g.posList.length k.posId) (hL : L.EndsRight)
    (hreach : ∀ x, L.Cand x ↔ S.ReachedWord auto cfg t x)
    (hread : ∀ x, L.Cand x → ∃ p, S.PieceOf g.posList t.modified x p ∧ S.Reads g lex x p) {block : List NodeData} {n : NodeData}
    (hj : KatJoin k lex t L block n) (hb0 : ∀ d ∈ block, 0 < d.end_) {bps : List Piece} (hb : Each (S.Reads g lex) block bps) :
    ∃ q, S.KatakanaPiece auto cfg g.posList t k bps q ∧ S.Reads g lex n q := by
  have hend : 0 < n.end_ := by
    obtain ⟨_, l, _, hl, _, e⟩ := hj.spans
    rw [e]
    exact hb0 l (List.mem_of_getLast? hl)
  have hin : ∀ {ns : List LNode}, L.getNodes n.begin_ n.end_ = .ok ns → ∀ y, L.Cand y → y.begin_ = n.begin_ → y.end_ = n.end_ →
      ∃ z ∈ ns, z.data = y := by
    intro ns hg y ⟨e, ms, z, he, hms, hz, hzy⟩ h1 h2
    have h3 := hL e ms hms z hz
    rw [hzy, h2] at h3
    subst h3
    unfold Lattice.getNodes at hg
    obtain ⟨ms', hms', hg⟩ := bind_ok hg
    unfold pyGet at hms'
    rw [hms] at hms'
    cases hms'
    cases hg
    exact ⟨z, List.mem_filter.2 ⟨hz, by rw [hzy, h1]; exact decide_eq_true rfl⟩, hzy⟩
  rcases hj.node with ⟨ns, hg, before, x, after, rfl, rfl, hlt, hle⟩ | ⟨hg, o1, o2, infos, w, hi, o3, o4, _, o6, o7, o8, o9, _, o11, o12, _, o14⟩
  · obtain ⟨all, g1, g2⟩ := getNodes_mem hg
    have hc : L.Cand x.data := ⟨_, all, x, hend, g1, (g2 x (by simp)).1, rfl⟩
    obtain ⟨p, hp, hr⟩ := hread _ hc
    refine ⟨p, ⟨Reads.covers hb hj.spans hr.begin_ hr.end_, .inl ⟨x.data, (hreach _).1 hc, hp, fun y hy h1 h2 => ?_⟩⟩, hr⟩
    obtain ⟨z, hz, rfl⟩ := hin hg y ((hreach y).2 hy) h1 h2
    rcases List.mem_append.1 hz with hz | hz
    · exact Int.le_of_lt (hlt z hz)
    · rcases List.mem_cons.1 hz with rfl | hz
      · exact Int.le_refl _
      · exact hle z hz
  · obtain ⟨pos, hp⟩ := posString_index hpos
    obtain ⟨t1, _⟩ := Reads.texts hb hi
    refine ⟨⟨n.begin_, n.end_, ⟨pos, w.surface, w.surface, w.surface, [], -1, [], true⟩, none⟩,
      ⟨Reads.covers hb hj.spans rfl rfl, .inr ⟨fun y hy ⟨h1, h2⟩ => ?_, rfl, pos, w.surface, posAt_of hp, by rw [o4, t1], rfl⟩⟩, ?_⟩
    · obtain ⟨z, hz, _⟩ := hin hg y ((hreach y).2 hy) h1 h2
      cases hz
    · refine ⟨rfl, rfl, o1.symm, ?_, ⟨w, ?_, by rw [o6]; exact hp, rfl, o7.symm, o8.symm, o9.symm, o14.symm, fun _ => ⟨o11, o12⟩⟩,
        fun _ _ _ he => by cases he⟩
      · unfold nodeDictionaryId; rw [o2, o3]; rfl
      · unfold nodeWordInfo; rw [o2, o3]; rfl

/-- JoinKatakanaOovPlugin on pieces. -/
theorem Reads.katakanaJoined {k : JoinKatakana} (hpos : PosIndex g.posList.length k.posId) (hL : L.EndsRight)
    (hreach : ∀ x, L.Cand x ↔ S.ReachedWord auto cfg t x)
    (hread : ∀ x, L.Cand x → ∃ p, S.PieceOf g.posList t.modified x p ∧ S.Reads g lex x p) {path path' : List NodeData}
    (h : KatRewrite k lex t L path path') : (∀ d ∈ path, 0 < d.end_) → ∀ {ps : List Piece}, Each (S.Reads g lex) path ps →
    ∃ ps', KatakanaJoined k t (S.KatakanaPiece auto cfg g.posList t k) ps ps' ∧ Each (S.Reads g lex) path' ps' := by
  have hall : ∀ {l : List NodeData} {m : List Piece}, Each (S.Reads g lex) l m → (∀ d ∈ l, KatakanaNode t d) → ∀ x ∈ m, x.Katakana t :=
    fun h h' => h.all_of (fun _ _ r => r.katakana.1) h'
  have hhead : ∀ {l : List NodeData} {m : List Piece}, Each (S.Reads g lex) l m → (∀ d, l.head? = some d → ¬ KatakanaNode t d) →
      ∀ x, m.head? = some x → ¬ x.Katakana t := by
    intro l m h h' x hx hk
    obtain ⟨a, ha, r⟩ := h.head hx
    exact h' a ha (r.katakana.2 hk)
  induction h with
  | nil => intro _ ps hp; cases hp; exact ⟨[], .nil, .nil⟩
  | other d hd _ ih =>
    intro h0 ps hp
    cases hp with
    | cons h1 h2 =>
      obtain ⟨ps', h3, h4⟩ := ih (fun d hd => h0 d (by simp [hd])) h2
      exact ⟨_, .other _ (fun hk => hd (h1.katakana.2 hk)) h3, .cons h1 h4⟩
  | quiet hne h1 h2 h3 _ ih =>
    intro h0 ps hp
    obtain ⟨a, b, rfl, ha, hb⟩ := hp.split
    obtain ⟨ps', h5, h6⟩ := ih (fun d hd => h0 d (by simp [hd])) hb
    refine ⟨_, .quiet ?_ (hall ha h1) (hhead hb h2) (ha.all_of (fun _ _ r => r.calm.1) h3) h5, ha.append h6⟩
    rintro rfl
    cases ha
    exact hne rfl
  | small h1 h2 h3 h4 _ ih =>
    intro h0 ps hp
    obtain ⟨ab, c, rfl, hab, hc⟩ := hp.split
    obtain ⟨a, b, rfl, ha, hb⟩ := hab.split
    obtain ⟨ps', h5, h6⟩ := ih (fun d hd => h0 d (by simp [hd])) hc
    exact ⟨_, .small (hall hab h1) (hhead hc h2) (ha.all_of (fun _ _ r => r.noOovBow.1) h3) (by rw [← hb.length]; exact h4) h5, hab.append h6⟩
  | join h1 h2 h3 h4 hj _ ih =>
    intro h0 ps hp
    obtain ⟨ab, c, rfl, hab, hc⟩ := hp.split
    obtain ⟨a, b, rfl, ha, hb⟩ := hab.split
    obtain ⟨ps', h5, h6⟩ := ih (fun d hd => h0 d (by simp [hd])) hc
    obtain ⟨q, h7, h8⟩ := Reads.joined (auto := auto) (cfg := cfg) hpos hL hreach hread hj (fun d hd => h0 d (by simp [hd])) hb
    refine ⟨_, .join (hall hab h1) (hhead hc h2) (ha.all_of (fun _ _ r => r.noOovBow.1) h3) (by rw [← hb.length]; exact hj.two) ?_ ?_ h7 h5,
      ha.append (.cons h8 h6)⟩
    · intro f hf hno
      obtain ⟨f0, cats, e1, e2, e3⟩ := hj.start
      obtain ⟨f1, e4, r⟩ := hb.head hf
      rw [e1] at e4
      cases e4
      obtain ⟨cats', e5, e6⟩ := r.noOovBow.2 hno
      rw [e2] at e5
      cases e5
      exact e3 e6
    · obtain ⟨d, hd, htr⟩ := h4
      obtain ⟨x, hx, r⟩ := hab.left d hd
      exact ⟨x, hx, r.triggers.1 htr⟩

/-- The plugins on pieces. -/
theorem Reads.joinedBy (hL : L.EndsRight) (hreach : ∀ x, L.Cand x ↔ S.ReachedWord auto cfg t x)
    (hread : ∀ x, L.Cand x → ∃ p, S.PieceOf g.posList t.modified x p ∧ S.Reads g lex x p) {fuel : Nat} :
    ∀ {plugins : List PathPlugin} (_ : ∀ k, PathPlugin.katakana k ∈ plugins → PosIndex g.posList.length k.posId)
      (_ : ∀ k, PathPlugin.numeric k ∈ plugins → PosIndex g.posList.length k.posId) {path path' : List NodeData} {e : Nat},
      rewritePath lex fuel t L plugins path = .ok path' → Tiles 0 e path → ∀ {ps : List Piece}, Each (S.Reads g lex) path ps →
      ∃ ps', S.JoinedBy auto cfg g.posList t plugins ps ps' ∧ Each (S.Reads g lex) path' ps'
  | [], _, _, _, _, _, h, _, ps, hp => by cases h; exact ⟨ps, .nil, hp⟩
  | pl :: plugins, hk, hn, path, path', e, h, ht, ps, hp => by
    unfold rewritePath at h
    obtain ⟨q, hq, h⟩ := bind_ok h
    have htq : Tiles 0 e q := (PathPlugin.coarsens hL hq).tiles (fun b n hj => by rcases hj with h | h <;> exact h.1) ht
    have hrest := fun {ps} (hps : Each (S.Reads g lex) q ps) => Reads.joinedBy hL hreach hread (plugins := plugins)
      (fun k hm => hk k (List.mem_cons_of_mem _ hm)) (fun k hm => hn k (List.mem_cons_of_mem _ hm)) h htq hps
    cases pl with
    | numeric k =>
      obtain ⟨ps1, h1, h2⟩ := merged_of_coarsens (R := S.Reads g lex) (J' := NumberPiece k g.posList ps)
        (fun block n hj bps hb => Reads.number (hn k (by simp)) hp hj hb) (C29_only_coarsens k lex fuel t path q hq) hp
      obtain ⟨ps', h3, h4⟩ := hrest h2
      exact ⟨ps', .numeric h1 h3, h4⟩
    | katakana k =>
      obtain ⟨ps1, h1, h2⟩ := Reads.katakanaJoined (auto := auto) (cfg := cfg) (hk k (by simp)) hL hreach hread
        (C31_exact k lex t L hL path q hq) (fun d hd => by have := ht.mem _ hd; omega) hp
      obtain ⟨ps', h3, h4⟩ := hrest h2
      exact ⟨ps', .katakana h1 h3, h4⟩

end katakana

/-! ### Dividing -/

theorem unitNodes_tell (hD : cfg.D.Ok) (h : S.Installed cfg dict) (hf : S.Fit) (hch : S.ChainsEnd cfg.depth) {d : Nat} {src : DictSource}
    (hs : S.at? d = some src) : ∀ {ids : List Int} {o : Nat} {nodes : List NodeData},
    (∀ u ∈ ids, UnitExists (S.against d) src.rows.length u) →
    splitUnits (dict.set.toLex cfg.D cfg.depth) o (ids.map (ownUnit d)) = .ok nodes →
    ∃ us ps, Each (fun u r => (r.1, r.2.1) = unitWord d u ∧ S.Row r.1 r.2.1 r.2.2) ids us ∧ S.InRow o us ps ∧
      Each (S.Reads dict.grammar (dict.set.toLex cfg.D cfg.depth)) nodes ps
  | [], _, _, _, hsp => by cases hsp; exact ⟨[], [], .nil, .nil, .nil⟩
  | u :: ids, o, nodes, hu, hsp => by
    rw [List.map_cons] at hsp
    unfold splitUnits at hsp
    obtain ⟨n, hn, hsp⟩ := bind_ok hsp
    obtain ⟨wi, hwi, hsp⟩ := bind_ok hsp
    obtain ⟨rest, hrest, hsp⟩ := bind_ok hsp
    cases hsp
    obtain ⟨e1, c, hc⟩ := h.unitRow hD hs (hu u (by simp))
    unfold unitNode at hn
    split at hn
    · cases hn
    cases hn
    obtain ⟨info, hi, hsays, _⟩ := h.rowTells hD hf hch hc
    have hwi' : dict.set.wordInfo cfg.depth (ownUnit d u) = .ok wi := hwi
    rw [e1, hi] at hwi'
    cases hwi'
    rw [hsays.headWordLength] at hrest ⊢
    obtain ⟨us, ps, h1, h2, h3⟩ := unitNodes_tell hD h hf hch hs (fun v hv => hu v (by simp [hv])) hrest
    obtain ⟨told, ht, hr⟩ := h.readsRow hD hf hch hc (x := ⟨o, o + (headBytes c).length, 0, 0, 0, ownUnit d u, false, none, true⟩) rfl rfl rfl e1
    exact ⟨(_, _, c) :: us, _ :: ps, .cons ⟨rfl, hc⟩ h1, .cons ht h2, .cons hr h3⟩

theorem Installed.divides (hD : cfg.D.Ok) (h : S.Installed cfg dict) (hf : S.Fit) (hch : S.ChainsEnd cfg.depth) {mode : Mode}
    (hm : mode ≠ .C) {x : NodeData} {p : Piece} (hr : S.Reads dict.grammar (dict.set.toLex cfg.D cfg.depth) x p) {nodes : List NodeData}
    (hs : splitNode (dict.set.toLex cfg.D cfg.depth) mode x = .ok nodes) :
    ∃ ps, S.Divides mode p ps ∧ Each (S.Reads dict.grammar (dict.set.toLex cfg.D cfg.depth)) nodes ps := by
  unfold splitNode at hs
  obtain ⟨wi, hwi, hs⟩ := bind_ok hs
  obtain ⟨wi', k1, _, _, _, _, _, _, k2⟩ := hr.info
  rw [hwi] at k1
  cases k1
  cases hrow : p.row with
  | none =>
    obtain ⟨a1, a2⟩ := k2 hrow
    have : unitsOf mode wi = [] := by unfold unitsOf; split <;> assumption
    rw [this, if_pos (by simp)] at hs
    cases hs
    exact ⟨[p], .whole (.inr (.inl hrow)), .cons hr .nil⟩
  | some r =>
    obtain ⟨d, w, c⟩ := r
    obtain ⟨hc, e1, e2, e3⟩ := hr.row d w c hrow
    have hwi2 : dict.set.wordInfo cfg.depth (combinedId d w : Nat) = .ok wi := by
      unfold nodeWordInfo at hwi
      rw [e3, e2, e1] at hwi
      exact hwi
    obtain ⟨src, wi0, table, hsrc, hinfo, _, _, _, _, _, ha, hb, _⟩ := h.info hD hc (hf d w c hc) hwi2
    have : ∃ ids, SplitMeans (S.against d) src.rows (if mode = .A then c.aSplit else c.bSplit) ids ∧ unitsOf mode wi = ids.map (ownUnit d) := by
      unfold unitsOf
      by_cases hA : mode = .A
      · rw [if_pos hA, if_pos hA]; exact ⟨_, hinfo.aSplit, ha⟩
      · rw [if_neg hA, if_neg hA]; exact ⟨_, hinfo.bSplit, hb⟩
    obtain ⟨ids, hmeans, hids⟩ := this
    have hex := DictBuilder.SplitMeans.exists (h.againstOk hD d) hmeans
    rw [hids] at hs
    by_cases hl : (ids.map (ownUnit d)).length ≤ 1
    · rw [if_pos hl] at hs
      cases hs
      have : ∃ us, Each (fun u (r : Nat × Nat × Cols) => (r.1, r.2.1) = unitWord d u ∧ S.Row r.1 r.2.1 r.2.2) ids us := by
        refine each_of_exists fun u hu => ?_
        obtain ⟨_, c', hc'⟩ := h.unitRow hD hsrc (hex u hu)
        exact ⟨((unitWord d u).1, (unitWord d u).2, c'), rfl, hc'⟩
      obtain ⟨us, hus⟩ := this
      refine ⟨[p], .whole (.inr (.inr ⟨d, w, c, us, hrow, ⟨src, ids, hsrc, hmeans, hus⟩, ?_⟩)), .cons hr .nil⟩
      rw [← hus.length]
      rw [List.length_map] at hl
      exact hl
    · rw [if_neg hl] at hs
      obtain ⟨us, ps, h1, h2, h3⟩ := unitNodes_tell hD h hf hch hsrc hex hs
      refine ⟨ps, .units hm hrow ⟨src, ids, hsrc, hmeans, h1⟩ ?_ (by rw [hr.begin_]; exact h2), h3⟩
      rw [← h1.length]
      rw [List.length_map] at hl
      omega

theorem Installed.dividesAll (hD : cfg.D.Ok) (h : S.Installed cfg dict) (hf : S.Fit) (hch : S.ChainsEnd cfg.depth) {mode : Mode} :
    ∀ {path : List NodeData} {ps : List Piece} {nodes : List NodeData},
      Each (S.Reads dict.grammar (dict.set.toLex cfg.D cfg.depth)) path ps →
      splitPath (dict.set.toLex cfg.D cfg.depth) mode path = .ok nodes →
      ∃ parts, Each (S.Divides mode) ps parts ∧ Each (S.Reads dict.grammar (dict.set.toLex cfg.D cfg.depth)) nodes parts.flatten := by
  intro path ps nodes hp hs
  unfold splitPath at hs
  by_cases hm : mode = .C
  · rw [if_pos hm] at hs
    cases hs
    induction hp with
    | nil => exact ⟨[], .nil, .nil⟩
    | cons h1 _ ih =>
      obtain ⟨parts, h3, h4⟩ := ih
      exact ⟨[_] :: parts, .cons (.whole (.inl hm)) h3, .cons h1 h4⟩
  · rw [if_neg hm] at hs
    induction hp generalizing nodes with
    | nil => cases hs; exact ⟨[], .nil, .nil⟩
    | cons h1 _ ih =>
      unfold splitNodes at hs
      obtain ⟨a, ha, hs⟩ := bind_ok hs
      obtain ⟨b, hb, hs⟩ := bind_ok hs
      cases hs
      obtain ⟨p', h3, h4⟩ := h.divides hD hf hch hm h1 ha
      obtain ⟨parts, h5, h6⟩ := ih hb
      exact ⟨p' :: parts, .cons h3 h5, h4.append h6⟩

end Sources
end Sudachi
