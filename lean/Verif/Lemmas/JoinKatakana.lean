import Verif.Lemmas.JoinNumeric3
import Verif.Lemmas.Build2
namespace Sudachi

theorem FirstCheapest.mem {ns : List LNode} {n : NodeData} (h : FirstCheapest ns n) : ∃ x ∈ ns, x.data = n := by
  obtain ⟨b, x, a, h1, h2, _⟩ := h
  exact ⟨x, by rw [h1]; exact List.mem_append_right _ List.mem_cons_self, h2⟩

theorem concatenateOov_spec {lex : Lex} {L : Lattice} {path path' : List NodeData} {b e : Nat} {posId : Int}
    (h : concatenateOov lex L path b e posId = .ok path') :
    b < e ∧ e ≤ path.length ∧ ∃ n, path' = path.take b ++ n :: path.drop e ∧
      ((∃ f l, path[b]? = some f ∧ path[e - 1]? = some l ∧ ∃ ns, L.getNodes f.begin_ l.end_ = .ok ns ∧
          FirstCheapest ns n) ∨
       (Spans (pySlice path b e) n ∧ L.getNodes n.begin_ n.end_ = .ok [] ∧ n.oov = true ∧ n.defined = true ∧
          ∃ infos w, InfosOf lex (pySlice path b e) infos ∧ n.extra = some w ∧ w.surface = (infos.map (·.surface)).flatten ∧
          w.headWordLength = (infos.map (·.headWordLength)).sum ∧ w.posId = posId ∧ w.normalizedForm = w.surface ∧
          w.dictionaryForm = w.surface ∧ w.readingForm = [] ∧ w.dictionaryFormWordId = -1 ∧
          w.aUnitSplit = [] ∧ w.bUnitSplit = [] ∧ w.wordStructure = [] ∧ w.synonymGroupIds = [])) := by
  unfold concatenateOov at h
  split at h
  · cases h
  · rename_i hbe
    simp only [bind, Except.bind, pure, Except.pure] at h
    split at h
    · cases h
    · rename_i first hf
      split at h
      · cases h
      · rename_i last hl
        obtain ⟨h1, h2⟩ := pyGet_ok hf
        obtain ⟨h3, h4⟩ := pyGet_ok hl
        have hsp : ∀ n, spliceOne path b e n = path.take b ++ n :: path.drop e := by
          intro n; unfold spliceOne; rw [Nat.max_eq_right (by omega)]
        split at h
        · cases h
        · rename_i m hm
          unfold Lattice.getMinimumNode at hm
          simp only [bind, Except.bind, pure, Except.pure] at hm
          split at hm
          · cases hm
          · rename_i ns hns
            split at hm
            · injection hm with hm
              subst hm
              dsimp only at h
              split at h
              · cases h
              · rename_i infos hin
                injection h with h
                rw [hsp] at h
                refine ⟨by omega, by omega, _, h.symm, .inr ⟨⟨first, last, ?_, ?_, rfl, rfl⟩, hns, rfl, rfl, infos, _,
                  nodeWordInfos_ok.mp hin, rfl, rfl, rfl, rfl, rfl, rfl, rfl, rfl, rfl, rfl, rfl, rfl⟩⟩
                · rw [pySlice_head? _ (by omega), h2]
                · rw [pySlice_getLast? _ (by omega) (by omega), h4]
            · rename_i x xs
              injection hm with hm
              subst hm
              dsimp only at h
              injection h with h
              rw [hsp] at h
              exact ⟨by omega, by omega, _, h.symm, .inl ⟨first, last, h2, h4, x :: xs, hns, minNode_spec xs x⟩⟩

theorem katakanaNode_iff {t : InputText} {d : NodeData} : KatakanaNode t d ↔ isKatakanaNode t d = .ok true := by
  unfold KatakanaNode isKatakanaNode
  cases h : t.charCategoryTypes d.begin_ d.end_ with
  | error e => simp [bind, Except.bind]
  | ok types =>
    simp only [bind, Except.bind, pure, Except.pure, Except.ok.injEq, exists_eq_left', decide_eq_true_eq]

theorem res_bind_ok {α β : Type} {m : Res α} {f : α → Res β} {b : β} (h : m.bind f = .ok b) : ∃ a, m = .ok a ∧ f a = .ok b := by
  cases m with
  | error e => cases h
  | ok a => exact ⟨a, rfl, h⟩

theorem katTrigger_of {cfg : JoinKatakana} {t : InputText} {d : NodeData} (h : katakanaTrigger cfg t d = .ok true) : KatTrigger cfg t d := by
  unfold katakanaTrigger at h
  split at h
  · rename_i ho; exact .inl ho
  · obtain ⟨n, h1, h2⟩ := res_bind_ok h
    injection h2 with h2
    exact .inr ⟨n, h1, by simpa using h2⟩

theorem katQuiet_of {cfg : JoinKatakana} {t : InputText} {d : NodeData} (h : katakanaTrigger cfg t d = .ok false) : KatQuiet cfg t d := by
  unfold katakanaTrigger at h
  split at h
  · cases h
  · rename_i ho
    obtain ⟨n, h1, h2⟩ := res_bind_ok h
    injection h2 with h2
    exact ⟨by simpa using ho, n, h1, by simpa using h2⟩

theorem noOovBow_of {t : InputText} {d : NodeData} (h : canOovBowNode t d = .ok false) : NoOovBow t d := by
  unfold canOovBowNode at h
  obtain ⟨cats, h1, h2⟩ := res_bind_ok h
  injection h2 with h2
  exact ⟨cats, h1, by simpa using h2⟩

theorem scanBack_spec {t : InputText} {path : List NodeData} : ∀ {k b : Nat}, scanBack t path k = .ok b →
    b ≤ k ∧ (∀ j d, b ≤ j → j < k → path[j]? = some d → KatakanaNode t d) ∧
      ∀ j, b = j + 1 → ∃ d, path[j]? = some d ∧ isKatakanaNode t d = .ok false := by
  intro k
  induction k with
  | zero =>
    intro b h
    injection h with h
    subst h
    exact ⟨Nat.le_refl _, fun j d _ h => by omega, fun j h => by omega⟩
  | succ k ih =>
    intro b h
    unfold scanBack at h
    simp only [bind, Except.bind, pure, Except.pure] at h
    split at h
    · cases h
    · rename_i d hd
      split at h
      · cases h
      · rename_i kat hkat
        split at h
        · rename_i hk
          subst hk
          obtain ⟨h1, h2, h2'⟩ := ih h
          refine ⟨by omega, fun j d' hj hlt hd' => ?_, h2'⟩
          rcases Nat.lt_or_ge j k with h' | h'
          · exact h2 j d' hj h' hd'
          · rw [show j = k by omega, (pyGet_ok hd).2] at hd'
            injection hd' with hd'
            rw [← hd']; exact katakanaNode_iff.2 hkat
        · rename_i hk
          injection h with h
          subst h
          refine ⟨Nat.le_refl _, fun j d _ h => by omega, fun j hj => ⟨d, ?_, ?_⟩⟩
          · rw [show j = k by omega]; exact (pyGet_ok hd).2
          · rw [hkat]; cases kat with
            | true => exact absurd rfl hk
            | false => rfl

theorem scanForward_spec {t : InputText} : ∀ {ds : List NodeData} {e e' : Nat}, scanForward t ds e = .ok e' →
    e ≤ e' ∧ e' ≤ e + ds.length ∧ (∀ j d, j < e' - e → ds[j]? = some d → KatakanaNode t d) ∧
      ∀ d, ds[e' - e]? = some d → isKatakanaNode t d = .ok false := by
  intro ds
  induction ds with
  | nil =>
    intro e e' h
    injection h with h
    subst h
    exact ⟨Nat.le_refl _, by simp, fun j d h _ => by omega, fun d h => by simp at h⟩
  | cons x ds ih =>
    intro e e' h
    unfold scanForward at h
    simp only [bind, Except.bind, pure, Except.pure] at h
    split at h
    · cases h
    · rename_i kat hkat
      split at h
      · rename_i hk
        subst hk
        obtain ⟨h1, h2, h3, h4⟩ := ih h
        refine ⟨by omega, by rw [List.length_cons]; omega, ?_, ?_⟩
        · intro j d hj hd
          cases j with
          | zero => simp at hd; rw [← hd]; exact katakanaNode_iff.2 hkat
          | succ j => exact h3 j d (by omega) (by simpa using hd)
        · intro d hd
          rw [show e' - e = (e' - (e + 1)) + 1 by omega] at hd
          exact h4 d (by simpa using hd)
      · rename_i hk
        injection h with h
        subst h
        refine ⟨Nat.le_refl _, by omega, fun j d h _ => by omega, ?_⟩
        intro d hd
        simp at hd
        rw [← hd, hkat]
        cases kat with
        | true => exact absurd rfl hk
        | false => rfl

theorem skipNoBow_spec {t : InputText} {path : List NodeData} : ∀ {n b b' : Nat}, skipNoBow t path n b = .ok b' →
    b ≤ b' ∧ b' ≤ b + n ∧ (b' < b + n → ∃ d, path[b']? = some d ∧ canOovBowNode t d = .ok true) ∧
      ∀ j d, b ≤ j → j < b' → path[j]? = some d → canOovBowNode t d = .ok false := by
  intro n
  induction n with
  | zero =>
    intro b b' h
    injection h with h
    subst h
    exact ⟨Nat.le_refl _, Nat.le_refl _, fun h => by omega, fun j d h h' => by omega⟩
  | succ n ih =>
    intro b b' h
    unfold skipNoBow at h
    simp only [bind, Except.bind, pure, Except.pure] at h
    split at h
    · cases h
    · rename_i d hd
      split at h
      · cases h
      · rename_i ok hok
        split at h
        · rename_i hk
          subst hk
          injection h with h
          subst h
          exact ⟨Nat.le_refl _, by omega, fun _ => ⟨d, (pyGet_ok hd).2, hok⟩, fun j d h h' => by omega⟩
        · rename_i hk
          obtain ⟨h1, h2, h3, h4⟩ := ih h
          refine ⟨by omega, by omega, fun hlt => h3 (by omega), fun j d' hj hlt hd' => ?_⟩
          rcases Nat.eq_or_lt_of_le hj with h' | h'
          · rw [← h', (pyGet_ok hd).2] at hd'
            injection hd' with hd'
            rw [← hd', hok]
            cases ok with
            | true => exact absurd rfl hk
            | false => rfl
          · exact h4 j d' (by omega) hlt hd'

/-- What one turn of the loop does. -/
theorem katStep_spec {cfg : JoinKatakana} {lex : Lex} {t : InputText} {L : Lattice} {path path' : List NodeData} {i i' : Nat}
    (h : cfg.step lex t L path i = .ok (path', i')) :
    ∃ d, path[i]? = some d ∧
      ((path' = path ∧ i' = i + 1 ∧ katakanaStart cfg t d = .ok false) ∨
       (katakanaStart cfg t d = .ok true ∧ ∃ b0 b e, scanBack t path i = .ok b0 ∧
        scanForward t (path.drop (i + 1)) (i + 1) = .ok e ∧ skipNoBow t path (e - b0) b0 = .ok b ∧
        ((path' = path ∧ i' = i + 1 ∧ e ≤ b + 1) ∨
         (b + 2 ≤ e ∧ i' = b + 2 ∧ concatenateOov lex L path b e cfg.posId = .ok path')))) := by
  unfold JoinKatakana.step at h
  simp only [bind, Except.bind, pure, Except.pure] at h
  split at h
  · cases h
  · rename_i node hn
    obtain ⟨hi, hni⟩ := pyGet_ok hn
    refine ⟨node, hni, ?_⟩
    split at h
    · cases h
    · rename_i go hgo
      split at h
      · rename_i hgt
        injection h with h
        injection h with h1 h2
        refine .inl ⟨h1.symm, h2.symm, ?_⟩
        rw [hgo]
        cases go with
        | false => rfl
        | true => simp at hgt
      · rename_i hgt
        have : go = true := by simpa using hgt
        subst this
        refine .inr ⟨hgo, ?_⟩
        split at h
        · cases h
        · rename_i b0 hb0
          split at h
          · cases h
          · rename_i e he
            split at h
            · cases h
            · rename_i b hb
              refine ⟨b0, b, e, hb0, he, hb, ?_⟩
              split at h
              · rename_i hgt1
                split at h
                · cases h
                · rename_i pth hc
                  injection h with h
                  injection h with h1 h2
                  subst h1 h2
                  exact .inr ⟨by omega, rfl, hc⟩
              · injection h with h
                injection h with h1 h2
                exact .inl ⟨h1.symm, h2.symm, by omega⟩

theorem katakanaStart_true {cfg : JoinKatakana} {t : InputText} {d : NodeData} (h : katakanaStart cfg t d = .ok true) :
    katakanaTrigger cfg t d = .ok true ∧ KatakanaNode t d := by
  unfold katakanaStart at h
  simp only [bind, Except.bind] at h
  split at h
  · cases h
  · rename_i trig ht
    split at h
    · rename_i htr
      subst htr
      exact ⟨ht, katakanaNode_iff.2 h⟩
    · cases h

theorem katakanaStart_false {cfg : JoinKatakana} {t : InputText} {d : NodeData} (h : katakanaStart cfg t d = .ok false)
    (hk : KatakanaNode t d) : katakanaTrigger cfg t d = .ok false := by
  unfold katakanaStart at h
  simp only [bind, Except.bind] at h
  split at h
  · cases h
  · rename_i trig ht
    split at h
    · rw [katakanaNode_iff] at hk
      rw [hk] at h
      cases h
    · rename_i htr
      cases trig with
      | true => exact absurd rfl htr
      | false => exact ht

/-- The node put in place of a block. -/
theorem katJoin_of {cfg : JoinKatakana} {lex : Lex} {t : InputText} {L : Lattice} (hL : L.EndsRight) {path path' : List NodeData}
    {b e : Nat} {f : NodeData} (h2 : b + 2 ≤ e) (hf : path[b]? = some f) (hbow : canOovBowNode t f = .ok true)
    (hk : ∀ d ∈ pySlice path b e, KatakanaNode t d)
    (h : concatenateOov lex L path b e cfg.posId = .ok path') :
    e ≤ path.length ∧ ∃ n, path' = path.take b ++ n :: path.drop e ∧ KatJoin cfg lex t L (pySlice path b e) n := by
  obtain ⟨_, h5, n, c3, c4⟩ := concatenateOov_spec h
  have hhd : (pySlice path b e).head? = some f := by rw [pySlice_head? _ (by omega), hf]
  refine ⟨h5, n, c3, ?_⟩
  have hcats : ∃ cats, t.charCategoryTypesAt f.begin_ = .ok cats ∧ Cat.NOOOVBOW ∉ cats := by
    unfold canOovBowNode at hbow
    simp only [bind, Except.bind, pure, Except.pure] at hbow
    split at hbow
    · cases hbow
    · rename_i cats hc
      injection hbow with hbow
      exact ⟨cats, hc, by simpa using hbow⟩
  obtain ⟨cats, hc1, hc2⟩ := hcats
  have hlen := pySlice_length path (b := b) h5
  rcases c4 with ⟨f', l, g1, g2, ns, g3, g5⟩ | ⟨g1, g2, g3, g4, g5⟩
  · rw [hf] at g1
    injection g1 with g1
    subst g1
    have hspan : n.begin_ = f.begin_ ∧ n.end_ = l.end_ := by
      obtain ⟨before, x, after, hns, rfl, _⟩ := g5
      have hx : x ∈ ns := by rw [hns]; exact List.mem_append_right _ List.mem_cons_self
      unfold Lattice.getNodes at g3
      simp only [bind, Except.bind, pure, Except.pure] at g3
      split at g3
      · cases g3
      · rename_i ls hls
        injection g3 with g3
        subst g3
        rw [List.mem_filter] at hx
        exact ⟨by simpa using hx.2, hL _ _ (pyGet_ok hls).2 _ hx.1⟩
    refine ⟨⟨f, l, hhd, ?_, hspan.1, hspan.2⟩, by omega, hk, ⟨f, cats, hhd, hc1, hc2⟩, .inl ⟨ns, ?_, g5⟩⟩
    · rw [pySlice_getLast? _ (by omega) h5, g2]
    · rw [hspan.1, hspan.2]; exact g3
  · exact ⟨g1, by omega, hk, ⟨f, cats, hhd, hc1, hc2⟩, .inr ⟨g2, g3, g4, g5⟩⟩

/-- A maximal run of katakana nodes `run` after the nodes `A`, before the nodes `rest`. -/
structure AtRun (t : InputText) (A run rest : List NodeData) : Prop where
  left : ∀ d, A.getLast? = some d → ¬ KatakanaNode t d
  all : ∀ d ∈ run, KatakanaNode t d
  right : ∀ d, rest.head? = some d → ¬ KatakanaNode t d

theorem AtRun.scan {t : InputText} {A run rest : List NodeData} (hr : AtRun t A run rest) {k b0 e : Nat} (hk : k < run.length)
    (h1 : scanBack t (A ++ run ++ rest) (A.length + k) = .ok b0)
    (h2 : scanForward t ((A ++ run ++ rest).drop (A.length + k + 1)) (A.length + k + 1) = .ok e) :
    b0 = A.length ∧ e = A.length + run.length := by
  have hget : ∀ j, j < run.length → (A ++ run ++ rest)[A.length + j]? = run[j]? := by
    intro j hj
    rw [List.append_assoc, List.getElem?_append_right (by omega), Nat.add_sub_cancel_left, List.getElem?_append_left hj]
  obtain ⟨s1, s2, s3⟩ := scanBack_spec h1
  obtain ⟨e1, e2, e3, e4⟩ := scanForward_spec h2
  constructor
  · rcases Nat.lt_trichotomy b0 A.length with h | h | h
    · have hl : A.getLast? = some A[A.length - 1] := by rw [List.getLast?_eq_getElem?, List.getElem?_eq_getElem]
      refine absurd (s2 (A.length - 1) A[A.length - 1] (by omega) (by omega) ?_) (hr.left _ hl)
      rw [List.append_assoc, List.getElem?_append_left (by omega), List.getElem?_eq_getElem]
    · exact h
    · obtain ⟨d, hd, hd2⟩ := s3 (b0 - 1) (by omega)
      rw [show b0 - 1 = A.length + (b0 - 1 - A.length) by omega, hget _ (by omega)] at hd
      have := hr.all d (List.mem_of_getElem? hd)
      rw [katakanaNode_iff] at this
      rw [this] at hd2
      cases hd2
  · rcases Nat.lt_trichotomy e (A.length + run.length) with h | h | h
    · have hx : run[e - A.length]? = some run[e - A.length] := List.getElem?_eq_getElem (by omega)
      have := e4 run[e - A.length] (by
        rw [List.getElem?_drop, show A.length + k + 1 + (e - (A.length + k + 1)) = A.length + (e - A.length) by omega, hget _ (by omega), hx])
      have h' := hr.all _ (List.mem_of_getElem? hx)
      rw [katakanaNode_iff] at h'
      rw [h'] at this
      cases this
    · exact h
    · cases rest with
      | nil =>
        exfalso
        simp only [List.append_nil, List.length_drop, List.length_append] at e2
        omega
      | cons r rs =>
        refine absurd (e3 (A.length + run.length - (A.length + k + 1)) r (by omega) ?_) (hr.right r rfl)
        rw [List.getElem?_drop, show A.length + k + 1 + (A.length + run.length - (A.length + k + 1)) = A.length + run.length by omega]
        rw [List.getElem?_append_right (by simp)]
        simp

/-- Walking over a run: either it is joined, or the walk arrives behind it. -/
theorem katLoop_run {cfg : JoinKatakana} {lex : Lex} {t : InputText} {L : Lattice} (hL : L.EndsRight) {A run rest : List NodeData}
    (hr : AtRun t A run rest) {out : List NodeData} : ∀ (fuel k : Nat), k ≤ run.length →
    ((∀ d ∈ run.take k, katakanaTrigger cfg t d = .ok false) ∨
      ∃ pre blk, run = pre ++ blk ∧ (∀ d ∈ pre, canOovBowNode t d = .ok false) ∧ blk.length ≤ 1) →
    cfg.loop lex t L fuel (A ++ run ++ rest) (A.length + k) = .ok out →
    (∃ fuel', fuel' ≤ fuel ∧ cfg.loop lex t L fuel' (A ++ run ++ rest) (A.length + run.length) = .ok out ∧
      ((∀ d ∈ run, katakanaTrigger cfg t d = .ok false) ∨
      ∃ pre blk, run = pre ++ blk ∧ (∀ d ∈ pre, canOovBowNode t d = .ok false) ∧ blk.length ≤ 1)) ∨
    (∃ fuel' pre blk n, fuel' ≤ fuel ∧ run = pre ++ blk ∧ (∀ d ∈ pre, canOovBowNode t d = .ok false) ∧
      (∃ d ∈ run, katakanaTrigger cfg t d = .ok true) ∧ KatJoin cfg lex t L blk n ∧
      cfg.loop lex t L fuel' (A ++ pre ++ n :: rest) ((A ++ pre).length + 2) = .ok out) := by
  intro fuel
  induction fuel with
  | zero =>
    intro k hk hq h
    rcases Nat.lt_or_ge k run.length with hlt | hge
    · unfold JoinKatakana.loop at h
      rw [if_pos (by simp; omega)] at h
      cases h
    · have : k = run.length := by omega
      subst this
      rw [List.take_length] at hq
      exact .inl ⟨0, Nat.le_refl _, h, hq⟩
  | succ fuel ih =>
    intro k hk hq h
    rcases Nat.lt_or_ge k run.length with hlt | hge
    · unfold JoinKatakana.loop at h
      rw [if_pos (by simp; omega)] at h
      dsimp only at h
      split at h
      · cases h
      · rename_i p' i' hs
        obtain ⟨d, hd, hcase⟩ := katStep_spec hs
        have hdr : run[k]? = some d := by
          rwa [List.append_assoc, List.getElem?_append_right (by omega), Nat.add_sub_cancel_left, List.getElem?_append_left hlt] at hd
        have hdk := hr.all d (List.mem_of_getElem? hdr)
        have hnext : cfg.loop lex t L fuel (A ++ run ++ rest) (A.length + k + 1) = .ok out →
            ((∀ d ∈ run.take (k + 1), katakanaTrigger cfg t d = .ok false) ∨
              ∃ pre blk, run = pre ++ blk ∧ (∀ d ∈ pre, canOovBowNode t d = .ok false) ∧ blk.length ≤ 1) → _ :=
          fun hl hq' => ih (k + 1) (by omega) hq' hl
        have lift : (∃ fuel', fuel' ≤ fuel ∧ cfg.loop lex t L fuel' (A ++ run ++ rest) (A.length + run.length) = .ok out ∧
            ((∀ d ∈ run, katakanaTrigger cfg t d = .ok false) ∨
            ∃ pre blk, run = pre ++ blk ∧ (∀ d ∈ pre, canOovBowNode t d = .ok false) ∧ blk.length ≤ 1)) ∨
          (∃ fuel' pre blk n, fuel' ≤ fuel ∧ run = pre ++ blk ∧ (∀ d ∈ pre, canOovBowNode t d = .ok false) ∧
            (∃ d ∈ run, katakanaTrigger cfg t d = .ok true) ∧ KatJoin cfg lex t L blk n ∧
            cfg.loop lex t L fuel' (A ++ pre ++ n :: rest) ((A ++ pre).length + 2) = .ok out) → 
          (∃ fuel', fuel' ≤ fuel + 1 ∧ cfg.loop lex t L fuel' (A ++ run ++ rest) (A.length + run.length) = .ok out ∧
            ((∀ d ∈ run, katakanaTrigger cfg t d = .ok false) ∨
            ∃ pre blk, run = pre ++ blk ∧ (∀ d ∈ pre, canOovBowNode t d = .ok false) ∧ blk.length ≤ 1)) ∨
          (∃ fuel' pre blk n, fuel' ≤ fuel + 1 ∧ run = pre ++ blk ∧ (∀ d ∈ pre, canOovBowNode t d = .ok false) ∧
            (∃ d ∈ run, katakanaTrigger cfg t d = .ok true) ∧ KatJoin cfg lex t L blk n ∧
            cfg.loop lex t L fuel' (A ++ pre ++ n :: rest) ((A ++ pre).length + 2) = .ok out) := by
          rintro (⟨f', hf', r⟩ | ⟨f', pre, blk, n, hf', r⟩)
          · exact .inl ⟨f', by omega, r⟩
          · exact .inr ⟨f', pre, blk, n, by omega, r⟩
        rcases hcase with ⟨rfl, rfl, hno⟩ | ⟨hyes, b0, b, e, hb0, he, hb, hcase⟩
        · refine lift (hnext h ?_)
          rcases hq with hq | hq
          · left
            intro x hx
            rw [List.take_add_one, hdr, List.mem_append] at hx
            rcases hx with hx | hx
            · exact hq x hx
            · simp at hx
              rw [hx]; exact katakanaStart_false hno hdk
          · exact .inr hq
        · obtain ⟨rfl, rfl⟩ := hr.scan hlt hb0 he
          obtain ⟨k1, k2, k3, k4⟩ := skipNoBow_spec hb
          have hsplit : run = run.take (b - A.length) ++ run.drop (b - A.length) := (List.take_append_drop _ _).symm
          have hpre : ∀ d ∈ run.take (b - A.length), canOovBowNode t d = .ok false := by
            intro x hx
            obtain ⟨j, hj⟩ := List.getElem?_of_mem hx
            have hjl : j < b - A.length := by
              rcases Nat.lt_or_ge j (b - A.length) with h' | h'
              · exact h'
              · rw [List.getElem?_eq_none (by rw [List.length_take]; omega)] at hj; cases hj
            rw [List.getElem?_take_of_lt hjl] at hj
            refine k4 (A.length + j) x (by omega) (by omega) ?_
            rw [List.append_assoc, List.getElem?_append_right (by omega), Nat.add_sub_cancel_left, List.getElem?_append_left (by omega)]
            exact hj
          rcases hcase with ⟨rfl, rfl, hle⟩ | ⟨hge, rfl, hc⟩
          · refine lift (hnext h (.inr ⟨_, _, hsplit, hpre, ?_⟩))
            rw [List.length_drop]; omega
          · right
            obtain ⟨f, hf, hbow⟩ := k3 (by omega)
            have hblk : pySlice (A ++ run ++ rest) b (A.length + run.length) = run.drop (b - A.length) := by
              unfold pySlice
              rw [← List.length_append, List.take_left, List.drop_append, List.drop_eq_nil_of_le (by omega)]
              simp
            obtain ⟨hle, n, hp', hJ⟩ := katJoin_of (cfg := cfg) hL hge hf hbow (fun x hx => by
              rw [hblk] at hx; exact hr.all x (List.mem_of_mem_drop hx)) hc
            rw [hblk] at hJ
            refine ⟨fuel, _, _, n, by omega, hsplit, hpre, ⟨d, List.mem_of_getElem? hdr, (katakanaStart_true hyes).1⟩, hJ, ?_⟩
            have h1 : (A ++ run ++ rest).take b = A ++ run.take (b - A.length) := by
              rw [List.append_assoc, List.take_append, List.take_of_length_le (by omega), List.take_append,
                show b - A.length - run.length = 0 by omega, List.take_zero, List.append_nil]
            have h2 : (A ++ run ++ rest).drop (A.length + run.length) = rest := by
              rw [← List.length_append, List.drop_left]
            rw [h1, h2] at hp'
            rw [hp'] at h
            rw [show (A ++ run.take (b - A.length)).length = b by rw [List.length_append, List.length_take]; omega]
            exact h
    · have : k = run.length := by omega
      subst this
      rw [List.take_length] at hq
      exact .inl ⟨fuel + 1, Nat.le_refl _, h, hq⟩

/-- The first maximal run. -/
theorem run_split (t : InputText) (R : List NodeData) : ∃ run rest, R = run ++ rest ∧ (∀ d ∈ run, KatakanaNode t d) ∧
    ∀ d, rest.head? = some d → ¬ KatakanaNode t d := by
  induction R with
  | nil => exact ⟨[], [], rfl, by simp, by simp⟩
  | cons d R ih =>
    by_cases hd : KatakanaNode t d
    · obtain ⟨run, rest, rfl, h1, h2⟩ := ih
      refine ⟨d :: run, rest, rfl, ?_, h2⟩
      intro x hx
      rcases List.mem_cons.mp hx with rfl | hx
      · exact hd
      · exact h1 x hx
    · exact ⟨[], d :: R, rfl, by simp, fun x hx => by simp at hx; rw [← hx]; exact hd⟩

/-- Behind the rest of a run: one more node is passed. -/
theorem katLoop_other {cfg : JoinKatakana} {lex : Lex} {t : InputText} {L : Lattice} {fuel : Nat} {B rest : List NodeData} {d : NodeData}
    (hd : ¬ KatakanaNode t d) {out : List NodeData} (h : cfg.loop lex t L fuel (B ++ d :: rest) B.length = .ok out) :
    ∃ fuel', fuel' < fuel ∧ cfg.loop lex t L fuel' (B ++ d :: rest) (B.length + 1) = .ok out := by
  unfold JoinKatakana.loop at h
  rw [if_pos (by simp)] at h
  cases fuel with
  | zero => cases h
  | succ fuel =>
    dsimp only at h
    split at h
    · cases h
    · rename_i p' i' hs
      obtain ⟨x, hx, hcase⟩ := katStep_spec hs
      rw [List.getElem?_append_right (Nat.le_refl _)] at hx
      simp at hx
      subst hx
      rcases hcase with ⟨rfl, rfl, _⟩ | ⟨hyes, _⟩
      · exact ⟨fuel, by omega, h⟩
      · exact absurd (katakanaStart_true hyes).2 hd

theorem katLoop_exact {cfg : JoinKatakana} {lex : Lex} {t : InputText} {L : Lattice} (hL : L.EndsRight) :
    ∀ (m : Nat) {R A out : List NodeData} {fuel : Nat}, R.length ≤ m → (∀ d, A.getLast? = some d → ¬ KatakanaNode t d) →
      cfg.loop lex t L fuel (A ++ R) A.length = .ok out → ∃ R', out = A ++ R' ∧ KatRewrite cfg lex t L R R' := by
  intro m
  induction m with
  | zero =>
    intro R A out fuel hm hA h
    have : R = [] := List.eq_nil_of_length_eq_zero (by omega)
    subst this
    unfold JoinKatakana.loop at h
    rw [if_neg (by simp)] at h
    injection h with h
    exact ⟨[], h.symm, .nil⟩
  | succ m ih =>
    intro R A out fuel hm hA h
    obtain ⟨run, rest, rfl, hall, hrest⟩ := run_split t R
    -- what happens once the run has been replaced by `X`
    have after : ∀ (X : List NodeData) (fuel : Nat), cfg.loop lex t L fuel (A ++ X ++ rest) (A ++ X).length = .ok out →
        ∃ R', out = A ++ X ++ R' ∧ KatRewrite cfg lex t L rest R' := by
      intro X fuel h
      cases rest with
      | nil =>
        unfold JoinKatakana.loop at h
        rw [if_neg (by simp)] at h
        injection h with h
        exact ⟨[], h.symm, .nil⟩
      | cons d rest =>
        have hd : ¬ KatakanaNode t d := hrest d rfl
        obtain ⟨f', _, h'⟩ := katLoop_other hd h
        have h' : cfg.loop lex t L f' (A ++ X ++ [d] ++ rest) (A ++ X ++ [d]).length = .ok out := by
          rw [List.append_assoc (A ++ X) [d] rest, List.length_append (bs := [d])]
          exact h'
        obtain ⟨R', rfl, hR⟩ := ih (R := rest) (by simp at hm; omega) (by
          intro x hx; rw [List.getLast?_append] at hx; simp at hx; rw [← hx]; exact hd) h'
        exact ⟨d :: R', by simp, .other d hd hR⟩
    cases hrun : run with
    | nil =>
      subst hrun
      obtain ⟨R', h1, h2⟩ := after [] fuel (by simpa using h)
      exact ⟨R', by simpa using h1, by simpa using h2⟩
    | cons r0 rs =>
      rw [← hrun]
      have hne : run ≠ [] := by rw [hrun]; simp
      rw [← List.append_assoc] at h
      rcases katLoop_run hL ⟨hA, hall, hrest⟩ fuel 0 (by omega) (.inl (by simp)) h with
        ⟨f', _, h1, h2⟩ | ⟨f', pre, blk, n, _, h1, h2, h3, h4, h5⟩
      · rw [← List.length_append] at h1
        obtain ⟨R', g1, g2⟩ := after run f' h1
        refine ⟨run ++ R', by rw [g1, List.append_assoc], ?_⟩
        rcases h2 with h2 | ⟨pre, blk, rfl, q1, q2⟩
        · exact .quiet hne hall hrest (fun d hd => katQuiet_of (h2 d hd)) g2
        · exact .small hall hrest (fun d hd => noOovBow_of (q1 d hd)) q2 g2
      · subst h1
        have h2 : ∀ d ∈ pre, NoOovBow t d := fun d hd => noOovBow_of (h2 d hd)
        have h3 : ∃ d ∈ pre ++ blk, KatTrigger cfg t d := by
          obtain ⟨d, hd, ht⟩ := h3
          exact ⟨d, hd, katTrigger_of ht⟩
        cases rest with
        | nil =>
          unfold JoinKatakana.loop at h5
          rw [if_neg (by simp; omega)] at h5
          injection h5 with h5
          refine ⟨pre ++ n :: [], by rw [← h5, List.append_assoc], .join hall hrest h2 h3 h4 .nil⟩
        | cons d rest =>
          have hd : ¬ KatakanaNode t d := hrest d rfl
          have h' : cfg.loop lex t L f' (A ++ pre ++ [n, d] ++ rest) (A ++ pre ++ [n, d]).length = .ok out := by
            rw [List.append_assoc (A ++ pre) [n, d] rest, List.length_append (bs := [n, d])]
            exact h5
          obtain ⟨R', rfl, hR⟩ := ih (R := rest) (by simp at hm; omega) (by
            intro x hx; rw [List.getLast?_append] at hx; simp at hx; rw [← hx]; exact hd) h'
          exact ⟨pre ++ n :: d :: R', by simp, .join hall hrest h2 h3 h4 (.other d hd hR)⟩

theorem KatRewrite.coarsens {cfg : JoinKatakana} {lex : Lex} {t : InputText} {L : Lattice} {p p' : List NodeData}
    (h : KatRewrite cfg lex t L p p') : Coarsens (KatJoin cfg lex t L) p p' := by
  induction h with
  | nil => exact .nil
  | other d _ _ ih => exact .keep d ih
  | quiet _ _ _ _ _ ih => exact (Coarsens.refl _).append ih
  | small _ _ _ _ _ ih => exact (Coarsens.refl _).append ih
  | join _ _ _ _ hj _ ih =>
    rw [List.append_assoc]
    exact (Coarsens.refl _).append (.join _ _ hj ih)

theorem katStep_smaller {cfg : JoinKatakana} {lex : Lex} {t : InputText} {L : Lattice} {path path' : List NodeData} {i i' : Nat}
    (h : cfg.step lex t L path i = .ok (path', i')) : path'.length - i' < path.length - i := by
  obtain ⟨d, hd, h⟩ := katStep_spec h
  have hlt : i < path.length := by
    rcases Nat.lt_or_ge i path.length with h' | h'
    · exact h'
    · rw [List.getElem?_eq_none h'] at hd; cases hd
  rcases h with ⟨rfl, rfl, _⟩ | ⟨_, b0, b, e, _, he, _, ⟨rfl, rfl, _⟩ | ⟨h4, rfl, h7⟩⟩
  · omega
  · omega
  · obtain ⟨_, h5, n, h8, _⟩ := concatenateOov_spec h7
    obtain ⟨e1, _⟩ := scanForward_spec he
    rw [h8]; simp; omega

theorem NoFuel.isKatakanaNode (t : InputText) (d : NodeData) : NoFuel (isKatakanaNode t d) := by
  unfold Sudachi.isKatakanaNode
  exact (NoFuel.charCategoryTypes _ _ _).bind (fun _ _ => .ok _)

theorem NoFuel.scanBack (t : InputText) (path : List NodeData) : ∀ k, NoFuel (scanBack t path k) := by
  intro k
  induction k with
  | zero => exact .ok _
  | succ k ih =>
    unfold Sudachi.scanBack
    exact (NoFuel.pyGet _ _).bind (fun _ _ => (NoFuel.isKatakanaNode _ _).bind (fun _ _ => .ite ih (.ok _)))

theorem NoFuel.scanForward (t : InputText) : ∀ ds e, NoFuel (scanForward t ds e) := by
  intro ds
  induction ds with
  | nil => intro e; exact .ok _
  | cons d ds ih =>
    intro e
    unfold Sudachi.scanForward
    exact (NoFuel.isKatakanaNode _ _).bind (fun _ _ => .ite (ih _) (.ok _))

theorem NoFuel.skipNoBow (t : InputText) (path : List NodeData) : ∀ n b, NoFuel (skipNoBow t path n b) := by
  intro n
  induction n with
  | zero => intro b; exact .ok _
  | succ n ih =>
    intro b
    unfold Sudachi.skipNoBow
    refine (NoFuel.pyGet _ _).bind (fun d _ => NoFuel.bind ?_ (fun _ _ => .ite (.ok _) (ih _)))
    unfold canOovBowNode InputText.charCategoryTypesAt
    exact NoFuel.bind ((NoFuel.pyGet _ _).bind (fun _ _ => NoFuel.pyGet _ _)) (fun _ _ => .ok _)

theorem Lex.Honest.concatenateOov {lex : Lex} (h : lex.Honest) (L : Lattice) (path : List NodeData) (b e : Nat) (p : Int) :
    NoFuel (concatenateOov lex L path b e p) := by
  unfold Sudachi.concatenateOov
  refine .ite (fun h => by cases h) ?_
  refine (NoFuel.pyGet _ _).bind (fun _ _ => (NoFuel.pyGet _ _).bind (fun _ _ => NoFuel.bind ?_ (fun m _ => ?_)))
  · unfold Lattice.getMinimumNode Lattice.getNodes
    refine NoFuel.bind ((NoFuel.pyGet _ _).bind (fun _ _ => .ok _)) (fun ns _ => ?_)
    split <;> exact .ok _
  · split
    · exact .ok _
    · exact (h.nodes _).bind (fun _ _ => .ok _)

theorem NoFuel.codePointCount (t : InputText) (b e : Nat) : NoFuel (t.codePointCount b e) := by
  unfold InputText.codePointCount
  exact (NoFuel.pyGet _ _).bind (fun _ _ => (NoFuel.pyGet _ _).bind (fun _ _ => .ok _))

theorem Lex.Honest.katStep {lex : Lex} (h : lex.Honest) (cfg : JoinKatakana) (t : InputText) (L : Lattice) (path : List NodeData)
    (i : Nat) : NoFuel (cfg.step lex t L path i) := by
  unfold JoinKatakana.step
  refine (NoFuel.pyGet _ _).bind (fun _ _ => NoFuel.bind ?_ (fun _ _ => .ite (.ok _) ?_))
  · unfold katakanaStart katakanaTrigger
    exact NoFuel.bind (.ite (.ok _) ((NoFuel.codePointCount _ _ _).bind (fun _ _ => .ok _)))
      (fun _ _ => .ite (NoFuel.isKatakanaNode _ _) (.ok _))
  · exact (NoFuel.scanBack _ _ _).bind (fun _ _ => (NoFuel.scanForward _ _ _).bind (fun _ _ => (NoFuel.skipNoBow _ _ _ _).bind
      (fun _ _ => .ite ((h.concatenateOov _ _ _ _ _).bind (fun _ _ => .ok _)) (.ok _))))

theorem katLoop_noFuel {cfg : JoinKatakana} {lex : Lex} (hh : lex.Honest) {t : InputText} {L : Lattice} :
    ∀ (fuel : Nat) {path : List NodeData} {i : Nat}, path.length - i ≤ fuel → NoFuel (cfg.loop lex t L fuel path i) := by
  intro fuel
  induction fuel with
  | zero =>
    intro path i hle
    unfold JoinKatakana.loop
    rw [if_neg (by omega)]
    exact .ok _
  | succ fuel ih =>
    intro path i hle
    unfold JoinKatakana.loop
    split
    · dsimp only
      have hst := hh.katStep cfg t L path i
      split
      · rename_i e he
        rw [he] at hst
        intro h; apply hst; injection h with h; rw [h]
      · rename_i p' i' hs
        exact ih (by have := katStep_smaller hs; omega)
    · exact .ok _

theorem Lattice.EndsRight.insert {conn : Conn} {L L' : Lattice} {d : NodeData} (h : L.EndsRight) (hi : L.insert conn d = (L', .ok ())) :
    L'.EndsRight := by
  unfold Lattice.insert at hi
  split at hi
  · simp at hi
  split at hi
  · simp at hi
  split at hi
  case h_2 => simp at hi
  rename_i y hy
  injection hi with hi _
  subst hi
  have hyd : y.data = d := by
    unfold connectNode at hy
    split at hy <;> cases hy <;> rfl
  intro e ns hns x hx
  obtain ⟨ns', hns', h' | h'⟩ := getElem?_modify_append hns
  · rw [h'.2] at hx
    rcases List.mem_append.mp hx with hx | hx
    · exact h e ns' hns' x hx
    · rw [List.mem_singleton.mp hx, ← h'.1, hyd]
  · rw [h'.2] at hx
    exact h e ns' hns' x hx

theorem Lattice.EndsRight.insertAll {conn : Conn} : ∀ {ds : List NodeData} {L L' : Lattice}, L.EndsRight →
    Sudachi.insertAll conn L ds = (L', .ok ()) → L'.EndsRight := by
  intro ds
  induction ds with
  | nil => intro L L' h hi; simp only [Sudachi.insertAll, Prod.mk.injEq] at hi; rw [← hi.1]; exact h
  | cons d ds ih =>
    intro L L' h hi
    simp only [Sudachi.insertAll] at hi
    split at hi
    · rename_i L1 h1
      exact ih (h.insert h1) hi
    · simp at hi

theorem Lattice.Clean.endsRight {L : Lattice} (h : L.Clean) : L.EndsRight := by
  intro e ns hns x hx
  rcases Nat.eq_zero_or_pos e with rfl | he
  · rw [h.bos] at hns
    injection hns with hns
    subst hns
    rw [List.mem_singleton.mp hx]; rfl
  · rw [h.empty e ns he hns] at hx
    simp at hx

/-- The lattice of a successful build. -/
theorem buildLattice_endsRight {conn : Conn} {lex : Lex} {plugins : List OovPlugin} {t : InputText} {L L' : Lattice} (hL : L.Clean)
    (h : buildLattice conn lex plugins t L = (L', .ok ())) : L'.EndsRight := by
  obtain ⟨L1, h1, h2⟩ := buildLattice_ok h
  have := buildLoop_induct (conn := conn) (lex := lex) (plugins := plugins) (t := t) (fun _ L => L.EndsRight)
    (fun i L ds L' hI _ _ _ hins => hI.insertAll hins) (fun i L hI _ => hI) t.bytes.length 0 _ _ h1 (hL.resize _).endsRight
  have hf := (connectEos_frame h2).1
  unfold Lattice.EndsRight at this ⊢
  rw [hf]
  exact this

end Sudachi
