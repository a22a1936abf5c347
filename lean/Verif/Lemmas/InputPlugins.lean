import Verif.Model.InputPlugins
import Verif.Spec.Normalise
import Verif.Lemmas.Text
namespace Sudachi

/-! ### rewrite.def -/

/-- The table describes the lines. -/
structure TableOk (lines : List (List PStr)) (tb : RewriteTable) : Prop where
  map : ∀ k v, dictGet tb.replaceMap k = some v ↔ [k, v] ∈ lines
  ign : ∀ s, s ∈ tb.ignore ↔ [s] ∈ lines
  len : ∀ c k v, [c :: k, v] ∈ lines → (c :: k).length ≤ tb.keyLength c

theorem readRewriteLine_ok {lines : List (List PStr)} {tb tb' : RewriteTable} {cols : List PStr}
    (h : TableOk lines tb) (hr : readRewriteLine tb cols = .ok tb') : TableOk (lines ++ [cols]) tb' := by
  unfold readRewriteLine at hr
  split at hr
  · rename_i key
    split at hr
    · cases hr
    · cases hr
      refine ⟨?_, ?_, ?_⟩
      · intro k v; rw [h.map]; simp
      · intro s; simp [h.ign, or_comm]
      · intro c k v hm
        have : [c :: k, v] ∈ lines := by simpa using hm
        exact h.len c k v this
  · rename_i key value
    split at hr
    · cases hr
    · rename_i hnone
      split at hr
      · cases hr
      · rename_i c kt
        cases hr
        refine ⟨?_, ?_, ?_⟩
        · intro k v
          simp only [dictGet]
          by_cases hk : c :: kt = k
          · subst hk
            simp only [if_true, Option.some.injEq, List.mem_append, List.mem_cons, List.cons.injEq, true_and, and_true,
              List.not_mem_nil, or_false]
            constructor
            · intro e; right; exact e.symm
            · rintro (e | e)
              · rw [← h.map, hnone] at e; cases e
              · exact e.symm
          · rw [if_neg hk, h.map]
            simp only [List.mem_append, List.mem_cons, List.cons.injEq, and_true, List.not_mem_nil, or_false]
            constructor
            · exact Or.inl
            · rintro (e | e)
              · exact e
              · exact absurd e.1.symm hk
        · intro s; rw [h.ign]; simp
        · intro c' k v hm
          have key : tb.keyLength c' ≤ RewriteTable.keyLength { tb with
              keyLengths := if tb.keyLength c < (c :: kt).length then (c, (c :: kt).length) :: tb.keyLengths
                else tb.keyLengths
              replaceMap := (c :: kt, value) :: tb.replaceMap } c' ∧
              (c = c' → (c :: kt).length ≤ RewriteTable.keyLength { tb with
              keyLengths := if tb.keyLength c < (c :: kt).length then (c, (c :: kt).length) :: tb.keyLengths
                else tb.keyLengths
              replaceMap := (c :: kt, value) :: tb.replaceMap } c') := by
            by_cases hlt : tb.keyLength c < (c :: kt).length
            · rw [if_pos hlt]
              by_cases hcc : c = c'
              · subst hcc
                simp only [RewriteTable.keyLength, dictGet, if_true] at hlt ⊢
                exact ⟨by omega, fun _ => Nat.le_refl _⟩
              · simp only [RewriteTable.keyLength, dictGet, hcc, if_false]
                exact ⟨Nat.le_refl _, by intro e; exact e.elim⟩
            · rw [if_neg hlt]
              refine ⟨Nat.le_refl _, ?_⟩
              intro e; subst e
              simp only [RewriteTable.keyLength] at hlt ⊢
              omega
          rcases List.mem_append.mp hm with hm | hm
          · exact Nat.le_trans (h.len c' k v hm) key.1
          · simp only [List.mem_cons, List.cons.injEq, and_true, List.not_mem_nil, or_false] at hm
            obtain ⟨⟨rfl, rfl⟩, -⟩ := hm
            exact key.2 rfl
  · cases hr

theorem readRewriteLines_ok : ∀ (rest lines : List (List PStr)) (tb tb' : RewriteTable), TableOk lines tb →
    readRewriteLines tb rest = .ok tb' → TableOk (lines ++ rest) tb' := by
  intro rest
  induction rest with
  | nil => intro lines tb tb' h hr; simp only [readRewriteLines, Except.ok.injEq] at hr; subst hr; simpa using h
  | cons cols rest ih =>
    intro lines tb tb' h hr
    rw [readRewriteLines] at hr
    cases hc : readRewriteLine tb cols with
    | error e => rw [hc] at hr; cases hr
    | ok tb1 =>
      rw [hc] at hr
      have := ih (lines ++ [cols]) tb1 tb' (readRewriteLine_ok h hc) hr
      simpa using this

theorem TableOk.empty : TableOk [] RewriteTable.empty :=
  ⟨by intro k v; simp [RewriteTable.empty, dictGet], by intro s; simp [RewriteTable.empty], by intro c k v h; simp at h⟩

/-! ### Longest match -/

theorem findReplace_some {tb : RewriteTable} {rest : PStr} : ∀ {m l : Nat} {r : PStr},
    findReplace tb rest m = some (l, r) → 1 ≤ l ∧ l ≤ m ∧ dictGet tb.replaceMap (rest.take l) = some r ∧ r ≠ [] ∧
      ∀ l' r', l < l' → l' ≤ m → dictGet tb.replaceMap (rest.take l') = some r' → r' = [] := by
  intro m
  induction m with
  | zero => intro l r h; simp [findReplace] at h
  | succ m ih =>
    intro l r h
    rw [findReplace] at h
    split at h
    · rename_i r0 hr0
      split at h
      · rename_i hne
        simp only [Option.some.injEq, Prod.mk.injEq] at h
        obtain ⟨rfl, rfl⟩ := h
        exact ⟨by omega, by omega, hr0, hne, by intro l' r' h1 h2; omega⟩
      · rename_i hne
        obtain ⟨h1, h2, h3, h4, h5⟩ := ih h
        refine ⟨h1, by omega, h3, h4, ?_⟩
        intro l' r' h6 h7 h8
        rcases Nat.eq_or_lt_of_le h7 with rfl | h9
        · rw [hr0] at h8; cases h8
          exact Decidable.not_not.mp hne
        · exact h5 l' r' h6 (by omega) h8
    · rename_i hn
      obtain ⟨h1, h2, h3, h4, h5⟩ := ih h
      refine ⟨h1, by omega, h3, h4, ?_⟩
      intro l' r' h6 h7 h8
      rcases Nat.eq_or_lt_of_le h7 with rfl | h9
      · rw [hn] at h8; cases h8
      · exact h5 l' r' h6 (by omega) h8

theorem findReplace_none {tb : RewriteTable} {rest : PStr} : ∀ {m : Nat}, findReplace tb rest m = none →
    ∀ l r, 1 ≤ l → l ≤ m → dictGet tb.replaceMap (rest.take l) = some r → r = [] := by
  intro m
  induction m with
  | zero => intro _ l r h1 h2; omega
  | succ m ih =>
    intro h l r h1 h2 h3
    rw [findReplace] at h
    split at h
    · rename_i r0 hr0
      split at h
      · cases h
      · rename_i hne
        rcases Nat.eq_or_lt_of_le h2 with rfl | h4
        · rw [hr0] at h3; cases h3; exact Decidable.not_not.mp hne
        · exact ih h l r h1 (by omega) h3
    · rename_i hn
      rcases Nat.eq_or_lt_of_le h2 with rfl | h4
      · rw [hn] at h3; cases h3
      · exact ih h l r h1 (by omega) h3

theorem Builder.Valid.replace_mid {bd : Builder} (h : bd.Valid) {pre mid post s : PStr}
    (hm : bd.modified = pre ++ mid ++ post) (hmid : mid ≠ []) (hs : s ≠ []) {b e : Int} (hb : b = pre.length)
    (he : e = (pre.length : Int) + mid.length) :
    ∃ bd', bd.replace b e s = .ok bd' ∧ bd'.Valid ∧ bd'.original = bd.original ∧
      bd'.modified = pre ++ s ++ post := by
  have hl : 0 < mid.length := List.length_pos_iff.mpr hmid
  have hlen : bd.modified.length = pre.length + mid.length + post.length := by rw [hm]; simp; omega
  obtain ⟨bd', h1, h2, h3, h4⟩ := h.replace (b := pre.length) (e := pre.length + mid.length) (s := s)
    (by omega) (by omega) hs
  refine ⟨bd', ?_, h2, h3, ?_⟩
  · rw [hb, he]; simpa using h1
  · rw [h4, hm]
    simp

/-- The loop of the default plugin. -/
theorem defaultLoop_spec {lines : List (List PStr)} {tb : RewriteTable} (hT : TableOk lines tb)
    (hcols : ∀ cols ∈ lines, ∀ s ∈ cols, s ≠ ([] : PStr)) {lower nfkc : PStr → PStr}
    (hlow : ∀ c, lower [c] ≠ []) (hnf : ∀ s, s ≠ [] → nfkc s ≠ []) (text : PStr) :
    ∀ (fuel i : Nat) (offset : Int) (bd : Builder) (pre : PStr), bd.Valid → bd.modified = pre ++ text.drop i →
      (pre.length : Int) = i + offset → i ≤ text.length → text.length - i < fuel →
      ∃ bd' out, defaultLoop tb lower nfkc text fuel i offset bd = .ok bd' ∧ bd'.Valid ∧ bd'.original = bd.original ∧
        bd'.modified = pre ++ out ∧
        Normalised (fun k v => [k, v] ∈ lines) (fun s => [s] ∈ lines) lower nfkc (text.drop i) out := by
  have hvne : ∀ k v, dictGet tb.replaceMap k = some v → v ≠ [] := by
    intro k v h
    exact hcols _ ((hT.map k v).mp h) v (by simp)
  intro fuel
  induction fuel with
  | zero => intro i offset bd pre _ _ _ _ h; omega
  | succ fuel ih =>
    intro i offset bd pre hv hmod hpre hi hf
    rw [defaultLoop]
    rcases Nat.eq_or_lt_of_le hi with rfl | hi'
    · simp only [List.getElem?_eq_none (Nat.le_refl _)]
      refine ⟨bd, [], rfl, hv, rfl, ?_, ?_⟩
      · rw [hmod]; simp
      · simp only [List.drop_length]; exact .nil
    · rw [List.getElem?_eq_getElem hi']
      simp only []
      have hdrop : text.drop i = text[i] :: text.drop (i + 1) := List.drop_eq_getElem_cons hi'
      have hkl : ∀ k v, [k, v] ∈ lines → k <+: text.drop i → 1 ≤ k.length ∧
          k.length ≤ min (tb.keyLength text[i]) (text.length - i) ∧ k = (text.drop i).take k.length := by
        intro k v hk hp
        have hp' := hp
        rw [hdrop] at hp
        have hl := hp'.length_le
        rw [List.length_drop] at hl
        cases k with
        | nil => exact absurd rfl (hcols _ hk [] (by simp))
        | cons c k =>
          obtain ⟨rfl, -⟩ := List.cons_prefix_cons.mp hp
          have := hT.len _ _ _ hk
          exact ⟨by simp, by omega, List.prefix_iff_eq_take.mp hp'⟩
      cases hfr : findReplace tb (text.drop i) (min (tb.keyLength text[i]) (text.length - i)) with
      | some p =>
        obtain ⟨l, r⟩ := p
        obtain ⟨h1, h2, h3, h4, h5⟩ := findReplace_some hfr
        simp only []
        have hll : l ≤ text.length - i := by omega
        have hsplit : text.drop i = (text.drop i).take l ++ text.drop (i + l) := by
          rw [← List.drop_drop, List.take_append_drop]
        have htl : ((text.drop i).take l).length = l := by simp; omega
        obtain ⟨bd1, e1, v1, o1, m1⟩ := hv.replace_mid (pre := pre) (mid := (text.drop i).take l)
          (post := text.drop (i + l)) (s := r) (b := i + offset) (e := i + l + offset)
          (by rw [hmod, List.append_assoc, ← hsplit])
          (by intro h; rw [h] at htl; simp at htl; omega) h4 (by omega) (by rw [htl]; omega)
        rw [e1]
        obtain ⟨bd2, out, e2, v2, o2, m2, n2⟩ := ih (i + l) (offset + ((r.length : Int) - l)) bd1 (pre ++ r) v1 m1
          (by simp; omega) (by omega) (by omega)
        refine ⟨bd2, r ++ out, e2, v2, by rw [o2, o1], by rw [m2]; simp, ?_⟩
        rw [hsplit]
        refine .key ?_ ((hT.map _ _).mp h3) ?_ n2
        · intro h; rw [h] at htl; simp at htl; omega
        · intro k' v' hk' hp'
          rw [← hsplit] at hp'
          obtain ⟨g1, g2, g3⟩ := hkl k' v' hk' hp'
          rw [htl]
          rcases Nat.lt_or_ge l k'.length with hlt | hge
          · exfalso
            have := h5 k'.length v' hlt g2 (by rw [← g3]; exact (hT.map _ _).mpr hk')
            exact hvne _ _ ((hT.map _ _).mpr hk') this
          · exact hge
      | none =>
        simp only []
        have hnokey : ∀ k' v', [k', v'] ∈ lines → ¬ k' <+: (text[i] :: text.drop (i + 1)) := by
          intro k' v' hk' hp'
          rw [← hdrop] at hp'
          obtain ⟨g1, g2, g3⟩ := hkl k' v' hk' hp'
          have := findReplace_none hfr k'.length v' g1 g2 (by rw [← g3]; exact (hT.map _ _).mpr hk')
          exact hvne _ _ ((hT.map _ _).mpr hk') this
        have hrepl : ∀ s : PStr, s ≠ [] → ∃ bd1, bd.replace (i + offset) (i + 1 + offset) s = .ok bd1 ∧ bd1.Valid ∧
            bd1.original = bd.original ∧ bd1.modified = pre ++ s ++ text.drop (i + 1) := by
          intro s hs
          exact hv.replace_mid (pre := pre) (mid := [text[i]]) (post := text.drop (i + 1))
            (by rw [hmod, hdrop]; simp) (by simp) hs (by omega) (by simp; omega)
        rw [hdrop]
        by_cases hig : lower [text[i]] ∈ tb.ignore
        · rw [if_pos hig]
          have hig' := (hT.ign _).mp hig
          by_cases heq : [text[i]] = lower [text[i]]
          · rw [if_pos heq]
            obtain ⟨bd2, out, e2, v2, o2, m2, n2⟩ := ih (i + 1) offset bd (pre ++ [text[i]]) hv
              (by rw [hmod, hdrop]; simp) (by simp; omega) (by omega) (by omega)
            refine ⟨bd2, lower [text[i]] ++ out, e2, v2, o2, by rw [m2, ← heq]; simp, .keep hnokey hig' n2⟩
          · rw [if_neg heq]
            obtain ⟨bd1, e1, v1, o1, m1⟩ := hrepl _ (hlow text[i])
            rw [e1]
            obtain ⟨bd2, out, e2, v2, o2, m2, n2⟩ := ih (i + 1) (offset + (((lower [text[i]]).length : Int) - 1)) bd1
              (pre ++ lower [text[i]]) v1 m1 (by simp; omega) (by omega) (by omega)
            exact ⟨bd2, _, e2, v2, by rw [o2, o1], by rw [m2]; simp, .keep hnokey hig' n2⟩
        · rw [if_neg hig]
          have hig' : ¬ [lower [text[i]]] ∈ lines := fun h => hig ((hT.ign _).mpr h)
          have hne := hnf _ (hlow text[i])
          by_cases heq : [text[i]] = nfkc (lower [text[i]])
          · rw [if_neg (by simpa using heq)]
            obtain ⟨bd2, out, e2, v2, o2, m2, n2⟩ := ih (i + 1)
              (offset + (((nfkc (lower [text[i]])).length : Int) - 1)) bd (pre ++ [text[i]]) hv
              (by rw [hmod, hdrop]; simp) (by rw [← heq]; simp; omega) (by omega) (by omega)
            exact ⟨bd2, nfkc (lower [text[i]]) ++ out, e2, v2, o2, by rw [m2, ← heq]; simp, .norm hnokey hig' n2⟩
          · rw [if_pos heq]
            obtain ⟨bd1, e1, v1, o1, m1⟩ := hrepl _ hne
            rw [e1]
            obtain ⟨bd2, out, e2, v2, o2, m2, n2⟩ := ih (i + 1)
              (offset + (((nfkc (lower [text[i]])).length : Int) - 1)) bd1
              (pre ++ nfkc (lower [text[i]])) v1 m1 (by simp; omega) (by omega) (by omega)
            exact ⟨bd2, _, e2, v2, by rw [o2, o1], by rw [m2]; simp, .norm hnokey hig' n2⟩

/-! ### Prolonged sound marks -/

/-- Marks `run` pending in front of `rest`: what the final text will be. -/
theorem Collapsed.pending {mark : Nat → Prop} {sym : Nat} {run rest out : PStr} (hm : ∀ c ∈ run, mark c)
    (hne : run ≠ []) (hnf : NoMarkFirst mark rest) (h : Collapsed mark sym rest out) :
    Collapsed mark sym (run ++ rest) ((if 1 < run.length then [sym] else run) ++ out) := by
  by_cases hl : 1 < run.length
  · rw [if_pos hl]; exact .run hl hm hnf h
  · rw [if_neg hl]
    match run, hne, hl with
    | [c], _, _ => exact .single (hm c (by simp)) hnf h
    | _ :: _ :: _, _, hl => simp at hl

/-- The `for` loop: `pre` is the finished part of the output, `run` the pending marks. -/
theorem psmLoop_spec (marks : List Nat) (sym : Nat) (text : PStr) :
    ∀ (cs : PStr) (i : Nat) (offset : Int) (start : Option Nat) (bd : Builder) (pre run : PStr),
      bd.Valid → text.drop i = cs → i ≤ text.length → bd.modified = pre ++ run ++ cs → (∀ c ∈ run, c ∈ marks) →
      (match start with
        | none => run = [] ∧ (pre.length : Int) = i - offset
        | some m => run ≠ [] ∧ (m : Int) = i - run.length ∧ (pre.length : Int) = m - offset) →
      ∃ bd' off' start' out run', psmLoop marks [sym] cs i offset start bd = .ok (bd', off', start') ∧ bd'.Valid ∧
        bd'.original = bd.original ∧ bd'.modified = pre ++ out ++ run' ∧
        (match start' with
          | none => run' = []
          | some m => run' ≠ [] ∧ (m : Int) = text.length - run'.length ∧
              ((pre ++ out).length : Int) = m - off') ∧
        Collapsed (· ∈ marks) sym (run ++ cs) (out ++ (if 1 < run'.length then [sym] else run')) := by
  intro cs
  induction cs with
  | nil =>
    intro i offset start bd pre run hv hd hi hmod hrun hst
    have hil : i = text.length := by
      have := congrArg List.length hd
      simp at this; omega
    refine ⟨bd, offset, start, [], run, rfl, hv, rfl, by rw [hmod]; simp, ?_, ?_⟩
    · cases start with
      | none => exact hst.1
      | some m => simp only [List.append_nil] at hst ⊢; refine ⟨hst.1, by omega, by omega⟩
    · cases start with
      | none => rw [hst.1]; simp; exact .nil
      | some m =>
        have := Collapsed.pending (mark := (· ∈ marks)) (sym := sym) hrun hst.1 (rest := []) (out := [])
          (by intro c cs h; cases h) .nil
        simpa using this
  | cons c cs ih =>
    intro i offset start bd pre run hv hd hi hmod hrun hst
    have hi' : i < text.length := by
      rcases Nat.lt_or_ge i text.length with h | h
      · exact h
      · rw [List.drop_of_length_le h] at hd; cases hd
    have hd' : text.drop (i + 1) = cs := by
      rw [← List.drop_drop, hd]; rfl
    cases start with
    | none =>
      obtain ⟨rfl, hpre⟩ := hst
      by_cases hc : c ∈ marks
      · rw [psmLoop]
        simp only [hc, if_true]
        obtain ⟨bd', off', start', out, run', h1, h2, h3, h4, h5, h6⟩ := ih (i + 1) offset (some i) bd pre [c] hv hd'
          hi' (by rw [hmod]; simp) (by simp [hc]) ⟨by simp, by simp, by omega⟩
        exact ⟨bd', off', start', out, run', h1, h2, h3, h4, h5, by simpa using h6⟩
      · rw [psmLoop]
        simp only [hc, if_false]
        obtain ⟨bd', off', start', out, run', h1, h2, h3, h4, h5, h6⟩ := ih (i + 1) offset none bd (pre ++ [c]) [] hv hd'
          hi' (by rw [hmod]; simp) (by simp) ⟨rfl, by simp; omega⟩
        refine ⟨bd', off', start', c :: out, run', h1, h2, h3, by rw [h4]; simp, ?_, ?_⟩
        · cases start' with
          | none => exact h5
          | some m => simpa using h5
        · simpa using Collapsed.other (mark := (· ∈ marks)) hc h6
    | some m =>
      obtain ⟨hne, hm, hpre⟩ := hst
      by_cases hc : c ∈ marks
      · rw [psmLoop]
        simp only [hc, if_true]
        obtain ⟨bd', off', start', out, run', h1, h2, h3, h4, h5, h6⟩ := ih (i + 1) offset (some m) bd pre (run ++ [c])
          hv hd' hi' (by rw [hmod]; simp)
          (by intro x hx; rcases List.mem_append.mp hx with h | h
              · exact hrun x h
              · simp at h; subst h; exact hc)
          ⟨by simp, by simp; omega, hpre⟩
        exact ⟨bd', off', start', out, run', h1, h2, h3, h4, h5, by simpa using h6⟩
      · rw [psmLoop]
        simp only [hc, if_false]
        have hnf : NoMarkFirst (· ∈ marks) (c :: cs) := by
          intro x xs h; cases h; exact hc
        by_cases hlen : (i : Int) - m > 1
        · rw [if_pos hlen]
          obtain ⟨bd1, e1, v1, o1, m1⟩ := hv.replace_mid (pre := pre) (mid := run) (post := c :: cs) (s := [sym])
            (b := m - offset) (e := i - offset) hmod hne (by simp) (by omega) (by omega)
          rw [e1]
          obtain ⟨bd', off', start', out, run', h1, h2, h3, h4, h5, h6⟩ := ih (i + 1) (offset + ((i : Int) - m - 1)) none
            bd1 (pre ++ [sym] ++ [c]) [] v1 hd' hi' (by rw [m1]; simp) (by simp) ⟨rfl, by simp; omega⟩
          refine ⟨bd', off', start', sym :: c :: out, run', h1, h2, by rw [h3, o1], by rw [h4]; simp, ?_, ?_⟩
          · cases start' with
            | none => exact h5
            | some m => simpa using h5
          · have h7 := Collapsed.pending (mark := (· ∈ marks)) (sym := sym) hrun hne hnf
              (Collapsed.other hc (by simpa using h6))
            rw [if_pos (by omega)] at h7
            simpa using h7
        · rw [if_neg hlen]
          obtain ⟨bd', off', start', out, run', h1, h2, h3, h4, h5, h6⟩ := ih (i + 1) offset none
            bd (pre ++ run ++ [c]) [] hv hd' hi' (by rw [hmod]; simp) (by simp) ⟨rfl, by simp; omega⟩
          refine ⟨bd', off', start', run ++ c :: out, run', h1, h2, h3, by rw [h4]; simp, ?_, ?_⟩
          · cases start' with
            | none => exact h5
            | some m => simpa using h5
          · have h7 := Collapsed.pending (mark := (· ∈ marks)) (sym := sym) hrun hne hnf
              (Collapsed.other hc (by simpa using h6))
            rw [if_neg (by omega)] at h7
            simpa using h7

theorem psmRewrite_spec (marks : List Nat) (sym : Nat) (bd : Builder) (hv : bd.Valid) :
    ∃ bd', psmRewrite marks [sym] bd = .ok bd' ∧ bd'.Valid ∧ bd'.original = bd.original ∧
      Collapsed (· ∈ marks) sym bd.modified bd'.modified := by
  obtain ⟨bd1, off, start, out, run, h1, h2, h3, h4, h5, h6⟩ := psmLoop_spec marks sym bd.modified bd.modified 0 0 none
    bd [] [] hv (by simp) (by omega) (by simp) (by simp) ⟨rfl, by simp⟩
  unfold psmRewrite
  rw [h1]
  simp only [bind, Except.bind, List.nil_append] at h4 h6 ⊢
  cases start with
  | none =>
    simp only [] at h5
    subst h5
    exact ⟨bd1, rfl, h2, h3, by rw [h4]; simpa using h6⟩
  | some m =>
    simp only [List.nil_append] at h5
    obtain ⟨h5, h7, h8⟩ := h5
    simp only []
    by_cases hl : (bd.modified.length : Int) - m > 1
    · rw [if_pos hl]
      obtain ⟨bd2, e2, v2, o2, m2⟩ := h2.replace_mid (pre := out) (mid := run) (post := []) (s := [sym])
        (b := m - off) (e := bd.modified.length - off) (by rw [h4]; simp) h5 (by simp) (by omega) (by omega)
      refine ⟨bd2, e2, v2, by rw [o2, h3], ?_⟩
      rw [m2]
      rw [if_pos (by omega)] at h6
      simpa using h6
    · rw [if_neg hl]
      rw [if_neg (by omega)] at h6
      exact ⟨bd1, rfl, h2, h3, by rw [h4]; exact h6⟩

end Sudachi
