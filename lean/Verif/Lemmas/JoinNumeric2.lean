import Verif.Lemmas.JoinNumeric
namespace Sudachi

theorem Canonical.ne_nil {s : PStr} (h : Canonical s) : s ≠ [] := by
  rcases h with ⟨h, _⟩ | ⟨a, b, rfl, _⟩
  · exact h
  · simp

/-- `path` is the original path with the blocks before `lb` already replaced. -/
def Progress (J : List NodeData → NodeData → Prop) (orig path : List NodeData) (lb : Nat) : Prop :=
  ∃ O A R, orig = O ++ R ∧ path = A ++ R ∧ Coarsens J O A ∧ A.length ≤ lb

theorem Progress.mono {J : List NodeData → NodeData → Prop} {orig path : List NodeData} {lb lb' : Nat}
    (h : Progress J orig path lb) (hl : lb ≤ lb') : Progress J orig path lb' := by
  obtain ⟨O, A, R, h1, h2, h3, h4⟩ := h
  exact ⟨O, A, R, h1, h2, h3, by omega⟩

theorem Progress.start {J : List NodeData → NodeData → Prop} (path : List NodeData) : Progress J path path 0 :=
  ⟨[], [], path, rfl, rfl, .nil, Nat.le_refl _⟩

theorem Progress.coarsens {J : List NodeData → NodeData → Prop} {orig path : List NodeData} {lb : Nat}
    (h : Progress J orig path lb) : Coarsens J orig path := by
  obtain ⟨O, A, R, rfl, rfl, h3, _⟩ := h
  exact h3.append (.refl R)

/-- Nodes from `lb` on are nodes of the original path. -/
theorem Progress.mem {J : List NodeData → NodeData → Prop} {orig path : List NodeData} {lb : Nat}
    (h : Progress J orig path lb) {i : Nat} (hi : lb ≤ i) {d : NodeData} (hd : path[i]? = some d) : d ∈ orig := by
  obtain ⟨O, A, R, rfl, rfl, _, h4⟩ := h
  rw [List.getElem?_append_right (by omega)] at hd
  exact List.mem_append_right _ (List.mem_of_getElem? hd)

theorem Progress.splice {J : List NodeData → NodeData → Prop} {orig path : List NodeData} {lb b e : Nat} {n : NodeData}
    (h : Progress J orig path lb) (hb : lb ≤ b) (hbe : b < e) (he : e ≤ path.length) (hJ : J (pySlice path b e) n) :
    Progress J orig (path.take b ++ n :: path.drop e) (b + 1) := by
  obtain ⟨O, A, R, rfl, rfl, h3, h4⟩ := h
  have hR : R = R.take (b - A.length) ++ pySlice (A ++ R) b e ++ (A ++ R).drop e := by
    have h1 := slice_split (A ++ R) (b := b) (e := e) (by omega)
    have h2 : (A ++ R).take b = A ++ R.take (b - A.length) := by
      rw [List.take_append, List.take_of_length_le (by omega)]
    rw [h2, List.append_assoc, List.append_assoc] at h1
    have := List.append_cancel_left h1
    rw [List.append_assoc, this]
  refine ⟨O ++ R.take (b - A.length) ++ pySlice (A ++ R) b e, A ++ R.take (b - A.length) ++ [n], (A ++ R).drop e, ?_, ?_, ?_, ?_⟩
  · conv => lhs; rw [hR]
    simp [List.append_assoc]
  · have h2 : (A ++ R).take b = A ++ R.take (b - A.length) := by
      rw [List.take_append, List.take_of_length_le (by omega)]
    rw [h2]; simp [List.append_assoc]
  · exact (h3.append (.refl _)).append (.single hJ)
  · simp at he ⊢; omega

/-- `_concat`. -/
theorem concat_spec {cfg : JoinNumeric} {lex : Lex} {path path' : List NodeData} {b e : Nat} {p : NumParser}
    (h : cfg.concat lex path b e p = .ok path') :
    path' = path ∨ (b < e ∧ e ≤ path.length ∧ path' = path' ∧ ∃ n infos f norm, path' = path.take b ++ n :: path.drop e ∧
      Spans (pySlice path b e) n ∧ InfosOf lex (pySlice path b e) infos ∧ infos.head? = some f ∧ f.posId = cfg.posId ∧
      Concatenation infos f.posId norm n ∧
      (cfg.normalize = false → 2 ≤ e - b ∧ norm = normText infos) ∧
      (cfg.normalize = true → ∃ s, p.getNormalized.2 = .ok s ∧ (s ≠ [] → norm = s ∧ (2 ≤ e - b ∨ s ≠ f.normalizedForm)))) := by
  unfold JoinNumeric.concat at h
  simp only [bind, Except.bind, pure, Except.pure] at h
  split at h
  · cases h
  · rename_i first hf
    split at h
    · cases h
    · rename_i fi hfi
      split at h
      · injection h with h; exact .inl h.symm
      · rename_i hpos
        have hpos : fi.posId = cfg.posId := by simpa using hpos
        -- the first info of the block is `fi`
        have hfirst : ∀ {infos f}, b < e → InfosOf lex (pySlice path b e) infos → infos.head? = some f → f = fi := by
          intro infos f hbe hI hhd
          have hh : (pySlice path b e).head? = some first := by rw [pySlice_head? _ hbe]; exact (pyGet_ok hf).2
          unfold InfosOf at hI
          cases hps : pySlice path b e with
          | nil => rw [hps] at hh; simp at hh
          | cons x xs =>
            rw [hps] at hh hI
            cases infos with
            | nil => simp at hhd
            | cons y ys =>
              simp only [List.map_cons, List.cons.injEq] at hI
              simp only [List.head?_cons, Option.some.injEq] at hh hhd
              rw [hh, hfi] at hI
              injection hI.1 with hh'
              rw [← hhd, hh']
        split at h
        · rename_i hnorm
          split at h
          · cases h
          · rename_i s hs
            split at h
            · rename_i hc
              obtain ⟨h1, h2, n, infos, f, h3, h4, h5, h6, h7⟩ := concatenate_spec h
              refine .inr ⟨h1, h2, rfl, n, infos, f, _, h3, h4, h5, h6, ?_, h7, fun hh => (by rw [hnorm] at hh; cases hh), fun _ => ⟨s, hs, fun hne => ?_⟩⟩
              · rw [hfirst h1 h5 h6]; exact hpos
              · have : s.isEmpty = false := by cases s with
                  | nil => exact absurd rfl hne
                  | cons => rfl
                rw [this]
                refine ⟨rfl, ?_⟩
                rw [hfirst h1 h5 h6]
                rcases hc with hc | hc
                · left; omega
                · right; exact hc
            · injection h with h; exact .inl h.symm
        · rename_i hnorm
          split at h
          · rename_i hc
            obtain ⟨h1, h2, n, infos, f, h3, h4, h5, h6, h7⟩ := concatenate_spec h
            refine .inr ⟨h1, h2, rfl, n, infos, f, _, h3, h4, h5, h6, ?_, h7, fun hh => ⟨by omega, by simp⟩, fun hh => absurd hh hnorm⟩
            rw [hfirst h1 h5 h6]; exact hpos
          · injection h with h; exact .inl h.symm

/-- One `_concat` on a block whose normalised forms (and possibly a separator after them) have been fed. -/
theorem concat_progress {cfg : JoinNumeric} {lex : Lex} {orig path path' : List NodeData} {b e : Nat} {p0 : NumParser}
    {infos : List WordInfo} {tail : PStr}
    (hp : Progress (NumJoin cfg lex orig) orig path b) (hI : InfosOf lex (pySlice path b e) infos)
    (htail : tail = [] ∨ tail = [44] ∨ tail = [46])
    (hfed : NumParser.init.appendAll (normText infos ++ tail) = (p0, true)) (hdone : tail = [] → p0.done.2 = true)
    (hsep : tail ≠ [] → ∃ d ∈ orig, ∃ w, nodeWordInfo lex d = .ok w ∧ (w.normalizedForm = [44] ∨ w.normalizedForm = [46]))
    (h : cfg.concat lex path b e p0.done.1 = .ok path') :
    Progress (NumJoin cfg lex orig) orig path' (b + 1) ∧ path'.length ≤ path.length := by
  rcases concat_spec h with rfl | ⟨h1, h2, _, n, infos', f, norm, h3, h4, h5, h6, h7, h8, h9, h10⟩
  · exact ⟨hp.mono (by omega), Nat.le_refl _⟩
  · have hII : infos' = infos := by
      unfold InfosOf at hI h5
      rw [hI] at h5
      exact (List.map_inj_right (fun a b hab => by injection hab)).mp h5.symm
    subst hII
    have hlen : (pySlice path b e).length = e - b := pySlice_length _ h2
    rw [h3]
    refine ⟨hp.splice (Nat.le_refl _) h1 h2 ⟨h4, infos', norm, h5, ⟨f, h6, h7⟩, by rw [← h7]; exact h8, ?_, ?_⟩, ?_⟩
    · intro hn
      obtain ⟨a1, a2⟩ := h9 hn
      exact ⟨by omega, a2⟩
    · intro hn
      obtain ⟨s, hs, hs2⟩ := h10 hn
      obtain ⟨s', hs', hcan, hnum⟩ := read_number htail hfed hdone
      rw [hs] at hs'
      injection hs' with hs'
      subst hs'
      obtain ⟨rfl, hd⟩ := hs2 hcan.ne_nil
      refine ⟨?_, ?_⟩
      · rcases hd with hd | hd
        · left; omega
        · right
          intro heq
          cases infos' with
          | nil => simp at h6
          | cons y ys =>
            simp only [List.head?_cons, Option.some.injEq] at h6
            simp only [List.map_cons, List.cons.injEq] at heq
            rw [← h6] at hd
            exact hd heq.1.symm
      · rcases hnum with hnum | ⟨ht, hnum⟩
        · exact .inl hnum
        · exact .inr ⟨hnum, hcan, hsep ht⟩
    · simp; omega

theorem InfosOf.append {lex : Lex} {a b : List NodeData} {x y : List WordInfo} (h1 : InfosOf lex a x) (h2 : InfosOf lex b y) :
    InfosOf lex (a ++ b) (x ++ y) := by
  unfold InfosOf at *
  rw [List.map_append, List.map_append, h1, h2]

theorem pySlice_succ {α : Type} {l : List α} {b e : Nat} (hbe : b ≤ e) {x : α} (hx : l[e]? = some x) :
    pySlice l b (e + 1) = pySlice l b e ++ [x] := by
  unfold pySlice
  have : l.take (e + 1) = l.take e ++ [x] := by
    rw [List.take_add_one, hx]; rfl
  have hlt : e < l.length := by
    rcases Nat.lt_or_ge e l.length with h | h
    · exact h
    · rw [List.getElem?_eq_none h] at hx; cases hx
  rw [this, List.drop_append_of_le_length (by rw [List.length_take]; omega)]

theorem InfosOf.take {lex : Lex} {a b : List NodeData} {z : List WordInfo} (h : InfosOf lex (a ++ b) z) :
    ∃ x y, z = x ++ y ∧ InfosOf lex a x ∧ InfosOf lex b y := by
  unfold InfosOf at *
  rw [List.map_append] at h
  have := List.map_eq_append_iff.mp h.symm
  obtain ⟨x, y, rfl, h1, h2⟩ := this
  exact ⟨x, y, rfl, h1.symm, h2.symm⟩

/-- The number being collected. -/
structure Collect (lex : Lex) (st : JNState) (b : Nat) : Prop where
  lt : b < st.next
  le : st.next ≤ st.path.length
  fed : ∃ infos, InfosOf lex (pySlice st.path b st.next) infos ∧
    NumParser.init.appendAll (normText infos) = (st.parser, true)

/-- The loop invariant. -/
structure JNInv (cfg : JoinNumeric) (lex : Lex) (orig : List NodeData) (st : JNState) : Prop where
  prog : Progress (NumJoin cfg lex orig) orig st.path (st.begin_.getD st.next)
  collect : ∀ b, st.begin_ = some b → Collect lex st b

theorem normText_append (x y : List WordInfo) : normText (x ++ y) = normText x ++ normText y := by
  simp [normText]

theorem normText_single (w : WordInfo) : normText [w] = w.normalizedForm := by simp [normText]

/-- The last node of a collected number. -/
theorem Collect.last {lex : Lex} {st : JNState} {b : Nat} (c : Collect lex st b) {prev : NodeData} {wi : WordInfo}
    (hprev : st.path[st.next - 1]? = some prev) (hwi : nodeWordInfo lex prev = .ok wi) :
    ∃ infos, InfosOf lex (pySlice st.path b (st.next - 1)) infos ∧
      NumParser.init.appendAll (normText infos ++ wi.normalizedForm) = (st.parser, true) := by
  obtain ⟨infos, h1, h2⟩ := c.fed
  have hlt := c.lt
  have hs : pySlice st.path b st.next = pySlice st.path b (st.next - 1) ++ [prev] := by
    have := pySlice_succ (l := st.path) (b := b) (e := st.next - 1) (by omega) hprev
    rwa [show st.next - 1 + 1 = st.next by omega] at this
  rw [hs] at h1
  obtain ⟨x, y, rfl, hx, hy⟩ := h1.take
  refine ⟨x, hx, ?_⟩
  have : y = [wi] := by
    unfold InfosOf at hy
    rw [List.map_singleton, hwi] at hy
    cases y with
    | nil => simp at hy
    | cons a as =>
      cases as with
      | nil => simp at hy; rw [hy]
      | cons => simp at hy
  rw [normText_append, this, normText_single] at h2
  exact h2

theorem close_spec {cfg : JoinNumeric} {lex : Lex} {orig : List NodeData} {st : JNState} (hi : JNInv cfg lex orig st)
    {path' : List NodeData} {next' : Nat} (h : st.close cfg lex = .ok (path', next')) :
    Progress (NumJoin cfg lex orig) orig path' next' ∧ path'.length ≤ st.path.length ∧
      st.begin_.getD st.next < next' := by
  unfold JNState.close at h
  split at h
  · rename_i hb
    injection h with h
    injection h with h1 h2
    subst h1 h2
    have := hi.prog
    rw [hb] at this ⊢
    exact ⟨this.mono (by simp), Nat.le_refl _, by simp⟩
  · rename_i b hb
    have c := hi.collect b hb
    have hp := hi.prog
    rw [hb] at hp ⊢
    simp only [Option.getD_some] at hp ⊢
    split at h
    · rename_i p hd
      simp only [bind, Except.bind, pure, Except.pure] at h
      split at h
      · cases h
      · rename_i pth hc
        injection h with h
        injection h with h1 h2
        subst h1 h2
        obtain ⟨infos, g1, g2⟩ := c.fed
        have := concat_progress (tail := []) hp g1 (.inl rfl) (by rw [List.append_nil]; exact g2)
          (fun _ => by rw [hd]) (fun hh => absurd rfl hh) (by rw [hd]; exact hc)
        exact ⟨this.1.mono (by omega), this.2, by omega⟩
    · rename_i p hd
      simp only [bind, Except.bind, pure, Except.pure] at h
      split at h
      · cases h
      · rename_i prev hprev
        split at h
        · cases h
        · rename_i wi hwi
          split at h
          · rename_i hh
            split at h
            · cases h
            · rename_i pth hc
              injection h with h
              injection h with h1 h2
              subst h1 h2
              obtain ⟨infos, g1, g2⟩ := c.last (pyGet_ok hprev).2 hwi
              have hsep : wi.normalizedForm = [44] ∨ wi.normalizedForm = [46] := by
                simp only [hangs, Bool.or_eq_true, Bool.and_eq_true, decide_eq_true_eq] at hh
                rcases hh with hh | hh
                · exact .inl hh.2
                · exact .inr hh.2
              have := concat_progress (tail := wi.normalizedForm) hp g1 (.inr hsep) g2
                (fun hh => by rw [hh] at hsep; simp at hsep)
                (fun _ => ⟨prev, hp.mem (by have := c.lt; omega) (pyGet_ok hprev).2, wi, hwi, hsep⟩)
                (by rw [hd]; exact hc)
              exact ⟨this.1.mono (by omega), this.2, by omega⟩
          · injection h with h
            injection h with h1 h2
            subst h1 h2
            have := c.lt
            exact ⟨hp.mono (by omega), Nat.le_refl _, by omega⟩

theorem feed_inv {cfg : JoinNumeric} {lex : Lex} {orig : List NodeData} {st : JNState} (hi : JNInv cfg lex orig st)
    {node : NodeData} (hn : st.path[st.next]? = some node) {wi : WordInfo} (hwi : nodeWordInfo lex node = .ok wi) :
    JNInv cfg lex orig (st.feed wi.normalizedForm) := by
  have hlt : st.next < st.path.length := by
    rcases Nat.lt_or_ge st.next st.path.length with h | h
    · exact h
    · rw [List.getElem?_eq_none h] at hn; cases hn
  have hI1 : InfosOf lex [node] [wi] := by simp [InfosOf, hwi]
  have hp := hi.prog
  unfold JNState.feed
  cases hb : st.begin_ with
  | none =>
    rw [hb] at hp
    simp only [Option.getD_none] at hp
    dsimp only
    split
    · rename_i p hap
      refine ⟨by dsimp only [Option.getD_some]; exact hp, ?_⟩
      intro b hb'
      injection hb' with hb'
      subst hb'
      refine ⟨by simp, hlt, [wi], ?_, by rw [normText_single]; exact hap⟩
      dsimp only
      rw [pySlice_succ (Nat.le_refl _) hn]
      have : pySlice st.path st.next st.next = [] := by
        unfold pySlice; rw [List.drop_eq_nil_of_le]; rw [List.length_take]; omega
      rw [this]
      exact hI1
    · rename_i p hap
      split
      · exact ⟨by dsimp only [Option.getD_none]; exact hp, fun b hb' => by cases hb'⟩
      · exact ⟨by dsimp only [Option.getD_none]; exact hp, fun b hb' => by cases hb'⟩
      · exact ⟨by dsimp only [Option.getD_none]; exact hp.mono (by omega), fun b hb' => by cases hb'⟩
  | some b =>
    rw [hb] at hp
    simp only [Option.getD_some] at hp
    have c := hi.collect b hb
    have hlt' := c.lt
    obtain ⟨infos, g1, g2⟩ := c.fed
    dsimp only
    split
    · rename_i p hap
      refine ⟨by dsimp only [Option.getD_some]; exact hp, ?_⟩
      intro b' hb'
      injection hb' with hb'
      subst hb'
      refine ⟨by dsimp only; omega, hlt, infos ++ [wi], ?_, ?_⟩
      · dsimp only
        rw [pySlice_succ (by omega) hn]
        exact g1.append hI1
      · rw [normText_append, normText_single, NumParser.appendAll_append, g2]
        exact hap
    · rename_i p hap
      split
      · exact ⟨by dsimp only [Option.getD_none]; exact hp, fun b hb' => by cases hb'⟩
      · exact ⟨by dsimp only [Option.getD_none]; exact hp, fun b hb' => by cases hb'⟩
      · exact ⟨by dsimp only [Option.getD_none]; exact hp.mono (by omega), fun b hb' => by cases hb'⟩

theorem step_inv {cfg : JoinNumeric} {lex : Lex} {t : InputText} {orig : List NodeData} {st st' : JNState}
    (hi : JNInv cfg lex orig st) (h : st.step cfg lex t = .ok st') : JNInv cfg lex orig st' := by
  unfold JNState.step at h
  simp only [bind, Except.bind, pure, Except.pure] at h
  split at h
  · cases h
  · rename_i node hn
    split at h
    · cases h
    · split at h
      · cases h
      · rename_i wi hwi
        split at h
        · injection h with h
          subst h
          exact feed_inv hi (pyGet_ok hn).2 hwi
        · split at h
          · cases h
          · rename_i pn hc
            injection h with h
            subst h
            obtain ⟨h1, _, _⟩ := close_spec hi hc
            exact ⟨h1, fun b hb => by cases hb⟩

theorem finish_spec {cfg : JoinNumeric} {lex : Lex} {orig : List NodeData} {st : JNState}
    (hi : JNInv cfg lex orig st) (hend : ¬ st.next < st.path.length) {path' : List NodeData} (h : st.finish cfg lex = .ok path') :
    Coarsens (NumJoin cfg lex orig) orig path' := by
  unfold JNState.finish at h
  split at h
  · injection h with h
    rw [← h]
    exact hi.prog.coarsens
  · rename_i b hb
    have c := hi.collect b hb
    have hp := hi.prog
    rw [hb] at hp
    simp only [Option.getD_some] at hp
    have hle := c.le
    have hlt := c.lt
    have hnx : st.next = st.path.length := by omega
    split at h
    · rename_i p hd
      obtain ⟨infos, g1, g2⟩ := c.fed
      rw [hnx] at g1
      have := concat_progress (tail := []) hp g1 (.inl rfl) (by rw [List.append_nil]; exact g2)
          (fun _ => by rw [hd]) (fun hh => absurd rfl hh) (by rw [hd]; exact h)
      exact this.1.coarsens
    · rename_i p hd
      simp only [bind, Except.bind, pure, Except.pure] at h
      split at h
      case h_2 => cases h
      case h_1 =>
        rename_i prev hprev
        have hprev' : st.path[st.next - 1]? = some prev := by
          rw [hnx, ← hprev, List.getLast?_eq_getElem?]
        split at h
        · cases h
        · rename_i wi hwi
          split at h
          · rename_i hh
            obtain ⟨infos, g1, g2⟩ := c.last hprev' hwi
            have hsep : wi.normalizedForm = [44] ∨ wi.normalizedForm = [46] := by
              simp only [hangs, Bool.or_eq_true, Bool.and_eq_true, decide_eq_true_eq] at hh
              rcases hh with hh | hh
              · exact .inl hh.2
              · exact .inr hh.2
            rw [hnx] at g1
            have := concat_progress (tail := wi.normalizedForm) hp g1 (.inr hsep) g2
              (fun hh => by rw [hh] at hsep; simp at hsep)
              (fun _ => ⟨prev, hp.mem (by omega) hprev', wi, hwi, hsep⟩)
              (by rw [hd]; exact h)
            exact this.1.coarsens
          · injection h with h
            rw [← h]
            exact hp.coarsens

theorem loop_coarsens {cfg : JoinNumeric} {lex : Lex} {t : InputText} {orig : List NodeData} : ∀ (fuel : Nat) {st : JNState},
    JNInv cfg lex orig st → ∀ {path'}, JNState.loop cfg lex t fuel st = .ok path' →
    Coarsens (NumJoin cfg lex orig) orig path' := by
  intro fuel
  induction fuel with
  | zero =>
    intro st hi path' h
    unfold JNState.loop at h
    split at h
    · cases h
    · rename_i hend
      exact finish_spec hi hend h
  | succ fuel ih =>
    intro st hi path' h
    unfold JNState.loop at h
    split at h
    · dsimp only at h
      split at h
      · cases h
      · rename_i st' hs
        exact ih (step_inv hi hs) h
    · rename_i hend
      exact finish_spec hi hend h

end Sudachi
