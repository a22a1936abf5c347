import Verif.Lemmas.JoinNumeric3
namespace Sudachi

/-! ### Moving the path -/

theorem pyGet_shift {α : Type} (X l : List α) (i : Nat) : pyGet (X ++ l) (X.length + i) = pyGet l i := by
  unfold pyGet
  rw [List.getElem?_append_right (by omega), Nat.add_sub_cancel_left]

theorem pySlice_shift {α : Type} (X l : List α) (a b : Nat) : pySlice (X ++ l) (X.length + a) (X.length + b) = pySlice l a b := by
  unfold pySlice
  rw [List.take_append, List.take_of_length_le (by omega), Nat.add_sub_cancel_left, List.drop_append,
    List.drop_eq_nil_of_le (by omega), Nat.add_sub_cancel_left, List.nil_append]

theorem pyGet_ext {α : Type} (l Y : List α) {i : Nat} (h : i < l.length) : pyGet (l ++ Y) i = pyGet l i := by
  unfold pyGet
  rw [List.getElem?_append_left h]

theorem pySlice_ext {α : Type} (l Y : List α) (a : Nat) {b : Nat} (h : b ≤ l.length) : pySlice (l ++ Y) a b = pySlice l a b := by
  unfold pySlice
  rw [List.take_append_of_le_length h]

theorem Except.map_bind' {α β γ : Type} (r : Res α) (f : α → Res β) (g : β → γ) :
    Except.map g (r >>= f) = r >>= fun a => Except.map g (f a) := by
  cases r <;> rfl

theorem concatenate_shift (lex : Lex) (X path : List NodeData) (b e : Nat) (s : PStr) :
    concatenate lex (X ++ path) (X.length + b) (X.length + e) s = Except.map (X ++ ·) (concatenate lex path b e s) := by
  unfold concatenate
  by_cases h : b ≥ e
  · rw [if_pos h, if_pos (by omega)]; rfl
  · rw [if_neg h, if_neg (by omega), show X.length + e - 1 = X.length + (e - 1) by omega, pyGet_shift, pyGet_shift, pySlice_shift]
    simp only [Except.map_bind']
    congr 1; funext first
    congr 1; funext last
    congr 1; funext fi
    congr 1; funext infos
    simp only [pure, Except.pure, Except.map, spliceOne]
    rw [Nat.max_eq_right (by omega), Nat.max_eq_right (by omega), List.take_append, List.take_of_length_le (by omega), Nat.add_sub_cancel_left,
      List.drop_append, List.drop_eq_nil_of_le (by omega), Nat.add_sub_cancel_left, List.nil_append, List.append_assoc]

theorem map_ite {α β : Type} {c : Prop} [Decidable c] (g : α → β) (a b : Res α) :
    Except.map g (if c then a else b) = if c then Except.map g a else Except.map g b := by split <;> rfl

theorem concat_shift (cfg : JoinNumeric) (lex : Lex) (X path : List NodeData) (b e : Nat) (p : NumParser) :
    cfg.concat lex (X ++ path) (X.length + b) (X.length + e) p = Except.map (X ++ ·) (cfg.concat lex path b e p) := by
  unfold JoinNumeric.concat
  rw [pyGet_shift]
  simp only [Except.map_bind', map_ite, concatenate_shift]
  congr 1; funext first
  congr 1; funext fi
  rw [show ((X.length + e : Nat) : Int) - ((X.length + b : Nat) : Int) = (e : Int) - b by omega]
  rfl

theorem concatenate_ext (lex : Lex) (path Y : List NodeData) {b e : Nat} (he : e ≤ path.length) (s : PStr) :
    concatenate lex (path ++ Y) b e s = Except.map (· ++ Y) (concatenate lex path b e s) := by
  unfold concatenate
  by_cases h : b ≥ e
  · rw [if_pos h, if_pos (by omega)]; rfl
  · rw [if_neg h, if_neg (by omega), pyGet_ext _ _ (by omega), pyGet_ext _ _ (by omega), pySlice_ext _ _ _ he]
    simp only [Except.map_bind']
    congr 1; funext first
    congr 1; funext last
    congr 1; funext fi
    congr 1; funext infos
    simp only [pure, Except.pure, Except.map, spliceOne]
    rw [Nat.max_eq_right (by omega), List.take_append_of_le_length (by omega), List.drop_append_of_le_length he]
    simp

theorem concat_ext (cfg : JoinNumeric) (lex : Lex) (path Y : List NodeData) {b e : Nat} (hb : b < path.length) (he : e ≤ path.length)
    (p : NumParser) : cfg.concat lex (path ++ Y) b e p = Except.map (· ++ Y) (cfg.concat lex path b e p) := by
  unfold JoinNumeric.concat
  rw [pyGet_ext _ _ hb]
  simp only [Except.map_bind', map_ite, concatenate_ext lex path Y he]
  rfl

/-- A number being collected lies inside the path. -/
def JNState.Inside (st : JNState) : Prop := ∀ b, st.begin_ = some b → b < st.next ∧ st.next ≤ st.path.length

theorem JNInv.inside {cfg : JoinNumeric} {lex : Lex} {orig : List NodeData} {st : JNState} (h : JNInv cfg lex orig st) : st.Inside :=
  fun b hb => ⟨(h.collect b hb).lt, (h.collect b hb).le⟩

def JNState.shift (X : List NodeData) (st : JNState) : JNState :=
  ⟨X ++ st.path, X.length + st.next, st.begin_.map (X.length + ·), st.comma, st.period, st.parser⟩

def JNState.ext (st : JNState) (Y : List NodeData) : JNState := { st with path := st.path ++ Y }

theorem feed_shift (X : List NodeData) (st : JNState) (s : PStr) : (st.shift X).feed s = (st.feed s).shift X := by
  cases hb : st.begin_ with
  | none =>
    simp only [JNState.feed, JNState.shift, hb, Option.map_none]
    split
    · simp [Nat.add_assoc]
    · split <;> simp [Nat.add_assoc]
  | some b =>
    simp only [JNState.feed, JNState.shift, hb, Option.map_some]
    split
    · simp [Nat.add_assoc]
    · split <;> simp [Nat.add_assoc]

theorem feed_ext (Y : List NodeData) (st : JNState) (s : PStr) : (st.ext Y).feed s = (st.feed s).ext Y := by
  cases hb : st.begin_ with
  | none =>
    simp only [JNState.feed, JNState.ext, hb]
    split
    · rfl
    · split <;> rfl
  | some b =>
    simp only [JNState.feed, JNState.ext, hb]
    split
    · rfl
    · split <;> rfl

theorem close_shift (cfg : JoinNumeric) (lex : Lex) (X : List NodeData) {st : JNState} (hi : st.Inside) :
    (st.shift X).close cfg lex = Except.map (fun q => (X ++ q.1, X.length + q.2)) (st.close cfg lex) := by
  unfold JNState.close
  cases hb : st.begin_ with
  | none => simp [JNState.shift, hb, Except.map, Nat.add_assoc]
  | some b =>
    have hlt := (hi b hb).1
    simp only [JNState.shift, hb, Option.map_some]
    split
    · rw [concat_shift]
      cases cfg.concat lex st.path b st.next _ with
      | error e => rfl
      | ok x => simp [Except.map, bind, Except.bind, pure, Except.pure, Nat.add_assoc]
    · rw [show X.length + st.next - 1 = X.length + (st.next - 1) by omega, pyGet_shift]
      simp only [Except.map_bind', map_ite, concat_shift]
      congr 1; funext prev
      congr 1; funext wi
      congr 1
      cases cfg.concat lex st.path b (st.next - 1) _ with
      | error e => rfl
      | ok x => simp [Except.map, bind, Except.bind, pure, Except.pure, Nat.add_assoc]

theorem close_ext (cfg : JoinNumeric) (lex : Lex) (Y : List NodeData) {st : JNState} (hi : st.Inside) :
    (st.ext Y).close cfg lex = Except.map (fun q => (q.1 ++ Y, q.2)) (st.close cfg lex) := by
  unfold JNState.close
  cases hb : st.begin_ with
  | none => simp [JNState.ext, hb, Except.map]
  | some b =>
    have hlt := hi b hb
    simp only [JNState.ext, hb]
    split
    · rw [concat_ext _ _ _ _ (by omega) hlt.2]
      cases cfg.concat lex st.path b st.next _ with
      | error e => rfl
      | ok x => simp [Except.map, bind, Except.bind, pure, Except.pure]
    · rw [pyGet_ext _ _ (by omega), concat_ext _ _ _ _ (by omega) (by omega)]
      simp only [Except.map_bind', map_ite]
      congr 1; funext prev
      congr 1; funext wi
      congr 1
      cases cfg.concat lex st.path b (st.next - 1) _ with
      | error e => rfl
      | ok x => simp [Except.map, bind, Except.bind, pure, Except.pure]

theorem step_shift (cfg : JoinNumeric) (lex : Lex) (t : InputText) (X : List NodeData) {st : JNState} (hi : st.Inside) :
    (st.shift X).step cfg lex t = Except.map (·.shift X) (st.step cfg lex t) := by
  unfold JNState.step
  rw [show pyGet (st.shift X).path (st.shift X).next = pyGet st.path st.next from pyGet_shift _ _ _]
  simp only [Except.map_bind', map_ite, feed_shift, close_shift cfg lex X hi]
  congr 1; funext node
  congr 1; funext types
  congr 1; funext wi
  congr 1
  cases st.close cfg lex with
  | error e => rfl
  | ok q => rfl

theorem step_ext (cfg : JoinNumeric) (lex : Lex) (t : InputText) (Y : List NodeData) {st : JNState} (hi : st.Inside)
    (hn : st.next < st.path.length) : (st.ext Y).step cfg lex t = Except.map (·.ext Y) (st.step cfg lex t) := by
  unfold JNState.step
  rw [show pyGet (st.ext Y).path (st.ext Y).next = pyGet st.path st.next from pyGet_ext _ _ hn]
  simp only [Except.map_bind', map_ite, feed_ext, close_ext cfg lex Y hi]
  congr 1; funext node
  congr 1; funext types
  congr 1; funext wi
  congr 1
  cases st.close cfg lex with
  | error e => rfl
  | ok q => rfl

theorem finish_shift (cfg : JoinNumeric) (lex : Lex) (X : List NodeData) {st : JNState} (hi : st.Inside) :
    (st.shift X).finish cfg lex = Except.map (X ++ ·) (st.finish cfg lex) := by
  unfold JNState.finish
  cases hb : st.begin_ with
  | none => simp [JNState.shift, hb, Except.map]
  | some b =>
    have hlt := hi b hb
    have hne : st.path ≠ [] := by
      intro h; rw [h] at hlt; simp at hlt; omega
    simp only [JNState.shift, hb, Option.map_some]
    split
    · rw [List.length_append, concat_shift]
    · have : (X ++ st.path).getLast? = st.path.getLast? := by
        rw [List.getLast?_append]
        cases h : st.path.getLast? with
        | none => rw [List.getLast?_eq_none_iff] at h; exact absurd h hne
        | some x => rfl
      rw [this, List.length_append, show X.length + st.path.length - 1 = X.length + (st.path.length - 1) by omega, concat_shift]
      cases st.path.getLast? with
      | none => rfl
      | some x =>
        simp only [Except.map_bind', map_ite]
        rfl

theorem loop_shift {cfg : JoinNumeric} {lex : Lex} {t : InputText} {orig : List NodeData} (X : List NodeData) : ∀ (fuel : Nat) {st : JNState},
    JNInv cfg lex orig st →
    JNState.loop cfg lex t fuel (st.shift X) = Except.map (X ++ ·) (JNState.loop cfg lex t fuel st) := by
  intro fuel
  induction fuel with
  | zero =>
    intro st hi
    unfold JNState.loop
    have : ((st.shift X).next < (st.shift X).path.length) = (st.next < st.path.length) := by
      simp [JNState.shift]
    rw [finish_shift cfg lex X hi.inside]
    simp only [this]
    rw [map_ite]
    rfl
  | succ fuel ih =>
    intro st hi
    unfold JNState.loop
    have : ((st.shift X).next < (st.shift X).path.length) = (st.next < st.path.length) := by
      simp [JNState.shift]
    rw [finish_shift cfg lex X hi.inside]
    simp only [this]
    rw [map_ite, step_shift cfg lex t X hi.inside]
    congr 1
    cases hs : st.step cfg lex t with
    | error e => rfl
    | ok st' => exact ih (step_inv hi hs)

/-! ### Between breakers -/

theorem feed_next (st : JNState) (s : PStr) (hi : st.Inside) : (st.feed s).path = st.path ∧ (st.feed s).next ≤ st.next + 1 := by
  have : st.begin_.getD st.next ≤ st.next := by
    cases hb : st.begin_ with
    | none => exact Nat.le_refl _
    | some b => have := (hi b hb).1; simp; omega
  unfold JNState.feed
  split
  rename_i p0 b h
  have hb : b ≤ st.next := by
    split at h
    · injection h with _ h; omega
    · rename_i b' hb'
      injection h with _ h
      have := (hi b' hb').1
      omega
  split
  · exact ⟨rfl, Nat.le_refl _⟩
  · split
    · exact ⟨rfl, by dsimp only; omega⟩
    · exact ⟨rfl, by dsimp only; omega⟩
    · exact ⟨rfl, Nat.le_refl _⟩

theorem concat_tail {cfg : JoinNumeric} {lex : Lex} {path path' : List NodeData} {b e : Nat} {p : NumParser} (hbe : b < e) (he : e ≤ path.length)
    (h : cfg.concat lex path b e p = .ok path') : ∃ P', path' = P' ++ path.drop e ∧ b + 1 ≤ P'.length := by
  rcases concat_spec h with rfl | ⟨_, _, _, n, infos', f, norm, h3, _⟩
  · exact ⟨path'.take e, (List.take_append_drop _ _).symm, by rw [List.length_take]; omega⟩
  · refine ⟨path.take b ++ [n], by rw [h3]; simp, by simp; omega⟩

theorem close_tail {cfg : JoinNumeric} {lex : Lex} {orig : List NodeData} {st : JNState} (hi : JNInv cfg lex orig st)
    (hn : st.next < st.path.length) {path' : List NodeData} {next' : Nat} (h : st.close cfg lex = .ok (path', next')) :
    ∃ P', path' = P' ++ st.path.drop st.next ∧ next' ≤ P'.length + 1 := by
  have stay : ∃ P', st.path = P' ++ st.path.drop st.next ∧ st.next + 1 ≤ P'.length + 1 :=
    ⟨st.path.take st.next, (List.take_append_drop _ _).symm, by rw [List.length_take]; omega⟩
  unfold JNState.close at h
  split at h
  · injection h with h
    injection h with h1 h2
    subst h1 h2
    exact stay
  · rename_i b hb
    have c := hi.collect b hb
    have hlt := c.lt
    split at h
    · simp only [bind, Except.bind, pure, Except.pure] at h
      split at h
      · cases h
      · rename_i pth hc
        injection h with h
        injection h with h1 h2
        subst h1 h2
        obtain ⟨P', h1, h2⟩ := concat_tail c.lt c.le hc
        exact ⟨P', h1, by omega⟩
    · simp only [bind, Except.bind, pure, Except.pure] at h
      split at h
      · cases h
      · rename_i prev hprev
        split at h
        · cases h
        · rename_i wi hwi
          split at h
          · rename_i hh
            split at h
            · cases h
            · rename_i pth hc
              injection h with h
              injection h with h1 h2
              subst h1 h2
              have hsep : wi.normalizedForm = [44] ∨ wi.normalizedForm = [46] := by
                simp only [hangs, Bool.or_eq_true, Bool.and_eq_true, decide_eq_true_eq] at hh
                rcases hh with hh | hh
                · exact .inl hh.2
                · exact .inr hh.2
              obtain ⟨infos, g1, g2⟩ := c.last (pyGet_ok hprev).2 hwi
              have hb2 : b + 2 ≤ st.next := by
                rcases Nat.lt_or_ge (b + 1) st.next with h' | h'
                · omega
                · exfalso
                  have : pySlice st.path b (st.next - 1) = [] := by
                    unfold pySlice; rw [List.drop_eq_nil_of_le]; rw [List.length_take]; omega
                  rw [this] at g1
                  have : infos = [] := by
                    unfold InfosOf at g1
                    cases infos with
                    | nil => rfl
                    | cons => simp at g1
                  rw [this] at g2
                  rcases hsep with h' | h' <;> rw [h'] at g2 <;> injection g2 with _ g2 <;> cases g2
              obtain ⟨P', h1, h2⟩ := concat_tail (by omega) (by have := c.le; omega) hc
              have hlt : st.next - 1 < st.path.length := by omega
              refine ⟨P' ++ [st.path[st.next - 1]], ?_, by simp; omega⟩
              rw [h1, List.drop_eq_getElem_cons hlt, show st.next - 1 + 1 = st.next by omega]
              simp
          · injection h with h
            injection h with h1 h2
            subst h1 h2
            exact stay

theorem Breaker.not_digit {lex : Lex} {t : InputText} {d : NodeData} (h : Breaker lex t d) {types : CatSet} {w : WordInfo}
    (ht : t.charCategoryTypes d.begin_ d.end_ = .ok types) (hw : nodeWordInfo lex d = .ok w) (c p : Bool) :
    digitNode types w.normalizedForm c p = false ∧ w.normalizedForm ≠ [44] ∧ w.normalizedForm ≠ [46] := by
  obtain ⟨types', w', h1, h2, h3, h4, h5, h6⟩ := h
  rw [ht] at h1
  rw [hw] at h2
  injection h1 with h1
  injection h2 with h2
  subst h1 h2
  refine ⟨?_, h5, h6⟩
  simp [digitNode, h3, h4, h5, h6]

/-- A step of a state whose path ends in a breaker stays before the breaker's end, or passes it with a clean state. -/
theorem step_breaker {cfg : JoinNumeric} {lex : Lex} {t : InputText} {orig : List NodeData} {st st' : JNState} {P : List NodeData}
    {brk : NodeData} (hi : JNInv cfg lex orig st) (hbrk : Breaker lex t brk) (hp : st.path = P ++ [brk]) (hn : st.next ≤ P.length)
    (h : st.step cfg lex t = .ok st') :
    ∃ P', st'.path = P' ++ [brk] ∧ (st'.next ≤ P'.length ∨
      (st'.next = P'.length + 1 ∧ st'.begin_ = none ∧ st'.comma = true ∧ st'.period = true)) := by
  have hlen : st.next < st.path.length := by rw [hp]; simp; omega
  unfold JNState.step at h
  simp only [bind, Except.bind, pure, Except.pure] at h
  split at h
  · cases h
  · rename_i node hnode
    split at h
    · cases h
    · rename_i types hty
      split at h
      · cases h
      · rename_i wi hwi
        have hnode' := (pyGet_ok hnode).2
        split at h
        · rename_i hd
          injection h with h
          subst h
          obtain ⟨h1, h2⟩ := feed_next st wi.normalizedForm hi.inside
          refine ⟨P, by rw [h1, hp], .inl ?_⟩
          rcases Nat.lt_or_ge st.next P.length with h' | h'
          · omega
          · exfalso
            have : node = brk := by
              rw [hp, List.getElem?_append_right h', show st.next - P.length = 0 by omega] at hnode'
              simpa using hnode'.symm
            subst this
            rw [(hbrk.not_digit hty hwi _ _).1] at hd
            cases hd
        · split at h
          · cases h
          · rename_i pn hc
            injection h with h
            subst h
            obtain ⟨P', h1, h2⟩ := close_tail hi hlen hc
            rw [hp, List.drop_append_of_le_length hn] at h1
            rcases Nat.lt_or_ge st.next P.length with h' | h'
            · refine ⟨P' ++ P.drop st.next, by rw [← List.append_assoc] at h1; exact h1, .inl ?_⟩
              dsimp only
              simp
              omega
            · have hnil : P.drop st.next = [] := List.drop_eq_nil_of_le h'
              rw [hnil, List.nil_append] at h1
              have : node = brk := by
                rw [hp, List.getElem?_append_right h', show st.next - P.length = 0 by omega] at hnode'
                simpa using hnode'.symm
              subst this
              obtain ⟨_, h3, h4⟩ := hbrk.not_digit hty hwi st.comma st.period
              refine ⟨P', h1, ?_⟩
              dsimp only
              rcases Nat.lt_or_ge P'.length pn.2 with h5 | h5
              · exact .inr ⟨by omega, rfl, by simp [h3], by simp [h4]⟩
              · exact .inl h5

theorem JNInv.start (cfg : JoinNumeric) (lex : Lex) (path : List NodeData) (p : NumParser) :
    JNInv cfg lex path ⟨path, 0, none, true, true, p⟩ := ⟨Progress.start path, fun b h => by cases h⟩

/-- Before a new number is begun the parser's state does not matter. -/
theorem loop_parser {cfg : JoinNumeric} {lex : Lex} {t : InputText} : ∀ (fuel : Nat) (path : List NodeData) (n : Nat) (c d : Bool) (p q : NumParser),
    JNState.loop cfg lex t fuel ⟨path, n, none, c, d, p⟩ = JNState.loop cfg lex t fuel ⟨path, n, none, c, d, q⟩ := by
  intro fuel
  induction fuel with
  | zero =>
    intro path n c d p q
    unfold JNState.loop JNState.finish
    rfl
  | succ fuel ih =>
    intro path n c d p q
    unfold JNState.loop JNState.finish
    dsimp only
    congr 1
    unfold JNState.step
    dsimp only [bind, Except.bind]
    cases pyGet path n with
    | error e => rfl
    | ok node =>
      dsimp only
      cases t.charCategoryTypes node.begin_ node.end_ with
      | error e => rfl
      | ok types =>
        dsimp only
        cases nodeWordInfo lex node with
        | error e => rfl
        | ok wi =>
          dsimp only
          cases digitNode types wi.normalizedForm c d with
          | true => rfl
          | false => exact ih _ _ _ _ _ _

theorem loop_breaker {cfg : JoinNumeric} {lex : Lex} {t : InputText} {orig : List NodeData} {brk : NodeData} (hbrk : Breaker lex t brk)
    (B : List NodeData) {out : List NodeData} : ∀ (fuel : Nat) {st : JNState} {P : List NodeData}, JNInv cfg lex orig st → st.path = P ++ [brk] →
    (st.next ≤ P.length ∨ (st.next = P.length + 1 ∧ st.begin_ = none ∧ st.comma = true ∧ st.period = true)) →
    JNState.loop cfg lex t fuel (st.ext B) = .ok out →
    ∃ A' B', out = A' ++ brk :: B' ∧ JNState.loop cfg lex t fuel st = .ok (A' ++ [brk]) ∧
      cfg.rewrite lex fuel t B = .ok B' := by
  intro fuel
  have pass : ∀ {fuel : Nat} {st : JNState} {P : List NodeData}, JNInv cfg lex orig st → st.path = P ++ [brk] →
      (st.next = P.length + 1 ∧ st.begin_ = none ∧ st.comma = true ∧ st.period = true) →
      JNState.loop cfg lex t fuel (st.ext B) = .ok out →
      ∃ A' B', out = A' ++ brk :: B' ∧ JNState.loop cfg lex t fuel st = .ok (A' ++ [brk]) ∧
        cfg.rewrite lex fuel t B = .ok B' := by
    intro fuel st P hi hp hst h
    obtain ⟨h1, h2, h3, h4⟩ := hst
    have hs : st.ext B = JNState.shift (P ++ [brk]) ⟨B, 0, none, true, true, st.parser⟩ := by
      cases st
      simp_all [JNState.ext, JNState.shift]
    rw [hs, loop_shift (P ++ [brk]) fuel (JNInv.start cfg lex B _), loop_parser fuel B 0 true true _ .init] at h
    cases hl : JNState.loop cfg lex t fuel ⟨B, 0, none, true, true, .init⟩ with
    | error e => rw [hl] at h; cases h
    | ok B' =>
      rw [hl] at h
      injection h with h
      refine ⟨P, B', by rw [← h]; simp, ?_, hl⟩
      unfold JNState.loop JNState.finish
      rw [if_neg (by rw [hp]; simp; omega), h2, hp]
  induction fuel with
  | zero =>
    intro st P hi hp hst h
    rcases hst with hst | hst
    · unfold JNState.loop at h
      rw [if_pos (by simp [JNState.ext, hp]; omega)] at h
      cases h
    · exact pass hi hp hst h
  | succ fuel ih =>
    intro st P hi hp hst h
    rcases hst with hst | hst
    · have hlen : st.next < st.path.length := by rw [hp]; simp; omega
      unfold JNState.loop at h ⊢
      rw [if_pos (by simp [JNState.ext, hp]; omega)] at h
      rw [if_pos hlen]
      dsimp only at h ⊢
      rw [step_ext cfg lex t B hi.inside hlen] at h
      cases hs : st.step cfg lex t with
      | error e => rw [hs] at h; cases h
      | ok st' =>
        rw [hs] at h
        obtain ⟨P', h1, h2⟩ := step_breaker hi hbrk hp hst hs
        obtain ⟨A', B', g1, g2, g3⟩ := ih (step_inv hi hs) h1 h2 h
        refine ⟨A', B', g1, g2, ?_⟩
        have := loop_fuel_mono fuel (st := ⟨B, 0, none, true, true, .init⟩) (cfg := cfg) (lex := lex) (t := t) (by
          unfold JoinNumeric.rewrite at g3; rw [g3]; exact .ok _) 1
        unfold JoinNumeric.rewrite at g3 ⊢
        rw [this, g3]
    · exact pass hi hp hst h

/-! ### A run of number words -/

theorem InfosOf.length {lex : Lex} {ds : List NodeData} {ws : List WordInfo} (h : InfosOf lex ds ws) : ds.length = ws.length := by
  have := congrArg List.length h
  simpa using this

theorem InfosOf.get {lex : Lex} {ds : List NodeData} {ws : List WordInfo} (h : InfosOf lex ds ws) {i : Nat} (hi : i < ds.length) :
    ∃ d w, ds[i]? = some d ∧ ws[i]? = some w ∧ nodeWordInfo lex d = .ok w := by
  have hl := h.length
  refine ⟨ds[i], ws[i], List.getElem?_eq_getElem hi, List.getElem?_eq_getElem (by omega), ?_⟩
  unfold InfosOf at h
  have := congrArg (·[i]?) h
  simp only [List.getElem?_map, List.getElem?_eq_getElem hi, List.getElem?_eq_getElem (show i < ws.length by omega), Option.map_some] at this
  injection this

theorem appendAll_prefix {p q : NumParser} {a b : PStr} (h : p.appendAll (a ++ b) = (q, true)) : ∃ r, p.appendAll a = (r, true) ∧ r.appendAll b = (q, true) := by
  rw [NumParser.appendAll_append] at h
  split at h
  · rename_i r hr; exact ⟨r, hr, h⟩
  · injection h with _ h; cases h

/-- Reading a run. -/
theorem loop_run {cfg : JoinNumeric} {lex : Lex} {t : InputText} {run rest : List NodeData} {infos : List WordInfo}
    (hI : InfosOf lex run infos) (hnl : ∀ d ∈ run, NumberLike lex t d) : ∀ (m : Nat), m < run.length → ∀ {p : NumParser},
    NumParser.init.appendAll (normText (infos.take (m + 1))) = (p, true) → ∀ fuel,
    JNState.loop cfg lex t (fuel + (m + 1)) ⟨run ++ rest, 0, none, true, true, .init⟩ =
      JNState.loop cfg lex t fuel ⟨run ++ rest, m + 1, some 0, true, true, p⟩ := by
  have one : ∀ (m : Nat) (hm : m < run.length) (st : JNState), st.path = run ++ rest → st.next = m → st.comma = true → st.period = true →
      ∃ w, infos[m]? = some w ∧ st.step cfg lex t = .ok (st.feed w.normalizedForm) := by
    intro m hm st h1 h2 h3 h4
    obtain ⟨d, w, hd, hw, hdw⟩ := hI.get hm
    obtain ⟨types, w', n1, n2, n3⟩ := hnl d (List.mem_of_getElem? hd)
    rw [hdw] at n2
    injection n2 with n2
    subst n2
    refine ⟨w, hw, ?_⟩
    unfold JNState.step
    have hg : pyGet st.path st.next = .ok d := by
      unfold pyGet
      rw [h1, h2, List.getElem?_append_left hm, hd]
    rw [hg, h3, h4]
    simp only [bind, Except.bind, n1, hdw]
    have : digitNode types w.normalizedForm true true = true := by
      rcases n3 with h | h | h | h <;> simp [digitNode, h]
    rw [this, if_pos rfl]
    rfl
  intro m
  induction m with
  | zero =>
    intro hm p hp fuel
    obtain ⟨w, hw, hs⟩ := one 0 hm ⟨run ++ rest, 0, none, true, true, .init⟩ rfl rfl rfl rfl
    unfold JNState.loop
    rw [if_pos (by simp; omega)]
    dsimp only
    rw [hs]
    dsimp only
    have : infos.take (0 + 1) = [w] := by rw [List.take_add_one, hw]; rfl
    rw [this, normText_single] at hp
    simp only [JNState.feed, hp]
    conv => lhs; unfold JNState.loop
  | succ m ih =>
    intro hm p hp fuel
    have hsplit : infos = infos.take (m + 1) ++ infos.drop (m + 1) := (List.take_append_drop _ _).symm
    obtain ⟨w, hw, hs⟩ := one (m + 1) hm ⟨run ++ rest, m + 1, some 0, true, true, .init⟩ rfl rfl rfl rfl
    have htake : infos.take (m + 1 + 1) = infos.take (m + 1) ++ [w] := by rw [List.take_add_one, hw]; rfl
    rw [htake, normText_append] at hp
    obtain ⟨r, hr1, hr2⟩ := appendAll_prefix hp
    rw [show fuel + (m + 1 + 1) = (fuel + 1) + (m + 1) by omega, ih (by omega) hr1 (fuel + 1)]
    obtain ⟨w', hw', hs⟩ := one (m + 1) hm ⟨run ++ rest, m + 1, some 0, true, true, r⟩ rfl rfl rfl rfl
    rw [hw] at hw'
    injection hw' with hw'
    subst hw'
    unfold JNState.loop
    rw [if_pos (by simp; omega)]
    dsimp only
    rw [hs]
    dsimp only
    rw [normText_single] at hr2
    simp only [JNState.feed, hr2]
    conv => lhs; unfold JNState.loop

theorem concatenate_ok {lex : Lex} {path : List NodeData} {b e : Nat} (hbe : b < e) (he : e ≤ path.length) {infos : List WordInfo}
    (hI : InfosOf lex (pySlice path b e) infos) (s : PStr) : ∃ path', concatenate lex path b e s = .ok path' := by
  unfold concatenate
  rw [if_neg (by omega)]
  have h1 : pyGet path b = .ok path[b] := by unfold pyGet; rw [List.getElem?_eq_getElem]
  have h2 : pyGet path (e - 1) = .ok path[e - 1] := by unfold pyGet; rw [List.getElem?_eq_getElem]
  have hl := pySlice_length path (b := b) he
  obtain ⟨d, w, hd, hw, hdw⟩ := hI.get (i := 0) (by omega)
  have h3 : nodeWordInfo lex path[b] = .ok w := by
    have : (pySlice path b e).head? = some d := by rw [List.head?_eq_getElem?]; exact hd
    rw [pySlice_head? _ hbe, List.getElem?_eq_getElem (by omega)] at this
    injection this with this
    rw [this]; exact hdw
  rw [h1, h2]
  simp only [bind, Except.bind, h3, nodeWordInfos_ok.mpr hI]
  exact ⟨_, rfl⟩

/-- `_concat` joins. -/
theorem concat_joins {cfg : JoinNumeric} {lex : Lex} {run rest : List NodeData} {infos : List WordInfo} {f : WordInfo} {norm : PStr}
    {p : NumParser} (hI : InfosOf lex run infos) (hf : infos.head? = some f) (hpos : f.posId = cfg.posId)
    (hnorm : p.getNormalized.2 = .ok norm) (hne : norm ≠ [])
    (hwant : 2 ≤ run.length ∨ (cfg.normalize = true ∧ norm ≠ f.normalizedForm)) :
    ∃ n, cfg.concat lex (run ++ rest) 0 run.length p = .ok (n :: rest) ∧ Spans run n ∧
      Concatenation infos cfg.posId (if cfg.normalize then norm else normText infos) n := by
  have hlen := hI.length
  have hrun : 0 < run.length := by
    cases infos with
    | nil => cases hf
    | cons a b => rw [hlen]; simp
  have hslice : pySlice (run ++ rest) 0 run.length = run := by
    unfold pySlice; simp
  obtain ⟨d, w, hd, hw, hdw⟩ := hI.get hrun
  have hwf : w = f := by
    rw [List.head?_eq_getElem?, hw] at hf
    injection hf
  subst hwf
  have hget : pyGet (run ++ rest) 0 = .ok d := by
    unfold pyGet; rw [List.getElem?_append_left hrun, hd]
  have key : ∀ s : PStr, ∃ n, concatenate lex (run ++ rest) 0 run.length s = .ok (n :: rest) ∧ Spans run n ∧
      Concatenation infos cfg.posId (if s.isEmpty then normText infos else s) n := by
    intro s
    obtain ⟨path', hp⟩ := concatenate_ok (lex := lex) (path := run ++ rest) (b := 0) (e := run.length) hrun (by simp)
      (by rw [hslice]; exact hI) s
    obtain ⟨_, _, n, infos', f', c1, c2, c3, c4, c5⟩ := concatenate_spec hp
    rw [hslice] at c2 c3
    have hII : infos' = infos := by
      unfold InfosOf at hI c3
      rw [hI] at c3
      exact (List.map_inj_right (fun a b hab => by injection hab)).mp c3.symm
    subst hII
    rw [hf] at c4
    injection c4 with c4
    subst c4
    rw [hpos] at c5
    simp only [List.take_zero, List.nil_append, List.drop_left] at c1
    exact ⟨n, by rw [hp, c1], c2, c5⟩
  unfold JoinNumeric.concat
  rw [hget]
  simp only [bind, Except.bind, hdw, hpos, ne_eq, not_true_eq_false, if_false, hnorm]
  cases hn : cfg.normalize with
  | true =>
    obtain ⟨n, k1, k2, k3⟩ := key norm
    refine ⟨n, ?_, k2, ?_⟩
    · rw [if_pos rfl, if_pos]
      · exact k1
      · rcases hwant with h | h
        · left; omega
        · right; exact h.2
    · have : norm.isEmpty = false := by
        cases norm with
        | nil => exact absurd rfl hne
        | cons => rfl
      rw [this] at k3
      exact k3
  | false =>
    obtain ⟨n, k1, k2, k3⟩ := key []
    refine ⟨n, ?_, k2, k3⟩
    rw [hn] at hwant
    have : 2 ≤ run.length := by
      rcases hwant with h | h
      · exact h
      · cases h.1
    rw [if_neg (by simp), if_pos (by omega)]
    exact k1

theorem run_joined {cfg : JoinNumeric} {lex : Lex} {t : InputText} {run : List NodeData} {infos : List WordInfo} {f : WordInfo} {norm : PStr}
    (hI : InfosOf lex run infos) (hnl : ∀ d ∈ run, NumberLike lex t d) (hf : infos.head? = some f) (hpos : f.posId = cfg.posId)
    (hparse : parseNumber (normText infos) = some (.ok norm))
    (hwant : 2 ≤ run.length ∨ (cfg.normalize = true ∧ norm ≠ f.normalizedForm)) :
    ∃ n, Spans run n ∧ Concatenation infos cfg.posId (if cfg.normalize then norm else normText infos) n ∧
      (∀ fuel, run.length ≤ fuel → cfg.rewrite lex fuel t run = .ok [n]) ∧
      (∀ fuel brk, Breaker lex t brk → run.length + 1 ≤ fuel → cfg.rewrite lex fuel t (run ++ [brk]) = .ok [n, brk]) := by
  have hlen := hI.length
  have hrun : 0 < run.length := by
    cases infos with
    | nil => cases hf
    | cons a b => rw [hlen]; simp
  unfold parseNumber at hparse
  split at hparse
  · cases hparse
  · rename_i q hq
    split at hparse
    · cases hparse
    · rename_i p hd
      injection hparse with hnorm
      have hcan : norm ≠ [] := by
        obtain ⟨s', hs', hc, _⟩ := read_number (S := normText infos) (tail := []) (.inl rfl) (by rw [List.append_nil]; exact hq) (fun _ => by rw [hd])
        rw [hd, hnorm] at hs'
        injection hs' with hs'
        rw [hs']; exact hc.ne_nil
      have hread : ∀ rest fuel, JNState.loop cfg lex t (fuel + run.length) ⟨run ++ rest, 0, none, true, true, .init⟩ =
          JNState.loop cfg lex t fuel ⟨run ++ rest, run.length, some 0, true, true, q⟩ := by
        intro rest fuel
        have := loop_run (cfg := cfg) (rest := rest) hI hnl (run.length - 1) (by omega) (p := q) (by
          rw [show run.length - 1 + 1 = infos.length by omega, List.take_length]; exact hq) fuel
        rw [show run.length - 1 + 1 = run.length by omega] at this
        exact this
      obtain ⟨n, c1, c2, c3⟩ := concat_joins (rest := []) hI hf hpos hnorm hcan hwant
      refine ⟨n, c2, c3, ?_, ?_⟩
      · intro fuel hfuel
        have := hread [] (fuel - run.length)
        rw [show fuel - run.length + run.length = fuel by omega, List.append_nil] at this
        unfold JoinNumeric.rewrite
        rw [this]
        unfold JNState.loop JNState.finish
        rw [if_neg (by simp)]
        dsimp only
        rw [hd]
        dsimp only
        rw [List.append_nil] at c1
        exact c1
      · intro fuel brk hbrk hfuel
        have := hread [brk] (fuel - run.length)
        rw [show fuel - run.length + run.length = fuel by omega] at this
        unfold JoinNumeric.rewrite
        rw [this]
        have hc : cfg.concat lex (run ++ [brk]) 0 run.length p = .ok (n :: [brk]) := by
          have := concat_ext cfg lex (run ++ []) [brk] (b := 0) (e := run.length) (by simpa using hrun) (by simp) p
          rw [c1, List.append_nil] at this
          exact this
        obtain ⟨types, w, b1, b2, _⟩ := id hbrk
        have hstep : JNState.step cfg lex t ⟨run ++ [brk], run.length, some 0, true, true, q⟩ =
            .ok ⟨[n, brk], 2, none, true, true, q⟩ := by
          unfold JNState.step
          have hg : pyGet (run ++ [brk]) run.length = .ok brk := by
            unfold pyGet; rw [List.getElem?_append_right (Nat.le_refl _)]; simp
          simp only [hg, bind, Except.bind, b1, b2, (hbrk.not_digit b1 b2 true true).1, Bool.false_eq_true, if_false]
          simp only [JNState.close, hd, hc, bind, Except.bind, pure, Except.pure]
          simp
        obtain ⟨k, hk⟩ : ∃ k, fuel - run.length = k + 1 := ⟨fuel - run.length - 1, by omega⟩
        rw [hk]
        unfold JNState.loop
        rw [if_pos (by simp)]
        dsimp only
        rw [hstep]
        dsimp only
        unfold JNState.loop JNState.finish
        rw [if_neg (by simp)]

end Sudachi
