import Verif.Lemmas.JoinNumeric2
namespace Sudachi

/-- The result is not "ran out of fuel". -/
def NoFuel {α : Type} (r : Res α) : Prop := r ≠ .error .outOfFuel

theorem NoFuel.ok {α : Type} (a : α) : NoFuel (.ok a : Res α) := fun h => by cases h

theorem NoFuel.bind {α β : Type} {r : Res α} {f : α → Res β} (h : NoFuel r) (hf : ∀ a, r = .ok a → NoFuel (f a)) :
    NoFuel (r >>= f) := by
  cases hr : r with
  | error e =>
    intro h'
    simp only [Bind.bind, Except.bind] at h'
    rw [hr] at h
    injection h' with h'
    exact h (by rw [h'])
  | ok a => exact hf a hr

theorem NoFuel.pyGet {α : Type} (l : List α) (i : Nat) : NoFuel (pyGet l i) := by
  unfold Sudachi.pyGet
  split <;> intro h <;> cases h

theorem NoFuel.ite {α : Type} {c : Prop} [Decidable c] {a b : Res α} (ha : NoFuel a) (hb : NoFuel b) : NoFuel (if c then a else b) := by
  split <;> assumption

theorem NoFuel.commonCats (t : InputText) : ∀ (is : List Nat) (c : CatSet), NoFuel (InputText.commonCats t c is) := by
  intro is
  induction is with
  | nil => intro c; exact .ok _
  | cons i is ih =>
    intro c
    unfold InputText.commonCats
    exact (NoFuel.pyGet _ _).bind (fun _ _ => ih _)

theorem NoFuel.charCategoryTypes (t : InputText) (b e : Nat) : NoFuel (t.charCategoryTypes b e) := by
  unfold InputText.charCategoryTypes
  refine NoFuel.bind ?_ (fun n _ => .ite (.ok _) ?_)
  · unfold InputText.charCategoryContinuousLength
    exact NoFuel.pyGet _ _
  · exact (NoFuel.pyGet _ _).bind (fun _ _ => (NoFuel.pyGet _ _).bind (fun _ _ => (NoFuel.pyGet _ _).bind (fun _ _ => .commonCats _ _ _)))

theorem NoFuel.stripLoop (sig : PStr) : ∀ k, NoFuel (SNum.stripLoop sig k) := by
  intro k
  induction k with
  | zero => exact .ok _
  | succ k ih =>
    unfold SNum.stripLoop
    exact .ite (.ite (fun h => by cases h) ih) (.ok _)

theorem NoFuel.str (n : SNum) : NoFuel n.str.2 := by
  have key : ∀ (m : SNum) (r : Res Int), NoFuel r → NoFuel (match r with
      | .error e => (m, .error e)
      | .ok i =>
        let n := m.truncate (i + 1).toNat
        if i < 0 then (n, .error .value)
        else
          let dot := n.sig[i.toNat]? = some 46
          let n := { n with pos := min (i.toNat + 1) (max n.sig.length i.toNat) }
          let n := if dot then n.truncate i.toNat else n
          (n, .ok n.sig) : SNum × Res PStr).2 := by
    intro m r hr
    cases r with
    | error e => intro h; apply hr; injection h with h; rw [h]
    | ok i =>
      dsimp only
      split
      · intro h; cases h
      · exact .ok _
  unfold SNum.str
  split
  · exact .ok _
  · dsimp only
    split
    · exact .ok _
    · split
      · exact key _ _ (NoFuel.stripLoop _ _)
      · exact .ok _

theorem Lex.Honest.node {lex : Lex} (h : lex.Honest) (d : NodeData) : NoFuel (nodeWordInfo lex d) := by
  unfold nodeWordInfo
  refine .ite (.ok _) ?_
  split
  · exact .ok _
  · exact h _

theorem Lex.Honest.nodes {lex : Lex} (h : lex.Honest) : ∀ ds : List NodeData, NoFuel (nodeWordInfos lex ds)
  | [] => .ok _
  | d :: ds => by
    unfold nodeWordInfos
    exact (h.node d).bind (fun _ _ => (h.nodes ds).bind (fun _ _ => .ok _))

theorem Lex.Honest.concatenate {lex : Lex} (h : lex.Honest) (path : List NodeData) (b e : Nat) (s : PStr) :
    NoFuel (concatenate lex path b e s) := by
  unfold Sudachi.concatenate
  refine .ite (fun h => by cases h) ?_
  exact (NoFuel.pyGet _ _).bind (fun _ _ => (NoFuel.pyGet _ _).bind (fun _ _ => (h.node _).bind (fun _ _ =>
    (h.nodes _).bind (fun _ _ => .ok _))))

theorem Lex.Honest.concat {lex : Lex} (h : lex.Honest) (cfg : JoinNumeric) (path : List NodeData) (b e : Nat) (p : NumParser) :
    NoFuel (cfg.concat lex path b e p) := by
  unfold JoinNumeric.concat
  refine (NoFuel.pyGet _ _).bind (fun _ _ => (h.node _).bind (fun _ _ => .ite (.ok _) (.ite ?_ (.ite (h.concatenate _ _ _ _) (.ok _)))))
  exact NoFuel.bind (NoFuel.str _) (fun _ _ => .ite (h.concatenate _ _ _ _) (.ok _))

theorem Lex.Honest.close {lex : Lex} (h : lex.Honest) (cfg : JoinNumeric) (st : JNState) : NoFuel (st.close cfg lex) := by
  unfold JNState.close
  split
  · exact .ok _
  · split
    · exact (h.concat _ _ _ _ _).bind (fun _ _ => .ok _)
    · exact (NoFuel.pyGet _ _).bind (fun _ _ => (h.node _).bind (fun _ _ => .ite ((h.concat _ _ _ _ _).bind (fun _ _ => .ok _)) (.ok _)))

theorem Lex.Honest.step {lex : Lex} (h : lex.Honest) (cfg : JoinNumeric) (t : InputText) (st : JNState) : NoFuel (st.step cfg lex t) := by
  unfold JNState.step
  exact (NoFuel.pyGet _ _).bind (fun _ _ => (NoFuel.charCategoryTypes _ _ _).bind (fun _ _ => (h.node _).bind (fun _ _ =>
    .ite (.ok _) ((h.close _ _).bind (fun _ _ => .ok _)))))

theorem Lex.Honest.finish {lex : Lex} (h : lex.Honest) (cfg : JoinNumeric) (st : JNState) : NoFuel (st.finish cfg lex) := by
  unfold JNState.finish
  split
  · exact .ok _
  · split
    · exact h.concat _ _ _ _ _
    · split
      · exact (h.node _).bind (fun _ _ => .ite (h.concat _ _ _ _ _) (.ok _))
      · intro h; cases h

namespace NumParser

/-- Where the errors come from. -/
theorem append_error {p : NumParser} (he : p.error = .none) {c : Nat} :
    ((p.append c).2 = true → (p.append c).1.error = .none ∧ ((p.append c).1.hasComma = true → c = 44 ∨ p.hasComma = true)) ∧
    ((p.append c).1.error = .comma → c = 44 ∨ (c = 46 ∧ p.hasComma = true)) ∧
    ((p.append c).1.error = .point → c = 46) := by
  unfold append
  split
  · rename_i h46
    unfold appendPoint
    dsimp only
    split
    · simp [h46]
    · split
      · rename_i hc
        simp only [Bool.and_eq_true] at hc
        simp [h46, hc.1]
      · split
        · simp [h46]
        · simp [he, h46]
  · split
    · rename_i h44
      unfold appendComma
      split
      · simp [h44]
      · simp [he, h44]
    · rename_i h46 h44
      split
      · simp [he]
      · split
        · unfold appendSmall
          dsimp only
          split <;> simp [he]
        · split
          · unfold appendLarge
            dsimp only
            split
            · simp [he]
            · split
              · simp [he]
              · split <;> simp [he]
          · simp [he]
            intro h; exact Or.inr h

theorem appendAll_plain {s : PStr} (h44 : 44 ∉ s) (h46 : 46 ∉ s) : ∀ {p : NumParser}, p.error = .none →
    (p.appendAll s).1.error = .none ∧ ((p.appendAll s).2 = true → (p.appendAll s).1.hasComma = true → p.hasComma = true) := by
  induction s with
  | nil => intro p he; exact ⟨he, fun _ h => h⟩
  | cons c s ih =>
    intro p he
    have hc44 : c ≠ 44 := fun h => h44 (by simp [h])
    have hc46 : c ≠ 46 := fun h => h46 (by simp [h])
    obtain ⟨h1, h2, h3⟩ := append_error he (c := c)
    unfold appendAll
    split
    · rename_i p' hp
      rw [hp] at h1
      obtain ⟨h4, h5⟩ := h1 rfl
      obtain ⟨h6, h7⟩ := ih (fun h => h44 (by simp [h])) (fun h => h46 (by simp [h])) h4
      refine ⟨h6, fun ha hb => ?_⟩
      rcases h5 (h7 ha hb) with h | h
      · exact absurd h hc44
      · exact h
    · rename_i p' hp
      rw [hp] at h2 h3
      refine ⟨?_, fun h => by cases h⟩
      have key : p'.error = .none ∨ p'.error = .comma ∨ p'.error = .point := by
        unfold append at hp
        rw [if_neg hc46, if_neg hc44] at hp
        left
        revert hp
        split
        · intro h; injection h with h _; rw [← h]; exact he
        · split
          · unfold appendSmall
            dsimp only
            split
            · intro h; injection h with h _; rw [← h]; exact he
            · intro h; injection h with _ h; cases h
          · split
            · unfold appendLarge
              dsimp only
              split
              · intro h; injection h with h _; rw [← h]; exact he
              · split
                · intro h; injection h with h _; rw [← h]; exact he
                · split
                  · intro h; injection h with h _; rw [← h]; exact he
                  · intro h; injection h with _ h; cases h
            · intro h; injection h with _ h; cases h
      rcases key with k | k | k
      · exact k
      · rcases h2 k with h | h
        · exact absurd h hc44
        · exact absurd h.1 hc46
      · exact absurd (h3 k) hc46

theorem appendAll_single (p : NumParser) (c : Nat) : p.appendAll [c] = p.append c := by
  unfold appendAll
  split
  · rename_i h; rw [h]; rfl
  · rename_i h; rw [h]

end NumParser

/-- Where the position may be rewound to. -/
def JNState.lb (st : JNState) : Nat := st.begin_.getD st.next

def JNState.flags (st : JNState) : Nat := st.comma.toNat + st.period.toNat

/-- The measure. -/
def JNState.mu (N : Nat) (st : JNState) : Nat := ((st.path.length - st.lb) * 3 + st.flags) * (N + 1) + (st.path.length - st.next)

/-- The parser while a number is collected. -/
def JNState.Quiet (st : JNState) : Prop :=
  st.begin_.isSome → st.parser.error = .none ∧ (st.parser.hasComma = true → st.comma = true)

structure JNState.Smaller (N : Nat) (st st' : JNState) : Prop where
  len : st'.path.length ≤ N
  lbLen : st'.lb ≤ st'.next
  lt : st'.mu N < st.mu N

theorem feed_smaller {N : Nat} {st : JNState} (hN : st.path.length ≤ N) (hlb : st.lb ≤ st.next) (hlt : st.next < st.path.length) (hq : st.Quiet) {s : PStr}
    (hs : (44 ∉ s ∧ 46 ∉ s) ∨ (s = [46] ∧ st.period = true) ∨ (s = [44] ∧ st.comma = true)) :
    (st.feed s).Quiet ∧ st.Smaller N (st.feed s) := by
  -- the parser the word is fed to
  have key : ∀ (p0 : NumParser) (b : Nat), p0.error = .none → (p0.hasComma = true → st.comma = true) → b = st.lb →
      (st.feed s = match p0.appendAll s with
        | (p, true) => { st with next := st.next + 1, begin_ := some b, parser := p }
        | (p, false) =>
          match p.error with
          | .comma => { st with comma := false, next := b, begin_ := none, parser := p }
          | .point => { st with period := false, next := b, begin_ := none, parser := p }
          | _ => { st with next := st.next + 1, begin_ := none, parser := p }) →
      (st.feed s).Quiet ∧ st.Smaller N (st.feed s) := by
    intro p0 b he hc hb hf
    subst hb
    rw [hf]
    have hap : ((p0.appendAll s).2 = true → (p0.appendAll s).1.error = .none ∧ ((p0.appendAll s).1.hasComma = true → st.comma = true)) ∧
        ((p0.appendAll s).1.error = .comma → st.comma = true) ∧ ((p0.appendAll s).1.error = .point → st.period = true) := by
      rcases hs with ⟨h1, h2⟩ | ⟨rfl, hp⟩ | ⟨rfl, hp⟩
      · obtain ⟨h3, h4⟩ := NumParser.appendAll_plain h1 h2 he
        rw [h3]
        exact ⟨fun h => ⟨rfl, fun h' => hc (h4 h h')⟩, (fun h => by cases h), (fun h => by cases h)⟩
      · rw [NumParser.appendAll_single]
        obtain ⟨h3, h4, h5⟩ := NumParser.append_error he (c := 46)
        refine ⟨fun h => ⟨(h3 h).1, fun h' => ?_⟩, fun h => ?_, fun _ => hp⟩
        · rcases (h3 h).2 h' with h'' | h''
          · cases h''
          · exact hc h''
        · rcases h4 h with h'' | h''
          · cases h''
          · exact hc h''.2
      · rw [NumParser.appendAll_single]
        obtain ⟨h3, h4, h5⟩ := NumParser.append_error he (c := 44)
        refine ⟨fun h => ⟨(h3 h).1, fun h' => hp⟩, fun h => hp, fun h => absurd (h5 h) (by decide)⟩
    obtain ⟨a1, a2, a3⟩ := hap
    have other : ∀ p : NumParser, JNState.Quiet { st with next := st.next + 1, begin_ := none, parser := p } ∧
        st.Smaller N { st with next := st.next + 1, begin_ := none, parser := p } := by
      intro p
      refine ⟨fun h => (by cases h), hN, by simp [JNState.lb], ?_⟩
      unfold JNState.mu
      have hl : JNState.lb { st with next := st.next + 1, begin_ := none, parser := p } = st.next + 1 := rfl
      rw [hl]
      have hfl : JNState.flags { st with next := st.next + 1, begin_ := none, parser := p } = st.flags := rfl
      rw [hfl]
      dsimp only
      have h1 : (st.path.length - (st.next + 1)) * 3 + st.flags ≤ (st.path.length - st.lb) * 3 + st.flags := by omega
      have := Nat.mul_le_mul_right (N + 1) h1
      omega
    cases hr : p0.appendAll s with
    | mk p r =>
      rw [hr] at a1 a2 a3
      cases r with
      | true =>
        dsimp only
        refine ⟨fun _ => a1 rfl, hN, ?_, ?_⟩
        · show st.lb ≤ st.next + 1
          omega
        · unfold JNState.mu
          have hl : JNState.lb { st with next := st.next + 1, begin_ := some st.lb, parser := p } = st.lb := rfl
          rw [hl]
          have hfl : JNState.flags { st with next := st.next + 1, begin_ := some st.lb, parser := p } = st.flags := rfl
          rw [hfl]
          dsimp only
          omega
      | false =>
        dsimp only
        cases hpe : p.error with
        | comma =>
          dsimp only
          refine ⟨fun h => (by cases h), hN, by simp [JNState.lb], ?_⟩
          have hl : JNState.lb ⟨st.path, st.lb, none, false, st.period, p⟩ = st.lb := rfl
          have hfl : JNState.flags ⟨st.path, st.lb, none, false, st.period, p⟩ + 1 = st.flags := by
            simp only [JNState.flags, a2 hpe, Bool.toNat_true, Bool.toNat_false]; omega
          unfold JNState.mu
          rw [hl, ← hfl]
          dsimp only
          rw [← Nat.add_assoc, Nat.add_mul _ 1, Nat.one_mul]
          omega
        | point =>
          dsimp only
          refine ⟨fun h => (by cases h), hN, by simp [JNState.lb], ?_⟩
          have hl : JNState.lb ⟨st.path, st.lb, none, st.comma, false, p⟩ = st.lb := rfl
          have hfl : JNState.flags ⟨st.path, st.lb, none, st.comma, false, p⟩ + 1 = st.flags := by
            simp only [JNState.flags, a3 hpe, Bool.toNat_true, Bool.toNat_false]
          unfold JNState.mu
          rw [hl, ← hfl]
          dsimp only
          rw [← Nat.add_assoc, Nat.add_mul _ 1, Nat.one_mul]
          omega
        | none => exact other p
        | other => exact other p
  cases hb : st.begin_ with
  | none =>
    refine key .init st.next rfl (fun h => by cases h) (by simp [JNState.lb, hb]) ?_
    unfold JNState.feed
    rw [hb]
    dsimp only
    rfl
  | some b =>
    obtain ⟨h1, h2⟩ := hq (by rw [hb]; rfl)
    refine key st.parser b h1 h2 (by simp [JNState.lb, hb]) ?_
    unfold JNState.feed
    rw [hb]
    dsimp only
    rfl

theorem step_smaller {cfg : JoinNumeric} {lex : Lex} {t : InputText} {orig : List NodeData} (hpl : PlainNumerals lex t orig)
    {st st' : JNState} {N : Nat} (hi : JNInv cfg lex orig st) (hN : st.path.length ≤ N) (hlb : st.lb ≤ st.next)
    (hlt : st.next < st.path.length) (hq : st.Quiet) (h : st.step cfg lex t = .ok st') : st'.Quiet ∧ st.Smaller N st' := by
  unfold JNState.step at h
  simp only [bind, Except.bind, pure, Except.pure] at h
  split at h
  · cases h
  · rename_i node hn
    split at h
    · cases h
    · rename_i types hty
      split at h
      · cases h
      · rename_i wi hwi
        split at h
        · rename_i hd
          injection h with h
          subst h
          refine feed_smaller hN hlb hlt hq ?_
          simp only [digitNode, Bool.or_eq_true, Bool.and_eq_true, decide_eq_true_eq] at hd
          rcases hd with ((hd | hd) | hd) | hd
          · exact .inl (hpl node (hi.prog.mem hlb (pyGet_ok hn).2) types wi hty hwi (.inl hd))
          · exact .inl (hpl node (hi.prog.mem hlb (pyGet_ok hn).2) types wi hty hwi (.inr hd))
          · exact .inr (.inl ⟨hd.2, hd.1⟩)
          · exact .inr (.inr ⟨hd.2, hd.1⟩)
        · split at h
          · cases h
          · rename_i pn hc
            injection h with h
            subst h
            obtain ⟨h1, h2, h3⟩ := close_spec hi hc
            have h3 : st.lb < pn.2 := h3
            refine ⟨fun hh => (by cases hh), by dsimp only; omega, by simp [JNState.lb], ?_⟩
            unfold JNState.mu
            have hfl : JNState.flags ⟨pn.1, pn.2, none, st.comma || decide (wi.normalizedForm ≠ [44]), st.period || decide (wi.normalizedForm ≠ [46]), st.parser⟩ ≤ 2 := by
              unfold JNState.flags
              have := Bool.toNat_le (st.comma || decide (wi.normalizedForm ≠ [44]))
              have := Bool.toNat_le (st.period || decide (wi.normalizedForm ≠ [46]))
              dsimp only
              omega
            have hl : JNState.lb ⟨pn.1, pn.2, none, st.comma || decide (wi.normalizedForm ≠ [44]), st.period || decide (wi.normalizedForm ≠ [46]), st.parser⟩ = pn.2 := rfl
            rw [hl]
            generalize hF : JNState.flags _ = F at hfl ⊢
            dsimp only
            have h4 : (pn.1.length - pn.2) * 3 + F + 1 ≤ (st.path.length - st.lb) * 3 + st.flags := by omega
            have := Nat.mul_le_mul_right (N + 1) h4
            rw [Nat.add_mul _ 1, Nat.one_mul] at this
            omega

theorem loop_noFuel {cfg : JoinNumeric} {lex : Lex} {t : InputText} {orig : List NodeData} (hpl : PlainNumerals lex t orig)
    (hh : lex.Honest) {N : Nat} : ∀ (fuel : Nat) {st : JNState}, JNInv cfg lex orig st → st.path.length ≤ N → st.lb ≤ st.next → st.Quiet →
      st.mu N ≤ fuel → NoFuel (JNState.loop cfg lex t fuel st) := by
  intro fuel
  induction fuel with
  | zero =>
    intro st hi hN hlb hq hmu
    unfold JNState.loop
    split
    · rename_i hlt
      unfold JNState.mu at hmu
      omega
    · exact hh.finish _ _
  | succ fuel ih =>
    intro st hi hN hlb hq hmu
    unfold JNState.loop
    split
    · rename_i hlt
      dsimp only
      have hst := hh.step cfg t st
      split
      · rename_i e he
        rw [he] at hst
        intro h; apply hst; injection h with h; rw [h]
      · rename_i st' hs
        obtain ⟨h1, h2⟩ := step_smaller hpl hi hN hlb hlt hq hs
        exact ih (step_inv hi hs) h2.len h2.lbLen h1 (by have := h2.lt; omega)
    · exact hh.finish _ _

theorem loop_fuel_mono {cfg : JoinNumeric} {lex : Lex} {t : InputText} : ∀ (fuel : Nat) {st : JNState},
    NoFuel (JNState.loop cfg lex t fuel st) → ∀ k, JNState.loop cfg lex t (fuel + k) st = JNState.loop cfg lex t fuel st := by
  intro fuel
  induction fuel with
  | zero =>
    intro st h k
    unfold JNState.loop at h ⊢
    split
    · rename_i hlt
      rw [if_pos hlt] at h
      exact absurd rfl h
    · rfl
  | succ fuel ih =>
    intro st h k
    rw [show fuel + 1 + k = (fuel + k) + 1 by omega]
    unfold JNState.loop at h ⊢
    split
    · rename_i hlt
      rw [if_pos hlt] at h
      dsimp only at h ⊢
      split
      · rfl
      · rename_i st' hs
        rw [hs] at h
        exact ih h k
    · rfl

end Sudachi
