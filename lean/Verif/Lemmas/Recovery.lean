import Verif.Lemmas.Tokenizer4
import Verif.Spec.Recovery

/-!
# Recovery of a tokenizer after failed calls: lemmas
-/

namespace Sudachi

/-- No node ends beyond position `m`. -/
def Lattice.EmptyBeyond (m : Nat) (L : Lattice) : Prop := ∀ e ns, m < e → L.endLists[e]? = some ns → ns = []

theorem Lattice.Clean.emptyBeyond {L : Lattice} (h : L.Clean) (m : Nat) : L.EmptyBeyond m :=
  fun e ns he hns => h.empty e ns (by omega) hns

/-- A build leaves the positions past the end of the text as empty as they were. -/
theorem build_emptyBeyond {conn : Conn} {bd : Builder} {catOf : Nat → CatSet} {t : InputText} {lex : Lex} (B : Built bd catOf t)
    (hlex : lex.Ok) {plugins : List OovPlugin} {L L' : Lattice} {r : Res Unit}
    {m : Nat} (hm : t.bytes.length ≤ m) (hL : L.EmptyBeyond m) (hb : Sudachi.buildLattice conn lex plugins t L = (L', r)) :
    L'.EmptyBeyond m := by
  have S : Simulates conn t.bytes.length (Fits lex t.bytes.length) (fun L L' => L = L' ∧ L.EmptyBeyond m) := by
    constructor
    · rintro L _ d ⟨rfl, h⟩ hd
      refine ⟨rfl, rfl, ?_⟩
      have happ : ∀ x, (L.append d.end_ x).EmptyBeyond m := by
        intro x e ns he hns
        simp only [Lattice.append] at hns
        rw [List.getElem?_modify] at hns
        have hne : d.end_ ≠ e := by have := hd.2.1; omega
        cases hx : L.endLists[e]? with
        | none => rw [hx] at hns; cases hns
        | some a =>
          rw [hx] at hns
          simp only [Option.map_eq_map, Option.map_some] at hns
          rw [if_neg hne] at hns
          injection hns with hns
          rw [← hns]
          exact h e a he hx
      unfold Lattice.insert
      split
      · exact h
      · split
        · exact happ _
        · split <;> exact happ _
    · rintro L _ i ⟨rfl, _⟩ _; rfl
  have hr : (L.resize t.bytes.length).EmptyBeyond m := by
    intro e ns he hns
    unfold Lattice.resize Lattice.expand at hns
    dsimp only at hns
    split at hns
    · dsimp only at hns
      rcases Nat.lt_or_ge e L.endLists.length with he' | he'
      · rw [List.getElem?_append_left he'] at hns; exact hL e ns he hns
      · rw [List.getElem?_append_right he', List.getElem?_replicate] at hns
        split at hns
        · injection hns with hns; exact hns.symm
        · cases hns
    · exact hL e ns he hns
  obtain ⟨_, _, g⟩ := S.buildLoop (lex := lex) (plugins := plugins) (t := t)
    (is := List.range t.bytes.length) (fun i hi => ⟨List.mem_range.mp hi, fun hbow => B.goodAt hlex plugins hbow⟩) ⟨rfl, hr⟩
  unfold Sudachi.buildLattice at hb
  generalize buildLoop conn lex plugins t (List.range t.bytes.length) (L.resize t.bytes.length) = x at *
  obtain ⟨x1, x2⟩ := x
  dsimp only at g hb
  cases x2 with
  | error e => cases hb; exact g
  | ok u =>
    obtain ⟨f1, f2, f3⟩ := connectEos_frame hb
    intro e ns he hns
    rw [f1] at hns
    exact g e ns he hns

theorem Sane.clear_emptyBeyond {conn : Conn} {lex : Lex} {L L' : Lattice} (h : Sane conn lex L) {r : Res Unit}
    (hc : L.clear = (L', r)) {m : Nat} (hL : L.EmptyBeyond m) : L'.EmptyBeyond m := by
  obtain ⟨L2, hc', _, _, _, _, _, z5, z6⟩ := h.clear
  rw [hc] at hc'
  cases hc'
  intro e ns he hns
  rcases Nat.lt_or_ge L.size e with h1 | h1
  · rw [z6 e (.inr h1)] at hns; exact hL e ns he hns
  · rw [z5 e (by omega) h1] at hns; injection hns with hns; exact hns.symm

/-- Whatever the outcome of a call, no node is left beyond the longest text. -/
theorem tokenize_emptyBeyond {T : Tokenizer} (hp : T.PluginsOk) (hlex : T.lex.Ok) {L L' : Lattice} {text : PStr} {mode : Option Mode}
    {r : Res MorphemeList} (hS : Sane T.conn T.lex L) {m : Nat} (hL : L.EmptyBeyond m)
    (hm : ∀ t, T.buildInput text = .ok t → t.bytes.length ≤ m) (h : T.tokenize L text mode = (L', r)) : L'.EmptyBeyond m := by
  unfold Tokenizer.tokenize at h
  cases text with
  | nil => cases h; exact hL
  | cons c cs =>
    rw [if_neg (by simp)] at h
    cases ht : T.buildInput (c :: cs) with
    | error x => rw [ht] at h; cases h; exact hL
    | ok t =>
      rw [ht] at h
      obtain ⟨bd, b1, b2, _, b4, _⟩ := buildInput_built hp ht
      dsimp only at h
      cases hb : buildLattice T.conn T.lex T.oov t L with
      | mk L1 r1 =>
        rw [hb] at h
        obtain ⟨hS1, _, _⟩ := hS.buildLattice b4 hlex hb
        have hL1 := build_emptyBeyond b4 hlex (hm t ht) hL hb
        cases r1 with
        | error x => cases h; exact hL1
        | ok u =>
          dsimp only at h
          cases hpth : T.bestPath t L1 with
          | error x => rw [hpth] at h; cases h; exact hL1
          | ok path =>
            rw [hpth] at h
            dsimp only at h
            obtain ⟨L2, hcl, _⟩ := hS1.clear
            have hL2 := hS1.clear_emptyBeyond hcl hL1
            rw [hcl] at h
            dsimp only at h
            cases hsp : splitPath T.lex (mode.getD T.mode) path with
            | error x => rw [hsp] at h; cases h; exact hL2
            | ok path' => rw [hsp] at h; cases h; exact hL2

theorem Tokenizer.HistoryUpTo.history {T : Tokenizer} {n : Nat} {L : Lattice} (h : T.HistoryUpTo n L) : T.History L := by
  induction h with
  | fresh => exact .fresh
  | call text mode _ _ heq ih => exact .call text mode ih heq

theorem Tokenizer.HistoryUpTo.emptyBeyond {T : Tokenizer} (hp : T.PluginsOk) (hlex : T.lex.Ok) {n : Nat} {L : Lattice}
    (h : T.HistoryUpTo n L) : L.EmptyBeyond n := by
  induction h with
  | fresh => exact init_clean.emptyBeyond n
  | call text mode h0 hn heq ih => exact tokenize_emptyBeyond hp hlex (h0.history.sane hp hlex) ih hn heq

/-- A successful call on a text at least as long as all texts before leaves a clean lattice. -/
theorem tokenize_recovers {T : Tokenizer} (hp : T.PluginsOk) (hlex : T.lex.Ok) {n : Nat} {L L' : Lattice} (hL : T.HistoryUpTo n L)
    {text : PStr} {mode : Option Mode} {t : InputText} {ml : MorphemeList} (hne : text ≠ []) (ht : T.buildInput text = .ok t)
    (hn : n ≤ t.bytes.length) (h : T.tokenize L text mode = (L', .ok ml)) : L'.Clean := by
  have hS := hL.history.sane hp hlex
  rcases tokenize_run hp h with ⟨h0, _⟩ | ⟨_, ⟨bd, t', L1, path0, path, path', ht', _, _, _, B, hb, _, _, hc, _⟩⟩
  · exact absurd h0 hne
  · rw [ht] at ht'
    cases ht'
    have s1 := hS.buildLattice B hlex hb
    have e1 := build_emptyBeyond B hlex (Nat.le_refl _) (fun e ns he hns => hL.emptyBeyond hp hlex e ns (by omega) hns) hb
    obtain ⟨L2, hc', s2, z1, z2, z3, z4, z5, z6⟩ := s1.1.clear
    rw [hc] at hc'
    cases hc'
    refine ⟨s2.bos, ?_, s2.room, s2.size⟩
    intro e ns he hns
    rcases Nat.lt_or_ge L1.size e with h1 | h1
    · rw [z6 e (.inr h1)] at hns
      exact e1 e ns (by rw [← s1.2.1]; exact h1) hns
    · rw [z5 e he h1] at hns
      injection hns with hns
      exact hns.symm

theorem Tokenizer.Succeeds.clean {T : Tokenizer} (hp : T.PluginsOk) (hlex : T.lex.Ok) {L M : Lattice} (h : T.Succeeds M L)
    (hM : M.Clean) : L.Clean := by
  induction h with
  | done => exact hM
  | call text mode _ heq ih => exact tokenize_clean hp hlex (ih hM) heq

end Sudachi
