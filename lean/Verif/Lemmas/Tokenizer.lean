import Verif.Lemmas.InputPlugins
import Verif.Lemmas.JoinKatakana
import Verif.Lemmas.JoinNumeric4
import Verif.Spec.Tokenizer
namespace Sudachi

/-! ### Input plugins keep the position map valid -/

/-- What an input plugin keeps: the map, the original, and (given `P` for the replacement texts) a property of all characters. -/
structure Kept (bd bd' : Builder) : Prop where
  valid : bd'.Valid
  orig : bd'.original = bd.original
  nonempty : bd.modified ≠ [] → bd'.modified ≠ []

theorem Kept.trans {a b c : Builder} (h : Kept a b) (h' : Kept b c) : Kept a c :=
  ⟨h'.valid, h'.orig.trans h.orig, fun x => h'.nonempty (h.nonempty x)⟩

theorem Kept.refl {a : Builder} (h : a.Valid) : Kept a a := ⟨h, rfl, fun x => x⟩

theorem replace_kept {bd : Builder} (h : bd.Valid) {b e : Int} {s : PStr} (h0 : 0 ≤ b) (hbe : b < e)
    (hb : b < bd.modified.length) (hs : s ≠ []) :
    ∃ bd', bd.replace b e s = .ok bd' ∧ Kept bd bd' ∧
      bd'.modified = bd.modified.take b.toNat ++ s ++ bd.modified.drop e.toNat := by
  obtain ⟨bd', h1, h2, h3, h4⟩ := h.replace (b := b.toNat) (e := e.toNat) (s := s) (by omega) (by omega) hs
  rw [show ((b.toNat : Nat) : Int) = b by omega, show ((e.toNat : Nat) : Int) = e by omega] at h1
  refine ⟨bd', h1, ⟨h2, h3, ?_⟩, h4⟩
  intro _
  rw [h4]
  simp [hs]

theorem defaultLoop_kept {tb : RewriteTable} {lower nfkc : PStr → PStr}
    (hlow : ∀ c, lower [c] ≠ []) (hnf : ∀ s, s ≠ [] → nfkc s ≠ []) (text : PStr) :
    ∀ (fuel i : Nat) (offset : Int) (bd : Builder), bd.Valid → (bd.modified.length : Int) = text.length + offset →
      0 ≤ i + offset → i ≤ text.length → text.length - i < fuel →
      ∃ bd', defaultLoop tb lower nfkc text fuel i offset bd = .ok bd' ∧ Kept bd bd' := by
  intro fuel
  induction fuel with
  | zero => intro i offset bd _ _ _ _ h; omega
  | succ fuel ih =>
    intro i offset bd hv hl h0 hi hf
    unfold defaultLoop
    cases hc : text[i]? with
    | none => exact ⟨bd, rfl, .refl hv⟩
    | some original =>
      have hi' : i < text.length := by
        rcases Nat.lt_or_ge i text.length with h | h
        · exact h
        · rw [List.getElem?_eq_none h] at hc; cases hc
      -- one replacement of `l` characters by `r`
      have key : ∀ (l : Nat) (r : PStr), 1 ≤ l → i + l ≤ text.length → r ≠ [] →
          ∃ bd1 bd', bd.replace (i + offset) (i + l + offset) r = .ok bd1 ∧
            defaultLoop tb lower nfkc text fuel (i + l) (offset + ((r.length : Int) - l)) bd1 = .ok bd' ∧ Kept bd bd' := by
        intro l r h1 h2 hr
        obtain ⟨bd1, e1, e2, e3⟩ := replace_kept hv (b := i + offset) (e := i + l + offset) (s := r) h0 (by omega) (by omega) hr
        have hr' := List.length_pos_iff.mpr hr
        obtain ⟨bd', g1, g2⟩ := ih (i + l) (offset + ((r.length : Int) - l)) bd1 e2.valid
          (by rw [e3]; simp only [List.length_append, List.length_take, List.length_drop]; omega) (by omega) h2 (by omega)
        exact ⟨bd1, bd', e1, g1, e2.trans g2⟩
      dsimp only
      cases hfr : findReplace tb (text.drop i) (min (tb.keyLength original) (text.length - i)) with
      | some lr =>
        obtain ⟨l, r⟩ := lr
        obtain ⟨h1, h2, _, h3, _⟩ := findReplace_some hfr
        obtain ⟨bd1, bd', e1, e2, e3⟩ := key l r h1 (by omega) h3
        refine ⟨bd', ?_, e3⟩
        simp only [bind, Except.bind, e1]
        exact e2
      | none =>
        dsimp only
        split
        · split
          · exact ih (i + 1) offset bd hv hl (by omega) (by omega) (by omega)
          · obtain ⟨bd1, bd', e1, e2, e3⟩ := key 1 (lower [original]) (Nat.le_refl _) hi' (hlow _)
            refine ⟨bd', ?_, e3⟩
            simp only [Int.natCast_one] at e1 e2
            simp only [bind, Except.bind, e1]
            exact e2
        · split
          · obtain ⟨bd1, bd', e1, e2, e3⟩ := key 1 (nfkc (lower [original])) (Nat.le_refl _) hi' (hnf _ (hlow _))
            refine ⟨bd', ?_, e3⟩
            simp only [Int.natCast_one] at e1 e2
            simp only [bind, Except.bind, e1]
            exact e2
          · rename_i hne
            have hne' : nfkc (lower [original]) = [original] := by
              rcases Decidable.em ([original] = nfkc (lower [original])) with h | h
              · exact h.symm
              · exact absurd h hne
            rw [hne']
            refine ih (i + 1) _ bd hv ?_ ?_ (by omega) (by omega) <;> simp <;> omega

theorem psmLoop_kept {marks : List Nat} {sym : PStr} (hs : sym ≠ []) (n : Nat) :
    ∀ (cs : PStr) (i : Nat) (offset : Int) (start : Option Nat) (bd : Builder), bd.Valid → i + cs.length = n →
      (n : Int) - offset ≤ bd.modified.length → 
      (match start with | none => offset ≤ i | some m => m < i ∧ offset ≤ m) →
      ∃ bd' off' start', psmLoop marks sym cs i offset start bd = .ok (bd', off', start') ∧ Kept bd bd' ∧
        (n : Int) - off' ≤ bd'.modified.length ∧
        (match start' with | none => True | some m => m < n ∧ off' ≤ m) := by
  have hsl := List.length_pos_iff.mpr hs
  intro cs
  induction cs with
  | nil =>
    intro i offset start bd hv hi hl hst
    refine ⟨bd, offset, start, rfl, .refl hv, hl, ?_⟩
    cases start with
    | none => trivial
    | some m => simp only [List.length_nil] at hi; exact ⟨by omega, hst.2⟩
  | cons c cs ih =>
    intro i offset start bd hv hi hl hst
    simp only [List.length_cons] at hi
    unfold psmLoop
    cases start with
    | none =>
      dsimp only at hst ⊢
      split
      · exact ih (i + 1) offset (some i) bd hv (by omega) hl ⟨by omega, hst⟩
      · exact ih (i + 1) offset none bd hv (by omega) hl (by show offset ≤ _; omega)
    | some m =>
      dsimp only at hst ⊢
      split
      · exact ih (i + 1) offset (some m) bd hv (by omega) hl ⟨by omega, hst.2⟩
      · split
        · obtain ⟨bd1, e1, e2, e3⟩ := replace_kept hv (b := m - offset) (e := i - offset) (s := sym) (by omega) (by omega) (by omega) hs
          obtain ⟨bd', off', start', g1, g2, g3⟩ := ih (i + 1) (offset + ((i : Int) - m - 1)) none bd1 e2.valid (by omega)
            (by rw [e3]; simp only [List.length_append, List.length_take, List.length_drop]; omega) (by show _ ≤ _; omega)
          refine ⟨bd', off', start', ?_, e2.trans g2, g3⟩
          simp only [bind, Except.bind, e1]
          exact g1
        · exact ih (i + 1) offset none bd hv (by omega) hl (by show offset ≤ _; omega)

theorem psmRewrite_kept {marks : List Nat} {sym : PStr} (hs : sym ≠ []) {bd : Builder} (hv : bd.Valid) :
    ∃ bd', psmRewrite marks sym bd = .ok bd' ∧ Kept bd bd' := by
  obtain ⟨bd1, off, start, h1, h2, h3, h4⟩ := psmLoop_kept (marks := marks) hs bd.modified.length bd.modified 0 0 none bd hv
    (by simp) (by simp) (by simp)
  unfold psmRewrite
  simp only [bind, Except.bind, h1]
  cases start with
  | none => exact ⟨bd1, rfl, h2⟩
  | some m =>
    dsimp only at h4 ⊢
    split
    · obtain ⟨bd2, e1, e2, _⟩ := replace_kept h2.valid (b := m - off) (e := bd.modified.length - off) (s := sym) (by omega)
        (by omega) (by omega) hs
      exact ⟨bd2, e1, h2.trans e2⟩
    · exact ⟨bd1, rfl, h2⟩

theorem rewriteInput_kept {lower nfkc : PStr → PStr} (hlow : ∀ c, lower [c] ≠ []) (hnf : ∀ s, s ≠ [] → nfkc s ≠ [])
    {ps : List InputPlugin} : (∀ marks sym, InputPlugin.psm marks sym ∈ ps → sym ≠ []) → ∀ {bd : Builder}, bd.Valid →
    ∃ bd', rewriteInput lower nfkc ps bd = .ok bd' ∧ Kept bd bd' := by
  induction ps with
  | nil => intro _ bd hv; exact ⟨bd, rfl, .refl hv⟩
  | cons p ps ih =>
    intro hp bd hv
    have h1 : ∃ bd1, p.rewrite lower nfkc bd = .ok bd1 ∧ Kept bd bd1 := by
      cases p with
      | default tb => exact defaultLoop_kept hlow hnf _ _ _ _ _ hv (by simp) (by simp) (by simp) (by simp)
      | psm marks sym => exact psmRewrite_kept (hp marks sym (by simp)) hv
    obtain ⟨bd1, e1, e2⟩ := h1
    obtain ⟨bd', e3, e4⟩ := ih (fun m s h => hp m s (by simp [h])) e2.valid
    refine ⟨bd', ?_, e2.trans e4⟩
    simp only [rewriteInput, bind, Except.bind, e1]
    exact e3

theorem buildInput_built {T : Tokenizer} (hp : T.PluginsOk) {text : PStr} {t : InputText} (h : T.buildInput text = .ok t) :
    ∃ bd, bd.Valid ∧ bd.original = text ∧ bd.build T.catOf = .ok t ∧ Built bd T.catOf t ∧ (text ≠ [] → bd.modified ≠ []) := by
  obtain ⟨bd, h1, h2⟩ := rewriteInput_kept hp.lower hp.nfkc hp.psm (Builder.Valid.init text)
  unfold Tokenizer.buildInput at h
  simp only [bind, Except.bind, h1] at h
  exact ⟨bd, h2.valid, h2.orig, h, built h2.valid.len h, h2.nonempty⟩

end Sudachi
