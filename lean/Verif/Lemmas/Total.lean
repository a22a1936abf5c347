import Verif.Lemmas.Tokenizer5
import Verif.Spec.Total
namespace Sudachi
open Lattice

variable {bd : Builder} {catOf : Nat → CatSet} {t : InputText}

/-! ### The input text can be built -/

theorem replace_chars {bd bd' : Builder} {b e : Int} {s : PStr} (h : bd.replace b e s = .ok bd') :
    ∀ c ∈ bd'.modified, c ∈ bd.modified ∨ c ∈ s := by
  unfold Builder.replace at h
  split at h
  · rename_i bd1 h1
    cases h
    unfold Builder.replaceM at h1
    dsimp only at h1
    repeat' split at h1
    all_goals
      injection h1 with h1 h2
      first
        | cases h2; done
        | (subst h1
           intro c hc
           simp only [List.mem_append] at hc
           rcases hc with (hc | hc) | hc
           · exact .inl (List.mem_of_mem_take hc)
           · exact .inr hc
           · exact .inl (List.mem_of_mem_drop hc))
  · cases h

theorem defaultLoop_chars {tb : RewriteTable} {lower nfkc : PStr → PStr} {P : Nat → Prop}
    (hlow : ∀ c, P c → ∀ x ∈ lower [c], P x) (hnf : ∀ s : PStr, (∀ c ∈ s, P c) → ∀ x ∈ nfkc s, P x)
    (htb : ∀ k v, dictGet tb.replaceMap k = some v → ∀ c ∈ v, P c) (text : PStr) (ht : ∀ c ∈ text, P c) :
    ∀ (fuel i : Nat) (offset : Int) (bd bd' : Builder), (∀ c ∈ bd.modified, P c) →
      defaultLoop tb lower nfkc text fuel i offset bd = .ok bd' → ∀ c ∈ bd'.modified, P c := by
  intro fuel
  induction fuel with
  | zero => intro i offset bd bd' _ h; cases h
  | succ fuel ih =>
    intro i offset bd bd' hbd h
    have key : ∀ (b e : Int) (s : PStr) (j : Nat) (o : Int), (∀ c ∈ s, P c) →
        (do let bd1 ← bd.replace b e s
            defaultLoop tb lower nfkc text fuel j o bd1 : Res Builder) = .ok bd' → ∀ c ∈ bd'.modified, P c := by
      intro b e s j o hs hd
      simp only [bind, Except.bind] at hd
      cases hr : bd.replace b e s with
      | error x => rw [hr] at hd; cases hd
      | ok bd1 =>
        rw [hr] at hd
        exact ih j o bd1 bd' (fun c hc => (replace_chars hr c hc).elim (hbd c) (hs c)) hd
    unfold defaultLoop at h
    cases hc : text[i]? with
    | none => rw [hc] at h; cases h; exact hbd
    | some original =>
      rw [hc] at h
      dsimp only at h
      have ho : P original := ht _ (List.mem_of_getElem? hc)
      split at h
      · rename_i l r hfr
        obtain ⟨_, _, h3, _⟩ := findReplace_some hfr
        exact key _ _ _ _ _ (htb _ _ h3) h
      · split at h
        · split at h
          · exact ih _ _ _ _ hbd h
          · exact key _ _ _ _ _ (hlow _ ho) h
        · split at h
          · exact key _ _ _ _ _ (hnf _ (hlow _ ho)) h
          · exact ih _ _ _ _ hbd h

theorem psmLoop_chars {marks : List Nat} {sym : PStr} {P : Nat → Prop} (hs : ∀ c ∈ sym, P c) :
    ∀ (cs : PStr) (i : Nat) (offset : Int) (start : Option Nat) (bd bd' : Builder) (o : Int) (st : Option Nat),
      (∀ c ∈ bd.modified, P c) → psmLoop marks sym cs i offset start bd = .ok (bd', o, st) → ∀ c ∈ bd'.modified, P c := by
  intro cs
  induction cs with
  | nil => intro i offset start bd bd' o st hbd h; cases h; exact hbd
  | cons c cs ih =>
    intro i offset start bd bd' o st hbd h
    unfold psmLoop at h
    split at h
    · split at h
      · exact ih _ _ _ _ _ _ _ hbd h
      · exact ih _ _ _ _ _ _ _ hbd h
    · split at h
      · exact ih _ _ _ _ _ _ _ hbd h
      · split at h
        · simp only [bind, Except.bind] at h
          split at h
          · cases h
          · rename_i bd1 hr
            exact ih _ _ _ _ _ _ _ (fun c hc => (replace_chars hr c hc).elim (hbd c) (hs c)) h
        · exact ih _ _ _ _ _ _ _ hbd h

theorem psmRewrite_chars {marks : List Nat} {sym : PStr} {P : Nat → Prop} (hs : ∀ c ∈ sym, P c) {bd bd' : Builder}
    (hbd : ∀ c ∈ bd.modified, P c) (h : psmRewrite marks sym bd = .ok bd') : ∀ c ∈ bd'.modified, P c := by
  unfold psmRewrite at h
  simp only [bind, Except.bind] at h
  split at h
  · cases h
  · rename_i v hv
    obtain ⟨bd1, o, st⟩ := v
    have h1 := psmLoop_chars hs _ _ _ _ _ _ _ _ hbd hv
    cases st with
    | none => cases h; exact h1
    | some m =>
      dsimp only at h
      split at h
      · exact fun c hc => (replace_chars h c hc).elim (h1 c) (hs c)
      · cases h; exact h1

theorem rewriteInput_enc {lower nfkc : PStr → PStr} (hlow : ∀ c, encodable c = true → ∀ x ∈ lower [c], encodable x = true)
    (hnf : ∀ s : PStr, (∀ c ∈ s, encodable c = true) → ∀ x ∈ nfkc s, encodable x = true) {ps : List InputPlugin} :
    (∀ p ∈ ps, p.Encodable) → ∀ {bd bd' : Builder}, (∀ c ∈ bd.modified, encodable c = true) →
    rewriteInput lower nfkc ps bd = .ok bd' → ∀ c ∈ bd'.modified, encodable c = true := by
  induction ps with
  | nil => intro _ bd bd' hbd h; cases h; exact hbd
  | cons p ps ih =>
    intro hp bd bd' hbd h
    simp only [rewriteInput, bind, Except.bind] at h
    split at h
    · cases h
    · rename_i bd1 h1
      refine ih (fun q hq => hp q (by simp [hq])) ?_ h
      have hp1 := hp p (by simp)
      cases p with
      | default tb => exact defaultLoop_chars hlow hnf hp1 _ hbd _ _ _ _ _ hbd h1
      | psm marks sym => exact psmRewrite_chars hp1 hbd h1

theorem emptyCatTypeError_false {cats : List CatSet} (h : ∀ c ∈ cats, c ≠ []) : emptyCatTypeError cats = false := by
  cases cats with
  | nil => rfl
  | cons c cs =>
    unfold emptyCatTypeError
    have h1 : cs.any List.isEmpty = false := by
      rw [List.any_eq_false]
      intro x hx
      have := h x (by simp [hx])
      cases x with
      | nil => exact absurd rfl this
      | cons => simp
    have h2 : c.isEmpty = false := by
      have := h c (by simp)
      cases c with
      | nil => exact absurd rfl this
      | cons => simp
    dsimp only
    rw [h1, h2]; rfl

theorem build_ok {bd : Builder} {catOf : Nat → CatSet} (hlen : bd.m2o.length = bd.modified.length + 1)
    (he : ∀ c ∈ bd.modified, encodable c = true) (hc : ∀ c, catOf c ≠ []) : ∃ t, bd.build catOf = .ok t := by
  unfold Builder.build encodeUtf8
  rw [if_pos (List.all_eq_true.mpr he), fillOffsets_eq _ _ 0 (by omega)]
  have hl : bd.m2o.getLast? = some (bd.m2o[bd.modified.length]'(by omega)) := by
    have h1 : bd.m2o.length - 1 = bd.modified.length := by omega
    simp only [List.getLast?_eq_getElem?, h1]
    exact List.getElem?_eq_getElem _
  rw [hl]
  have ht : emptyCatTypeError (bd.modified.map catOf) = false := by
    apply emptyCatTypeError_false
    intro c hc'
    obtain ⟨x, _, rfl⟩ := List.mem_map.mp hc'
    exact hc x
  simp only [bind, Except.bind, ht, pure, Except.pure]
  exact ⟨_, rfl⟩

theorem Tokenizer.Complete.buildInput {T : Tokenizer} {left right : Int → Prop} (h : T.Complete left right) {text : PStr}
    (he : ∀ c ∈ text, encodable c = true) : ∃ t, T.buildInput text = .ok t := by
  obtain ⟨bd, h1, h2⟩ := rewriteInput_kept h.plugins.lower h.plugins.nfkc h.plugins.psm (Builder.Valid.init text)
  have h3 := rewriteInput_enc h.lowerEnc h.nfkcEnc h.pluginEnc (bd := Builder.init text) he h1
  unfold Tokenizer.buildInput
  simp only [bind, Except.bind, h1]
  exact build_ok h2.valid.len h3 h.categorised

/-! ### Word boundaries -/

theorem single_eq {catOf : Nat → CatSet} (h : SingleAlphabets catOf) {c : Nat} {x y : Cat} (hx : x ∈ catOf c) (hax : Alphabetic [x])
    (hy : y ∈ catOf c) : y = x := by
  refine h c ?_ y x hy hx
  unfold Alphabetic at *
  simp only [List.mem_singleton] at hax
  rcases hax with h | h | h <;> subst h
  · exact .inl hx
  · exact .inr (.inl hx)
  · exact .inr (.inr hx)

theorem alphabetic_mem {cs : CatSet} (h : Alphabetic cs) : ∃ x ∈ cs, Alphabetic [x] := by
  unfold Alphabetic at *
  rcases h with h | h | h
  · exact ⟨_, h, by simp⟩
  · exact ⟨_, h, by simp⟩
  · exact ⟨_, h, by simp⟩

/-- Unless an alphabet reaches over `j`, a word may begin at `j`. -/
theorem bowChar_of (B : Built bd catOf t) {j : Nat} (h0 : 0 < j) (hj : j < bd.modified.length)
    (h : ∀ x, Alphabetic [x] → x ∈ catOf bd.modified[j] → x ∈ catOf (bd.modified[j - 1]'(by omega)) → False) (hs : SingleAlphabets catOf) :
    BowChar t.charCats j := by
  right
  refine ⟨catOf bd.modified[j], catOf (bd.modified[j - 1]'(by omega)), ?_, ?_, ?_⟩
  · rw [B.cats]; simp [hj]
  · rw [B.cats]; simp [show j - 1 < bd.modified.length by omega]
  · by_cases ha : Alphabetic (catOf bd.modified[j])
    · right
      obtain ⟨x, hx, hax⟩ := alphabetic_mem ha
      intro c hc hc'
      have : c = x := single_eq hs hx hax hc
      subst this
      exact h c hax hx hc'
    · exact .inl ha

theorem cats_get (B : Built bd catOf t) {k : Nat} (hk : k < bd.modified.length) : t.charCats[k]? = some (catOf bd.modified[k]) := by
  rw [B.cats]; simp [hk]

/-- The end of a run is a word boundary. -/
theorem run_bow (B : Built bd catOf t) (hs : SingleAlphabets catOf) {a b : Nat} (hr : IsRun t.charCats a b)
    (hb : b < bd.modified.length) : BowChar t.charCats b := by
  have hab := hr.lt
  refine bowChar_of B (by omega) hb ?_ hs
  intro x hax hx hx'
  rcases hr.maximal with hm | hm
  · rw [B.cats, List.length_map] at hm; omega
  · apply hm
    refine ⟨x, ?_⟩
    rcases hr.common with hc | ⟨c, hc⟩
    · intro k cs h1 h2 h3
      have : k = b ∨ k = b - 1 := by omega
      rcases this with rfl | rfl
      · rw [cats_get B hb] at h3; cases h3; exact hx
      · rw [cats_get B (by omega)] at h3; cases h3; exact hx'
    · have hcx : c = x := single_eq hs hx' hax (hc (b - 1) _ (by omega) (by omega) (cats_get B (by omega)))
      subst hcx
      intro k cs h1 h2 h3
      by_cases hk : k = b
      · subst hk; rw [cats_get B hb] at h3; cases h3; exact hx
      · exact hc k cs h1 (by omega) h3

/-- A candidate of a fixed number of characters of a category that is no alphabet ends at a word boundary, inside a run. -/
theorem inside_bow (B : Built bd catOf t) (hs : SingleAlphabets catOf) {a b k j : Nat} (hr : IsRun t.charCats a b) (hak : a ≤ k)
    (hkj : k < j) (hjb : j < b) {ty : Cat} (hk : k < bd.modified.length) (hty : ty ∈ catOf bd.modified[k]) (hna : ¬ Alphabetic [ty]) :
    BowChar t.charCats j := by
  have hbl := hr.le
  rw [B.cats, List.length_map] at hbl
  refine bowChar_of B (by omega) (by omega) ?_ hs
  intro x hax hx hx'
  rcases hr.common with hc | ⟨c, hc⟩
  · omega
  · have h1 : c = x := single_eq hs hx hax (hc j _ (by omega) (by omega) (cats_get B (by omega)))
    subst h1
    have h2 := hc k _ (by omega) (by omega) (cats_get B (by omega))
    have h3 : ty = c := single_eq hs h2 hax hty
    subst h3
    exact hna hax

/-- Every unknown word ends at a word boundary or at the end of the text. -/
theorem oov_end (B : Built bd catOf t) (hs : SingleAlphabets catOf) {p : OovPlugin}
    (hp : ∀ categories oovList, p = .mecab categories oovList → NoAlphabetPrefixes categories) {k : Nat}
    (hk : k < bd.modified.length) {has : Bool} {ns : List NodeData} (hg : p.getOov t (wpos bd.modified k) has = .ok ns) :
    ∀ d ∈ ns, ∃ j o, k < j ∧ j ≤ bd.modified.length ∧ d = charsNode bd.modified k j o ∧ p.Entry o ∧
      (j = bd.modified.length ∨ BowChar t.charCats j) := by
  intro d hd
  have hg := (getOov_iff.mp hg).1
  cases p with
  | mecab categories oovList =>
    obtain ⟨b, ns', ⟨a, _, hrun, hak, hkb⟩, hb, hg', hm⟩ := B.mecab_spec hk categories oovList has
    rw [hg] at hg'
    cases hg'
    obtain ⟨ty, hty, cinfo, o, hc, ho, _, hcase⟩ := (hm d).mp hd
    have hend : b = bd.modified.length ∨ BowChar t.charCats b := by
      by_cases hbl : b = bd.modified.length
      · exact .inl hbl
      · exact .inr (run_bow B hs hrun (by omega))
    rcases hcase with ⟨_, rfl⟩ | ⟨m, h1, h2, h3, rfl⟩
    · exact ⟨b, o, hkb, hb, rfl, ⟨ty, ho⟩, hend⟩
    · refine ⟨_, o, by omega, by omega, rfl, ⟨ty, ho⟩, ?_⟩
      have hna : ¬ Alphabetic [ty] := fun ha => by
        have := hp _ _ rfl ty cinfo ha hc
        omega
      have hjb : min (k + m) bd.modified.length ≤ b := by
        rcases Nat.lt_or_ge b (min (k + m) bd.modified.length) with h | h
        · exfalso
          have h4 := wpos_lt B.enc h (by omega)
          have h5 : (sublen bd.modified k m : Int) ≤ (wpos bd.modified b - wpos bd.modified k : Nat) := by
            split at h3 <;> omega
          unfold sublen at h5
          have := wpos_lt B.enc hkb hb
          omega
        · exact h
      rcases Nat.eq_or_lt_of_le hjb with h | h
      · rw [h]; exact hend
      · exact .inr (inside_bow B hs hrun hak (by omega) h hk hty hna)
  | simple o =>
    cases has with
    | true => rw [simple_has] at hg; cases hg; cases hd
    | false =>
      obtain ⟨j, h1, h2, h3, _, h5⟩ := B.simple_spec hk o
      rw [hg] at h5
      cases h5
      rw [List.mem_singleton.mp hd]
      exact ⟨j, o, h1, h2, rfl, rfl, h3⟩

end Sudachi
