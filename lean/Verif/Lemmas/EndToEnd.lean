import Verif.Props.LexiconSet
import Verif.Lemmas.Dictionary
namespace Sudachi

theorem compiled_short {D : Darts} {sys : Option SysDict} {header : Header} {rows : List (List PStr)}
    {matrix : Option (PStr × List PStr)} {d : BinDict} (hD : D.Ok) (hS : SourceOk header rows matrix)
    (hC : Compiled D sys header rows matrix d) (w : Nat) :
    (∀ v, d.lexicon.leftId w = .ok v → Short v) ∧ (∀ v, d.lexicon.rightId w = .ok v → Short v) ∧
    ∀ v, d.lexicon.cost w = .ok v → Short v := by
  obtain ⟨P, g, hB, rfl, _⟩ := hC.parts hS hD
  cases he : P.db.entries[w]? with
  | some e =>
    obtain ⟨a, b, c⟩ := lex_params hB true w e he
    obtain ⟨p1, p2, p3⟩ := hB.params e (List.mem_of_getElem? he)
    refine ⟨fun v hv => ?_, fun v hv => ?_, fun v hv => ?_⟩
    · rw [a] at hv; cases hv; exact p1
    · rw [b] at hv; cases hv; exact p2
    · rw [c] at hv; cases hv; exact p3
  | none =>
    have hw := List.getElem?_eq_none_iff.1 he
    have hL := built_layout hB true
    have hsz : (P.lexicon true).size = P.db.entries.length := rfl
    have hp := hL.par
    have key : ∀ k, 3 * w ≤ k → (P.lexicon true).param k = .error .index := by
      intro k hk
      unfold DALex.param
      rw [if_neg (by omega)]
    refine ⟨fun v hv => ?_, fun v hv => ?_, fun v hv => ?_⟩
    · have hv : (P.lexicon true).param (3 * w) = .ok v := hv
      rw [key _ (by omega)] at hv; cases hv
    · have hv : (P.lexicon true).param (3 * w + 1) = .ok v := hv
      rw [key _ (by omega)] at hv; cases hv
    · have hv : (P.lexicon true).param (3 * w + 2) = .ok v := hv
      rw [key _ (by omega)] at hv; cases hv

theorem history_short {x y : DALex} (hL : x.Layout) (hx : ∀ w v, x.cost w = .ok v → Short v) (h : CostHistory x y) :
    ∀ w v, y.cost w = .ok v → Short v := by
  induction h with
  | refl => exact hx
  | step h' hs ih =>
    intro w v hv
    have hlay := (history_layout hL h').1
    unfold DALex.cost at hv
    rw [setCost_param hlay hs] at hv
    split at hv
    · cases hv
      obtain ⟨_, h1, h2, _⟩ := DALex.setCost_ok hs
      exact ⟨h1, h2⟩
    · exact ih w v hv

theorem utf8_ne {c : Cols} (h : c.headword ≠ []) : 0 < (c.headword.flatMap utf8Cp).length := by
  cases hh : c.headword with
  | nil => exact absurd hh h
  | cons a s =>
    rw [List.flatMap_cons, List.length_append]
    have : 0 < (utf8Cp a).length := by
      unfold utf8Cp
      split
      · simp
      · split
        · simp
        · split <;> simp
    omega

/-- A set of compiled dictionaries gives the tokenizer what it needs. -/
theorem set_lex_ok {D : Darts} (hD : D.Ok) {s : LexSet} (hs : s.Made) (rows : Nat → List (List PStr))
    (hx : ∀ d x, s.lexicons[d]? = some x → LexiconOf D (rows d) x) (depth : Nat) : (s.toLex D depth).Ok := by
  constructor
  · intro text i found hi hf w e hm
    obtain ⟨found', h1, h2⟩ := C46_compiled hD hs rows hx text i
    have hf : s.lookup D text i = .ok found := hf
    rw [hf] at h1
    cases h1
    obtain ⟨d, v, c, _, hd, hc, _, he, hsl⟩ := (h2 w e).1 hm
    obtain ⟨sys, header, matrix, b, l1, l2, _⟩ := hx d _ (List.getElem?_eq_getElem hd)
    obtain ⟨g, F⟩ := compiled_facts hD l1 l2
    have hpos := utf8_ne (F.rowsOk v c hc).headword
    have hlen := congrArg List.length hsl
    unfold pySlice at hlen
    rw [List.length_drop, List.length_take] at hlen
    omega
  · intro w l r c h
    have h : s.nodeParams w = .ok (l, r, c) := h
    unfold LexSet.nodeParams at h
    obtain ⟨x, h1, h⟩ := bind_ok h
    unfold pyGet at h1
    split at h1
    · rename_i y hy
      cases h1
      obtain ⟨sys, header, matrix, b, l1, l2, l3⟩ := hx _ _ hy
      obtain ⟨g, F⟩ := compiled_facts hD l1 l2
      split at h
      · rename_i hc
        cases h
        exact history_short F.layout (fun w => (compiled_short hD l1 l2 w).2.2) l3 _ _ hc
      · cases h
    · cases h1

end Sudachi
