import Verif.Props.Tokenizer

/-!
# C01: the text of a list of morphemes
-/

namespace Sudachi

theorem mapM_pointwise {α β : Type} {f : α → Res β} : ∀ {l : List α} {r : List β}, l.length = r.length →
    (∀ (i : Nat) a b, l[i]? = some a → r[i]? = some b → f a = .ok b) → l.mapM f = .ok r
  | [], [], _, _ => rfl
  | [], _ :: _, h, _ => by cases h
  | _ :: _, [], h, _ => by cases h
  | a :: l, b :: r, h, hf => by
    rw [List.mapM_cons, hf 0 a b rfl rfl, mapM_pointwise (Nat.succ.inj h) fun i x y hx hy => hf (i + 1) x y hx hy]
    rfl

theorem str_shows {ml : MorphemeList} {spans : List (Nat × Nat × PStr)} (h : ml.Shows spans) : ml.str = .ok (spans.map (·.2.2)).flatten := by
  have hm : ml.iter.mapM ml.getSurface = .ok (spans.map (·.2.2)) := by
    refine mapM_pointwise ?_ fun i a s ha hs => ?_
    · unfold MorphemeList.iter
      rw [List.length_range, List.length_map]
      exact h.1
    · unfold MorphemeList.iter at ha
      rw [List.getElem?_range (by
        have := (List.getElem?_eq_some_iff.1 ha).1
        rwa [List.length_range] at this)] at ha
      cases ha
      rw [List.getElem?_map] at hs
      cases hsp : spans[i]? with
      | none => rw [hsp] at hs; cases hs
      | some x =>
        rw [hsp] at hs
        cases hs
        exact (h.2 i x.1 x.2.1 x.2.2 hsp).2.2
  unfold MorphemeList.str
  rw [hm]
  rfl

/-- **C01** `str` of the morphemes of a text is the text: in mode C, and in every mode if the splits add up. -/
theorem C01_str (T : Tokenizer) (hp : T.PluginsOk) (hlex : T.lex.Ok) (L : Lattice) (hL : T.History L) (text : PStr)
    (mode : Option Mode) (hm : mode.getD T.mode = .C ∨ T.lex.SplitsOk) (L' : Lattice) (ml : MorphemeList)
    (h : T.tokenize L text mode = (L', .ok ml)) : ml.str = .ok text := by
  obtain ⟨spans, h1, h2⟩ := tokenize_partition hp hlex hL hm h
  rw [str_shows h1, h2.concat]
  rfl

/-- Of the example of C01, whose text is changed before it is analysed. -/
example : ∃ ml, (DemoTok.tok.tokenize Lattice.init DemoTok.text none).2 = .ok ml ∧ ml.str = .ok DemoTok.text := by
  cases h : DemoTok.tok.tokenize Lattice.init DemoTok.text none with
  | mk L' r =>
    cases r with
    | error e =>
      exfalso
      have : (DemoTok.tok.tokenize Lattice.init DemoTok.text none).2.isOk = true := by decide +kernel
      rw [h] at this
      cases this
    | ok ml => exact ⟨ml, rfl, C01_str _ DemoTok.plugins_ok (DemoTok.lexOf_ok _ (by simp [DemoTok.words, Short])) _ .fresh _ _ (.inl rfl) _ _ h⟩

end Sudachi
