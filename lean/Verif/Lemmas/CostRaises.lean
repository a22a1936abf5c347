/-
What computing the costs of a user dictionary raises.
-/
import Verif.Spec.CostRaises
import Verif.Lemmas.Dictionary
import Verif.Lemmas.Installed2
import Verif.Props.Lexicon
import Verif.Props.Tokenizer
namespace Sudachi

/-- The word with an automatic cost cannot get it. -/
def AutoBad (T : Tokenizer) (depth : Nat) (x : DALex) (w : Nat) (e : Err) : Prop :=
  x.wordInfo depth w = .error e ∨ ∃ wi, x.wordInfo depth w = .ok wi ∧
    ((T.tokenize Lattice.init wi.surface none).2 = .error e ∨ e = .index ∧ ∃ ms, (T.tokenize Lattice.init wi.surface none).2 = .ok ms ∧ ms.path = [])

def AutoGood (T : Tokenizer) (depth : Nat) (x : DALex) (w : Nat) : Prop :=
  ∃ wi ms, x.wordInfo depth w = .ok wi ∧ (T.tokenize Lattice.init wi.surface none).2 = .ok ms ∧ ms.path ≠ []

theorem autoBad_not {T : Tokenizer} {depth : Nat} {x : DALex} {w : Nat} {e : Err} (h : AutoBad T depth x w e) (h' : AutoGood T depth x w) : False := by
  obtain ⟨wi, ms, a, b, c⟩ := h'
  rcases h with h | ⟨wi', h, h1 | ⟨_, ms', h1, h2⟩⟩
  · rw [a] at h; cases h
  · rw [a] at h; cases h
    rw [b] at h1; cases h1
  · rw [a] at h; cases h
    rw [b] at h1; cases h1
    exact c h2

theorem autoBad_unique {T : Tokenizer} {depth : Nat} {x : DALex} {w : Nat} {e e' : Err} (h : AutoBad T depth x w e) (h' : AutoBad T depth x w e') :
    e = e' := by
  rcases h with h | ⟨wi, h, h1 | ⟨rfl, ms, h1, h2⟩⟩ <;> rcases h' with h' | ⟨wi', h', h1' | ⟨rfl, ms', h1', h2'⟩⟩
  all_goals have h2 := h.symm.trans h'; cases h2
  · rfl
  · have h3 := h1.symm.trans h1'; cases h3; rfl
  · have h3 := h1.symm.trans h1'; cases h3
  · have h3 := h1.symm.trans h1'; cases h3
  · rfl

theorem calculateCost_outcome {T : Tokenizer} (hp : T.PluginsOk) (hl : T.lex.Ok) {depth : Nat} {x0 : DALex} (hlay : x0.Layout)
    (hinfo : ∀ y w, CostHistory x0 y → w < x0.size → y.wordInfo depth w = x0.wordInfo depth w)
    (hcost : ∀ w, w < x0.size → ∃ c, x0.cost w = .ok c) :
    ∀ {ws : List Nat} {L : Lattice} {x : DALex}, CostHistory x0 x → T.CleanHistory L → ws.Pairwise (· < ·) → (∀ w ∈ ws, w < x0.size) →
      (∀ w ∈ ws, x.cost w = x0.cost w) →
      ((∃ y, calculateCost T depth ws L x = .ok y) ∧ ∀ v ∈ ws, x0.cost v = .ok (-32768) → AutoGood T depth x0 v) ∨
      ∃ e w, calculateCost T depth ws L x = .error e ∧ w ∈ ws ∧ x0.cost w = .ok (-32768) ∧ AutoBad T depth x0 w e ∧
        ∀ v ∈ ws, v < w → x0.cost v = .ok (-32768) → AutoGood T depth x0 v
  | [], L, x, _, _, _, _, _ => .inl ⟨⟨x, rfl⟩, nofun⟩
  | w :: ws, L, x, hx, hL, hn, hlt, hsame => by
    obtain ⟨hn1, hn2⟩ := List.pairwise_cons.1 hn
    have hw := hlt w (by simp)
    obtain ⟨c, hc0⟩ := hcost w hw
    have hc := (hsame w (by simp)).trans hc0
    unfold calculateCost
    rw [hc]
    dsimp only
    have first : ∀ {e}, x0.cost w = .ok (-32768) → AutoBad T depth x0 w e → ∀ {r : Res DALex}, r = .error e →
        ((∃ y, r = .ok y) ∧ ∀ v ∈ w :: ws, x0.cost v = .ok (-32768) → AutoGood T depth x0 v) ∨
        ∃ e w', r = .error e ∧ w' ∈ w :: ws ∧ x0.cost w' = .ok (-32768) ∧ AutoBad T depth x0 w' e ∧
          ∀ v ∈ w :: ws, v < w' → x0.cost v = .ok (-32768) → AutoGood T depth x0 v := by
      intro e h1 h2 r hr
      refine .inr ⟨e, w, hr, by simp, h1, h2, fun v hv hlt => ?_⟩
      rcases List.mem_cons.1 hv with rfl | hv
      · omega
      · have := hn1 v hv
        omega
    have later : ∀ {r : Res DALex}, (x0.cost w = .ok (-32768) → AutoGood T depth x0 w) →
        (((∃ y, r = .ok y) ∧ ∀ v ∈ ws, x0.cost v = .ok (-32768) → AutoGood T depth x0 v) ∨
          ∃ e w', r = .error e ∧ w' ∈ ws ∧ x0.cost w' = .ok (-32768) ∧ AutoBad T depth x0 w' e ∧
            ∀ v ∈ ws, v < w' → x0.cost v = .ok (-32768) → AutoGood T depth x0 v) →
        ((∃ y, r = .ok y) ∧ ∀ v ∈ w :: ws, x0.cost v = .ok (-32768) → AutoGood T depth x0 v) ∨
        ∃ e w', r = .error e ∧ w' ∈ w :: ws ∧ x0.cost w' = .ok (-32768) ∧ AutoBad T depth x0 w' e ∧
          ∀ v ∈ w :: ws, v < w' → x0.cost v = .ok (-32768) → AutoGood T depth x0 v := by
      rintro r hg (⟨h1, h2⟩ | ⟨e, w', h1, h2, h3, h4, h5⟩)
      · refine .inl ⟨h1, fun v hv => ?_⟩
        rcases List.mem_cons.1 hv with rfl | hv
        · exact hg
        · exact h2 v hv
      · refine .inr ⟨e, w', h1, List.mem_cons_of_mem _ h2, h3, h4, fun v hv hlt => ?_⟩
        rcases List.mem_cons.1 hv with rfl | hv
        · exact hg
        · exact h5 v hv hlt
    by_cases hne : c ≠ -32768
    · rw [if_pos hne]
      refine later (fun h => ?_) (calculateCost_outcome hp hl hlay hinfo hcost hx hL hn2 (fun v hv => hlt v (by simp [hv])) (fun v hv => hsame v (by simp [hv])))
      rw [hc0] at h
      cases h
      exact absurd rfl hne
    · rw [if_neg hne]
      have heq : c = -32768 := by omega
      subst heq
      cases hwi : x0.wordInfo depth w with
      | error e =>
        rw [hinfo x w hx hw, hwi]
        exact first hc0 (.inl hwi) rfl
      | ok wi =>
        rw [hinfo x w hx hw, hwi]
        dsimp only
        have hst := C18_stateless T hp hl L hL wi.surface none
        cases ht : T.tokenize L wi.surface none with
        | mk L' r =>
          rw [ht] at hst
          have hst : r = (T.tokenize Lattice.init wi.surface none).2 := hst
          cases r with
          | error e => exact first hc0 (.inr ⟨wi, hwi, .inl hst.symm⟩) rfl
          | ok ms =>
            dsimp only
            cases hpath : ms.path with
            | nil =>
              have : autoCost ms = .error .index := by
                unfold autoCost MorphemeList.internalCost
                rw [hpath]
                rfl
              rw [this]
              exact first hc0 (.inr ⟨wi, hwi, .inr ⟨rfl, ms, hst.symm, hpath⟩⟩) rfl
            | cons a p =>
              obtain ⟨cost, h5, h6, h7⟩ : ∃ cost, autoCost ms = .ok cost ∧ -32768 ≤ cost ∧ cost ≤ 32767 := by
                unfold autoCost MorphemeList.internalCost
                rw [hpath, List.getLast?_cons, List.head?_cons]
                exact ⟨_, rfl, by omega, by omega⟩
              rw [h5]
              dsimp only
              obtain ⟨hlx, hsz⟩ := history_layout hlay hx
              obtain ⟨x', h8⟩ := (setCost_size hlx (w := w) (c := cost)).1 ⟨by omega, h6, h7⟩
              rw [h8]
              refine later (fun _ => ⟨wi, ms, hwi, hst.symm, by rw [hpath]; exact List.cons_ne_nil _ _⟩)
                (calculateCost_outcome hp hl hlay hinfo hcost (.step hx h8) (.call wi.surface none hL ht) hn2 (fun v hv => hlt v (by simp [hv]))
                  (fun v hv => ?_))
              have hvw : v ≠ w := by
                have := hn1 v hv
                omega
              rw [← hsame v (by simp [hv])]
              unfold DALex.cost
              rw [setCost_param hlx h8, if_neg (by omega)]

/-- The word info of a row: if its chain is short, its surface is that of the row; else `RecursionError`. -/
theorem wordInfo_chain {D : Darts} {sys : Option SysDict} {header : Header} {rows : List (List PStr)} {matrix : Option (PStr × List PStr)}
    {d : BinDict} {g : Grammar} (F : Facts D sys header rows matrix d g) (hf : AllFit rows)
    (hr : ∀ w v, DicFormOf rows w v → v < rows.length) : ∀ (depth : Nat) {w : Nat} {c : Cols}, RowIs rows w c →
    (ChainShort rows depth w → ∃ wi, d.lexicon.wordInfo depth w = .ok wi ∧ wi.surface = c.surface) ∧
    (¬ChainShort rows depth w → d.lexicon.wordInfo depth w = .error .recursion)
  | 0, w, c, _ => ⟨fun ⟨n, h, _⟩ => by omega, fun _ => rfl⟩
  | depth + 1, w, c, hc => by
    obtain ⟨wi, h1, h2, _⟩ := F.infos w c hc (hf w c hc)
    have hd : DicFormOf rows w wi.dictionaryFormWordId := ⟨c, hc, h2.dicForm⟩
    by_cases hd' : wi.dictionaryFormWordId < 0 ∨ wi.dictionaryFormWordId = w
    · have hs : ChainShort rows (depth + 1) w := ⟨0, by omega, .here hd hd'⟩
      exact ⟨fun _ => ⟨wi, wordInfo_own h1 hd' depth, h2.surface⟩, fun h => absurd hs h⟩
    · have hlt := hr w _ hd
      obtain ⟨v, hv⟩ : ∃ v : Nat, wi.dictionaryFormWordId = v := ⟨wi.dictionaryFormWordId.toNat, by omega⟩
      have hne : v ≠ w := by omega
      rw [wordInfo_other h1 hv hne]
      obtain ⟨c', hc'⟩ := F.rowsRead v (by omega)
      have hiff : ChainShort rows (depth + 1) w ↔ ChainShort rows depth v := by
        constructor
        · rintro ⟨n, hn, hch⟩
          cases hch with
          | here hd1 hend =>
            obtain ⟨c1, hc1, hv1⟩ := hd1
            rw [rowIs_unique hc1 hc] at hv1
            have := dicForm_unique hv1 h2.dicForm
            omega
          | @next _ v' n hd1 hne1 hch =>
            obtain ⟨c1, hc1, hv1⟩ := hd1
            rw [rowIs_unique hc1 hc] at hv1
            have := dicForm_unique hv1 h2.dicForm
            have : v' = v := by omega
            exact ⟨n, by omega, this ▸ hch⟩
        · rintro ⟨n, hn, hch⟩
          exact ⟨n + 1, by omega, .next (hv ▸ hd) hne hch⟩
      obtain ⟨i1, i2⟩ := wordInfo_chain F hf hr depth hc'
      constructor
      · intro h
        obtain ⟨wi', h3, _⟩ := i1 (hiff.1 h)
        rw [h3]
        exact ⟨_, rfl, h2.surface⟩
      · intro h
        rw [i2 (fun h' => h (hiff.2 h'))]
        rfl

end Sudachi
