import Verif.Spec.Dictionary
import Verif.Lemmas.LexiconSet
import Verif.Lemmas.Tokenizer
namespace Sudachi

theorem CostHistory.trans {x y z : DALex} (h1 : CostHistory x y) (h2 : CostHistory y z) : CostHistory x z := by
  induction h2 with
  | refl => exact h1
  | step _ hs ih => exact .step ih hs

theorem autoCost_ok {ms : MorphemeList} {c : Int} (h : autoCost ms = .ok c) : AutoCostIs ms c := by
  unfold autoCost at h
  obtain ⟨ic, h1, h2⟩ := bind_ok h
  unfold MorphemeList.internalCost at h1
  split at h1
  · rename_i l f hl hf
    cases h1
    cases h2
    refine ⟨f, l, hf, hl, ?_⟩
    unfold clampShort MorphemeList.len
    split
    · omega
    · split <;> omega
  · cases h1

/-- What `calculate_cost` leaves of the costs. -/
theorem calculateCost_ok {T : Tokenizer} {depth : Nat} : ∀ {ws : List Nat} {L : Lattice} {x y : DALex}, x.Layout → T.CleanHistory L →
    ws.Nodup → (∀ w ∈ ws, w < x.size) → calculateCost T depth ws L x = .ok y → CostHistory x y ∧
      (∀ v, v ∉ ws ∨ x.cost v ≠ .ok (-32768) → y.cost v = x.cost v) ∧
      ∀ v ∈ ws, x.cost v = .ok (-32768) → ∃ wi L' ms c, getStoredInfo x.bytes x.hasSyn (x.infoOffset v) = .ok wi ∧ T.CleanHistory L' ∧
        (T.tokenize L' wi.surface none).2 = .ok ms ∧ AutoCostIs ms c ∧ y.cost v = .ok c
  | [], L, x, y, _, _, _, _, h => by
    cases h
    exact ⟨.refl, fun v _ => rfl, fun v hv => by cases hv⟩
  | w :: ws, L, x, y, hx, hL, hn, hlt, h => by
    unfold calculateCost at h
    obtain ⟨hn1, hn2⟩ := List.nodup_cons.1 hn
    split at h
    · cases h
    · rename_i c hc
      split at h
      · rename_i hne
        obtain ⟨r1, r2, r3⟩ := calculateCost_ok hx hL hn2 (fun v hv => hlt v (by simp [hv])) h
        refine ⟨r1, fun v hv => r2 v ?_, fun v hv hv2 => ?_⟩
        · rcases hv with hv | hv
          · exact .inl fun hm => hv (by simp [hm])
          · exact .inr hv
        · rcases List.mem_cons.1 hv with rfl | hv
          · rw [hc] at hv2
            cases hv2
            exact absurd rfl hne
          · exact r3 v hv hv2
      · rename_i heq
        have heq : c = -32768 := by omega
        subst heq
        split at h
        · cases h
        · rename_i wi hwi
          split at h
          · cases h
          · rename_i L' ms hms
            split at h
            · cases h
            · rename_i cost hcost
              split at h
              · cases h
              · rename_i x' hx'
                have hlay := setCost_layout hx hx'
                have hsize : x'.size = x.size := by rw [(setCost_effect hx hx').1]
                obtain ⟨r1, r2, r3⟩ := calculateCost_ok hlay (.call wi.surface none hL hms) hn2
                  (fun v hv => by rw [hsize]; exact hlt v (by simp [hv])) h
                have hother : ∀ v, v ≠ w → x'.cost v = x.cost v := by
                  intro v hv
                  unfold DALex.cost
                  rw [setCost_param hx hx', if_neg (by omega)]
                refine ⟨CostHistory.trans (.step .refl hx') r1, fun v hv => ?_, fun v hv hv2 => ?_⟩
                · by_cases hvw : v = w
                  · subst hvw
                    rcases hv with hv | hv
                    · exact absurd (by simp) hv
                    · exact absurd hc hv
                  · rw [r2 v (by rcases hv with hv | hv; exact .inl fun hm => hv (by simp [hm]); exact .inr (by rw [hother v hvw]; exact hv)),
                      hother v hvw]
                · rcases List.mem_cons.1 hv with rfl | hv
                  · have hst : ∃ st, getStoredInfo x.bytes x.hasSyn (x.infoOffset v) = .ok st ∧ wi.surface = st.surface := by
                      cases depth with
                      | zero => cases hwi
                      | succ depth =>
                        have hwi' := hwi
                        unfold DALex.wordInfo at hwi'
                        obtain ⟨st, hst, _⟩ := bind_ok hwi'
                        refine ⟨st, hst, ?_⟩
                        rw [wordInfo_stored hst hwi]
                    obtain ⟨st, hst, hsur⟩ := hst
                    refine ⟨st, L, ms, cost, hst, hL, by rw [← hsur, hms], autoCost_ok hcost, ?_⟩
                    rw [r2 v (.inl hn1)]
                    unfold DALex.cost
                    rw [setCost_param hx hx', if_pos rfl]
                  · have hvw : v ≠ w := fun h => hn1 (h ▸ hv)
                    obtain ⟨wi', L'', ms', c', a1, a2⟩ := r3 v hv (by rw [hother v hvw]; exact hv2)
                    refine ⟨wi', L'', ms', c', ?_, a2⟩
                    rw [← (setCost_wordInfo hx hx' v (hlt v (by simp [hv]))).2]
                    exact a1

theorem calculateCost_history {T : Tokenizer} {depth : Nat} : ∀ {ws : List Nat} {L : Lattice} {x y : DALex},
    calculateCost T depth ws L x = .ok y → CostHistory x y
  | [], L, x, y, h => by cases h; exact .refl
  | w :: ws, L, x, y, h => by
    unfold calculateCost at h
    split at h
    · cases h
    split at h
    · exact calculateCost_history h
    split at h
    · cases h
    split at h
    · cases h
    split at h
    · cases h
    split at h
    · cases h
    rename_i x' hx'
    exact CostHistory.trans (.step .refl hx') (calculateCost_history h)

/-- If no word has the marker cost, nothing happens. -/
theorem calculateCost_none {T : Tokenizer} {depth : Nat} {x : DALex} : ∀ {ws : List Nat} {L : Lattice},
    (∀ w ∈ ws, ∃ c, x.cost w = .ok c ∧ c ≠ -32768) → calculateCost T depth ws L x = .ok x
  | [], _, _ => rfl
  | w :: ws, L, h => by
    obtain ⟨c, h1, h2⟩ := h w (by simp)
    unfold calculateCost
    rw [h1]
    dsimp only
    rw [if_pos h2]
    exact calculateCost_none fun v hv => h v (by simp [hv])

/-- The parts of speech a user dictionary adds. -/
def BinDict.posList (d : BinDict) : List (List PStr) :=
  match d.grammar with
  | some g => g.posList
  | none => []

theorem readUser_ok {cfg : DictConfig} {dict dict' : Dict} {b : Bytes} (h : dict.readUser cfg b = .ok dict') :
    dict.set.lexicons.length < 16 ∧ ∃ du y, fromUserDictionary b = .ok du ∧
      calculateCost (dict.tokenizer cfg [] .C) cfg.depth (List.range du.lexicon.size) Lattice.init du.lexicon = .ok y ∧
      dict'.set = dict.set.add y dict.grammar.posSize ∧
      dict'.grammar = { dict.grammar with posList := dict.grammar.posList ++ du.posList } := by
  unfold Dict.readUser at h
  split at h
  · cases h
  · rename_i hf
    unfold LexSet.isFull at hf
    obtain ⟨du, h1, h⟩ := bind_ok h
    split at h
    · cases h
    obtain ⟨y, h2, h⟩ := bind_ok h
    refine ⟨by simpa using hf, du, y, h1, h2, ?_⟩
    dsimp only at h
    unfold BinDict.posList
    split at h
    · rename_i g hg
      cases h
      rw [hg]
      exact ⟨rfl, rfl⟩
    · rename_i hg
      cases h
      rw [hg]
      refine ⟨rfl, ?_⟩
      simp only [List.append_nil]

theorem readUsers_append {cfg : DictConfig} : ∀ {as cs : List Bytes} {dict dict' : Dict},
    dict.readUsers cfg (as ++ cs) = .ok dict' ↔ ∃ m, dict.readUsers cfg as = .ok m ∧ m.readUsers cfg cs = .ok dict'
  | [], cs, dict, dict' => ⟨fun h => ⟨dict, rfl, h⟩, fun ⟨m, h1, h2⟩ => by cases h1; exact h2⟩
  | a :: as, cs, dict, dict' => by
    constructor
    · intro h
      rw [List.cons_append] at h
      unfold Dict.readUsers at h
      obtain ⟨d, h1, h2⟩ := bind_ok h
      obtain ⟨m, h3, h4⟩ := readUsers_append.1 h2
      refine ⟨m, ?_, h4⟩
      unfold Dict.readUsers
      rw [h1]
      exact h3
    · rintro ⟨m, h1, h2⟩
      unfold Dict.readUsers at h1
      obtain ⟨d, h3, h4⟩ := bind_ok h1
      rw [List.cons_append]
      unfold Dict.readUsers
      rw [h3]
      exact readUsers_append.2 ⟨m, h4, h2⟩

/-- Loading user dictionaries only appends. -/
theorem readUsers_grow {cfg : DictConfig} : ∀ {bs : List Bytes} {dict dict' : Dict}, dict.readUsers cfg bs = .ok dict' →
    ∃ ls os ps, dict'.set.lexicons = dict.set.lexicons ++ ls ∧ dict'.set.posOffsets = dict.set.posOffsets ++ os ∧
      dict'.grammar = { dict.grammar with posList := dict.grammar.posList ++ ps } ∧ ls.length = bs.length ∧ os.length = bs.length ∧
      (bs ≠ [] → os.head? = some dict.grammar.posSize ∧ dict'.set.lexicons.length ≤ 16) ∧ (dict.set.Made → dict'.set.Made)
  | [], dict, dict', h => by
    cases h
    exact ⟨[], [], [], by simp, by simp, by simp, rfl, rfl, fun h => absurd rfl h, id⟩
  | b :: bs, dict, dict', h => by
    unfold Dict.readUsers at h
    obtain ⟨m, h1, h2⟩ := bind_ok h
    obtain ⟨hlt, du, y, u1, u2, u3, u4⟩ := readUser_ok h1
    obtain ⟨ls, os, ps, g1, g2, g3, g4, g5, g6, g7⟩ := readUsers_grow h2
    refine ⟨y :: ls, dict.grammar.posSize :: os, du.posList ++ ps, ?_, ?_, ?_, by simp [g4], by simp [g5], fun _ => ⟨rfl, ?_⟩, fun hm => ?_⟩
    · rw [g1, u3]; simp [LexSet.add]
    · rw [g2, u3]; simp [LexSet.add]
    · rw [g3, u4]; simp
    · by_cases hb : bs = []
      · subst hb
        have : ls = [] := List.length_eq_zero_iff.1 g4
        subst this
        rw [g1, u3]
        simp only [LexSet.add, List.length_append, List.length_singleton, List.length_nil]
        omega
      · exact (g6 hb).2
    · exact g7 (by rw [u3]; exact .add y _ hm)

/-- The `k`-th user dictionary of a loaded dictionary. -/
theorem load_user {cfg : DictConfig} {system : Bytes} {users : List Bytes} {dict : Dict} (h : Dict.load cfg system users = .ok dict) :
    ∃ ds gs, fromSystemDictionary system = .ok ds ∧ ds.grammar = some gs ∧ dict.set.lexicons[0]? = some ds.lexicon ∧ dict.set.Made ∧
      dict.set.lexicons.length = users.length + 1 ∧ users.length ≤ 15 ∧
      (∃ ps, dict.grammar = { gs with posList := gs.posList ++ ps }) ∧
      ∀ k b, users[k]? = some b → ∃ mid du y ps, mid.set.lexicons = dict.set.lexicons.take (k + 1) ∧ fromUserDictionary b = .ok du ∧
        calculateCost (mid.tokenizer cfg [] .C) cfg.depth (List.range du.lexicon.size) Lattice.init du.lexicon = .ok y ∧
        dict.set.lexicons[k + 1]? = some y ∧ dict.set.posOffsets[1]? = some gs.posList.length ∧
        dict.set.posOffsets[k + 1]? = some mid.grammar.posList.length ∧ gs.posList.length ≤ mid.grammar.posList.length ∧
        dict.grammar.posList = mid.grammar.posList ++ du.posList ++ ps ∧
        Dict.load cfg system (users.take k) = .ok mid := by
  unfold Dict.load at h
  obtain ⟨d0, h0, h⟩ := bind_ok h
  split at h
  · cases h
  rename_i hoov
  have h0' := h0
  unfold Dict.readSystem at h0'
  obtain ⟨ds, hds, h0'⟩ := bind_ok h0'
  split at h0'
  · rename_i gs hgs
    cases h0'
    obtain ⟨ls, os, ps, g1, g2, g3, g4, g5, g6, g7⟩ := readUsers_grow h
    have hlen : dict.set.lexicons.length = users.length + 1 := by
      rw [g1]
      simp only [LexSet.init, List.length_append, List.length_singleton]
      omega
    refine ⟨ds, gs, hds, hgs, by rw [g1]; rfl, g7 (.init _), hlen, ?_, ⟨ps, g3⟩, fun k b hb => ?_⟩
    · by_cases hu : users = []
      · subst hu; simp
      · have := (g6 hu).2; omega
    · have hk := (List.getElem?_eq_some_iff.1 hb).1
      have hsplit : users = users.take k ++ b :: users.drop (k + 1) := by
        rw [(List.getElem?_eq_some_iff.1 hb).2.symm, List.getElem_cons_drop, List.take_append_drop]
      have hr : Dict.readUsers cfg ⟨gs, LexSet.init ds.lexicon⟩ (users.take k ++ b :: users.drop (k + 1)) = .ok dict := by
        rw [← hsplit]; exact h
      obtain ⟨mid, m1, m2⟩ := readUsers_append.1 hr
      unfold Dict.readUsers at m2
      obtain ⟨mid', m2, m3⟩ := bind_ok m2
      obtain ⟨_, du, y, u1, u2, u3, u4⟩ := readUser_ok m2
      obtain ⟨ls1, os1, ps1, a1, a2, a3, a4, a5, a6, _⟩ := readUsers_grow m1
      obtain ⟨ls2, os2, ps2, b1, b2, b3, b4, b5, b6, _⟩ := readUsers_grow m3
      have hk1 : (users.take k).length = k := by rw [List.length_take]; omega
      have hml : mid.set.lexicons.length = k + 1 := by
        rw [a1]; simp only [LexSet.init, List.length_append, List.length_singleton]; omega
      have hmo : mid.set.posOffsets.length = k + 1 := by
        rw [a2]; simp only [LexSet.init, List.length_append, List.length_singleton]; omega
      have e1 : dict.set.lexicons = mid.set.lexicons ++ y :: ls2 := by rw [b1, u3]; simp [LexSet.add]
      have e2 : dict.set.posOffsets = mid.set.posOffsets ++ mid.grammar.posSize :: os2 := by rw [b2, u3]; simp [LexSet.add]
      refine ⟨mid, du, y, ps2, ?_, u1, u2, ?_, ?_, ?_, ?_, ?_, ?_⟩
      · rw [e1, List.take_append_of_le_length (by omega), List.take_of_length_le (by omega)]
      · rw [e1, List.getElem?_append_right (by omega), hml, Nat.sub_self]; rfl
      · rw [g2]
        have hu : users ≠ [] := by rintro rfl; simp at hk
        show os[0]? = _
        have := (g6 hu).1
        cases os with
        | nil => cases this
        | cons o os => exact this
      · rw [e2, List.getElem?_append_right (by omega), hmo, Nat.sub_self]; rfl
      · rw [a3]; simp
      · rw [b3, u4]
      · unfold Dict.load
        rw [h0]
        simp only [bind, Except.bind]
        rw [if_neg hoov]
        exact m1
  · cases h0'

end Sudachi
