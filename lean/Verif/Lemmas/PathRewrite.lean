import Verif.Spec.PathRewrite
import Verif.Lemmas.Numeric3
namespace Sudachi

theorem Coarsens.append {J : List NodeData → NodeData → Prop} {o a o' a' : List NodeData} (h : Coarsens J o a)
    (h' : Coarsens J o' a') : Coarsens J (o ++ o') (a ++ a') := by
  induction h with
  | nil => exact h'
  | keep d _ ih => exact .keep d ih
  | join block n hj _ ih => rw [List.append_assoc]; exact .join block n hj ih

theorem Coarsens.refl {J : List NodeData → NodeData → Prop} (p : List NodeData) : Coarsens J p p := by
  induction p with
  | nil => exact .nil
  | cons d ds ih => exact .keep d ih

theorem Coarsens.single {J : List NodeData → NodeData → Prop} {block : List NodeData} {n : NodeData} (h : J block n) :
    Coarsens J block [n] := by
  have := Coarsens.join block n h Coarsens.nil
  rwa [List.append_nil] at this

theorem Coarsens.mono {J J' : List NodeData → NodeData → Prop} (hJ : ∀ b n, J b n → J' b n) {p p' : List NodeData}
    (h : Coarsens J p p') : Coarsens J' p p' := by
  induction h with
  | nil => exact .nil
  | keep d _ ih => exact .keep d ih
  | join block n hj _ ih => exact .join block n (hJ _ _ hj) ih

theorem pyGet_ok {α : Type} {l : List α} {i : Nat} {x : α} (h : pyGet l i = .ok x) : i < l.length ∧ l[i]? = some x := by
  unfold pyGet at h
  split at h
  · rename_i y hy
    injection h with h
    subst h
    refine ⟨?_, hy⟩
    rcases Nat.lt_or_ge i l.length with h' | h'
    · exact h'
    · rw [List.getElem?_eq_none h'] at hy; cases hy
  · cases h

theorem nodeWordInfos_ok {lex : Lex} {ds : List NodeData} : ∀ {ws : List WordInfo}, nodeWordInfos lex ds = .ok ws ↔
    InfosOf lex ds ws := by
  unfold InfosOf
  induction ds with
  | nil => intro ws; cases ws <;> simp [nodeWordInfos]
  | cons d ds ih =>
    intro ws
    simp only [nodeWordInfos, bind, Except.bind, pure, Except.pure, List.map_cons]
    cases h1 : nodeWordInfo lex d with
    | error e => cases ws <;> simp
    | ok w =>
      dsimp only
      cases h2 : nodeWordInfos lex ds with
      | error e =>
        cases ws with
        | nil => simp
        | cons x xs =>
          have := (ih (ws := xs)).mpr
          simp only [List.map_cons, List.cons.injEq]
          constructor
          · intro h; cases h
          · rintro ⟨_, h⟩
            have := this h
            rw [h2] at this; cases this
      | ok ws' =>
        cases ws with
        | nil => simp
        | cons x xs =>
          have := ih (ws := xs)
          rw [h2] at this
          simp only [List.map_cons, List.cons.injEq, Except.ok.injEq] at this ⊢
          rw [this]

theorem slice_split {α : Type} (l : List α) {b e : Nat} (hbe : b ≤ e) : l.take b ++ pySlice l b e ++ l.drop e = l := by
  unfold pySlice
  have : l.take b = (l.take e).take b := by rw [List.take_take, Nat.min_eq_left hbe]
  rw [this, List.take_append_drop, List.take_append_drop]

theorem pySlice_length {α : Type} (l : List α) {b e : Nat} (he : e ≤ l.length) : (pySlice l b e).length = e - b := by
  unfold pySlice; rw [List.length_drop, List.length_take]; omega

theorem pySlice_head? {α : Type} (l : List α) {b e : Nat} (hbe : b < e) : (pySlice l b e).head? = l[b]? := by
  unfold pySlice; rw [List.head?_drop, List.getElem?_take_of_lt hbe]

theorem pySlice_getLast? {α : Type} (l : List α) {b e : Nat} (hbe : b < e) (he : e ≤ l.length) :
    (pySlice l b e).getLast? = l[e - 1]? := by
  rw [List.getLast?_eq_getElem?, pySlice_length l he]
  unfold pySlice
  rw [List.getElem?_drop, List.getElem?_take_of_lt (by omega)]
  congr 1; omega

/-- `concatenate`. -/
theorem concatenate_spec {lex : Lex} {path path' : List NodeData} {b e : Nat} {norm : PStr}
    (h : concatenate lex path b e norm = .ok path') :
    b < e ∧ e ≤ path.length ∧ ∃ n infos f, path' = path.take b ++ n :: path.drop e ∧ Spans (pySlice path b e) n ∧
      InfosOf lex (pySlice path b e) infos ∧ infos.head? = some f ∧
      Concatenation infos f.posId (if norm.isEmpty then normText infos else norm) n := by
  unfold concatenate at h
  split at h
  · cases h
  · rename_i hbe
    simp only [bind, Except.bind, pure, Except.pure] at h
    split at h
    · cases h
    · rename_i first hf
      split at h
      · cases h
      · rename_i last hl
        split at h
        · cases h
        · rename_i fi hfi
          split at h
          · cases h
          · rename_i infos hin
            injection h with h
            obtain ⟨h1, h2⟩ := pyGet_ok hf
            obtain ⟨h3, h4⟩ := pyGet_ok hl
            have hI := nodeWordInfos_ok.mp hin
            have hhead : (pySlice path b e).head? = some first := by rw [pySlice_head? _ (by omega), h2]
            unfold spliceOne at h
            rw [Nat.max_eq_right (by omega)] at h
            refine ⟨by omega, by omega, _, infos, fi, h.symm, ⟨first, last, hhead, ?_, rfl, rfl⟩, hI, ?_, ⟨rfl, rfl,
              ⟨_, rfl, rfl, rfl, rfl, rfl, rfl, rfl, rfl, rfl, rfl, rfl, rfl⟩⟩⟩
            · rw [pySlice_getLast? _ (by omega) (by omega), h4]
            · unfold InfosOf at hI
              cases hps : pySlice path b e with
              | nil => rw [hps] at hhead; simp at hhead
              | cons x xs =>
                rw [hps] at hhead hI
                cases infos with
                | nil => simp at hI
                | cons y ys =>
                  simp only [List.map_cons, List.cons.injEq] at hI
                  simp only [List.head?_cons, Option.some.injEq] at hhead
                  rw [hhead, hfi] at hI
                  injection hI.1 with hh
                  rw [List.head?_cons, hh]

/-- `concatenate_oov`. -/
theorem minNode_spec : ∀ (xs : List LNode) (m : LNode), FirstCheapest (m :: xs) (Lattice.minNode m xs).data := by
  intro xs
  induction xs with
  | nil => intro m; exact ⟨[], m, [], rfl, rfl, by simp, by simp⟩
  | cons y ys ih =>
    intro m
    unfold Lattice.minNode
    split
    · rename_i hlt
      obtain ⟨b, x, a, h1, h2, h3, h4⟩ := ih y
      refine ⟨m :: b, x, a, by rw [h1]; rfl, h2, ?_, h4⟩
      intro z hz
      rcases List.mem_cons.mp hz with rfl | hz
      · have hy : (Lattice.minNode y ys).data.cost ≤ y.data.cost := by
          have hm : y ∈ b ++ x :: a := h1 ▸ List.mem_cons_self
          rcases List.mem_append.1 hm with hm | hm
          · exact Int.le_of_lt (h3 y hm)
          · rcases List.mem_cons.1 hm with hm | hm
            · exact Int.le_of_eq (congrArg NodeData.cost ((congrArg LNode.data hm).trans h2).symm)
            · exact h4 y hm
        omega
      · exact h3 z hz
    · rename_i hlt
      obtain ⟨b, x, a, h1, h2, h3, h4⟩ := ih m
      cases b with
      | nil =>
        injection h1 with h1 h1'
        subst h1
        subst h1'
        refine ⟨[], m, y :: ys, rfl, h2, by simp, ?_⟩
        intro z hz
        rcases List.mem_cons.mp hz with rfl | hz
        · rw [← h2]; omega
        · exact h4 z hz
      | cons b0 b =>
        injection h1 with h1 h1'
        subst h1
        have hlt' := h3 m (by simp)
        refine ⟨m :: y :: b, x, a, by rw [h1']; rfl, h2, ?_, h4⟩
        intro z hz
        rcases List.mem_cons.mp hz with rfl | hz
        · exact hlt'
        · rcases List.mem_cons.mp hz with rfl | hz
          · omega
          · exact h3 z (by simp [hz])

end Sudachi
