/-
Lemmas on the output of the tokenize command.
-/
import Verif.Spec.CommandLine
import Verif.Props.Tokenizer
import Verif.Lemmas.DictFile
namespace Sudachi

theorem joinOn_eq (sep : Nat) : ∀ l : List PStr, joinOn sep l = List.intercalate [sep] l
  | [] => rfl
  | [s] => by simp [joinOn, List.intercalate]
  | s :: t :: ts => by
    unfold joinOn
    rw [joinOn_eq sep (t :: ts)]
    simp [List.intercalate, List.intersperse]

theorem tabbed_eq (l : List PStr) : joinOn 9 l = tabbed l := joinOn_eq 9 l

theorem commas_eq (l : List PStr) : joinOn 44 l = commas l := joinOn_eq 44 l

theorem digitChar_eq : ∀ d, d < 10 → (Nat.digitChar d).toNat = 48 + d := by decide

theorem natStr_eq : ∀ (fuel n : Nat) (acc : PStr) (cs : List Char), n < fuel → acc = cs.map Char.toNat →
    natStrAux fuel n acc = (Nat.toDigitsCore 10 fuel n cs).map Char.toNat := by
  intro fuel
  induction fuel with
  | zero =>
    intro n acc cs h
    omega
  | succ fuel ih =>
    intro n acc cs h hacc
    unfold natStrAux Nat.toDigitsCore
    split
    · rename_i hn
      have h0 : n / 10 = 0 := by omega
      simp only [h0, if_true, List.map_cons]
      rw [Nat.mod_eq_of_lt hn, digitChar_eq n hn, hacc]
    · rename_i hn
      have h0 : n / 10 ≠ 0 := by omega
      simp only [h0, if_false]
      apply ih
      · omega
      · rw [List.map_cons, digitChar_eq _ (Nat.mod_lt _ (by decide)), hacc]

theorem intStr_eq (n : Int) : intStr n = lit (toString n) := by
  have key : ∀ k : Nat, natStrAux (k + 1) k [] = lit (toString k) := by
    intro k
    rw [natStr_eq (k + 1) k [] [] (by omega) rfl]
    show _ = (Nat.repr k).toList.map Char.toNat
    unfold Nat.repr
    rw [String.toList_ofList]
    rfl
  unfold intStr
  cases n with
  | ofNat k =>
    rw [if_neg (by simp)]
    exact key k
  | negSucc k =>
    rw [if_pos (Int.negSucc_lt_zero k)]
    show 45 :: natStrAux (k + 1 + 1) (k + 1) [] = _
    rw [key (k + 1)]
    show _ = (("-" ++ (k + 1).repr : String)).toList.map Char.toNat
    rw [String.toList_append]
    rfl

theorem chomped_rstrip (line : PStr) : Chomped line (rstripNewline line) := by
  have key : ∀ r : PStr, ∃ n, r = List.replicate n 10 ++ r.dropWhile (· == 10) ∧ (r.dropWhile (· == 10)).head? ≠ some 10 := by
    intro r
    induction r with
    | nil => exact ⟨0, rfl, by simp⟩
    | cons c r ih =>
      rw [List.dropWhile_cons]
      by_cases hc : c = 10
      · subst hc
        obtain ⟨n, h1, h2⟩ := ih
        rw [if_pos (by decide)]
        refine ⟨n + 1, ?_, h2⟩
        rw [List.replicate_succ, List.cons_append, ← h1]
      · refine ⟨0, ?_, ?_⟩
        · rw [if_neg (by simpa using hc)]
          rfl
        · rw [if_neg (by simpa using hc)]
          simpa using hc
  obtain ⟨n, h1, h2⟩ := key line.reverse
  refine ⟨n, ?_, ?_⟩
  · unfold rstripNewline
    have := congrArg List.reverse h1
    rw [List.reverse_reverse, List.reverse_append, List.reverse_replicate] at this
    exact this
  · intro b hb
    apply h2
    have := congrArg List.reverse hb
    unfold rstripNewline at this
    rw [List.reverse_reverse, List.reverse_append] at this
    rw [this]
    rfl

theorem fieldsOf_line {g : Grammar} {lex : Lex} {ml : MorphemeList} {all : Bool} {i : Nat} {fs : List PStr}
    (h : fieldsOf g lex ml all i = .ok fs) : LineOf g lex ml all i (joinOn 9 fs) := by
  unfold fieldsOf at h
  obtain ⟨s, hs, h⟩ := bind_ok h
  obtain ⟨wi, hw, h⟩ := bind_ok h
  obtain ⟨pos, hp, h⟩ := bind_ok h
  unfold LineOf
  cases all with
  | true =>
    rw [if_pos rfl] at h ⊢
    obtain ⟨d, hd, h⟩ := bind_ok h
    obtain ⟨oov, ho, h⟩ := bind_ok h
    injection h with h
    refine ⟨s, wi, pos, d, oov, hs, hw, hp, hd, ho, ?_⟩
    rw [← h, tabbed_eq, commas_eq, commas_eq, intStr_eq]
    have hm : wi.synonymGroupIds.map intStr = wi.synonymGroupIds.map (fun n => lit (toString n)) :=
      List.map_congr_left (fun n _ => intStr_eq n)
    rw [hm]
    have h1 : lit "[" = [91] := by decide
    have h2 : lit "]" = [93] := by decide
    have h3 : lit "(OOV)" = [40, 79, 79, 86, 41] := by decide
    rw [h1, h2, h3]
    rfl
  | false =>
    rw [if_neg (by decide)] at h ⊢
    injection h with h
    exact ⟨s, wi, pos, hs, hw, hp, by rw [← h, tabbed_eq, commas_eq]⟩

theorem fieldsOf_none {g : Grammar} {lex : Lex} {ml : MorphemeList} {all : Bool} {i : Nat} {e : Err}
    (h : fieldsOf g lex ml all i = .error e) (line : PStr) : ¬ LineOf g lex ml all i line := by
  intro hl
  unfold LineOf at hl
  unfold fieldsOf at h
  cases all with
  | true =>
    rw [if_pos rfl] at hl
    obtain ⟨s, wi, pos, d, oov, hs, hw, hp, hd, ho, _⟩ := hl
    rw [hs] at h
    simp only [bind, Except.bind, hw, hp, hd, ho, if_true] at h
    cases h
  | false =>
    rw [if_neg (by decide)] at hl
    obtain ⟨s, wi, pos, hs, hw, hp, _⟩ := hl
    rw [hs] at h
    simp only [bind, Except.bind, hw, hp] at h
    cases h

theorem printMorphemes_out {g : Grammar} {lex : Lex} {ml : MorphemeList} {all : Bool} :
    ∀ (is : List Nat) (out : List PStr) (r : Res Unit), printMorphemes g lex ml all is = (out, r) →
      out.length ≤ is.length ∧ (∀ (j i : Nat) line, is[j]? = some i → out[j]? = some line → LineOf g lex ml all i line) ∧
      (r = .ok () → out.length = is.length) ∧
      (∀ e, r = .error e → ∃ i, is[out.length]? = some i ∧ fieldsOf g lex ml all i = .error e) := by
  intro is
  induction is with
  | nil =>
    intro out r h
    injection h with h1 h2
    subst h1 h2
    exact ⟨Nat.le_refl _, fun j i line h => (by cases h), fun _ => rfl, fun e h => (by cases h)⟩
  | cons i is ih =>
    intro out r h
    unfold printMorphemes at h
    cases hf : fieldsOf g lex ml all i with
    | error e =>
      rw [hf] at h
      injection h with h1 h2
      subst h1 h2
      refine ⟨Nat.zero_le _, fun j i line _ h => (by cases h), fun h => (by cases h), ?_⟩
      intro e' he'
      injection he' with he'
      subst he'
      exact ⟨i, rfl, hf⟩
    | ok fs =>
      rw [hf] at h
      cases hp : printMorphemes g lex ml all is with
      | mk out' r' =>
        simp only [hp] at h
        injection h with h1 h2
        subst h1 h2
        obtain ⟨g1, g2, g3, g4⟩ := ih out' r' hp
        refine ⟨Nat.succ_le_succ g1, ?_, fun h => congrArg (· + 1) (g3 h), ?_⟩
        · intro j k line hj hl
          cases j with
          | zero =>
            injection hj with hj
            injection hl with hl
            rw [← hj, ← hl]
            exact fieldsOf_line hf
          | succ j => exact g2 j k line hj hl
        · intro e he
          exact g4 e he

theorem iter_getElem (ml : MorphemeList) (i : Nat) (h : i < ml.len) : ml.iter[i]? = some i := by
  unfold MorphemeList.iter
  rw [List.getElem?_eq_getElem (by simpa [MorphemeList.len] using h)]
  simp

theorem iter_length (ml : MorphemeList) : ml.iter.length = ml.len := by
  simp [MorphemeList.iter, MorphemeList.len]

/-- A tab is in every line of a morpheme. -/
theorem LineOf.tab {g : Grammar} {lex : Lex} {ml : MorphemeList} {all : Bool} {i : Nat} {line : PStr}
    (h : LineOf g lex ml all i line) : 9 ∈ line := by
  have key : ∀ (a b : PStr) (l : List PStr), 9 ∈ tabbed (a :: b :: l) := by
    intro a b l
    rw [← tabbed_eq]
    unfold joinOn
    simp
  unfold LineOf at h
  cases all with
  | true =>
    rw [if_pos rfl] at h
    obtain ⟨s, wi, pos, d, oov, _, _, _, _, _, h⟩ := h
    rw [h]
    exact key _ _ _
  | false =>
    rw [if_neg (by decide)] at h
    obtain ⟨s, wi, pos, _, _, _, h⟩ := h
    rw [h]
    exact key _ _ _

end Sudachi
