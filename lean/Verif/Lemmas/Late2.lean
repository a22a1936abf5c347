import Verif.Lemmas.Late
import Verif.Lemmas.Open

/-!
# What is kept of the settings of plugins
-/

namespace Sudachi

theorem asInt_iff {F : Floats} {v : Json} {r : Res Int} : v.toInt F = r ↔ v.AsInt F r := by
  unfold Json.AsInt Json.IsInt Json.NoNumber
  constructor
  · rintro rfl
    cases v with
    | num n => exact .inl ⟨n, .inl rfl, rfl⟩
    | bool b => cases b <;> exact .inl ⟨_, by simp, rfl⟩
    | real x => exact .inr (.inl ⟨x, rfl, rfl⟩)
    | null => exact .inr (.inr ⟨by simp, rfl⟩)
    | str s => exact .inr (.inr ⟨by simp, rfl⟩)
    | list l => exact .inr (.inr ⟨by simp, rfl⟩)
    | obj d => exact .inr (.inr ⟨by simp, rfl⟩)
  · rintro (⟨n, rfl | ⟨rfl, rfl⟩ | ⟨rfl, rfl⟩, rfl⟩ | ⟨x, rfl, rfl⟩ | ⟨rfl | ⟨_, rfl⟩ | ⟨_, rfl⟩ | ⟨_, rfl⟩, rfl⟩) <;> rfl

theorem asLength_iff {F : Floats} {v : Json} {f : Int → Res Bool} : v.longerThan F = f ↔ v.AsLength F f := by
  unfold Json.AsLength Json.IsInt Json.NoNumber
  constructor
  · rintro rfl
    cases v with
    | num n => exact .inl ⟨n, .inl rfl, fun _ => rfl⟩
    | bool b =>
      cases b
      · exact .inl ⟨0, by simp, fun _ => rfl⟩
      · exact .inl ⟨1, by simp, fun _ => rfl⟩
    | real x => exact .inr (.inl ⟨x, rfl, fun _ => rfl⟩)
    | null => exact .inr (.inr ⟨by simp, fun _ => rfl⟩)
    | str s => exact .inr (.inr ⟨by simp, fun _ => rfl⟩)
    | list l => exact .inr (.inr ⟨by simp, fun _ => rfl⟩)
    | obj d => exact .inr (.inr ⟨by simp, fun _ => rfl⟩)
  · rintro (⟨n, rfl | ⟨rfl, rfl⟩ | ⟨rfl, rfl⟩, h⟩ | ⟨x, rfl, h⟩ | ⟨rfl | ⟨_, rfl⟩ | ⟨_, rfl⟩ | ⟨_, rfl⟩, h⟩) <;>
      exact funext fun n => (h n).symm

theorem asText_iff {v : Json} {r : Res PStr} : v.toStr = r ↔ v.AsText r := by
  unfold Json.AsText
  constructor
  · rintro rfl
    cases v with
    | str s => exact .inl ⟨s, rfl, rfl⟩
    | _ => exact .inr ⟨(fun s h => by cases h), rfl⟩
  · rintro (⟨s, rfl, rfl⟩ | ⟨h, rfl⟩)
    · rfl
    · cases v with
      | str s => exact absurd rfl (h s)
      | _ => rfl

theorem lateProlongedInit_iff {j : Json} {v : Json} {o : LateInputObj} (hc : j.Has "class" v) :
    lateProlongedInit j = .ok o ↔ ∃ marks sym, o = .psm marks sym ∧
      ((j.Lacks "prolongedSoundMarks" ∧ marks = []) ∨ ∃ v, j.Has "prolongedSoundMarks" v ∧ v.IsChars marks) ∧
      ((j.Lacks "replacementSymbol" ∧ sym = .ok [0x30FC]) ∨ ∃ v, j.Has "replacementSymbol" v ∧ v.AsText sym) := by
  obtain ⟨f1, f2⟩ := hc.find (key' := "replacementSymbol")
  unfold lateProlongedInit
  show Except.bind _ _ = _ ↔ _
  rw [bind_ok_iff]
  constructor
  · rintro ⟨marks, h1, h2⟩
    rw [marks_iff hc] at h1
    rw [keySymbol_eq] at h2
    cases ho : j.opt (codes "replacementSymbol") with
    | none => rw [ho] at h2; cases h2; exact ⟨marks, _, rfl, h1, .inl ⟨f1 ho, rfl⟩⟩
    | some w =>
      rw [ho] at h2
      cases h2
      exact ⟨marks, _, rfl, h1, .inr ⟨w, f2 _ ho, asText_iff.1 rfl⟩⟩
  · rintro ⟨marks, sym, rfl, h1, h2⟩
    refine ⟨marks, (marks_iff hc).mpr h1, ?_⟩
    rw [keySymbol_eq]
    rcases h2 with ⟨h2, rfl⟩ | ⟨v, h2, h3⟩
    · rw [h2.opt]; rfl
    · rw [h2.opt, ← asText_iff.2 h3]; rfl

theorem lateGetInput_iff {j : Json} {o : LateInputObj} : lateGetInput j = .ok o ↔ LateInputWanted j o := by
  unfold lateGetInput
  rw [keyToValue_ok, keyClass_eq]
  show Except.bind _ _ = _ ↔ _
  rw [bind_ok_iff]
  constructor
  · rintro ⟨v, h1, h2⟩
    rw [at_iff] at h1
    cases v with
    | str s =>
      dsimp only at h2
      split at h2
      · rename_i hs
        cases h2
        rw [hs, classDefault_eq] at h1
        exact h1
      · split at h2
        · rename_i _ hs
          obtain ⟨marks, sym, rfl, h3⟩ := (lateProlongedInit_iff h1).mp h2
          rw [hs, classProlonged_eq] at h1
          exact ⟨h1, h3⟩
        · cases h2
    | _ => cases h2
  · intro h
    cases o with
    | default => exact ⟨_, at_iff.mpr h, by dsimp only; rw [← classDefault_eq, if_pos rfl]; rfl⟩
    | psm marks sym =>
      refine ⟨_, at_iff.mpr h.1, ?_⟩
      dsimp only
      rw [← classProlonged_eq, if_neg (Ne.symm classes_differ.1), if_pos rfl]
      exact (lateProlongedInit_iff h.1).mpr ⟨marks, sym, rfl, h.2⟩

theorem lateGetOov_iff {F : Floats} {j : Json} {o : LateOovObj} : lateGetOov F j = .ok o ↔ LateOovWanted F j o := by
  unfold lateGetOov
  rw [keyToValue_ok, keyClass_eq, keyCharDefName_eq, keyUnkDef_eq, keyLeftId_eq, keyRightId_eq, keyCost_eq, keyOovPOS_eq]
  show Except.bind _ _ = _ ↔ _
  rw [bind_ok_iff]
  constructor
  · rintro ⟨v, h1, h2⟩
    rw [at_iff] at h1
    cases v with
    | str s =>
      dsimp only at h2
      split at h2
      · rename_i hs
        rw [hs, classMeCab_eq] at h1
        obtain ⟨c, h3, h2⟩ := bind_ok h2
        obtain ⟨u, h4, h2⟩ := bind_ok h2
        cases h2
        exact ⟨h1, at_iff.mp h3, at_iff.mp h4⟩
      · split at h2
        · rename_i _ hs
          rw [hs, classSimple_eq] at h1
          obtain ⟨l, h3, h2⟩ := bind_ok h2
          obtain ⟨r, h4, h2⟩ := bind_ok h2
          obtain ⟨c, h5, h2⟩ := bind_ok h2
          obtain ⟨p, h6, h2⟩ := bind_ok h2
          cases h2
          exact ⟨h1, at_iff.mp h6, ⟨l, at_iff.mp h3, asInt_iff.1 rfl⟩, ⟨r, at_iff.mp h4, asInt_iff.1 rfl⟩, c, at_iff.mp h5, asInt_iff.1 rfl⟩
        · cases h2
    | _ => cases h2
  · intro h
    cases o with
    | mecab c u =>
      refine ⟨_, at_iff.mpr h.1, ?_⟩
      dsimp only
      rw [← classMeCab_eq, if_pos rfl, at_iff.mpr h.2.1, at_iff.mpr h.2.2]
      rfl
    | simple l r c p =>
      obtain ⟨h1, h2, ⟨jl, h3, h4⟩, ⟨jr, h5, h6⟩, jc, h7, h8⟩ := h
      refine ⟨_, at_iff.mpr h1, ?_⟩
      dsimp only
      rw [← classSimple_eq, if_neg (Ne.symm classes_differ.2.1), if_pos rfl, at_iff.mpr h2, at_iff.mpr h3, at_iff.mpr h5, at_iff.mpr h7,
        ← asInt_iff.2 h4, ← asInt_iff.2 h6, ← asInt_iff.2 h8]
      rfl

theorem lateGetPath_iff {F : Floats} {j : Json} {o : LatePathObj} : lateGetPath F j = .ok o ↔ LatePathWanted F j o := by
  unfold lateGetPath
  rw [keyToValue_ok, keyClass_eq, keyNormalize_eq, keyMinLength_eq, keyOovPOS_eq]
  show Except.bind _ _ = _ ↔ _
  rw [bind_ok_iff]
  constructor
  · rintro ⟨v, h1, h2⟩
    rw [at_iff] at h1
    cases v with
    | str s =>
      dsimp only at h2
      split at h2
      · rename_i hs
        rw [hs, classNumeric_eq] at h1
        obtain ⟨f1, f2⟩ := h1.find (key' := "enableNormalize")
        cases ho : j.opt (codes "enableNormalize") with
        | none => rw [ho] at h2; cases h2; exact ⟨h1, .inl ⟨f1 ho, rfl⟩⟩
        | some w => rw [ho] at h2; cases h2; exact ⟨h1, .inr ⟨w, f2 w ho, truthy_iff.mp rfl⟩⟩
      · split at h2
        · rename_i _ hs
          rw [hs, classKatakana_eq] at h1
          obtain ⟨f1, f2⟩ := h1.find (key' := "minLength")
          obtain ⟨p, h3, h2⟩ := bind_ok h2
          cases ho : j.opt (codes "minLength") with
          | none => rw [ho] at h2; cases h2; exact ⟨h1, at_iff.mp h3, .inl ⟨f1 ho, fun _ => rfl⟩⟩
          | some w => rw [ho] at h2; cases h2; exact ⟨h1, at_iff.mp h3, .inr ⟨w, f2 w ho, asLength_iff.1 rfl⟩⟩
        · cases h2
    | _ => cases h2
  · intro h
    cases o with
    | numeric b =>
      refine ⟨_, at_iff.mpr h.1, ?_⟩
      dsimp only
      rw [← classNumeric_eq, if_pos rfl]
      rcases h.2 with ⟨h2, rfl⟩ | ⟨v, h2, h3⟩
      · rw [h2.opt]; rfl
      · rw [h2.opt, ← truthy_iff.mpr h3]; rfl
    | katakana p shorter =>
      obtain ⟨h1, h2, h3⟩ := h
      refine ⟨_, at_iff.mpr h1, ?_⟩
      dsimp only
      rw [← classKatakana_eq, if_neg (Ne.symm classes_differ.2.2), if_pos rfl, at_iff.mpr h2]
      dsimp only [bind, Except.bind]
      rcases h3 with ⟨h3, h4⟩ | ⟨v, h3, h4⟩
      · rw [h3.opt]
        exact congrArg Except.ok (congrArg (LatePathObj.katakana p) (funext fun n => (h4 n).symm))
      · rw [h3.opt, ← asLength_iff.2 h4]
        rfl

end Sudachi
