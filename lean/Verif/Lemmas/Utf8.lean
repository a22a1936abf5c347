/-
The strict UTF-8 decoder accepts exactly what the encoder makes.
-/
import Verif.Lemmas.Bytes
import Verif.Lemmas.DictFile
namespace Sudachi

theorem isCont_iff {b : Nat} : isCont b = true ↔ 128 ≤ b ∧ b ≤ 191 := by simp [isCont]

theorem encOk {c : Nat} (h : c ≤ 0x10FFFF ∧ (c < 0xD800 ∨ 0xDFFF < c)) : encodable c = true := by
  simp [encodable]; omega

/-- The decoder accepts only what the encoder makes. -/
theorem decodeUtf8_only : ∀ (n : Nat) (b : Bytes), b.length ≤ n → ∀ s, decodeUtf8 b = .ok s →
    (∀ c ∈ s, encodable c = true) ∧ b = s.flatMap utf8Cp := by
  intro n
  induction n with
  | zero =>
    intro b hn s h
    have : b = [] := List.length_eq_zero_iff.mp (by omega)
    subst this
    rw [decodeUtf8] at h
    cases h
    exact ⟨fun c hc => (by cases hc), rfl⟩
  | succ n ih =>
    intro b hn s h
    cases b with
    | nil => rw [decodeUtf8] at h; cases h; exact ⟨fun c hc => (by cases hc), rfl⟩
    | cons a r =>
      simp only [List.length_cons] at hn
      have fin : ∀ (v : Nat) (p r' : Bytes), r'.length ≤ n → p ++ r' = a :: r → encodable v = true → utf8Cp v = p →
          (do let s ← decodeUtf8 r'; pure (v :: s) : Res PStr) = .ok s → (∀ c ∈ s, encodable c = true) ∧ a :: r = s.flatMap utf8Cp := by
        intro v p r' hl he hv hu hd
        obtain ⟨s', h1, h2⟩ := bind_ok hd
        cases h2
        obtain ⟨i1, i2⟩ := ih r' hl s' h1
        refine ⟨?_, ?_⟩
        · intro c hc
          rcases List.mem_cons.mp hc with rfl | hc
          · exact hv
          · exact i1 c hc
        · rw [List.flatMap_cons, hu, ← i2, he]
      unfold decodeUtf8 at h
      split at h
      · rename_i ha
        exact fin a [a] r (by omega) rfl (encOk (by omega)) (by unfold utf8Cp; rw [if_pos ha]) h
      · split at h
        · rename_i ha ha2
          split at h
          · rename_i b r'
            split at h
            · rename_i hb
              have hb := isCont_iff.mp hb
              refine fin _ [a, b] r' (by simp at hn; omega) rfl (encOk (by omega)) ?_ h
              unfold utf8Cp
              rw [if_neg (by omega), if_pos (by omega)]
              simp only [List.cons.injEq, and_true]
              omega
            · cases h
          · cases h
        · split at h
          · rename_i ha ha2 ha3
            split at h
            · rename_i b c r'
              dsimp only at h
              split at h
              · rename_i hb
                simp only [Bool.and_eq_true, isCont_iff, decide_eq_true_eq, Bool.not_eq_true', Bool.and_eq_false_iff, decide_eq_false_iff_not] at hb
                refine fin _ [a, b, c] r' (by simp at hn; omega) rfl (encOk (by omega)) ?_ h
                unfold utf8Cp
                rw [if_neg (by omega), if_neg (by omega), if_pos (by omega)]
                simp only [List.cons.injEq, and_true]
                omega
              · cases h
            · cases h
          · split at h
            · rename_i ha ha2 ha3 ha4
              split at h
              · rename_i b c d r'
                dsimp only at h
                split at h
                · rename_i hb
                  simp only [Bool.and_eq_true, isCont_iff, decide_eq_true_eq] at hb
                  refine fin _ [a, b, c, d] r' (by simp at hn; omega) rfl (encOk (by omega)) ?_ h
                  unfold utf8Cp
                  rw [if_neg (by omega), if_neg (by omega), if_neg (by omega)]
                  simp only [List.cons.injEq, and_true]
                  omega
                · cases h
              · cases h
            · cases h

theorem decodeUtf8_iff {b : Bytes} {s : PStr} : decodeUtf8 b = .ok s ↔ encodeUtf8 s = .ok b := by
  constructor
  · intro h
    obtain ⟨h1, h2⟩ := decodeUtf8_only b.length b (Nat.le_refl _) s h
    unfold encodeUtf8
    rw [if_pos (List.all_eq_true.mpr h1), h2]
  · exact decodeUtf8_encode

end Sudachi
