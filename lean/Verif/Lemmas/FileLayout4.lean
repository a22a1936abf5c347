/-
Lemmas on the format of dictionary files: the lexicon.
-/
import Verif.Lemmas.FileLayout3
namespace Sudachi

theorem lex_chain {α : Type} (b : Bytes) (o : Nat) (A : Nat → Nat) (B : Nat → Nat → Nat) (C : Nat → Nat → Nat → Res α) :
    ((mSeek b o).bind fun i0 => (mSeek b (A i0)).bind fun i1 => (mSeek b (B i0 i1)).bind fun i2 => C i0 i1 i2) =
      if b.length < o ∨ b.length < A o ∨ b.length < B o (A o) then .error .value else C o (A o) (B o (A o)) := by
  by_cases h0 : b.length < o
  · rw [mSeek_beyond h0, if_pos (.inl h0)]; rfl
  rw [mSeek_within (Nat.le_of_not_lt h0)]
  show ((mSeek b (A o)).bind fun i1 => (mSeek b (B o i1)).bind fun i2 => C o i1 i2) = _
  by_cases h1 : b.length < A o
  · rw [mSeek_beyond h1, if_pos (.inr (.inl h1))]; rfl
  rw [mSeek_within (Nat.le_of_not_lt h1)]
  show ((mSeek b (B o (A o))).bind fun i2 => C o (A o) i2) = _
  by_cases h2 : b.length < B o (A o)
  · rw [mSeek_beyond h2, if_pos (.inr (.inr h2))]; rfl
  rw [mSeek_within (Nat.le_of_not_lt h2), if_neg (fun h => h.elim h0 (fun h => h.elim h1 h2))]
  rfl

theorem read_chain (b : Bytes) (o : Nat) (syn : Bool) (f : Nat → Nat) (hf : ∀ i, fromLe (mRead b i 4).1 = f i) :
    DALex.read b o syn =
      if b.length < o ∨ b.length < o + 4 + f o * 4 ∨ b.length < o + 4 + f o * 4 + (4 + f (o + 4 + f o * 4)) then .error .value
      else
        let w := o + 4 + f o * 4
        let c := w + (4 + f w)
        if (pySlice b (mRead b c 4).2 ((mRead b c 4).2 + f c * 6)).length % 2 = 1 then .error .type
        else .ok ⟨b, pySlice b (o + 4) w, w + 4, (pySlice b (w + 4) (w + 4 + f w)).length, f c, (mRead b c 4).2,
          (pySlice b (mRead b c 4).2 ((mRead b c 4).2 + f c * 6)).length, c + (4 + 6 * f c), syn⟩ := by
  have hf : (fun i => fromLe (mRead b i 4).1) = f := funext hf
  subst hf
  exact lex_chain b o (fun i => o + 4 + fromLe (mRead b i 4).1 * 4) (fun i j => o + 4 + fromLe (mRead b i 4).1 * 4 + (4 + fromLe (mRead b j 4).1)) _

theorem lex_abstract (b : Bytes) (o : Nat) (syn : Bool) (n1 n2 n3 w c s e : Nat) (h1 : w = o + 4 + 4 * n1) (h2 : c = w + 4 + n2)
    (h3 : s = clip b (c + 4)) (h4 : e = clip b (s + 6 * n3)) (f : Nat → Nat) (hf : ∀ i, fromLe (mRead b i 4).1 = f i)
    (f1 : f o = n1) (f2 : f w = n2) (f3 : f c = n3) : DALex.read b o syn =
    if b.length < o ∨ b.length < w ∨ b.length < c then .error .value
    else if (e - s) % 2 = 1 then .error .type
    else .ok { bytes := b, trie := bytesAt b (o + 4) (4 * n1), widOff := w + 4, widLen := c - (w + 4), size := n3, parOff := s,
               parLen := e - s, infoOff := c + 4 + 6 * n3, hasSyn := syn } := by
  have e1 : o + 4 + n1 * 4 = w := by omega
  have e2 : w + (4 + n2) = c := by omega
  rw [read_chain b o syn f hf, f1, e1, f2, e2]
  by_cases hc : b.length < o ∨ b.length < w ∨ b.length < c
  · rw [if_pos hc, if_pos hc]
  rw [if_neg hc, if_neg hc]
  have ps : (mRead b c 4).2 = s := by
    rw [h3]
    show min (c + 4) (max c b.length) = min (c + 4) b.length
    rw [Nat.max_eq_right (by omega)]
  have pl : (pySlice b s (s + n3 * 6)).length = e - s := by
    rw [pySlice_bytesAt, h4]
    unfold bytesAt clip
    rw [List.length_take, List.length_drop]
    have : s ≤ b.length := h3 ▸ clip_le ..
    omega
  have wl : (pySlice b (w + 4) (w + 4 + n2)).length = c - (w + 4) := by
    rw [pySlice_bytesAt]
    unfold bytesAt
    rw [List.length_take, List.length_drop]
    omega
  have tr : pySlice b (o + 4) w = bytesAt b (o + 4) (4 * n1) := by rw [h1, pySlice_bytesAt]
  simp only
  rw [f2, e2, ps, f3, pl, wl, tr, Nat.add_assoc c 4]

theorem lexicon_steps (b : Bytes) (o : Nat) (syn : Bool) : DALex.read b o syn =
    if b.length < o ∨ b.length < widPlace b o ∨ b.length < countPlace b o then .error .value
    else if (paramEnd b o - paramStart b o) % 2 = 1 then .error .type
    else .ok { bytes := b, trie := bytesAt b (o + 4) (4 * numberAt b o 4), widOff := widPlace b o + 4,
               widLen := countPlace b o - (widPlace b o + 4), size := numberAt b (countPlace b o) 4, parOff := paramStart b o,
               parLen := paramEnd b o - paramStart b o, infoOff := countPlace b o + 4 + 6 * numberAt b (countPlace b o) 4, hasSyn := syn } :=
  lex_abstract b o syn _ _ _ _ _ _ _ rfl rfl rfl rfl (fun i => numberAt b i 4) (fun i => fromLe_numberAt b 4 i) rfl rfl rfl

theorem lexicon_ok {b : Bytes} {o : Nat} {syn : Bool} {x : DALex} : DALex.read b o syn = .ok x ↔ LexiconIs b o syn x := by
  rw [lexicon_steps]
  have h1 : o < widPlace b o := by unfold widPlace; omega
  have h2 : widPlace b o + 4 ≤ countPlace b o := by unfold countPlace; omega
  constructor
  · intro h
    split at h
    · cases h
    · split at h
      · cases h
      · cases h
        exact ⟨by omega, by omega, by omega, by omega, rfl⟩
  · rintro ⟨a1, a2, a3, a4, rfl⟩
    rw [if_neg (by omega), if_neg (by omega)]

theorem lexicon_error {b : Bytes} {o : Nat} {syn : Bool} {e : Err} : DALex.read b o syn = .error e ↔ LexiconFails b o e := by
  rw [lexicon_steps]
  have h1 : o < widPlace b o := by unfold widPlace; omega
  have h2 : widPlace b o + 4 ≤ countPlace b o := by unfold countPlace; omega
  constructor
  · intro h
    split at h
    · rename_i hc
      cases h
      exact .ends hc
    · split at h
      · cases h
        exact .odd (by omega) (by assumption)
      · cases h
  · intro h
    cases h with
    | ends h => rw [if_pos h]
    | odd h h' => rw [if_neg (by omega), if_pos h']

end Sudachi
