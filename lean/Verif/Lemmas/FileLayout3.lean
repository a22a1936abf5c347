/-
Lemmas on the format of dictionary files: the grammar.
-/
import Verif.Lemmas.FileLayout2
namespace Sudachi

theorem getShort_eq {b : Bytes} (hb : Octets b) {i : Nat} (hi : i ≤ b.length) : getShort b i = (signedAt b i, clip b (i + 2)) := by
  unfold getShort mRead clip
  rw [fromLeSigned_signedAt hb]
  show (_, min (i + 2) (max i b.length)) = _
  rw [Nat.max_eq_right hi]

theorem clip_le (b : Bytes) (i : Nat) : clip b i ≤ b.length := Nat.min_le_right ..

theorem mSeek_within {b : Bytes} {i : Nat} (h : i ≤ b.length) : mSeek b i = .ok i := if_pos h

theorem mSeek_beyond {b : Bytes} {i : Nat} (h : b.length < i) : mSeek b i = .error .value := if_neg (by omega)

/-! ### The grammar -/

theorem shorts_spec {b : Bytes} (hb : Octets b) : ∀ {n i : Nat}, i + 2 * n ≤ b.length →
    (shorts (pySlice b i (i + 2 * n))).length = n ∧ ∀ k, k < n → (shorts (pySlice b i (i + 2 * n)))[k]? = some (signedAt b (i + 2 * k))
  | 0, i, _ => by
    rw [show i + 2 * 0 = i + 0 by rfl, pySlice_bytesAt]
    exact ⟨rfl, fun k hk => absurd hk (Nat.not_lt_zero _)⟩
  | n + 1, i, h => by
    obtain ⟨x, hx⟩ : ∃ x, b[i]? = some x := ⟨_, List.getElem?_eq_getElem (by omega)⟩
    obtain ⟨y, hy⟩ : ∃ y, b[i + 1]? = some y := ⟨_, List.getElem?_eq_getElem (by omega)⟩
    have e : pySlice b i (i + 2 * (n + 1)) = x :: y :: pySlice b (i + 2) (i + 2 + 2 * n) := by
      rw [show i + 2 * (n + 1) = i + ((2 * n + 1) + 1) by omega, pySlice_step hx, pySlice_step hy]
    have e0 : fromLeSigned [x, y] = signedAt b i := by
      rw [← fromLeSigned_signedAt hb, show i + 2 = i + (1 + 1) by rfl, pySlice_step hx, show i + 1 + 1 = i + 1 + (0 + 1) by rfl,
        pySlice_step hy, pySlice_bytesAt]
      rfl
    obtain ⟨h1, h2⟩ := shorts_spec hb (n := n) (i := i + 2) (by omega)
    rw [e]
    show (fromLeSigned [x, y] :: shorts _).length = _ ∧ ∀ k, _ → (fromLeSigned [x, y] :: shorts _)[k]? = _
    refine ⟨by rw [List.length_cons, h1], fun k hk => ?_⟩
    cases k with
    | zero => rw [e0]; rfl
    | succ k =>
      rw [List.getElem?_cons_succ, h2 k (by omega)]
      congr 2
      omega

/-- `Grammar.read` step by step. -/
theorem grammar_steps {b : Bytes} (hb : Octets b) :
    (b.length < 272 ∧ Grammar.read b HEADER_SIZE = .error .value) ∨
    (272 ≤ b.length ∧ Grammar.read b HEADER_SIZE = (getPosList b (posCount b) (clip b 274)).bind fun p =>
      let l := (getShort b p.2).1
      let r := (getShort b (getShort b p.2).2).1
      let i := (getShort b (getShort b p.2).2).2
      if l * r ≠ 0 ∧ (l < 0 ∨ r < 0) then
        .error (if viewLength b.length i (i + 2 * l * r) = 0 ∨ viewLength b.length i (i + 2 * l * r) % 2 = 1 then .type else .value)
      else (castMatrix b i l.toNat r.toNat).bind fun cells =>
        .ok ⟨p.1, l.toNat, r.toNat, cells, (i - HEADER_SIZE) + 2 * l.toNat * r.toNat⟩) := by
  have hh : HEADER_SIZE = 272 := rfl
  unfold Grammar.read
  rw [hh]
  by_cases h : 272 ≤ b.length
  · right
    refine ⟨h, ?_⟩
    rw [mSeek_within h]
    have e := getShort_eq hb h
    show (getPosList b (getShort b 272).1.toNat (getShort b 272).2).bind _ = _
    rw [e]
    rfl
  · left
    refine ⟨by omega, ?_⟩
    rw [mSeek_beyond (by omega)]
    rfl

theorem viewLength_eq {size start : Nat} {stop : Int} : viewLength size start stop = bytesBetween size start stop := by
  unfold viewLength bytesBetween
  split <;> omega

theorem posEnd_unique {b : Bytes} (hb : Octets b) {ss ss' : List PStr} {i j j' : Nat} (h : StringsAt b i ss j) (h' : StringsAt b i ss' j')
    (hl : ss.length = ss'.length) : ss = ss' ∧ j = j' := by
  have a := (getPosStrings_ok hb).2 ⟨rfl, h⟩
  have c := (getPosStrings_ok hb).2 ⟨hl.symm, h'⟩
  rw [a] at c
  cases c
  exact ⟨rfl, rfl⟩

theorem stringsFail_not {b : Bytes} (hb : Octets b) {i n j : Nat} {e : Err} {ss : List PStr} (h : StringsFail b i n e)
    (h' : StringsAt b i ss j) (hl : ss.length = n) : False := by
  have a := (getPosStrings_error hb).2 h
  have c := (getPosStrings_ok hb).2 ⟨hl, h'⟩
  rw [a] at c
  cases c

/-- After the parts of speech. -/
theorem grammar_after {b : Bytes} (hb : Octets b) (h : 272 ≤ b.length) {l : List (List PStr)} {j : Nat}
    (hp : getPosList b (posCount b) (clip b 274) = .ok (l, j)) :
    Grammar.read b HEADER_SIZE =
      if signedAt b j * signedAt b (clip b (j + 2)) ≠ 0 ∧ (signedAt b j < 0 ∨ signedAt b (clip b (j + 2)) < 0) then
        .error (if bytesBetween b.length (clip b (j + 4)) (clip b (j + 4) + 2 * signedAt b j * signedAt b (clip b (j + 2))) = 0 ∨
          bytesBetween b.length (clip b (j + 4)) (clip b (j + 4) + 2 * signedAt b j * signedAt b (clip b (j + 2))) % 2 = 1 then .type else .value)
      else (castMatrix b (clip b (j + 4)) (signedAt b j).toNat (signedAt b (clip b (j + 2))).toNat).bind fun cells =>
        .ok ⟨l, (signedAt b j).toNat, (signedAt b (clip b (j + 2))).toNat, cells,
          (clip b (j + 4) - 272) + 2 * (signedAt b j).toNat * (signedAt b (clip b (j + 2))).toNat⟩ := by
  have hj := stringsAt_le ((getPosList_ok hb).1 hp).2.2 (clip_le b 274)
  rcases grammar_steps hb with ⟨h', _⟩ | ⟨_, e⟩
  · omega
  rw [e, hp]
  have e1 := getShort_eq hb hj
  have e2 := getShort_eq hb (clip_le b (j + 2))
  have e3 : clip b (clip b (j + 2) + 2) = clip b (j + 4) := by unfold clip; omega
  rw [e3] at e2
  simp only [Except.bind, e1, e2, viewLength_eq]
  rfl

theorem castMatrix_eq {b : Bytes} {i l r : Nat} (hi : i ≤ b.length) : castMatrix b i l r =
    if l * r = 0 then .ok [] else if i + 2 * (l * r) ≤ b.length then .ok (shorts (pySlice b i (i + 2 * (l * r)))) else .error .type := by
  unfold castMatrix
  rw [Nat.mul_assoc]
  by_cases h0 : l * r = 0
  · rw [if_pos h0, if_pos h0]
  · rw [if_neg h0, if_neg h0]
    have hl : (pySlice b i (i + 2 * (l * r))).length = min (2 * (l * r)) (b.length - i) := by
      rw [pySlice_bytesAt]
      unfold bytesAt
      rw [List.length_take, List.length_drop]
    by_cases h1 : i + 2 * (l * r) ≤ b.length
    · rw [if_pos h1, if_pos (by omega)]
    · rw [if_neg h1, if_neg (by omega)]

theorem sign_split {l r : Int} (h : ¬(l * r ≠ 0 ∧ (l < 0 ∨ r < 0))) : l * r = 0 ∨ 0 < l ∧ 0 < r := by
  by_cases h0 : l * r = 0
  · exact .inl h0
  · right
    have h1 : l ≠ 0 := fun e => h0 (by rw [e, Int.zero_mul])
    have h2 : r ≠ 0 := fun e => h0 (by rw [e, Int.mul_zero])
    have : ¬(l < 0 ∨ r < 0) := fun e => h ⟨h0, e⟩
    omega

theorem sign_join {l r : Int} (h : l * r = 0 ∨ 0 < l ∧ 0 < r) : ¬(l * r ≠ 0 ∧ (l < 0 ∨ r < 0)) := by
  rintro ⟨h1, h2⟩
  rcases h with h | h
  · exact h1 h
  · omega

theorem grammar_ok {b : Bytes} (hb : Octets b) {g : Grammar} : Grammar.read b HEADER_SIZE = .ok g ↔ GrammarIs b g := by
  constructor
  · intro h
    rcases grammar_steps hb with ⟨_, e⟩ | ⟨hl, e⟩
    · rw [e] at h; cases h
    obtain ⟨⟨l, j⟩, hp, -⟩ := bind_ok (e.symm.trans h)
    obtain ⟨p1, p2, p3⟩ := (getPosList_ok hb).1 hp
    rw [grammar_after hb hl hp, castMatrix_eq (clip_le b (j + 4))] at h
    split at h
    · cases h
    · rename_i hs
      obtain ⟨cells, hc, h⟩ := bind_ok h
      cases h
      refine ⟨hl, j, p1, p2, p3, rfl, rfl, sign_split hs, ?_, ?_, ?_, ?_⟩
      · intro h0
        rw [if_neg h0] at hc
        split at hc
        · assumption
        · cases hc
      · show cells.length = _
        split at hc
        · rename_i h0
          cases hc
          exact h0.symm
        · split at hc
          · rename_i hr
            cases hc
            exact (shorts_spec hb hr).1
          · cases hc
      · intro k hk
        show cells[k]? = _
        split at hc
        · rename_i h0
          have hk : k < (signedAt b j).toNat * (signedAt b (clip b (j + 2))).toNat := hk
          omega
        · split at hc
          · rename_i hr
            cases hc
            exact (shorts_spec hb hr).2 k hk
          · cases hc
      · show _ + 2 * _ * _ = _
        rw [Nat.mul_assoc]
  · rintro ⟨hl, j, p1, p2, p3, e1, e2, hs, hr, hm, hk, hz⟩
    have hp := (getPosList_ok hb).2 ⟨p1, p2, p3⟩
    rw [grammar_after hb hl hp, if_neg (sign_join hs), castMatrix_eq (clip_le b (j + 4)), ← e1, ← e2]
    obtain ⟨gp, gl, gr, gm, gs⟩ := g
    have hm : gm.length = gl * gr := hm
    have hr : gl * gr ≠ 0 → clip b (j + 4) + 2 * (gl * gr) ≤ b.length := hr
    have hk : ∀ k, k < gl * gr → gm[k]? = some (signedAt b (clip b (j + 4) + 2 * k)) := hk
    have hz : gs = clip b (j + 4) - 272 + 2 * (gl * gr) := hz
    have hc : (if gl * gr = 0 then (.ok [] : Res (List Int)) else if clip b (j + 4) + 2 * (gl * gr) ≤ b.length then
        .ok (shorts (pySlice b (clip b (j + 4)) (clip b (j + 4) + 2 * (gl * gr)))) else .error .type) = .ok gm := by
      by_cases h0 : gl * gr = 0
      · rw [if_pos h0]
        rw [h0] at hm
        rw [List.length_eq_zero_iff.1 hm]
      · rw [if_neg h0, if_pos (hr h0)]
        obtain ⟨s1, s2⟩ := shorts_spec hb (hr h0)
        congr 1
        apply List.ext_getElem?
        intro k
        by_cases hkk : k < gl * gr
        · rw [s2 k hkk, hk k hkk]
        · rw [List.getElem?_eq_none (by omega), List.getElem?_eq_none (by omega)]
    show Except.bind (if gl * gr = 0 then _ else _) _ = _
    rw [hc]
    show Except.ok (Grammar.mk gp gl gr gm (clip b (j + 4) - 272 + 2 * gl * gr)) = _
    rw [hz, Nat.mul_assoc]

theorem grammar_error {b : Bytes} (hb : Octets b) {e : Err} : Grammar.read b HEADER_SIZE = .error e ↔ GrammarFails b e := by
  have after : ∀ {j}, 272 ≤ b.length → PosEnd b j → ∃ l, getPosList b (posCount b) (clip b 274) = .ok (l, j) := by
    rintro j hl ⟨ss, h1, h2⟩
    have hf := getPosList_flat b (posCount b) (clip b 274)
    rw [(getPosStrings_ok hb).2 ⟨h1, h2⟩] at hf
    cases hp : getPosList b (posCount b) (clip b 274) with
    | error x => rw [hp] at hf; cases hf
    | ok p =>
      rw [hp] at hf
      injection hf with hf
      injection hf with _ hf
      exact ⟨p.1, by rw [hf]⟩
  constructor
  · intro h
    rcases grammar_steps hb with ⟨hl, e'⟩ | ⟨hl, e'⟩
    · rw [e'] at h; cases h; exact .short hl
    cases hp : getPosList b (posCount b) (clip b 274) with
    | error x =>
      rw [e', hp] at h
      cases h
      exact .pos _ hl ((getPosList_error hb).1 hp)
    | ok p =>
      obtain ⟨l, j⟩ := p
      obtain ⟨p1, p2, p3⟩ := (getPosList_ok hb).1 hp
      have hj : PosEnd b j := ⟨_, by rw [flatten_six_length p2, p1], p3⟩
      rw [grammar_after hb hl hp, castMatrix_eq (clip_le b (j + 4))] at h
      by_cases hs : signedAt b j * signedAt b (clip b (j + 2)) ≠ 0 ∧ (signedAt b j < 0 ∨ signedAt b (clip b (j + 2)) < 0)
      · rw [if_pos hs] at h
        rw [← Except.error.inj h]
        exact .negative j _ _ _ hl hj rfl rfl hs.1 hs.2 rfl
      · rw [if_neg hs] at h
        by_cases h0 : (signedAt b j).toNat * (signedAt b (clip b (j + 2))).toNat = 0
        · rw [if_pos h0] at h
          cases h
        · rw [if_neg h0] at h
          by_cases hr : clip b (j + 4) + 2 * ((signedAt b j).toNat * (signedAt b (clip b (j + 2))).toNat) ≤ b.length
          · rw [if_pos hr] at h
            cases h
          · rw [if_neg hr] at h
            cases h
            rcases sign_split hs with h1 | ⟨h1, h2⟩
            · refine absurd ?_ h0
              rcases Int.mul_eq_zero.1 h1 with h1 | h1
              · rw [h1]
                exact Nat.zero_mul _
              · rw [h1]
                exact Nat.mul_zero _
            · exact .cells j hl hj h1 h2 (by omega)
  · intro h
    cases h with
    | short h =>
      rcases grammar_steps hb with ⟨_, e'⟩ | ⟨hl, _⟩
      · exact e'
      · omega
    | pos _ hl h =>
      rcases grammar_steps hb with ⟨_, e'⟩ | ⟨_, e'⟩
      · omega
      · rw [e', (getPosList_error hb).2 h]
        rfl
    | cells j hl hj h1 h2 h3 =>
      obtain ⟨l, hp⟩ := after hl hj
      rw [grammar_after hb hl hp, castMatrix_eq (clip_le b (j + 4)), if_neg (sign_join (.inr ⟨h1, h2⟩)), if_neg, if_neg]
      · rfl
      · omega
      · intro h0
        rcases Nat.mul_eq_zero.1 h0 with h0 | h0 <;> omega
    | negative j l r n hl hj e1 e2 h0 h1 hn =>
      subst e1 e2 hn
      obtain ⟨l, hp⟩ := after hl hj
      rw [grammar_after hb hl hp, if_pos ⟨h0, h1⟩]

end Sudachi
