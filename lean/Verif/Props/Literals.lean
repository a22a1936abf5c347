/-
C70: unicode literals.
-/
import Verif.Spec.Literals
import Verif.Lemmas.Definitions
namespace Sudachi

theorem codes_u : codes "\\u" = [92, 117] := by decide
theorem codes_brace : codes "\\u{" = [92, 117, 123] := by decide
theorem codes_close : codes "}" = [125] := by decide
theorem lowerHex_eq : lowerHex = [48, 49, 50, 51, 52, 53, 54, 55, 56, 57, 97, 98, 99, 100, 101, 102] := by decide
theorem upperHex_eq : upperHex = [48, 49, 50, 51, 52, 53, 54, 55, 56, 57, 65, 66, 67, 68, 69, 70] := by decide

theorem asciiHex_iff {c d : Nat} : AsciiHex c d ↔ hexVal c = some d := by
  unfold AsciiHex
  rw [lowerHex_eq, upperHex_eq]
  constructor
  · have key : ∀ l : List Nat, l = [48, 49, 50, 51, 52, 53, 54, 55, 56, 57, 97, 98, 99, 100, 101, 102] ∨
        l = [48, 49, 50, 51, 52, 53, 54, 55, 56, 57, 65, 66, 67, 68, 69, 70] → ∀ d < 16, ∀ c, l[d]? = some c → hexVal c = some d := by
      rintro l (rfl | rfl) d hd c h
      all_goals
        have : d = 0 ∨ d = 1 ∨ d = 2 ∨ d = 3 ∨ d = 4 ∨ d = 5 ∨ d = 6 ∨ d = 7 ∨ d = 8 ∨ d = 9 ∨ d = 10 ∨ d = 11 ∨ d = 12 ∨ d = 13 ∨ d = 14 ∨ d = 15 := by omega
        rcases this with rfl | rfl | rfl | rfl | rfl | rfl | rfl | rfl | rfl | rfl | rfl | rfl | rfl | rfl | rfl | rfl <;> cases h <;> rfl
    rintro (h | h)
    · exact key _ (.inl rfl) d (List.getElem?_eq_some_iff.mp h).1 c h
    · exact key _ (.inr rfl) d (List.getElem?_eq_some_iff.mp h).1 c h
  · unfold hexVal
    intro h
    split at h
    · rename_i hr
      have : c = 48 ∨ c = 49 ∨ c = 50 ∨ c = 51 ∨ c = 52 ∨ c = 53 ∨ c = 54 ∨ c = 55 ∨ c = 56 ∨ c = 57 := by omega
      rcases this with rfl | rfl | rfl | rfl | rfl | rfl | rfl | rfl | rfl | rfl <;> cases h <;> exact .inl rfl
    · split at h
      · rename_i hr
        have : c = 65 ∨ c = 66 ∨ c = 67 ∨ c = 68 ∨ c = 69 ∨ c = 70 := by omega
        rcases this with rfl | rfl | rfl | rfl | rfl | rfl <;> cases h <;> exact .inr rfl
      · split at h
        · rename_i hr
          have : c = 97 ∨ c = 98 ∨ c = 99 ∨ c = 100 ∨ c = 101 ∨ c = 102 := by omega
          rcases this with rfl | rfl | rfl | rfl | rfl | rfl <;> cases h <;> exact .inl rfl
        · cases h

theorem hexValue_snoc (h : PStr) (c : Nat) : hexValue (h ++ [c]) = hexValue h * 16 + (hexVal c).getD 0 := by
  unfold hexValue
  rw [List.foldl_append]
  rfl

theorem snoc_induction {P : PStr → Prop} (h0 : P []) (hs : ∀ h c, P h → P (h ++ [c])) : ∀ h, P h := by
  intro h
  have : ∀ r : PStr, P r.reverse := by
    intro r
    induction r with
    | nil => exact h0
    | cons c r ih => rw [List.reverse_cons]; exact hs _ _ ih
  have := this h.reverse
  rwa [List.reverse_reverse] at this

theorem hexIs_iff {h : PStr} : ∀ {v : Nat}, HexIs h v ↔ h.all isHex = true ∧ hexValue h = v := by
  induction h using snoc_induction with
  | h0 =>
    intro v
    constructor
    · intro hh
      generalize hs : ([] : PStr) = s at hh
      cases hh with
      | nil => exact ⟨rfl, rfl⟩
      | snoc => simp at hs
    · rintro ⟨_, h⟩; subst h; exact .nil
  | hs h c ih =>
    intro v
    constructor
    · intro hh
      generalize hs : h ++ [c] = s at hh
      cases hh with
      | nil => simp at hs
      | snoc h' v' c' d h1 h2 =>
        obtain ⟨rfl, hc⟩ := List.append_inj' hs rfl
        cases hc
        obtain ⟨k1, k2⟩ := ih.mp h1
        have h2 := asciiHex_iff.mp h2
        refine ⟨?_, ?_⟩
        · rw [List.all_append, k1]; simp [isHex, h2]
        · rw [hexValue_snoc, k2, h2]; simp; omega
    · rintro ⟨h1, h2⟩
      rw [List.all_append, Bool.and_eq_true] at h1
      obtain ⟨h1, h3⟩ := h1
      simp only [List.all_cons, List.all_nil, Bool.and_true, isHex] at h3
      obtain ⟨d, hd⟩ := Option.isSome_iff_exists.mp h3
      rw [hexValue_snoc, hd] at h2
      subst h2
      have := HexIs.snoc h _ c d (ih.mpr ⟨h1, rfl⟩) (asciiHex_iff.mpr hd)
      rw [Nat.mul_comm] at this
      exact this

theorem takeWhile_all {h t : PStr} {p : Nat → Bool} (hh : h.all p = true) (ht : ∀ c, t.head? = some c → p c = false) :
    (h ++ t).takeWhile p = h ∧ (h ++ t).dropWhile p = t := by
  induction h with
  | nil =>
    cases t with
    | nil => exact ⟨rfl, rfl⟩
    | cons c t => simp [ht c rfl]
  | cons c h ih =>
    simp only [List.all_cons, Bool.and_eq_true] at hh
    obtain ⟨a, b⟩ := ih hh.2
    simp [hh.1, a, b]

theorem not_isHex {c : Nat} (h : c = 123 ∨ c = 125) : isHex c = false := by rcases h with rfl | rfl <;> rfl

theorem matchLiteral_iff {s h rest : PStr} : matchLiteral s = some (h, rest) ↔ Literal s h rest := by
  constructor
  · intro hm
    unfold matchLiteral at hm
    split at hm
    · rename_i r
      split at hm
      · rename_i hc
        cases hm
        have := Literal.four (r.take 4) (r.drop 4) _ hc.1 (hexIs_iff.mpr ⟨hc.2, rfl⟩)
        rw [codes_u, List.append_assoc, List.take_append_drop] at this
        exact this
      · split at hm
        · rename_i r' _
          split at hm
          · cases hm
          · rename_i hne
            split at hm
            · rename_i r'' heq
              cases hm
              have hall : (r'.takeWhile isHex).all isHex = true := List.all_takeWhile
              have := Literal.braces (r'.takeWhile isHex) rest _ (by simpa [List.isEmpty_iff] using hne) (hexIs_iff.mpr ⟨hall, rfl⟩)
              rw [codes_brace, codes_close, List.append_assoc, List.append_assoc, List.singleton_append, ← heq, List.takeWhile_append_dropWhile] at this
              exact this
            · cases hm
        · cases hm
    · cases hm
  · intro hl
    cases hl with
    | four _ _ v h1 h2 =>
      rw [codes_u]
      unfold matchLiteral
      simp only [List.cons_append, List.nil_append]
      have e1 : (h ++ rest).take 4 = h := by rw [← h1, List.take_left]
      have e2 : (h ++ rest).drop 4 = rest := by rw [← h1, List.drop_left]
      rw [e1, e2, if_pos ⟨h1, (hexIs_iff.mp h2).1⟩]
    | braces _ _ v h1 h2 =>
      rw [codes_brace, codes_close]
      unfold matchLiteral
      simp only [List.cons_append, List.nil_append, List.append_assoc]
      rw [if_neg]
      · obtain ⟨a, b⟩ := takeWhile_all (h := h) (t := 125 :: rest) (p := isHex) (hexIs_iff.mp h2).1 (by intro c hc; cases hc; rfl)
        rw [a, b, if_neg (by simpa [List.isEmpty_iff] using h1)]
        rfl
      · rintro ⟨_, h⟩
        simp [not_isHex] at h

/-- A text begins with at most one literal. -/
theorem Literal.unique {s h h' rest rest' : PStr} (a : Literal s h rest) (b : Literal s h' rest') : h = h' ∧ rest = rest' := by
  have := (matchLiteral_iff.mpr a).symm.trans (matchLiteral_iff.mpr b)
  cases this
  exact ⟨rfl, rfl⟩

theorem Literal.shorter {s h rest : PStr} (a : Literal s h rest) : rest.length < s.length := by
  cases a with
  | four _ _ v h1 h2 => rw [codes_u]; simp; omega
  | braces _ _ v h1 h2 => rw [codes_brace]; simp; omega

theorem matchLiteral_none {s : PStr} : matchLiteral s = none ↔ ∀ h rest, ¬ Literal s h rest := by
  cases hm : matchLiteral s with
  | none =>
    refine ⟨fun _ h rest hl => ?_, fun _ => rfl⟩
    rw [matchLiteral_iff.mpr hl] at hm
    cases hm
  | some p =>
    obtain ⟨h, rest⟩ := p
    exact ⟨fun h => (by cases h), fun hn => absurd (matchLiteral_iff.mp hm) (hn h rest)⟩

/-- More fuel than the length makes no difference. -/
theorem decodeAux_fuel : ∀ (fuel : Nat) (s : PStr), s.length ≤ fuel → decodeAux fuel s = decodeAux s.length s := by
  have key : ∀ (n fuel fuel' : Nat) (s : PStr), s.length ≤ n → s.length ≤ fuel → s.length ≤ fuel' → decodeAux fuel s = decodeAux fuel' s := by
    intro n
    induction n with
    | zero =>
      intro fuel fuel' s hn _ _
      have : s = [] := List.length_eq_zero_iff.mp (by omega)
      subst this
      cases fuel <;> cases fuel' <;> rfl
    | succ n ih =>
      intro fuel fuel' s hn h1 h2
      cases s with
      | nil => cases fuel <;> cases fuel' <;> rfl
      | cons c s =>
        cases fuel with
        | zero => simp at h1
        | succ fuel =>
          cases fuel' with
          | zero => simp at h2
          | succ fuel' =>
            simp only [List.length_cons] at hn h1 h2
            rw [decodeAux, decodeAux]
            cases hm : matchLiteral (c :: s) with
            | none => dsimp only; rw [ih fuel fuel' s (by omega) (by omega) (by omega)]
            | some p =>
              obtain ⟨h, rest⟩ := p
              have := (matchLiteral_iff.mp hm).shorter
              simp only [List.length_cons] at this
              dsimp only
              rw [ih fuel fuel' rest (by omega) (by omega) (by omega)]
  intro fuel s h
  exact key s.length fuel s.length s (Nat.le_refl _) h (Nat.le_refl _)

theorem decodeText_nil : decodeText [] = .ok [] := rfl

theorem decodeText_char {c : Nat} {s : PStr} (hm : matchLiteral (c :: s) = none) : decodeText (c :: s) = (decodeText s).map (c :: ·) := by
  unfold decodeText
  rw [List.length_cons, decodeAux, hm]
  dsimp only
  cases decodeAux s.length s <;> rfl

theorem decodeText_literal {s h rest : PStr} (hl : Literal s h rest) :
    decodeText s = (replaceLiteral h).bind fun a => (decodeText rest).map (a ++ ·) := by
  have hsh := hl.shorter
  have hm := matchLiteral_iff.mpr hl
  cases s with
  | nil => simp at hsh
  | cons c s =>
    unfold decodeText
    rw [List.length_cons, decodeAux, hm]
    dsimp only
    simp only [List.length_cons] at hsh
    rw [decodeAux_fuel s.length rest (by omega)]
    cases replaceLiteral h with
    | error e => rfl
    | ok a => cases decodeAux rest.length rest <;> rfl

theorem replaceLiteral_short {h : PStr} {v : Nat} (hv : HexIs h v) (hl : h.length = 4 ∨ h.length = 5) : replaceLiteral h = .ok [v] := by
  have := (hexIs_iff.mp hv).2
  unfold replaceLiteral
  rcases hl with hl | hl
  · rw [if_neg (by omega), if_pos hl, this]
  · rw [if_pos (by omega), List.take_of_length_le (by omega), List.drop_of_length_le (by omega), this]

/-- **C70** In a text whose literals have four or five digits every literal is replaced by the character it stands for, and
nothing else changes. -/
theorem C70_unescaped (s : PStr) (hs : ShortLiterals s) (out : PStr) : decodeText s = .ok out ↔ Unescaped s out := by
  have key : ∀ (n : Nat) (s : PStr), s.length ≤ n → ShortLiterals s → ∀ out, decodeText s = .ok out ↔ Unescaped s out := by
    intro n
    induction n with
    | zero =>
      intro s hn hs out
      have : s = [] := List.length_eq_zero_iff.mp (by omega)
      subst this
      rw [decodeText_nil]
      constructor
      · intro h; cases h; exact .nil
      · intro h
        generalize hs : ([] : PStr) = s at h
        cases h with
        | nil => rfl
        | literal _ _ _ _ _ hl => subst hs; have := hl.shorter; simp at this
        | char => cases hs
    | succ n ih =>
      intro s hn hs out
      cases hm : matchLiteral s with
      | some p =>
        obtain ⟨h, rest⟩ := p
        have hl := matchLiteral_iff.mp hm
        have hsh := hl.shorter
        have hlen := hs [] s h rest rfl hl
        obtain ⟨v, hv⟩ : ∃ v, HexIs h v := by cases hl with | four _ _ v _ h2 => exact ⟨v, h2⟩ | braces _ _ v _ h2 => exact ⟨v, h2⟩
        have hrest : ShortLiterals rest := by
          intro before after h' rest' he hl'
          obtain ⟨pre, hpre⟩ : ∃ pre, s = pre ++ rest := by cases hl with
            | four => exact ⟨_, rfl⟩
            | braces => exact ⟨_, rfl⟩
          exact hs (pre ++ before) after h' rest' (by rw [hpre, he, List.append_assoc]) hl'
        rw [decodeText_literal hl, replaceLiteral_short hv hlen]
        constructor
        · intro hd
          cases hr : decodeText rest with
          | error e => rw [hr] at hd; cases hd
          | ok o =>
            rw [hr] at hd
            cases hd
            exact .literal s h rest o v hl hv ((ih rest (by omega) hrest o).mp hr)
        · intro hu
          cases hu with
          | nil => simp at hsh
          | literal _ h' rest' o v' hl' hv' hu' =>
            obtain ⟨rfl, rfl⟩ := hl.unique hl'
            have : v' = v := ((hexIs_iff.mp hv').2).symm.trans (hexIs_iff.mp hv).2
            subst this
            rw [(ih _ (by omega) hrest o).mpr hu']
            rfl
          | char c r o hno _ => exact absurd hl (hno _ _)
      | none =>
        cases s with
        | nil =>
          rw [decodeText_nil]
          constructor
          · intro h; cases h; exact .nil
          · intro h
            cases h with
            | nil => rfl
            | literal _ _ _ _ _ hl => exact absurd hl (matchLiteral_none.mp hm _ _)
        | cons c s =>
          have hrest : ShortLiterals s := by
            intro before after h' rest' he hl'
            exact hs (c :: before) after h' rest' (by rw [he]; rfl) hl'
          rw [decodeText_char hm]
          constructor
          · intro hd
            cases hr : decodeText s with
            | error e => rw [hr] at hd; cases hd
            | ok o =>
              rw [hr] at hd
              cases hd
              exact .char c s o (matchLiteral_none.mp hm) ((ih s (by simp at hn; omega) hrest o).mp hr)
          · intro hu
            cases hu with
            | literal _ _ _ _ _ hl => exact absurd hl (matchLiteral_none.mp hm _ _)
            | char _ _ o hno hu' =>
              rw [(ih s (by simp at hn; omega) hrest o).mpr hu']
              rfl
  exact key s.length s (Nat.le_refl _) hs out

/-- **C70** Such a text is never refused. -/
theorem C70_accepted (s : PStr) (hs : ShortLiterals s) : ∃ out, decodeText s = .ok out := by
  have key : ∀ (n : Nat) (s : PStr), s.length ≤ n → ShortLiterals s → ∃ out, decodeText s = .ok out := by
    intro n
    induction n with
    | zero =>
      intro s hn hs
      have : s = [] := List.length_eq_zero_iff.mp (by omega)
      subst this
      exact ⟨[], rfl⟩
    | succ n ih =>
      intro s hn hs
      cases hm : matchLiteral s with
      | some p =>
        obtain ⟨h, rest⟩ := p
        have hl := matchLiteral_iff.mp hm
        have hsh := hl.shorter
        have hlen := hs [] s h rest rfl hl
        obtain ⟨v, hv⟩ : ∃ v, HexIs h v := by cases hl with | four _ _ v _ h2 => exact ⟨v, h2⟩ | braces _ _ v _ h2 => exact ⟨v, h2⟩
        have hrest : ShortLiterals rest := by
          intro before after h' rest' he hl'
          obtain ⟨pre, hpre⟩ : ∃ pre, s = pre ++ rest := by cases hl with
            | four => exact ⟨_, rfl⟩
            | braces => exact ⟨_, rfl⟩
          exact hs (pre ++ before) after h' rest' (by rw [hpre, he, List.append_assoc]) hl'
        obtain ⟨o, ho⟩ := ih rest (by omega) hrest
        exact ⟨v :: o, by rw [decodeText_literal hl, replaceLiteral_short hv hlen, ho]; rfl⟩
      | none =>
        cases s with
        | nil => exact ⟨[], rfl⟩
        | cons c s =>
          obtain ⟨o, ho⟩ := ih s (by simp at hn; omega) (fun before after h' rest' he hl' =>
            hs (c :: before) after h' rest' (by rw [he]; rfl) hl')
          exact ⟨c :: o, by rw [decodeText_char hm, ho]; rfl⟩
  exact key s.length s (Nat.le_refl _) hs

/-- **C70** A text without a backslash is kept as it is. -/
theorem C70_plain (s : PStr) (hs : 92 ∉ s) : decodeText s = .ok s := by
  induction s with
  | nil => rfl
  | cons c s ih =>
    have hm : matchLiteral (c :: s) = none := by
      rw [matchLiteral_none]
      intro h rest hl
      apply hs
      generalize c :: s = t at hl
      cases hl with
      | four => rw [codes_u]; simp
      | braces => rw [codes_brace]; simp
    rw [decodeText_char hm, ih (fun h => hs (List.mem_cons_of_mem _ h))]
    rfl

/-- **C70** The column `s` written with literals of five digits in braces, or in any other such way, is read back. -/
theorem C70_round_trip (digits : Nat → PStr) (hd : ∀ c, c < 0x100000 → (digits c).length = 5 ∧ HexIs (digits c) c) (s : PStr)
    (hs : ∀ c ∈ s, c < 0x100000) : decodeText (s.flatMap fun c => codes "\\u{" ++ digits c ++ codes "}") = .ok s := by
  induction s with
  | nil => rfl
  | cons c s ih =>
    obtain ⟨h1, h2⟩ := hd c (hs c (by simp))
    rw [List.flatMap_cons]
    have hl := Literal.braces (digits c) (s.flatMap fun c => codes "\\u{" ++ digits c ++ codes "}") c (by intro e; rw [e] at h1; cases h1) h2
    rw [decodeText_literal hl, replaceLiteral_short h2 (.inr h1), ih (fun c hc => hs c (by simp [hc]))]
    rfl

/-- **C70 (violated)** Of a literal with six or more digits only the first five count, the others stay in the text. -/
theorem C70_long {s h rest : PStr} {v : Nat} (hl : Literal s h rest) (h5 : 5 < h.length) (hv : HexIs (h.take 5) v) (hr : 92 ∉ rest) :
    decodeText s = .ok (v :: h.drop 5 ++ rest) := by
  rw [decodeText_literal hl, C70_plain rest hr]
  unfold replaceLiteral
  rw [if_pos (by omega), (hexIs_iff.mp hv).2]
  rfl

/-- **C70 (violated)** A literal with one to three digits is refused. -/
theorem C70_short {s h rest : PStr} (hl : Literal s h rest) (h3 : h.length ≤ 3) : decodeText s = .error .unicode := by
  rw [decodeText_literal hl]
  unfold replaceLiteral
  rw [if_neg (by omega), if_neg (by omega)]
  rfl

/-- The last character, U+10FFFF, becomes U+10FFF and the letter F; `\u{41}`, the letter A, is an error; U+20B9F is read. -/
example : decodeText (codes "\\u{10FFFF}") = .ok [0x10FFF, 70] := by decide
example : decodeText (codes "\\u{41}") = .error .unicode := by decide
example : decodeText (codes "a\\u{20b9F}\\u0041\\u") = .ok [97, 0x20B9F, 65, 92, 117] := by decide

/-- Five digits exist for every code below 2^20, so `C70_round_trip` applies. -/
def fiveDigits (c : Nat) : PStr :=
  [lowerHex.getD (c / 65536) 0, lowerHex.getD (c / 4096 % 16) 0, lowerHex.getD (c / 256 % 16) 0, lowerHex.getD (c / 16 % 16) 0, lowerHex.getD (c % 16) 0]

theorem fiveDigits_ok (c : Nat) (h : c < 0x100000) : (fiveDigits c).length = 5 ∧ HexIs (fiveDigits c) c := by
  have hd : ∀ d < 16, AsciiHex (lowerHex.getD d 0) d := by
    intro d hd
    refine .inl ?_
    have : d < lowerHex.length := by rw [lowerHex_eq]; exact hd
    rw [List.getD_eq_getElem?_getD, List.getElem?_eq_getElem this]
    rfl
  refine ⟨rfl, ?_⟩
  have h1 := HexIs.snoc _ _ _ _ HexIs.nil (hd (c / 65536) (by omega))
  have h2 := HexIs.snoc _ _ _ _ h1 (hd (c / 4096 % 16) (by omega))
  have h3 := HexIs.snoc _ _ _ _ h2 (hd (c / 256 % 16) (by omega))
  have h4 := HexIs.snoc _ _ _ _ h3 (hd (c / 16 % 16) (by omega))
  have h5 := HexIs.snoc _ _ _ _ h4 (hd (c % 16) (by omega))
  have e : 16 * (16 * (16 * (16 * (16 * 0 + c / 65536) + c / 4096 % 16) + c / 256 % 16) + c / 16 % 16) + c % 16 = c := by omega
  rw [e] at h5
  exact h5

example (s : PStr) (hs : ∀ c ∈ s, c < 0x100000) :
    decodeText (s.flatMap fun c => codes "\\u{" ++ fiveDigits c ++ codes "}") = .ok s := C70_round_trip fiveDigits fiveDigits_ok s hs

end Sudachi
