/-
Lemmas: the scanner of `json` reads what the grammar says.
-/
import Verif.Model.JsonText
import Verif.Spec.JsonText
namespace Sudachi
namespace JsonText

/-! ### Strings -/

theorem hex_iff {c d : Nat} : hexVal c = some d ↔ Hex c d := by
  constructor
  · intro h
    unfold hexVal at h
    split at h
    · cases h
      have := Hex.digit (c - 48) (by omega)
      rwa [show 48 + (c - 48) = c by omega] at this
    · split at h
      · cases h
        have := Hex.upper (c - 65) (by omega)
        rwa [show 65 + (c - 65) = c by omega, show 10 + (c - 65) = c - 55 by omega] at this
      · split at h
        · cases h
          have := Hex.lower (c - 97) (by omega)
          rwa [show 97 + (c - 97) = c by omega, show 10 + (c - 97) = c - 87 by omega] at this
        · cases h
  · intro h
    unfold hexVal
    cases h with
    | digit i hi => rw [if_pos (by omega)]; congr 1; omega
    | upper i hi => rw [if_neg (by omega), if_pos (by omega)]; congr 1; omega
    | lower i hi => rw [if_neg (by omega), if_neg (by omega), if_pos (by omega)]; congr 1; omega

theorem hex4_iff {a b c d x : Nat} : hex4 a b c d = some x ↔ Unit16 [92, 117, a, b, c, d] x := by
  unfold hex4
  constructor
  · intro h
    simp only [Option.bind_eq_bind, Option.bind_eq_some_iff, Option.pure_def, Option.some.injEq] at h
    obtain ⟨x1, h1, x2, h2, x3, h3, x4, h4, h5⟩ := h
    have := Unit16.mk a b c d _ _ _ _ (hex_iff.mp h1) (hex_iff.mp h2) (hex_iff.mp h3) (hex_iff.mp h4)
    rwa [show 4096 * x1 + 256 * x2 + 16 * x3 + x4 = x by omega] at this
  · intro h
    cases h with
    | mk _ _ _ _ x1 x2 x3 x4 h1 h2 h3 h4 =>
      rw [hex_iff.mpr h1, hex_iff.mpr h2, hex_iff.mpr h3, hex_iff.mpr h4]
      simp only [Option.bind_eq_bind, Option.bind_some, Option.pure_def, Option.some.injEq]
      omega

theorem Unit16.form {u : PStr} {x : Nat} (h : Unit16 u x) : ∃ a b c d, u = [92, 117, a, b, c, d] ∧ hex4 a b c d = some x := by
  cases h with
  | mk a b c d x y z w h1 h2 h3 h4 => exact ⟨a, b, c, d, rfl, hex4_iff.mpr (.mk a b c d _ _ _ _ h1 h2 h3 h4)⟩

theorem escape_iff {x c : Nat} : escape x = some c ↔ (x, c) ∈ shortEscapes := by
  constructor
  · intro h
    unfold escape at h
    split at h <;> cases h <;> decide
  · intro h
    simp only [shortEscapes, List.mem_cons, List.not_mem_nil, Prod.mk.injEq, or_false] at h
    rcases h with ⟨h, h'⟩ | ⟨h, h'⟩ | ⟨h, h'⟩ | ⟨h, h'⟩ | ⟨h, h'⟩ | ⟨h, h'⟩ | ⟨h, h'⟩ | ⟨h, h'⟩ <;> subst h <;> subst h' <;> rfl

theorem cons_ok {c : Nat} {m : Res (PStr × PStr)} {s r : PStr} (h : cons c m = .ok (s, r)) : ∃ s', m = .ok (s', r) ∧ s = c :: s' := by
  cases m with
  | error e => cases h
  | ok p => cases h; exact ⟨_, rfl, rfl⟩

theorem scanString_sound (t : PStr) : ∀ s r : PStr, scanString t = .ok (s, r) → ∃ p, t = p ++ 34 :: r ∧ StringText p s := by
  fun_induction scanString t with
  | case1 => intro s r h; cases h
  | case2 rest => intro s r h; cases h; exact ⟨[], rfl, .nil⟩
  | case3 => intro s r h; cases h
  | case4 => intro s r h; cases h
  | case5 a b c d e f g h rest hi hx hhi lo hy hlo ih =>
    intro s r hs
    obtain ⟨s', hs', rfl⟩ := cons_ok hs
    obtain ⟨p, rfl, hp⟩ := ih s' r hs'
    refine ⟨[92, 117, a, b, c, d] ++ [92, 117, e, f, g, h] ++ p, rfl, ?_⟩
    rw [Nat.mul_comm (hi - 0xD800) 0x400]
    exact .pair _ _ hi lo p s' (hex4_iff.mp hx) ⟨hhi.1, by omega⟩ (hex4_iff.mp hy) ⟨hlo.1, by omega⟩ hp
  | case6 a b c d e f g h rest hi hx hhi lo hy hlo ih =>
    intro s r hs
    obtain ⟨s', hs', rfl⟩ := cons_ok hs
    obtain ⟨p, hp', hp⟩ := ih s' r hs'
    refine ⟨[92, 117, a, b, c, d] ++ p, by rw [hp']; rfl, ?_⟩
    refine .unit _ hi p s' (hex4_iff.mp hx) (fun _ u' y t' ht hu hlow => ?_) hp
    obtain ⟨e', f', g', h', rfl, hy'⟩ := hu.form
    rw [ht] at hp'
    injection hp' with _ hp'; injection hp' with _ hp'; injection hp' with h1 hp'; injection hp' with h2 hp'; injection hp' with h3 hp'
    injection hp' with h4 hp'
    subst h1 h2 h3 h4
    cases hy.symm.trans hy'
    exact hlo ⟨hlow.1, by have := hlow.2; omega⟩
  | case7 a b c d e f g h rest hi hx hhi ih =>
    intro s r hs
    obtain ⟨s', hs', rfl⟩ := cons_ok hs
    obtain ⟨p, hp', hp⟩ := ih s' r hs'
    refine ⟨[92, 117, a, b, c, d] ++ p, by rw [hp']; rfl, ?_⟩
    exact .unit _ hi p s' (hex4_iff.mp hx) (fun hh => absurd ⟨hh.1, by have := hh.2; omega⟩ hhi) hp
  | case8 => intro s r h; cases h
  | case9 a b c d rest hne x hx ih =>
    intro s r hs
    obtain ⟨s', hs', rfl⟩ := cons_ok hs
    obtain ⟨p, rfl, hp⟩ := ih s' r hs'
    refine ⟨[92, 117, a, b, c, d] ++ p, rfl, ?_⟩
    refine .unit _ x p s' (hex4_iff.mp hx) (fun _ u' y t' ht hu _ => ?_) hp
    obtain ⟨e', f', g', h', rfl, hy'⟩ := hu.form
    exact hne e' f' g' h' (t' ++ 34 :: r) (by rw [ht]; rfl)
  | case10 => intro s r h; cases h
  | case11 x rest _ _ c hc ih =>
    intro s r hs
    obtain ⟨s', hs', rfl⟩ := cons_ok hs
    obtain ⟨p, rfl, hp⟩ := ih s' r hs'
    exact ⟨92 :: x :: p, rfl, .short x c p s' (escape_iff.mp hc) hp⟩
  | case12 => intro s r h; cases h
  | case13 => intro s r h; cases h
  | case14 c rest h34 _ _ _ h1 h2 ih =>
    intro s r hs
    obtain ⟨s', hs', rfl⟩ := cons_ok hs
    obtain ⟨p, rfl, hp⟩ := ih s' r hs'
    exact ⟨c :: p, rfl, .char c p s' (by omega) h34 h2 hp⟩

theorem hex4_none_quote (a b c : Nat) : hex4 34 a b c = none ∧ (∀ x, hex4 x 34 a b = none) ∧ (∀ x y, hex4 x y 34 a = none) ∧
    ∀ x y z, hex4 x y z 34 = none := by
  have h : hexVal 34 = none := by decide
  refine ⟨?_, ?_, ?_, ?_⟩
  · simp [hex4, h]
  · intro x; unfold hex4; cases hexVal x <;> simp [h]
  · intro x y; unfold hex4; cases hexVal x <;> cases hexVal y <;> simp [h]
  · intro x y z; unfold hex4; cases hexVal x <;> cases hexVal y <;> cases hexVal z <;> simp [h]

/-- Four hexadecimal digits before the closing quote. -/
theorem unit_inside {t r rest : PStr} {e f g h y : Nat} (ht : t ++ 34 :: r = 92 :: 117 :: e :: f :: g :: h :: rest)
    (hy : hex4 e f g h = some y) : ∃ t', t = [92, 117, e, f, g, h] ++ t' := by
  match t, ht with
  | [], ht => cases ht
  | [_], ht => cases ht
  | [_, _], ht =>
    cases ht
    rw [(hex4_none_quote _ _ _).1] at hy; cases hy
  | [_, _, _], ht =>
    cases ht
    rw [(hex4_none_quote _ _ 0).2.1] at hy; cases hy
  | [_, _, _, _], ht =>
    cases ht
    rw [(hex4_none_quote _ 0 0).2.2.1] at hy; cases hy
  | [_, _, _, _, _], ht =>
    cases ht
    rw [(hex4_none_quote 0 0 0).2.2.2] at hy; cases hy
  | _ :: _ :: _ :: _ :: _ :: _ :: t', ht =>
    cases ht
    exact ⟨t', rfl⟩

theorem scanString_complete {p s : PStr} (h : StringText p s) (r : PStr) : scanString (p ++ 34 :: r) = .ok (s, r) := by
  induction h with
  | nil => rfl
  | char c t s h1 h2 h3 _ ih =>
    show scanString (c :: (t ++ 34 :: r)) = _
    rw [scanString.eq_def]
    split
    · rename_i heq; cases heq
    · rename_i heq; cases heq; exact absurd rfl h2
    · rename_i heq; injection heq with h _; exact absurd h h3
    · rename_i heq; injection heq with h _; exact absurd h h3
    · rename_i heq; injection heq with h _; exact absurd h h3
    · rename_i heq; cases heq
      rw [if_neg (by omega), if_neg (show ¬ c = 92 from h3), ih]
      rfl
  | short x c t s h1 _ ih =>
    have hx : x ≠ 117 := by
      rintro rfl
      revert h1; simp [shortEscapes]
    show scanString (92 :: x :: (t ++ 34 :: r)) = _
    rw [scanString.eq_def]
    split
    · rename_i heq; cases heq
    · rename_i heq; cases heq
    · rename_i heq; injection heq with _ h; injection h with h _; exact absurd h hx
    · rename_i heq; injection heq with _ h; injection h with h _; exact absurd h hx
    · rename_i heq; cases heq
      rw [escape_iff.mpr h1]
      show cons c (scanString _) = _
      rw [ih]; rfl
    · rename_i hn heq; cases heq; exact absurd rfl (hn _ _ rfl)
  | pair u u' x y t s hu hx hu' hy _ ih =>
    obtain ⟨a, b, c, d, rfl, h1⟩ := hu.form
    obtain ⟨e, f, g, h, rfl, h2⟩ := hu'.form
    show scanString (92 :: 117 :: a :: b :: c :: d :: 92 :: 117 :: e :: f :: g :: h :: (t ++ 34 :: r)) = _
    rw [scanString, h1]
    show (if 0xD800 ≤ x ∧ x ≤ 0xDBFF then _ else _) = _
    rw [if_pos ⟨hx.1, by have := hx.2; omega⟩, h2]
    show (if 0xDC00 ≤ y ∧ y ≤ 0xDFFF then _ else _) = _
    rw [if_pos ⟨hy.1, by have := hy.2; omega⟩, ih, Nat.mul_comm (x - 0xD800)]
    rfl
  | unit u x t s hu hx _ ih =>
    obtain ⟨a, b, c, d, rfl, h1⟩ := hu.form
    show scanString (92 :: 117 :: a :: b :: c :: d :: (t ++ 34 :: r)) = _
    generalize hq : t ++ 34 :: r = q at ih
    rw [scanString.eq_def]
    split
    · rename_i heq; cases heq
    · rename_i heq; cases heq
    · rename_i heq; cases heq
      rename_i e f g h rest
      rw [h1]
      show (if 0xD800 ≤ x ∧ x ≤ 0xDBFF then _ else _) = _
      split
      · rename_i hh
        cases h2 : hex4 e f g h with
        | none =>
          rw [scanString.eq_def] at ih
          split at ih
          · rename_i heq; cases heq
          · rename_i heq; cases heq
          · rename_i heq; cases heq
            rw [h2] at ih; cases ih
          · rename_i heq; cases heq
            rw [h2] at ih; cases ih
          · rename_i hn heq; cases heq
            exact (hn _ _ _ _ _ rfl rfl).elim
          · rename_i hn heq; cases heq
            exact (hn _ _ rfl rfl).elim
        | some y =>
          show (if 0xDC00 ≤ y ∧ y ≤ 0xDFFF then _ else _) = _
          rw [if_neg, ih]
          · rfl
          · intro hy
            obtain ⟨t', ht'⟩ := unit_inside hq h2
            exact hx ⟨hh.1, by omega⟩ _ y t' ht' (hex4_iff.mp h2) ⟨hy.1, by omega⟩
      · rw [ih]; rfl
    · rename_i heq; cases heq
      rw [h1]
      show cons x (scanString _) = _
      rw [ih]; rfl
    · rename_i hn heq; cases heq
      exact (hn _ _ _ _ _ rfl rfl).elim
    · rename_i hn heq; cases heq
      exact (hn _ _ rfl rfl).elim

theorem scanString_error {t : PStr} {e : Err} (h : scanString t = .error e) : e = .value := by
  have hc : ∀ (c : Nat) (m : Res (PStr × PStr)), cons c m = .error e → m = .error e := by
    intro c m hm
    cases m with
    | error e' => exact hm
    | ok p => cases hm
  fun_induction scanString t <;> first | (cases h; rfl) | (cases h; done) | (rename_i ih; exact ih (hc _ _ h))

/-! ### Numbers -/

theorem isDigit_iff {c : Nat} : isDigit c = true ↔ 48 ≤ c ∧ c ≤ 57 := by simp [isDigit]

theorem digits_iff {t : PStr} {n : Nat} : Digits t n ↔ t ≠ [] ∧ (∀ c ∈ t, isDigit c = true) ∧ decimal t = n := by
  constructor
  · intro h
    induction h with
    | one i hi => exact ⟨by simp, by simp [isDigit]; omega, by simp [decimal]⟩
    | more t n i _ hi ih =>
      refine ⟨by simp, fun c hc => ?_, ?_⟩
      · rcases List.mem_append.mp hc with hc | hc
        · exact ih.2.1 c hc
        · rw [List.mem_singleton.mp hc]; exact isDigit_iff.mpr ⟨by omega, by omega⟩
      · have := ih.2.2
        unfold decimal at this ⊢
        rw [List.foldl_append, this]
        simp
  · rintro ⟨h1, h2, h3⟩
    subst h3
    have key : ∀ (k : Nat) (t : PStr), t.length = k → t ≠ [] → (∀ c ∈ t, isDigit c = true) → Digits t (decimal t) := by
      intro k
      induction k with
      | zero => intro t h0 h1; exact absurd (List.length_eq_zero_iff.mp h0) h1
      | succ k ih =>
        intro t ht h1 h2
        obtain ⟨u, c, rfl⟩ : ∃ u c, t = u ++ [c] := ⟨t.dropLast, t.getLast h1, (List.dropLast_concat_getLast h1).symm⟩
        have hc := isDigit_iff.mp (h2 c (by simp))
        have hd : decimal (u ++ [c]) = 10 * decimal u + (c - 48) := by simp [decimal, List.foldl_append]
        rw [hd]
        cases hu : u with
        | nil =>
          have := Digits.one (c - 48) (by omega)
          rw [show 48 + (c - 48) = c by omega] at this
          simpa [decimal] using this
        | cons x xs =>
          rw [← hu]
          have := Digits.more u (decimal u) (c - 48) (ih u (by simp at ht; exact ht) (by simp [hu]) (fun y hy => h2 y (by simp [hy]))) (by omega)
          rwa [show 48 + (c - 48) = c by omega] at this
    exact key _ t rfl h1 h2

/-- No digit in front. -/
def NoDigit (r : PStr) : Prop := ∀ c, r.head? = some c → isDigit c = false

theorem takeWhile_digits {t r : PStr} (ht : ∀ c ∈ t, isDigit c = true) (hr : NoDigit r) :
    (t ++ r).takeWhile isDigit = t ∧ (t ++ r).dropWhile isDigit = r := by
  induction t with
  | nil =>
    cases r with
    | nil => exact ⟨rfl, rfl⟩
    | cons c r => have := hr c rfl; simp [this]
  | cons c t ih =>
    have := ih (fun x hx => ht x (by simp [hx]))
    simp [ht c (by simp), this.1, this.2]

theorem takeWhile_all (s : PStr) : ∀ c ∈ s.takeWhile isDigit, isDigit c = true := by
  induction s with
  | nil => intro c hc; cases hc
  | cons x s ih =>
    intro c hc
    rw [List.takeWhile_cons] at hc
    split at hc
    · rcases List.mem_cons.mp hc with rfl | hc
      · assumption
      · exact ih c hc
    · cases hc

theorem digits_taken {s : PStr} (h : s.takeWhile isDigit ≠ []) : Digits (s.takeWhile isDigit) (decimal (s.takeWhile isDigit)) :=
  digits_iff.mpr ⟨h, takeWhile_all s, rfl⟩

theorem integer_sound {s t r : PStr} (h : integer s = some (t, r)) : s = t ++ r ∧ Whole t (decimal t) := by
  unfold integer at h
  split at h
  · cases h
    exact ⟨rfl, .one 0 (by omega), .inl rfl⟩
  · rename_i c s' hc
    split at h
    · rename_i hd
      cases h
      refine ⟨(List.takeWhile_append_dropWhile).symm, digits_taken (by simp [hd]), .inr ?_⟩
      simp [hd]
      exact fun hx => hc hx
    · cases h
  · cases h

theorem integer_complete {t r : PStr} {n : Nat} (h : Whole t n) (hr : NoDigit r) : integer (t ++ r) = some (t, r) := by
  obtain ⟨hd, h0⟩ := h
  obtain ⟨h1, h2, h3⟩ := digits_iff.mp hd
  rcases h0 with rfl | h0
  · rfl
  · cases t with
    | nil => exact absurd rfl h1
    | cons c t =>
      have hc := h2 c (by simp)
      have h48 : c ≠ 48 := by simpa using h0
      have hw := takeWhile_digits h2 hr
      rw [List.cons_append] at hw ⊢
      rw [integer.eq_def]
      split
      · rename_i heq; cases heq; exact absurd rfl h48
      · rename_i heq; cases heq
        rw [if_pos hc, hw.1, hw.2]
      · rename_i heq; cases heq

theorem fraction_sound {s f r : PStr} (h : fraction s = (f, r)) : (f = [] ∧ s = r) ∨ (s = 46 :: f ++ r ∧ Digits f (decimal f)) := by
  unfold fraction at h
  split at h
  · split at h
    · cases h; exact .inl ⟨rfl, rfl⟩
    · rename_i hne
      cases h
      refine .inr ⟨?_, digits_taken (by simpa using hne)⟩
      rw [List.cons_append, List.takeWhile_append_dropWhile]
  · cases h; exact .inl ⟨rfl, rfl⟩

theorem fraction_complete {f r : PStr} {n : Nat} (h : Digits f n) (hr : NoDigit r) : fraction (46 :: f ++ r) = (f, r) := by
  obtain ⟨h1, h2, h3⟩ := digits_iff.mp h
  have hw := takeWhile_digits h2 hr
  rw [List.cons_append, fraction, hw.1, hw.2, if_neg (by simpa using h1)]

theorem fraction_none {r : PStr} (hr : r.head? ≠ some 46) : fraction r = ([], r) := by
  unfold fraction
  split
  · exact absurd rfl hr
  · rfl

theorem exponentDigits_sound {neg : Bool} {s r : PStr} {e : Int} (h : exponentDigits neg s = some (e, r)) :
    ∃ t n, s = t ++ r ∧ Digits t n ∧ e = if neg then -(n : Int) else n := by
  unfold exponentDigits at h
  split at h
  · cases h
  · rename_i hne
    cases h
    exact ⟨_, _, (List.takeWhile_append_dropWhile).symm, digits_taken (by simpa using hne), rfl⟩

theorem exponentDigits_complete {neg : Bool} {t r : PStr} {n : Nat} (h : Digits t n) (hr : NoDigit r) :
    exponentDigits neg (t ++ r) = some (if neg then -(n : Int) else n, r) := by
  obtain ⟨h1, h2, h3⟩ := digits_iff.mp h
  have hw := takeWhile_digits h2 hr
  rw [exponentDigits, hw.1, hw.2, if_neg (by simpa using h1), h3]

theorem exponent_sound {s r : PStr} {e : Int} (h : exponent s = some (e, r)) : ∃ u, s = u ++ r ∧ ExponentText u e := by
  unfold exponent at h
  split at h
  · rename_i c s
    split at h
    · rename_i hc
      have hc : c = 'e'.toNat ∨ c = 'E'.toNat := hc
      obtain ⟨t, n, h1, h2, h3⟩ := exponentDigits_sound h
      generalize hs : exponentSign s = q at h1 h3
      unfold exponentSign at hs
      split at hs
      · subst hs
        dsimp only at h1 h3
        rw [h1, h3]
        exact ⟨c :: 43 :: t, rfl, .plus c t n hc h2⟩
      · subst hs
        dsimp only at h1 h3
        rw [h1, h3]
        exact ⟨c :: 45 :: t, rfl, .minus c t n hc h2⟩
      · subst hs
        dsimp only at h1 h3
        rw [h1, h3]
        exact ⟨c :: t, rfl, .plain c t n hc h2⟩
    · cases h
  · cases h

theorem exponentSign_digit {t : PStr} {n : Nat} (h : Digits t n) (r : PStr) : exponentSign (t ++ r) = (false, t ++ r) := by
  obtain ⟨h1, h2, h3⟩ := digits_iff.mp h
  cases t with
  | nil => exact absurd rfl h1
  | cons x t =>
    have hx := isDigit_iff.mp (h2 x (by simp))
    rw [List.cons_append, exponentSign.eq_def]
    split
    · rename_i heq; injection heq with a b; omega
    · rename_i heq; injection heq with a b; omega
    · rfl

theorem exponent_complete {u r : PStr} {e : Int} (h : ExponentText u e) (hr : NoDigit r) : exponent (u ++ r) = some (e, r) := by
  have hE : ∀ {c : Nat} {s : PStr}, c = 'e'.toNat ∨ c = 'E'.toNat →
      exponent (c :: s) = exponentDigits (exponentSign s).1 (exponentSign s).2 := by
    intro c s hc
    show (if c = 101 ∨ c = 69 then _ else _) = _
    exact if_pos hc
  cases h with
  | plain c t n hc hd =>
    rw [List.cons_append, hE hc, exponentSign_digit hd r, exponentDigits_complete hd hr]
    rfl
  | plus c t n hc hd =>
    rw [List.cons_append, hE hc]
    show exponentDigits false (t ++ r) = _
    rw [exponentDigits_complete hd hr]
    rfl
  | minus c t n hc hd =>
    rw [List.cons_append, hE hc]
    show exponentDigits true (t ++ r) = _
    rw [exponentDigits_complete hd hr]
    rfl

theorem exponent_none {r : PStr} (h1 : r.head? ≠ some 101) (h2 : r.head? ≠ some 69) : exponent r = none := by
  unfold exponent
  split
  · rw [if_neg]
    rintro (rfl | rfl)
    · exact h1 rfl
    · exact h2 rfl
  · rfl

/-- What may follow a value. -/
def Stops (r : PStr) : Prop := ∀ c, r.head? = some c → c = 32 ∨ c = 9 ∨ c = 10 ∨ c = 13 ∨ c = 44 ∨ c = 93 ∨ c = 125

theorem Stops.noDigit {r : PStr} (h : Stops r) : NoDigit r := by
  intro c hc
  rcases h c hc with rfl | rfl | rfl | rfl | rfl | rfl | rfl <;> rfl

theorem Stops.ne {r : PStr} (h : Stops r) (c : Nat) (hc : c = 46 ∨ c = 101 ∨ c = 69) : r.head? ≠ some c := by
  intro hh
  have := h c hh
  omega

theorem decimal_digits {t : PStr} {n : Nat} (h : Digits t n) : decimal t = n := (digits_iff.mp h).2.2

/-- A number after its sign. -/
inductive Unsigned (neg : Bool) : PStr → Json → Prop
  | whole (t : PStr) (n : Nat) : Whole t n → Unsigned neg t (.num (if neg then -(n : Int) else n))
  | exponent (t u : PStr) (n : Nat) (e : Int) : Whole t n → ExponentText u e → Unsigned neg (t ++ u) (.real (.decimal neg n e))
  | fraction (t f : PStr) (n m k : Nat) : Whole t n → Digits f m → Digits (t ++ f) k →
      Unsigned neg (t ++ 46 :: f) (.real (.decimal neg k (-(f.length : Int))))
  | both (t f u : PStr) (n m k : Nat) (e : Int) : Whole t n → Digits f m → Digits (t ++ f) k → ExponentText u e →
      Unsigned neg (t ++ 46 :: f ++ u) (.real (.decimal neg k (e - f.length)))

theorem Unsigned.plain {g : PStr} {neg : Bool} (hg : Sign g neg) {t : PStr} {v : Json} (h : Unsigned neg t v) : Plain (g ++ t) v := by
  cases h with
  | whole t n h => exact .whole g t neg n hg h
  | exponent t u n e h h' => rw [← List.append_assoc]; exact .exponent g t u neg n e hg h h'
  | fraction t f n m k h h' h'' => rw [← List.append_assoc]; exact .fraction g t f neg n m k hg h h' h''
  | both t f u n m k e h h' h'' hu =>
    rw [← List.append_assoc, ← List.append_assoc]; exact .both g t f u neg n m k e hg h h' h'' hu

theorem digits_append {t f : PStr} {n m : Nat} (h : Digits t n) (h' : Digits f m) : Digits (t ++ f) (decimal (t ++ f)) := by
  obtain ⟨h1, h2, _⟩ := digits_iff.mp h
  obtain ⟨_, h2', _⟩ := digits_iff.mp h'
  refine digits_iff.mpr ⟨by simp [h1], fun c hc => ?_, rfl⟩
  rcases List.mem_append.mp hc with hc | hc
  · exact h2 c hc
  · exact h2' c hc

theorem number_sound {neg : Bool} {s r : PStr} {v : Json} (h : number neg s = some (v, r)) : ∃ t, s = t ++ r ∧ Unsigned neg t v := by
  unfold number at h
  simp only [Option.bind_eq_bind, Option.bind_eq_some_iff] at h
  obtain ⟨⟨t, s1⟩, h1, h⟩ := h
  obtain ⟨rfl, hw⟩ := integer_sound h1
  dsimp only at h
  cases hf : fraction s1 with
  | mk f s2 =>
    rw [hf] at h
    dsimp only at h
    rcases fraction_sound hf with ⟨rfl, rfl⟩ | ⟨rfl, hd⟩
    · cases he : exponent s1 with
      | none =>
        rw [he] at h
        cases h
        exact ⟨t, rfl, .whole t _ hw⟩
      | some p =>
        obtain ⟨e, s3⟩ := p
        rw [he] at h
        cases h
        obtain ⟨u, rfl, hu⟩ := exponent_sound he
        refine ⟨t ++ u, by rw [List.append_assoc], ?_⟩
        have := Unsigned.exponent (neg := neg) t u _ e hw hu
        simpa using this
    · have hne : f ≠ [] := (digits_iff.mp hd).1
      cases he : exponent s2 with
      | none =>
        rw [he] at h
        dsimp only at h
        rw [if_neg (by simpa using hne)] at h
        cases h
        exact ⟨t ++ 46 :: f, by simp, .fraction t f _ _ _ hw hd (digits_append hw.1 hd)⟩
      | some p =>
        obtain ⟨e, s3⟩ := p
        rw [he] at h
        cases h
        obtain ⟨u, rfl, hu⟩ := exponent_sound he
        exact ⟨t ++ 46 :: f ++ u, by simp, .both t f u _ _ _ e hw hd (digits_append hw.1 hd) hu⟩

theorem ExponentText.head {u : PStr} {e : Int} (h : ExponentText u e) : u.head? = some 101 ∨ u.head? = some 69 := by
  cases h with
  | plain c t n hc => exact hc.elim (fun h => .inl (congrArg some h)) (fun h => .inr (congrArg some h))
  | plus c t n hc => exact hc.elim (fun h => .inl (congrArg some h)) (fun h => .inr (congrArg some h))
  | minus c t n hc => exact hc.elim (fun h => .inl (congrArg some h)) (fun h => .inr (congrArg some h))

theorem ExponentText.noDigit {u : PStr} {e : Int} (h : ExponentText u e) (r : PStr) : NoDigit (u ++ r) ∧ (u ++ r).head? ≠ some 46 := by
  cases u with
  | nil => rcases h.head with h | h <;> cases h
  | cons c u =>
    rcases h.head with h | h <;> cases h
    · exact ⟨fun c hc => by cases hc; rfl, by simp⟩
    · exact ⟨fun c hc => by cases hc; rfl, by simp⟩

theorem number_complete {neg : Bool} {t r : PStr} {v : Json} (h : Unsigned neg t v) (hr : Stops r) : number neg (t ++ r) = some (v, r) := by
  have hnd := hr.noDigit
  have h46 := hr.ne 46 (.inl rfl)
  have hE := exponent_none (hr.ne 101 (.inr (.inl rfl))) (hr.ne 69 (.inr (.inr rfl)))
  unfold number
  cases h with
  | whole t n h =>
    rw [integer_complete h hnd]
    simp only [Option.bind_eq_bind, Option.bind_some]
    rw [fraction_none h46]
    dsimp only
    rw [hE, decimal_digits h.1]
    rfl
  | exponent t u n e h hu =>
    rw [List.append_assoc, integer_complete h (hu.noDigit r).1]
    simp only [Option.bind_eq_bind, Option.bind_some]
    rw [fraction_none (hu.noDigit r).2]
    dsimp only
    rw [exponent_complete hu hnd, List.append_nil, decimal_digits h.1]
    simp
  | fraction t f n m k h hf hk =>
    rw [List.append_assoc, integer_complete h (fun c hc => by cases hc; rfl)]
    simp only [Option.bind_eq_bind, Option.bind_some]
    rw [fraction_complete hf hnd]
    dsimp only
    rw [hE, decimal_digits hk]
    dsimp only
    rw [if_neg (by simpa using (digits_iff.mp hf).1)]
    rfl
  | both t f u n m k e h hf hk hu =>
    rw [List.append_assoc t, List.append_assoc t, integer_complete h (fun c hc => by cases hc; rfl)]
    simp only [Option.bind_eq_bind, Option.bind_some]
    rw [List.append_assoc, fraction_complete hf (hu.noDigit r).1]
    dsimp only
    rw [exponent_complete hu hnd, decimal_digits hk]
    rfl

/-! ### What is no string, list or object -/

/-- What `number` found. -/
def found : Option (Json × PStr) → Res (Json × PStr)
  | some x => .ok x
  | none => .error .value

theorem scanPlain_digit {c : Nat} (hc : isDigit c = true) (s : PStr) :
    scanPlain (c :: s) = found (number false (c :: s)) ∧ scanPlain (45 :: c :: s) = found (number true (c :: s)) := by
  have hc := isDigit_iff.mp hc
  constructor
  · rw [scanPlain.eq_def]
    split
    all_goals first
      | (rename_i heq; injection heq with a b; omega)
      | skip
    unfold found
    rename_i heq
    rfl
  · rw [scanPlain.eq_def]
    split
    all_goals first
      | (rename_i heq; injection heq with a b; injection b with a b; omega)
      | (rename_i heq; injection heq with a b; omega)
      | skip
    · rename_i heq
      injection heq with _ heq
      subst heq
      rfl
    · rename_i hn
      exact (hn _ rfl).elim

theorem Whole.head {t : PStr} {n : Nat} (h : Whole t n) : ∃ c s, t = c :: s ∧ isDigit c = true := by
  obtain ⟨h1, h2, _⟩ := digits_iff.mp h.1
  cases t with
  | nil => exact absurd rfl h1
  | cons c s => exact ⟨c, s, rfl, h2 c (by simp)⟩

theorem Unsigned.head {neg : Bool} {t : PStr} {v : Json} (h : Unsigned neg t v) : ∃ c s, t = c :: s ∧ isDigit c = true := by
  cases h with
  | whole t n h => exact h.head
  | exponent t u n e h => obtain ⟨c, s, rfl, hc⟩ := h.head; exact ⟨c, s ++ u, rfl, hc⟩
  | fraction t f n m k h => obtain ⟨c, s, rfl, hc⟩ := h.head; exact ⟨c, _, rfl, hc⟩
  | both t f u n m k e h => obtain ⟨c, s, rfl, hc⟩ := h.head; exact ⟨c, _, rfl, hc⟩

theorem scanPlain_sound {s r : PStr} {v : Json} (h : scanPlain s = .ok (v, r)) : ∃ t, s = t ++ r ∧ Plain t v := by
  unfold scanPlain at h
  split at h
  · cases h; exact ⟨codes "null", rfl, .null⟩
  · cases h; exact ⟨codes "true", rfl, .true⟩
  · cases h; exact ⟨codes "false", rfl, .false⟩
  · cases h; exact ⟨codes "NaN", rfl, .nan⟩
  · cases h; exact ⟨codes "Infinity", rfl, .infinity [] false .plus⟩
  · cases h; exact ⟨codes "-Infinity", rfl, .infinity ['-'.toNat] true .minus⟩
  · split at h
    · rename_i hx
      cases h
      obtain ⟨t, rfl, ht⟩ := number_sound hx
      exact ⟨45 :: t, rfl, ht.plain .minus⟩
    · cases h
  · split at h
    · rename_i hx
      cases h
      obtain ⟨t, rfl, ht⟩ := number_sound hx
      exact ⟨t, rfl, ht.plain .plus⟩
    · cases h

theorem unsigned_complete {neg : Bool} {g t r : PStr} {v : Json} (hg : Sign g neg) (h : Unsigned neg t v) (hr : Stops r) :
    scanPlain (g ++ t ++ r) = .ok (v, r) := by
  obtain ⟨c, s, hs, hc⟩ := h.head
  have hn := number_complete h hr
  have hp := scanPlain_digit hc (s ++ r)
  rw [hs, List.cons_append] at hn
  rw [hs]
  cases hg with
  | plus =>
    rw [List.nil_append, List.cons_append, hp.1, hn]; rfl
  | minus =>
    show scanPlain (45 :: c :: (s ++ r)) = _
    rw [hp.2, hn]; rfl

theorem scanPlain_complete {t r : PStr} {v : Json} (h : Plain t v) (hr : Stops r) : scanPlain (t ++ r) = .ok (v, r) := by
  cases h with
  | null => rfl
  | true => rfl
  | false => rfl
  | nan => rfl
  | infinity g neg hg => cases hg <;> rfl
  | whole g t neg n hg h => exact unsigned_complete hg (.whole t n h) hr
  | exponent g t u neg n e hg h hu =>
    rw [List.append_assoc g]; exact unsigned_complete hg (.exponent t u n e h hu) hr
  | fraction g t f neg n m k hg h hf hk =>
    rw [List.append_assoc g]; exact unsigned_complete hg (.fraction t f n m k h hf hk) hr
  | both g t f u neg n m k e hg h hf hk hu =>
    rw [List.append_assoc g, List.append_assoc g]; exact unsigned_complete hg (.both t f u n m k e h hf hk hu) hr

theorem scanPlain_error {s : PStr} {e : Err} (h : scanPlain s = .error e) : e = .value := by
  unfold scanPlain at h
  split at h
  all_goals first
    | (cases h; done)
    | (split at h
       · cases h
       · cases h; rfl)

/-- How a text of these begins. -/
theorem Plain.head {t : PStr} {v : Json} (h : Plain t v) : ∃ c s, t = c :: s ∧ c ≠ 34 ∧ c ≠ 91 ∧ c ≠ 123 ∧ c ≠ 93 ∧ c ≠ 125 ∧
    (c ≠ 32 ∧ c ≠ 9 ∧ c ≠ 10 ∧ c ≠ 13) ∧ c ≠ 0xFEFF := by
  have hu : ∀ {g t : PStr} {neg : Bool} {v : Json}, Sign g neg → Unsigned neg t v → ∃ c s, g ++ t = c :: s ∧ c ≠ 34 ∧ c ≠ 91 ∧
      c ≠ 123 ∧ c ≠ 93 ∧ c ≠ 125 ∧ (c ≠ 32 ∧ c ≠ 9 ∧ c ≠ 10 ∧ c ≠ 13) ∧ c ≠ 0xFEFF := by
    intro g t neg v hg h
    obtain ⟨c, s, rfl, hc⟩ := h.head
    cases hg with
    | plus =>
      have := isDigit_iff.mp hc
      exact ⟨c, s, rfl, by omega⟩
    | minus => exact ⟨45, _, rfl, by decide⟩
  cases h with
  | null => exact ⟨_, _, rfl, by decide⟩
  | true => exact ⟨_, _, rfl, by decide⟩
  | false => exact ⟨_, _, rfl, by decide⟩
  | nan => exact ⟨_, _, rfl, by decide⟩
  | infinity g neg hg => cases hg <;> exact ⟨_, _, rfl, by decide⟩
  | whole g t neg n hg h => exact hu hg (.whole t n h)
  | exponent g t u neg n e hg h h' => rw [List.append_assoc]; exact hu hg (.exponent t u n e h h')
  | fraction g t f neg n m k hg h hf hk => rw [List.append_assoc]; exact hu hg (.fraction t f n m k h hf hk)
  | both g t f u neg n m k e hg h hf hk hx =>
    rw [List.append_assoc g, List.append_assoc g]; exact hu hg (.both t f u n m k e h hf hk hx)

end JsonText
end Sudachi
