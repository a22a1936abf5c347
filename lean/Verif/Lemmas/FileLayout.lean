/-
Lemmas on the format of dictionary files: numbers and texts.
-/
import Verif.Spec.FileLayout
import Verif.Lemmas.Encodable
import Verif.Lemmas.Utf8
namespace Sudachi

/-! ### Numbers -/

theorem pySlice_none {b : Bytes} {i j : Nat} (h : b.length ≤ i) : pySlice b i j = [] := by
  unfold pySlice
  exact List.drop_eq_nil_of_le (by rw [List.length_take]; omega)

theorem pySlice_step {b : Bytes} {i n x : Nat} (h : b[i]? = some x) : pySlice b i (i + (n + 1)) = x :: pySlice b (i + 1) (i + 1 + n) := by
  obtain ⟨hi, e⟩ := List.getElem?_eq_some_iff.1 h
  unfold pySlice
  rw [List.drop_eq_getElem_cons (by rw [List.length_take]; omega), List.getElem_take, e, show i + (n + 1) = i + 1 + n by omega]

theorem pySlice_bytesAt (b : Bytes) (i n : Nat) : pySlice b i (i + n) = bytesAt b i n := by
  unfold pySlice bytesAt
  rw [List.drop_take, Nat.add_sub_cancel_left]

theorem sum_mul256 : ∀ (l : List Nat) (f : Nat → Nat), (l.map fun k => f k * 256).sum = 256 * (l.map f).sum
  | [], _ => rfl
  | a :: l, f => by
    simp only [List.map_cons, List.sum_cons]
    rw [sum_mul256 l f]
    omega

theorem numberAt_succ (b : Bytes) (i n : Nat) : numberAt b i (n + 1) = (b[i]?).getD 0 + 256 * numberAt b (i + 1) n := by
  unfold numberAt
  rw [List.range_succ_eq_map, List.map_cons, List.sum_cons, List.map_map, ← sum_mul256]
  congr 1
  · rw [Nat.add_zero, Nat.pow_zero, Nat.mul_one]
  · congr 1
    apply List.map_congr_left
    intro k _
    show (b[i + (k + 1)]?).getD 0 * 256 ^ (k + 1) = _
    rw [Nat.pow_succ, ← Nat.mul_assoc, show i + (k + 1) = i + 1 + k by omega]

theorem numberAt_none {b : Bytes} : ∀ {n i : Nat}, b.length ≤ i → numberAt b i n = 0
  | 0, _, _ => rfl
  | n + 1, i, h => by
    rw [numberAt_succ, List.getElem?_eq_none h, numberAt_none (n := n) (by omega)]
    rfl

theorem fromLe_numberAt (b : Bytes) : ∀ (n i : Nat), fromLe (pySlice b i (i + n)) = numberAt b i n
  | 0, i => by
    rw [pySlice_bytesAt]
    rfl
  | n + 1, i => by
    cases h : b[i]? with
    | none =>
      have h := List.getElem?_eq_none_iff.1 h
      rw [pySlice_none h, numberAt_none h]
      rfl
    | some x =>
      rw [pySlice_step h, numberAt_succ, h, ← fromLe_numberAt b n (i + 1)]
      rfl

theorem octets_get {b : Bytes} (hb : Octets b) {i x : Nat} (h : b[i]? = some x) : x < 256 := hb x (List.mem_of_getElem? h)

theorem fromLeSigned_signedAt {b : Bytes} (hb : Octets b) (i : Nat) : fromLeSigned (pySlice b i (i + 2)) = signedAt b i := by
  unfold signedAt
  cases h : b[i]? with
  | none =>
    rw [pySlice_none (List.getElem?_eq_none_iff.1 h)]
    cases b[i + 1]? <;> rfl
  | some x =>
    have hx := octets_get hb h
    rw [pySlice_step h]
    cases h' : b[i + 1]? with
    | none =>
      rw [pySlice_none (List.getElem?_eq_none_iff.1 h')]
      simp only [fromLeSigned, fromLe, List.length_cons, List.length_nil, Nat.mul_zero, Nat.add_zero, Nat.zero_add, Nat.mul_one]
      have e : (2 : Nat) ^ 8 = 256 := by decide
      have e' : (2 : Int) ^ 8 = 256 := by decide
      rw [e, e']
      split <;> split <;> omega
    | some y =>
      have hy := octets_get hb h'
      rw [show i + 1 + 1 = i + 1 + (0 + 1) by omega, pySlice_step h', pySlice_bytesAt]
      simp only [bytesAt, List.take_zero, fromLeSigned, fromLe, List.length_cons, List.length_nil, Nat.mul_zero, Nat.add_zero, Nat.zero_add]
      have e : (2 : Nat) ^ (8 * (1 + 1)) = 65536 := by decide
      have e' : (2 : Int) ^ (8 * (1 + 1)) = 65536 := by decide
      rw [e, e']
      split <;> split <;> omega

/-! ### UTF-16 -/

theorem decodeUnits_iff (n : Nat) : ∀ {us : List Nat} {s : PStr}, us.length ≤ n → (∀ u ∈ us, u < 65536) →
    decodeUnits us = .ok s → s.flatMap utf16Units = us := by
  induction n with
  | zero =>
    intro us s hn _ h
    have : us = [] := List.length_eq_zero_iff.mp (by omega)
    subst this
    cases h
    rfl
  | succ n ih =>
    intro us s hn hu h
    cases us with
    | nil => cases h; rfl
    | cons u us =>
      have hu0 := hu u (by simp)
      unfold decodeUnits at h
      split at h
      · rename_i hc
        obtain ⟨r, h1, h⟩ := bind_ok h
        cases h
        rw [List.flatMap_cons, ih (by simp at hn; omega) (fun x hx => hu x (by simp [hx])) h1]
        unfold utf16Units
        rw [if_pos (by omega)]
        rfl
      · split at h
        · cases h
        · rename_i v vs
          split at h
          · rename_i h' hc
            obtain ⟨r, h1, h⟩ := bind_ok h
            cases h
            have := hu v (by simp)
            rw [List.flatMap_cons, ih (by simp at hn; omega) (fun x hx => hu x (by simp [hx])) h1]
            unfold utf16Units
            rw [if_neg (by omega)]
            rw [List.cons_append, List.cons_append, List.nil_append]
            exact congr (congrArg List.cons (by omega)) (congr (congrArg List.cons (by omega)) rfl)
          · cases h

theorem decodeUnits_error (n : Nat) : ∀ {us : List Nat} {e : Err}, us.length ≤ n → decodeUnits us = .error e → e = .unicode := by
  induction n with
  | zero =>
    intro us e hn h
    have : us = [] := List.length_eq_zero_iff.mp (by omega)
    subst this
    cases h
  | succ n ih =>
    intro us e hn h
    cases us with
    | nil => cases h
    | cons u us =>
      simp only [List.length_cons] at hn
      unfold decodeUnits at h
      split at h
      · cases hd : decodeUnits us with
        | error e' =>
          rw [hd] at h
          cases h
          exact ih (by omega) hd
        | ok r => rw [hd] at h; cases h
      · split at h
        · cases h; rfl
        · rename_i v vs
          simp only [List.length_cons] at hn
          split at h
          · cases hd : decodeUnits vs with
            | error e' =>
              rw [hd] at h
              cases h
              exact ih (by omega) hd
            | ok r => rw [hd] at h; cases h
          · cases h; rfl

theorem unitsLe_iff : ∀ {b : Bytes} {us : List Nat}, Octets b → unitsLe b = .ok us →
    (us.flatMap fun u => [u % 256, u / 256]) = b
  | [], us, _, h => by cases h; rfl
  | [_], us, _, h => by cases h
  | a :: c :: r, us, hb, h => by
    unfold unitsLe at h
    obtain ⟨us', h1, h⟩ := bind_ok h
    cases h
    have ha : a < 256 := hb a (by simp)
    rw [List.flatMap_cons, unitsLe_iff (fun x hx => hb x (by simp [hx])) h1]
    show _ :: _ :: r = _
    congr 1
    · omega
    · congr 1
      omega

theorem unitsBe_iff : ∀ {b : Bytes} {us : List Nat}, Octets b → unitsBe b = .ok us →
    (us.flatMap fun u => [u / 256, u % 256]) = b
  | [], us, _, h => by cases h; rfl
  | [_], us, _, h => by cases h
  | a :: c :: r, us, hb, h => by
    unfold unitsBe at h
    obtain ⟨us', h1, h⟩ := bind_ok h
    cases h
    have ha : c < 256 := hb c (by simp)
    rw [List.flatMap_cons, unitsBe_iff (fun x hx => hb x (by simp [hx])) h1]
    show _ :: _ :: r = _
    congr 1
    · omega
    · congr 1
      omega

theorem unitsLe_error : ∀ {b : Bytes} {e : Err}, unitsLe b = .error e → e = .unicode
  | [], _, h => by cases h
  | [_], _, h => by cases h; rfl
  | a :: c :: r, e, h => by
    unfold unitsLe at h
    cases hd : unitsLe r with
    | error e' =>
      rw [hd] at h
      cases h
      exact unitsLe_error hd
    | ok us => rw [hd] at h; cases h

theorem unitsBe_error : ∀ {b : Bytes} {e : Err}, unitsBe b = .error e → e = .unicode
  | [], _, h => by cases h
  | [_], _, h => by cases h; rfl
  | a :: c :: r, e, h => by
    unfold unitsBe at h
    cases hd : unitsBe r with
    | error e' =>
      rw [hd] at h
      cases h
      exact unitsBe_error hd
    | ok us => rw [hd] at h; cases h

theorem unitsBe_big : ∀ (us : List Nat), unitsBe (us.flatMap fun u => [u / 256, u % 256]) = .ok us
  | [] => rfl
  | u :: us => by
    rw [List.flatMap_cons]
    show unitsBe (u / 256 :: u % 256 :: us.flatMap fun u => [u / 256, u % 256]) = _
    unfold unitsBe
    rw [unitsBe_big us]
    show Except.ok ((256 * (u / 256) + u % 256) :: us) = _
    rw [Nat.div_add_mod]

theorem unitsLe_flatMap' : ∀ (us : List Nat), unitsLe (us.flatMap fun u => [u % 256, u / 256]) = .ok us
  | [] => rfl
  | u :: us => by
    rw [List.flatMap_cons]
    show unitsLe (u % 256 :: u / 256 :: us.flatMap fun u => [u % 256, u / 256]) = _
    unfold unitsLe
    rw [unitsLe_flatMap' us]
    show Except.ok ((u % 256 + 256 * (u / 256)) :: us) = _
    rw [Nat.mod_add_div]

theorem decodeUtf16Le_iff {b : Bytes} {s : PStr} (hb : Octets b) : decodeUtf16Le b = .ok s ↔ Encodable s ∧ b = utf16Le s := by
  constructor
  · intro h
    refine ⟨decodeUtf16Le_encodable hb h, ?_⟩
    unfold decodeUtf16Le at h
    obtain ⟨us, h1, h⟩ := bind_ok h
    unfold utf16Le
    rw [decodeUnits_iff _ (Nat.le_refl _) (unitsLe_lt hb h1) h, unitsLe_iff hb h1]
  · rintro ⟨he, rfl⟩
    unfold decodeUtf16Le utf16Le
    rw [unitsLe_flatMap']
    exact decodeUnits_flatMap s he

theorem decodeUtf16Le_error {b : Bytes} {e : Err} (h : decodeUtf16Le b = .error e) : e = .unicode := by
  unfold decodeUtf16Le at h
  cases hd : unitsLe b with
  | error e' =>
    rw [hd] at h
    cases h
    exact unitsLe_error hd
  | ok us =>
    rw [hd] at h
    exact decodeUnits_error _ (Nat.le_refl _) h

theorem decodeUtf16_error {b : Bytes} {e : Err} (h : decodeUtf16 b = .error e) : e = .unicode := by
  unfold decodeUtf16 at h
  split at h
  · exact decodeUtf16Le_error h
  · rename_i r
    cases hd : unitsBe r with
    | error e' =>
      rw [hd] at h
      cases h
      exact unitsBe_error hd
    | ok us =>
      rw [hd] at h
      exact decodeUnits_error _ (Nat.le_refl _) h
  · exact decodeUtf16Le_error h

theorem utf16Le_head {s : PStr} (he : Encodable s) {x y : Nat} {r : Bytes} (h : utf16Le s = x :: y :: r) (hx : 0xFE ≤ y ∨ y < 0xD8)
    (hy : y < 256) : s.head? = some (x + 256 * y) := by
  cases s with
  | nil => cases h
  | cons c s =>
    have hc := encodable_iff.1 (he c (by simp))
    unfold utf16Le at h
    rw [List.flatMap_cons] at h
    unfold utf16Units at h
    split at h
    · simp only [List.cons_append, List.nil_append, List.flatMap_cons] at h
      injection h with h1 h
      injection h with h2 h
      show some c = _
      congr 1
      omega
    · simp only [List.cons_append, List.nil_append, List.flatMap_cons] at h
      injection h with h1 h
      injection h with h2 h
      omega

theorem decodeUtf16_iff {b : Bytes} {s : PStr} (hb : Octets b) : decodeUtf16 b = .ok s ↔ Utf16Text b s := by
  constructor
  · intro h
    unfold decodeUtf16 at h
    split at h
    · rename_i r
      obtain ⟨he, e⟩ := (decodeUtf16Le_iff (fun x hx => hb x (by simp [hx]))).1 h
      rw [e]
      exact .low s he
    · rename_i r
      have hr : Octets r := fun x hx => hb x (by simp [hx])
      obtain ⟨us, h1, h⟩ := bind_ok h
      have e : r = utf16Be s := by
        unfold utf16Be
        rw [decodeUnits_iff _ (Nat.le_refl _) (unitsBe_lt hr h1) h, unitsBe_iff hr h1]
      rw [e]
      exact .high s (decodeUnits_encodable _ (Nat.le_refl _) (unitsBe_lt hr h1) h)
    · rename_i n1 n2
      obtain ⟨he, e⟩ := (decodeUtf16Le_iff hb).1 h
      subst e
      cases s with
      | nil => exact .plain [] he (by simp) (by simp)
      | cons c s =>
        refine .plain _ he ?_ ?_
        · intro hc
          injection hc with hc
          subst hc
          exact n1 _ rfl
        · intro hc
          injection hc with hc
          subst hc
          exact n2 _ rfl
  · intro h
    cases h with
    | plain _ he h1 h2 =>
      unfold decodeUtf16
      split
      · rename_i r e
        exact absurd (utf16Le_head he e (.inl (by omega)) (by omega)) h1
      · rename_i r e
        exact absurd (utf16Le_head he e (.inl (by omega)) (by omega)) h2
      · exact (decodeUtf16Le_iff hb).2 ⟨he, rfl⟩
    | low _ he =>
      exact (decodeUtf16Le_iff (fun x hx => hb x (by simp [hx]))).2 ⟨he, rfl⟩
    | high _ he =>
      show (unitsBe (utf16Be s) >>= fun us => decodeUnits us) = _
      unfold utf16Be
      rw [unitsBe_big]
      exact decodeUnits_flatMap s he

/-! ### UTF-8 -/

theorem decodeUtf8_error (n : Nat) : ∀ {b : Bytes} {e : Err}, b.length ≤ n → decodeUtf8 b = .error e → e = .unicode := by
  have key : ∀ {r : Bytes} {f : PStr → PStr} {e : Err}, (∀ {e}, decodeUtf8 r = .error e → e = .unicode) →
      (decodeUtf8 r >>= fun s => (pure (f s) : Res PStr)) = .error e → e = .unicode := by
    intro r f e ih h
    cases hd : decodeUtf8 r with
    | error e' => rw [hd] at h; cases h; exact ih hd
    | ok s => rw [hd] at h; cases h
  induction n with
  | zero =>
    intro b e hn h
    have : b = [] := List.length_eq_zero_iff.mp (by omega)
    subst this
    unfold decodeUtf8 at h
    cases h
  | succ n ih =>
    intro b e hn h
    cases b with
    | nil => unfold decodeUtf8 at h; cases h
    | cons a r =>
      unfold decodeUtf8 at h
      have hl : r.length ≤ n := by simp at hn; omega
      split at h
      · exact key (fun h => ih hl h) h
      · split at h
        · split at h
          · split at h
            · exact key (fun h => ih (by simp at hl; omega) h) h
            · cases h; rfl
          · cases h; rfl
        · split at h
          · split at h
            · dsimp only at h
              split at h
              · exact key (fun h => ih (by simp at hl; omega) h) h
              · cases h; rfl
            · cases h; rfl
          · split at h
            · split at h
              · dsimp only at h
                split at h
                · exact key (fun h => ih (by simp at hl; omega) h) h
                · cases h; rfl
              · cases h; rfl
            · cases h; rfl

end Sudachi
