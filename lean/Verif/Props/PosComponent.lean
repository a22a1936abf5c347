/-
C37: what a component of a part of speech reads as, with any first character.
-/
import Verif.Lemmas.Load
import Verif.Lemmas.Encodable
import Verif.Spec.PosComponent
import Verif.Props.Grammar
namespace Sudachi

theorem unitsBe_flatMap : ∀ (us : List Nat), (∀ u ∈ us, u < 65536) → unitsBe (us.flatMap (leBytes 2)) = .ok (us.map swapUnit)
  | [], _ => rfl
  | u :: us, h => by
    have h1 := h u (by simp)
    have ih := unitsBe_flatMap us (fun x hx => h x (by simp [hx]))
    simp only [List.flatMap_cons, leBytes, List.cons_append, List.nil_append, unitsBe, List.map_cons]
    simp only [leBytes] at ih
    rw [ih]
    show Except.ok _ = _
    congr 2
    unfold swapUnit
    omega

/-- Decoding is exact, and all it raises is a `UnicodeDecodeError`. -/
theorem decodeUnits_exact (n : Nat) : ∀ {us : List Nat}, us.length ≤ n → (∀ u ∈ us, u < 65536) →
    (∀ s, decodeUnits us = .ok s ↔ (∀ c ∈ s, encodable c = true) ∧ s.flatMap utf16Units = us) ∧
    ∀ e, decodeUnits us = .error e → e = .unicode := by
  have right : ∀ {us : List Nat} {s : PStr}, (∀ c ∈ s, encodable c = true) ∧ s.flatMap utf16Units = us → decodeUnits us = .ok s := by
    rintro us s ⟨h1, rfl⟩
    exact decodeUnits_flatMap s h1
  induction n with
  | zero =>
    intro us hn _
    have : us = [] := List.length_eq_zero_iff.mp (by omega)
    subst this
    exact ⟨fun s => ⟨fun h => by cases h; exact ⟨by simp, rfl⟩, right⟩, fun e h => by cases h⟩
  | succ n ih =>
    intro us hn hu
    cases us with
    | nil => exact ⟨fun s => ⟨fun h => by cases h; exact ⟨by simp, rfl⟩, right⟩, fun e h => by cases h⟩
    | cons u us =>
      have hu0 := hu u (by simp)
      refine ⟨fun s => ⟨fun h => ?_, right⟩, fun e h => ?_⟩
      · unfold decodeUnits at h
        split at h
        · rename_i hc
          obtain ⟨r, h1, h⟩ := bind_ok h
          cases h
          obtain ⟨i1, i2⟩ := ((ih (by simp at hn; omega) (fun x hx => hu x (by simp [hx]))).1 r).1 h1
          refine ⟨fun c hc' => ?_, ?_⟩
          · rcases List.mem_cons.1 hc' with rfl | hc'
            · exact encodable_iff.mpr ⟨by omega, by omega⟩
            · exact i1 c hc'
          · rw [List.flatMap_cons, i2]
            unfold utf16Units
            rw [if_pos (by omega)]
            rfl
        · split at h
          · cases h
          · rename_i v vs
            split at h
            · rename_i hr hc
              obtain ⟨r, h1, h⟩ := bind_ok h
              cases h
              have hv := hu v (by simp)
              obtain ⟨i1, i2⟩ := ((ih (by simp at hn; omega) (fun x hx => hu x (by simp [hx]))).1 r).1 h1
              refine ⟨fun c hc' => ?_, ?_⟩
              · rcases List.mem_cons.1 hc' with e | hc'
                · rw [e]
                  exact encodable_iff.mpr ⟨by omega, by omega⟩
                · exact i1 c hc'
              · rw [List.flatMap_cons, i2]
                unfold utf16Units
                rw [if_neg (by omega)]
                show _ :: _ :: vs = _
                have e1 : 0xD800 + (0x10000 + (u - 0xD800) * 1024 + (v - 0xDC00) - 0x10000) / 1024 = u := by omega
                have e2 : 0xDC00 + (0x10000 + (u - 0xD800) * 1024 + (v - 0xDC00) - 0x10000) % 1024 = v := by omega
                rw [e1, e2]
            · cases h
      · unfold decodeUnits at h
        split at h
        · cases h1 : decodeUnits us with
          | ok r => rw [h1] at h; cases h
          | error x =>
            rw [h1] at h
            cases h
            exact (ih (by simp at hn; omega) (fun x hx => hu x (by simp [hx]))).2 _ h1
        · split at h
          · cases h; rfl
          · rename_i v vs
            split at h
            · cases h1 : decodeUnits vs with
              | ok r => rw [h1] at h; cases h
              | error x =>
                rw [h1] at h
                cases h
                exact (ih (by simp at hn; omega) (fun x hx => hu x (by simp [hx]))).2 _ h1
            · cases h; rfl

/-- **C37** What a written component of fewer than 128 units reads as, whatever its first character is; if it cannot be read it is a
`UnicodeDecodeError`. -/
theorem C37_component {s : PStr} {w : Bytes} (h : writeString s = .ok w) (hs : units s < 128) (pre rest : Bytes) :
    (∀ t, getPosString (pre ++ w ++ rest) pre.length = .ok (t, pre.length + w.length) ↔ ComponentReads s t) ∧
    ((¬ ∃ t, ComponentReads s t) → getPosString (pre ++ w ++ rest) pre.length = .error .unicode) := by
  have key : getPosString (pre ++ w ++ rest) pre.length =
      (decodeUtf16 ((s.flatMap utf16Units).flatMap (leBytes 2))).map fun t => (t, pre.length + w.length) := by
    obtain ⟨l, c, hl, hc, rfl, hcl⟩ := writeString_ok h
    have hA : At (pre ++ (l ++ c) ++ rest) pre.length (l ++ c) := At.mid _ _ _
    have hs' : (s.flatMap utf16Units).length ≤ 127 := Nat.le_of_lt_succ hs
    rcases writeStringLength_ok hl (Nat.le_trans hs' (by decide)) with h3 | h3
    · obtain ⟨h1, h2⟩ := h3
      subst h2
      unfold getPosString
      rw [At.readByte (c := c) hA, (encodeUtf16_ok hc).2.symm]
      simp only [bind, Except.bind, (At.cons (c := c) hA).mRead' hcl.symm]
      cases decodeUtf16 c with
      | error e => rfl
      | ok t =>
        simp only [pure, Except.pure, Except.map, List.cons_append, List.nil_append, List.length_cons, hcl]
        congr 2
        omega
    · have := h3.1
      omega
  obtain ⟨_, c, _, hc, _, _⟩ := writeString_ok h
  have hen := (encodeUtf16_ok hc).1
  have hlt : ∀ u ∈ s.flatMap utf16Units, u < 65536 := by
    intro u hu
    obtain ⟨c, hc, hu'⟩ := List.mem_flatMap.1 hu
    exact utf16Units_lt (hen c hc) u hu'
  rw [key]
  have hmap : ∀ {r : Res PStr} {t : PStr} {k : Nat}, (r.map fun t => (t, k)) = .ok (t, k) ↔ r = .ok t := by
    intro r t k
    cases r with
    | error e => exact ⟨fun h => (by cases h), fun h => (by cases h)⟩
    | ok x => exact ⟨fun h => (by cases h; rfl), fun h => (by cases h; rfl)⟩
  by_cases hb : NoBom s
  · have hd := decodeUtf16_encode hc hb
    rw [(encodeUtf16_ok hc).2] at hd
    refine ⟨fun t => ?_, fun hno => (hno ⟨s, .plain hb.1 hb.2⟩).elim⟩
    rw [hmap, hd]
    constructor
    · intro h; cases h; exact .plain hb.1 hb.2
    · intro h
      cases h with
      | plain => rfl
      | mark => exact (hb.1 rfl).elim
      | swapped => exact (hb.2 rfl).elim
  · cases s with
    | nil => exact (hb ⟨by simp, by simp⟩).elim
    | cons c0 s =>
      have htl : ∀ u ∈ s.flatMap utf16Units, u < 65536 := fun u hu => hlt u (by rw [List.flatMap_cons]; exact List.mem_append_right _ hu)
      have hc0 : c0 = 0xFEFF ∨ c0 = 0xFFFE := by
        by_cases h1 : c0 = 0xFEFF
        · exact .inl h1
        · by_cases h2 : c0 = 0xFFFE
          · exact .inr h2
          · exact (hb ⟨by simpa using h1, by simpa using h2⟩).elim
      rcases hc0 with rfl | rfl
      · have hd : decodeUtf16 (((0xFEFF :: s).flatMap utf16Units).flatMap (leBytes 2)) = .ok s := by
          show decodeUtf16Le ((s.flatMap utf16Units).flatMap (leBytes 2)) = _
          unfold decodeUtf16Le
          rw [unitsLe_flatMap _ htl]
          exact decodeUnits_flatMap s fun c hc => hen c (by simp [hc])
        refine ⟨fun t => ?_, fun hno => (hno ⟨s, .mark s⟩).elim⟩
        rw [hmap, hd]
        constructor
        · intro h; cases h; exact .mark _
        · intro h
          cases h with
          | plain h1 => exact (h1 rfl).elim
          | mark => rfl
      · have hd : decodeUtf16 (((0xFFFE :: s).flatMap utf16Units).flatMap (leBytes 2)) = decodeUnits ((s.flatMap utf16Units).map swapUnit) := by
          show (unitsBe ((s.flatMap utf16Units).flatMap (leBytes 2)) >>= decodeUnits) = _
          rw [unitsBe_flatMap _ htl]
          rfl
        have hsw : ∀ u ∈ (s.flatMap utf16Units).map swapUnit, u < 65536 := by
          intro u hu
          obtain ⟨x, hx, rfl⟩ := List.mem_map.1 hu
          have := htl x hx
          unfold swapUnit
          omega
        obtain ⟨x1, x2⟩ := decodeUnits_exact _ (Nat.le_refl _) hsw
        rw [hd]
        constructor
        · intro t
          rw [hmap, x1]
          constructor
          · exact fun h => .swapped h.1 h.2
          · intro h
            cases h with
            | plain _ h2 => exact (h2 rfl).elim
            | swapped h1 h2 => exact ⟨h1, h2⟩
        · intro hno
          cases hx : decodeUnits ((s.flatMap utf16Units).map swapUnit) with
          | ok t => exact (hno ⟨t, .swapped ((x1 t).1 hx).1 ((x1 t).1 hx).2⟩).elim
          | error e => rw [x2 e hx]; rfl

/-- `A` after the mark of the other byte order reads as U+4100, and U+00D8 cannot be read. -/
example : ∃ w, writeString [0xFFFE, 0x41] = .ok w ∧ units [0xFFFE, 0x41] < 128 ∧ getPosString w 0 = .ok ([0x4100], 5) ∧
    ComponentReads [0xFFFE, 0x41] [0x4100] :=
  ⟨[2, 0xFE, 0xFF, 0x41, 0], by decide, by decide, by decide +kernel, .swapped (by decide) (by decide)⟩
example : ∃ w, writeString [0xFFFE, 0xD8] = .ok w ∧ units [0xFFFE, 0xD8] < 128 ∧ getPosString w 0 = .error .unicode :=
  ⟨[2, 0xFE, 0xFF, 0xD8, 0], by decide, by decide, by decide +kernel⟩

end Sudachi
