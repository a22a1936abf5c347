/-
Lemmas on bytes: integers, codecs, streams.
-/
import Verif.Model.Bytes
namespace Sudachi

theorem leBytes_length (n v : Nat) : (leBytes n v).length = n := by
  induction n generalizing v with
  | zero => rfl
  | succ n ih => simp [leBytes, ih]

theorem leBytes_lt (n v : Nat) : ∀ b ∈ leBytes n v, b < 256 := by
  induction n generalizing v with
  | zero => intro b hb; simp [leBytes] at hb
  | succ n ih =>
    intro b hb
    simp only [leBytes, List.mem_cons] at hb
    rcases hb with rfl | hb
    · exact Nat.mod_lt _ (by decide)
    · exact ih _ b hb

theorem fromLe_leBytes (n v : Nat) : fromLe (leBytes n v) = v % 256 ^ n := by
  induction n generalizing v with
  | zero => simp [leBytes, fromLe, Nat.mod_one]
  | succ n ih =>
    simp only [leBytes, fromLe, ih]
    rw [Nat.pow_succ, Nat.mul_comm (256 ^ n) 256, Nat.mod_mul]

theorem pow256 (n : Nat) : (256 : Nat) ^ n = 2 ^ (8 * n) := by
  rw [show (256 : Nat) = 2 ^ 8 from rfl, ← Nat.pow_mul]

theorem fromLe_lt : ∀ (b : Bytes), (∀ x ∈ b, x < 256) → fromLe b < 256 ^ b.length
  | [], _ => by simp [fromLe]
  | x :: xs, h => by
    have h1 := h x (by simp)
    have h2 := fromLe_lt xs (fun y hy => h y (by simp [hy]))
    simp only [fromLe, List.length_cons, Nat.pow_succ]
    omega

theorem toBytes_length {n : Nat} {s : Bool} {v : Int} {b : Bytes} (h : toBytes n s v = .ok b) : b.length = n := by
  unfold toBytes at h
  split at h <;> split at h <;> cases h <;> exact leBytes_length _ _

theorem toBytes_lt {n : Nat} {s : Bool} {v : Int} {b : Bytes} (h : toBytes n s v = .ok b) : ∀ x ∈ b, x < 256 := by
  unfold toBytes at h
  split at h <;> split at h <;> cases h <;> exact leBytes_lt _ _

theorem fromLe_toBytes {n : Nat} {v : Int} {b : Bytes} (h : toBytes n false v = .ok b) : (fromLe b : Int) = v := by
  unfold toBytes at h
  simp only [Bool.false_eq_true, if_false] at h
  split at h
  · rename_i hv
    cases h
    rw [fromLe_leBytes, pow256]
    have h2 : v.toNat < 2 ^ (8 * n) := by
      have := hv.2
      have h3 : ((2 ^ (8 * n) : Nat) : Int) = 2 ^ (8 * n) := by push_cast; rfl
      omega
    rw [Nat.mod_eq_of_lt h2]
    omega
  · cases h

theorem fromLeSigned_toBytes {n : Nat} {v : Int} {b : Bytes} (h : toBytes n true v = .ok b) : fromLeSigned b = v := by
  unfold toBytes at h
  simp only [if_true] at h
  split at h
  · rename_i hv
    cases h
    unfold fromLeSigned
    rw [fromLe_leBytes, leBytes_length, pow256]
    have h3 : ((2 ^ (8 * n) : Nat) : Int) = 2 ^ (8 * n) := by push_cast; rfl
    generalize hM : (2 ^ (8 * n) : Nat) = M at *
    rw [← h3] at hv ⊢
    have hMpos : 0 < M := by rw [← hM]; exact Nat.two_pow_pos _
    have h4 : (v % (M : Int)).toNat < M := by
      have := Int.emod_lt_of_pos v (show (0 : Int) < M by omega)
      have := Int.emod_nonneg v (show (M : Int) ≠ 0 by omega)
      omega
    rw [Nat.mod_eq_of_lt h4]
    by_cases hneg : v < 0
    · have : v % (M : Int) = v + M := by
        rw [← Int.add_mul_emod_self_left (b := (M : Int)) (c := 1), Int.mul_one]
        exact Int.emod_eq_of_lt (by omega) (by omega)
      rw [this]
      split <;> omega
    · have : v % (M : Int) = v := Int.emod_eq_of_lt (by omega) (by omega)
      rw [this]
      split <;> omega
  · cases h

theorem fromLeSigned_bounds (b : Bytes) (h : ∀ x ∈ b, x < 256) :
    -(2 ^ (8 * b.length)) ≤ 2 * fromLeSigned b ∧ 2 * fromLeSigned b < 2 ^ (8 * b.length) := by
  have h1 := fromLe_lt b h
  rw [pow256] at h1
  have h3 : ((2 ^ (8 * b.length) : Nat) : Int) = 2 ^ (8 * b.length) := by push_cast; rfl
  unfold fromLeSigned
  generalize (2 ^ (8 * b.length) : Nat) = M at *
  rw [← h3]
  split <;> omega

/-! ### writeInt -/

theorem writeInt_byte {v : Int} {b : Bytes} (h : writeInt v .byte = .ok b) : 0 ≤ v ∧ v < 256 ∧ b = [v.toNat] := by
  simp only [writeInt, toBytes, Bool.false_eq_true, if_false] at h
  split at h
  · rename_i hv
    cases h
    have h2 : v < 256 := hv.2
    refine ⟨hv.1, h2, ?_⟩
    simp only [leBytes]
    congr 1
    omega
  · cases h

theorem writeInt_byte_ok {n : Nat} (h : n < 256) : writeInt n .byte = .ok [n] := by
  simp only [writeInt, toBytes, Bool.false_eq_true, if_false]
  rw [if_pos ⟨by omega, by show (n : Int) < 256; omega⟩]
  simp only [leBytes, Int.toNat_natCast]
  rw [Nat.mod_eq_of_lt h]

theorem writeInt_short {v : Int} {b : Bytes} (h : writeInt v .short = .ok b) :
    b.length = 2 ∧ (∀ x ∈ b, x < 256) ∧ fromLeSigned b = v ∧ -32768 ≤ v ∧ v ≤ 32767 := by
  simp only [writeInt] at h
  refine ⟨toBytes_length h, toBytes_lt h, fromLeSigned_toBytes h, ?_⟩
  have h1 := fromLeSigned_bounds b (toBytes_lt h)
  rw [fromLeSigned_toBytes h, toBytes_length h] at h1
  have h2 : (2 : Int) ^ (8 * 2) = 65536 := by decide
  rw [h2] at h1
  omega

theorem writeInt_short_ok {v : Int} (h1 : -32768 ≤ v) (h2 : v ≤ 32767) : ∃ b, writeInt v .short = .ok b := by
  simp only [writeInt, toBytes, if_true]
  rw [if_pos]
  · exact ⟨_, rfl⟩
  · have h2 : (2 : Int) ^ (8 * 2) = 65536 := by decide
    rw [h2]; omega

theorem writeInt_int {v : Int} {b : Bytes} (h : writeInt v .int = .ok b) :
    b.length = 4 ∧ (∀ x ∈ b, x < 256) ∧ fromLeSigned b = v ∧ -2147483648 ≤ v ∧ v ≤ 2147483647 := by
  simp only [writeInt] at h
  refine ⟨toBytes_length h, toBytes_lt h, fromLeSigned_toBytes h, ?_⟩
  have h1 := fromLeSigned_bounds b (toBytes_lt h)
  rw [fromLeSigned_toBytes h, toBytes_length h] at h1
  have h2 : (2 : Int) ^ (8 * 4) = 4294967296 := by decide
  rw [h2] at h1
  omega

theorem writeInt_int_ok {v : Int} (h1 : -2147483648 ≤ v) (h2 : v ≤ 2147483647) : ∃ b, writeInt v .int = .ok b := by
  simp only [writeInt, toBytes, if_true]
  rw [if_pos]
  · exact ⟨_, rfl⟩
  · have h2 : (2 : Int) ^ (8 * 4) = 4294967296 := by decide
    rw [h2]; omega

/-- A non-negative number written signed reads back unsigned. -/
theorem fromLe_writeInt_int {v : Nat} {b : Bytes} (h : writeInt v .int = .ok b) : fromLe b = v := by
  have h1 := writeInt_int h
  simp only [writeInt, toBytes, if_true] at h
  split at h
  · cases h
    rw [fromLe_leBytes]
    have h2 : (2 : Int) ^ (8 * 4) = 4294967296 := by decide
    rw [h2]
    omega
  · cases h

theorem fromLe_writeInt_short {v : Int} (hv : 0 ≤ v) {b : Bytes} (h : writeInt v .short = .ok b) : (fromLe b : Int) = v := by
  have h1 := writeInt_short h
  simp only [writeInt, toBytes, if_true] at h
  split at h
  · cases h
    rw [fromLe_leBytes]
    have h2 : (2 : Int) ^ (8 * 2) = 65536 := by decide
    rw [h2]
    omega
  · cases h

/-! ### UTF-16 -/

theorem unitsLe_flatMap : ∀ (us : List Nat), (∀ u ∈ us, u < 65536) → unitsLe (us.flatMap (leBytes 2)) = .ok us
  | [], _ => rfl
  | u :: us, h => by
    have h1 := h u (by simp)
    have ih := unitsLe_flatMap us (fun x hx => h x (by simp [hx]))
    simp only [List.flatMap_cons, leBytes, List.cons_append, List.nil_append, unitsLe]
    simp only [leBytes] at ih
    rw [ih]
    show Except.ok _ = _
    congr 2
    omega

theorem encodable_iff {c : Nat} : encodable c = true ↔ c ≤ 0x10FFFF ∧ ¬(0xD800 ≤ c ∧ c ≤ 0xDFFF) := by
  simp [encodable]; omega

theorem utf16Units_lt {c : Nat} (h : encodable c = true) : ∀ u ∈ utf16Units c, u < 65536 := by
  have := encodable_iff.1 h
  unfold utf16Units
  intro u hu
  split at hu
  · simp at hu; omega
  · simp at hu; omega

theorem decodeUnits_cons {c : Nat} (h : encodable c = true) (us : List Nat) :
    decodeUnits (utf16Units c ++ us) = (decodeUnits us).map (c :: ·) := by
  have hc := encodable_iff.1 h
  unfold utf16Units
  split
  · rename_i h1
    simp only [List.cons_append, List.nil_append]
    conv => lhs; unfold decodeUnits
    rw [if_pos (by omega)]
    cases decodeUnits us <;> rfl
  · rename_i h1
    simp only [List.cons_append, List.nil_append]
    conv => lhs; unfold decodeUnits
    rw [if_neg (by omega)]
    simp only []
    rw [if_pos (by omega)]
    have : 0x10000 + (0xD800 + (c - 0x10000) / 1024 - 0xD800) * 1024 + (0xDC00 + (c - 0x10000) % 1024 - 0xDC00) = c := by
      omega
    rw [this]
    cases decodeUnits us <;> rfl

theorem decodeUnits_flatMap : ∀ (s : PStr), (∀ c ∈ s, encodable c = true) → decodeUnits (s.flatMap utf16Units) = .ok s
  | [], _ => rfl
  | c :: cs, h => by
    rw [List.flatMap_cons, decodeUnits_cons (h c (by simp)), decodeUnits_flatMap cs (fun x hx => h x (by simp [hx]))]
    rfl

theorem encodeUtf16_ok {s : PStr} {b : Bytes} (h : encodeUtf16 s = .ok b) :
    (∀ c ∈ s, encodable c = true) ∧ b = (s.flatMap utf16Units).flatMap (leBytes 2) := by
  unfold encodeUtf16 at h
  split at h
  · rename_i h1
    cases h
    exact ⟨fun c hc => (List.all_eq_true.1 h1) c hc, rfl⟩
  · cases h

theorem decodeUtf16Le_encode {s : PStr} {b : Bytes} (h : encodeUtf16 s = .ok b) : decodeUtf16Le b = .ok s := by
  obtain ⟨h1, rfl⟩ := encodeUtf16_ok h
  unfold decodeUtf16Le
  rw [unitsLe_flatMap]
  · exact decodeUnits_flatMap s h1
  · intro u hu
    obtain ⟨c, hc, hu'⟩ := List.mem_flatMap.1 hu
    exact utf16Units_lt (h1 c hc) u hu'

/-- The text does not start with a byte-order mark, in either byte order. -/
def NoBom (s : PStr) : Prop := s.head? ≠ some 0xFEFF ∧ s.head? ≠ some 0xFFFE

theorem decodeUtf16_encode {s : PStr} {b : Bytes} (h : encodeUtf16 s = .ok b) (hb : NoBom s) : decodeUtf16 b = .ok s := by
  have h0 := decodeUtf16Le_encode h
  obtain ⟨h1, rfl⟩ := encodeUtf16_ok h
  unfold decodeUtf16
  cases s with
  | nil => exact h0
  | cons c cs =>
    have hc := encodable_iff.1 (h1 c (by simp))
    have hb1 : c ≠ 0xFEFF := by have := hb.1; simpa using this
    have hb2 : c ≠ 0xFFFE := by have := hb.2; simpa using this
    rw [List.flatMap_cons, List.flatMap_append] at h0 ⊢
    have key : ∃ x y r, (utf16Units c).flatMap (leBytes 2) = x :: y :: r ∧ ¬(x = 0xFF ∧ y = 0xFE) ∧ ¬(x = 0xFE ∧ y = 0xFF) := by
      unfold utf16Units
      split
      · refine ⟨_, _, _, rfl, ?_, ?_⟩ <;> omega
      · refine ⟨_, _, _, rfl, ?_, ?_⟩ <;> omega
    obtain ⟨x, y, r, he, hx1, hx2⟩ := key
    rw [he] at h0 ⊢
    simp only [List.cons_append] at h0 ⊢
    split
    · rename_i heq; injection heq with a1 a2; injection a2 with a2 a3; exact absurd ⟨a1, a2⟩ hx1
    · rename_i heq; injection heq with a1 a2; injection a2 with a2 a3; exact absurd ⟨a1, a2⟩ hx2
    · exact h0

theorem flatMap_le2_length (us : List Nat) : (us.flatMap (leBytes 2)).length = 2 * us.length := by
  induction us with
  | nil => rfl
  | cons u us ih => simp only [List.flatMap_cons, List.length_append, leBytes_length, List.length_cons, ih]; omega

theorem flatMap_le2_lt (us : List Nat) : ∀ x ∈ us.flatMap (leBytes 2), x < 256 := by
  intro x hx
  obtain ⟨u, _, hu⟩ := List.mem_flatMap.1 hx
  exact leBytes_lt _ _ x hu

/-! ### UTF-8 -/

theorem decodeUtf8_cons {c : Nat} (h : encodable c = true) (r : Bytes) :
    decodeUtf8 (utf8Cp c ++ r) = (decodeUtf8 r).map (c :: ·) := by
  have hc := encodable_iff.1 h
  unfold utf8Cp
  split
  · rename_i h1
    simp only [List.cons_append, List.nil_append]
    conv => lhs; unfold decodeUtf8
    rw [if_pos h1]
    cases decodeUtf8 r <;> rfl
  · rename_i h1
    split
    · rename_i h2
      simp only [List.cons_append, List.nil_append]
      conv => lhs; unfold decodeUtf8
      rw [if_neg (by omega), if_pos (by omega)]
      dsimp only
      rw [if_pos (by simp [isCont]; omega)]
      have : (0xC0 + c / 64 - 0xC0) * 64 + (0x80 + c % 64 - 0x80) = c := by omega
      rw [this]
      cases decodeUtf8 r <;> rfl
    · rename_i h2
      split
      · rename_i h3
        simp only [List.cons_append, List.nil_append]
        conv => lhs; unfold decodeUtf8
        rw [if_neg (by omega), if_neg (by omega), if_pos (by omega)]
        simp only []
        have e : (0xE0 + c / 4096 - 0xE0) * 4096 + (0x80 + c / 64 % 64 - 0x80) * 64 + (0x80 + c % 64 - 0x80) = c := by omega
        rw [e, if_pos (by simp [isCont]; omega)]
        cases decodeUtf8 r <;> rfl
      · rename_i h3
        simp only [List.cons_append, List.nil_append]
        conv => lhs; unfold decodeUtf8
        rw [if_neg (by omega), if_neg (by omega), if_neg (by omega), if_pos (by omega)]
        simp only []
        have e : (0xF0 + c / 262144 - 0xF0) * 262144 + (0x80 + c / 4096 % 64 - 0x80) * 4096 + (0x80 + c / 64 % 64 - 0x80) * 64 +
            (0x80 + c % 64 - 0x80) = c := by omega
        rw [e, if_pos (by simp [isCont]; omega)]
        cases decodeUtf8 r <;> rfl

theorem decodeUtf8_flatMap : ∀ (s : PStr), (∀ c ∈ s, encodable c = true) → decodeUtf8 (s.flatMap utf8Cp) = .ok s
  | [], _ => rfl
  | c :: cs, h => by
    rw [List.flatMap_cons, decodeUtf8_cons (h c (by simp)), decodeUtf8_flatMap cs (fun x hx => h x (by simp [hx]))]
    rfl

theorem encodeUtf8_ok {s : PStr} {b : Bytes} (h : encodeUtf8 s = .ok b) :
    (∀ c ∈ s, encodable c = true) ∧ b = s.flatMap utf8Cp := by
  unfold encodeUtf8 at h
  split at h
  · rename_i h1
    cases h
    exact ⟨fun c hc => (List.all_eq_true.1 h1) c hc, rfl⟩
  · cases h

theorem decodeUtf8_encode {s : PStr} {b : Bytes} (h : encodeUtf8 s = .ok b) : decodeUtf8 b = .ok s := by
  obtain ⟨h1, rfl⟩ := encodeUtf8_ok h
  exact decodeUtf8_flatMap s h1

theorem encodeUtf8_inj {s t : PStr} {b : Bytes} (h : encodeUtf8 s = .ok b) (h' : encodeUtf8 t = .ok b) : s = t := by
  have := decodeUtf8_encode h
  rw [decodeUtf8_encode h'] at this
  injection this with this
  exact this.symm

theorem utf8Cp_lt {c : Nat} (h : encodable c = true) : ∀ x ∈ utf8Cp c, x < 256 := by
  have hc := encodable_iff.1 h
  unfold utf8Cp
  intro x hx
  split at hx
  · simp at hx; omega
  · split at hx
    · simp at hx; omega
    · split at hx
      · simp at hx; omega
      · simp at hx; omega

theorem utf8Cp_zero {c : Nat} (h : 0 ∈ utf8Cp c) : c = 0 := by
  unfold utf8Cp at h
  split at h
  · simp at h; omega
  · split at h
    · simp at h; omega
    · split at h
      · simp at h; omega
      · simp at h; omega

end Sudachi
