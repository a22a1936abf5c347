/-
More lemmas on the header: reading at an offset, and when writing succeeds.
-/
import Verif.Lemmas.Header
import Verif.Lemmas.DictFile
namespace Sudachi

theorem descriptionLength_shift (pre b : Bytes) (i n : Nat) :
    descriptionLength (pre ++ b) (pre.length + i) n = descriptionLength b i n := by
  induction n generalizing i with
  | zero => rfl
  | succ n ih =>
    unfold descriptionLength
    rw [List.getElem?_append_right (by omega), show pre.length + i - pre.length = i by omega, Nat.add_assoc, ih]

theorem pySlice_pre (pre b : Bytes) (i j : Nat) : pySlice (pre ++ b) (pre.length + i) (pre.length + j) = pySlice b i j := by
  unfold pySlice
  rw [List.take_append, List.drop_append, List.drop_of_length_le (by rw [List.length_take]; omega), List.nil_append]
  rw [show pre.length + j - pre.length = j by omega, List.length_take]
  rw [show pre.length + i - min (pre.length + j) pre.length = i by omega]

theorem fromBytes_shift (pre b : Bytes) : Header.fromBytes (pre ++ b) pre.length = Header.fromBytes b 0 := by
  unfold Header.fromBytes
  rw [List.length_append]
  have e : (pre.length + b.length < pre.length + 16) = (b.length < 0 + 16) := by
    apply propext; omega
  have e0 : pySlice (pre ++ b) pre.length (pre.length + 8) = pySlice b 0 8 := pySlice_pre pre b 0 8
  simp only [e, e0, pySlice_pre, descriptionLength_shift, Nat.zero_add, Nat.add_assoc]

/-- When a header can be written. -/
theorem header_writes (h : Header) (hv : 0 ≤ h.version ∧ h.version < 2 ^ 64) (ht : -(2 ^ 63) ≤ h.createTime ∧ h.createTime < 2 ^ 63)
    (he : ∀ c ∈ h.description, encodable c = true) :
    h.toBytes = if (h.description.flatMap utf8Cp).length ≤ 256 then
      .ok (leBytes 8 h.version.toNat ++ leBytes 8 (h.createTime % 2 ^ 64).toNat ++ h.description.flatMap utf8Cp ++
        List.replicate (256 - (h.description.flatMap utf8Cp).length) 0)
    else .error .value := by
  have h1 : writeInt h.version .long false = .ok (leBytes 8 h.version.toNat) := by
    unfold writeInt toBytes
    simp only [Bool.false_eq_true, if_false]
    rw [if_pos]
    have : (2 : Int) ^ (8 * 8) = 2 ^ 64 := by decide
    rw [this]; exact hv
  have h2 : writeInt h.createTime .long = .ok (leBytes 8 (h.createTime % 2 ^ 64).toNat) := by
    unfold writeInt toBytes
    simp only [if_true]
    rw [if_pos]
    have : (2 : Int) ^ (8 * 8) = 18446744073709551616 := by decide
    rw [this]
    have : (2 : Int) ^ 63 = 9223372036854775808 := by decide
    rw [this] at ht
    omega
  have h3 : encodeUtf8 h.description = .ok (h.description.flatMap utf8Cp) := by
    unfold encodeUtf8
    rw [if_pos (List.all_eq_true.2 he)]
  by_cases hl : (h.description.flatMap utf8Cp).length ≤ 256
  · cases hb : h.toBytes with
    | ok b =>
      obtain ⟨v, t, hv', ht', _, _, hb'⟩ := header_bytes hb
      unfold writeInt at h1 h2
      dsimp only at h1 h2
      rw [h1] at hv'
      rw [h2] at ht'
      cases hv'; cases ht'
      rw [hb', if_pos hl]
    | error x =>
      unfold Header.toBytes at hb
      rw [h1, h2, h3] at hb
      simp only [bind, Except.bind] at hb
      rw [if_neg (by simp only [DESCRIPTION_SIZE]; omega)] at hb
      cases hb
  · rw [if_neg hl]
    unfold Header.toBytes
    rw [h1, h2, h3]
    simp only [bind, Except.bind]
    rw [if_pos (by simp only [DESCRIPTION_SIZE]; omega)]

end Sudachi
