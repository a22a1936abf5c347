/-
Lemmas: when the steps of a build succeed, and how many bytes they write.
-/
import Verif.Spec.Buildable
import Verif.Lemmas.Compiled
import Verif.Lemmas.Header
namespace Sudachi

theorem toBytes_unsigned_iff {n : Nat} {v : Int} : (∃ b, toBytes n false v = .ok b) ↔ 0 ≤ v ∧ v < 2 ^ (8 * n) := by
  simp only [toBytes, Bool.false_eq_true, if_false]
  split
  · rename_i h; exact ⟨fun _ => h, fun _ => ⟨_, rfl⟩⟩
  · rename_i h; exact ⟨fun ⟨_, hb⟩ => (by cases hb), fun hb => (h hb).elim⟩

theorem toBytes_signed_iff {n : Nat} {v : Int} : (∃ b, toBytes n true v = .ok b) ↔ -(2 ^ (8 * n)) ≤ 2 * v ∧ 2 * v < 2 ^ (8 * n) := by
  simp only [toBytes, if_true]
  split
  · rename_i h; exact ⟨fun _ => h, fun _ => ⟨_, rfl⟩⟩
  · rename_i h; exact ⟨fun ⟨_, hb⟩ => (by cases hb), fun hb => (h hb).elim⟩

theorem header_iff {h : Header} : (∃ b, h.toBytes = .ok b) ↔ h.Writable := by
  constructor
  · rintro ⟨b, hb⟩
    obtain ⟨v, t, hv, ht, h1, h2, _⟩ := header_bytes hb
    have h3 := toBytes_unsigned_iff.1 ⟨v, hv⟩
    have h4 := toBytes_signed_iff.1 ⟨t, ht⟩
    have e : (2 : Int) ^ (8 * 8) = 18446744073709551616 := by decide
    rw [e] at h3 h4
    refine ⟨by omega, by omega, h1, h2⟩
  · intro hw
    have e : (2 : Int) ^ (8 * 8) = 18446744073709551616 := by decide
    obtain ⟨v, hv⟩ := (toBytes_unsigned_iff (n := 8) (v := h.version)).2 (by rw [e]; have := hw.version; omega)
    obtain ⟨t, ht⟩ := (toBytes_signed_iff (n := 8) (v := h.createTime)).2 (by rw [e]; have := hw.time; omega)
    have hv' : writeInt h.version .long false = .ok v := hv
    have ht' : writeInt h.createTime .long = .ok t := ht
    have hd := hw.description
    unfold Header.toBytes
    rw [hv', ht', encodeUtf8_eq hd.1]
    simp only [bind, Except.bind]
    rw [if_neg (by show ¬ _ > 256; omega)]
    exact ⟨_, rfl⟩

theorem writeInt_short_iff {v : Int} : (∃ b, writeInt v .short = .ok b) ↔ FitsShort v :=
  ⟨fun ⟨_, h⟩ => (writeInt_short h).2.2.2, fun h => writeInt_short_ok h.1 h.2⟩

theorem writeInt_int_iff {v : Int} : (∃ b, writeInt v .int = .ok b) ↔ FitsInt v :=
  ⟨fun ⟨_, h⟩ => (writeInt_int h).2.2.2, fun h => writeInt_int_ok h.1 h.2⟩

theorem writeStringLength_len {n : Nat} {b : Bytes} (h : writeStringLength n = .ok b) : b.length ≤ 2 := by
  unfold writeStringLength at h
  split at h
  · obtain ⟨_, _, rfl⟩ := writeInt_byte h; simp
  · obtain ⟨x, hx, h⟩ := bind_ok h
    obtain ⟨y, hy, h⟩ := bind_ok h
    cases h
    obtain ⟨_, _, rfl⟩ := writeInt_byte hx
    obtain ⟨_, _, rfl⟩ := writeInt_byte hy
    simp

theorem writeStringLength_iff {n : Nat} : (∃ b, writeStringLength n = .ok b) ↔ n < 65536 := by
  constructor
  · rintro ⟨b, h⟩
    unfold writeStringLength at h
    split at h
    · omega
    · obtain ⟨a, ha, h⟩ := bind_ok h
      have := (writeInt_byte ha).2.1
      split at this <;> omega
  · intro h
    unfold writeStringLength
    split
    · exact ⟨_, writeInt_byte_ok (by omega)⟩
    · have h1 : (if n / 256 / 128 % 2 = 1 then n / 256 else n / 256 + 128) < 256 := by split <;> omega
      rw [writeInt_byte_ok h1, writeInt_byte_ok (show n % 256 < 256 by omega)]
      exact ⟨_, rfl⟩

theorem writeString_len {s : PStr} {b : Bytes} (h : writeString s = .ok b) : b.length ≤ 2 + 2 * units s := by
  obtain ⟨l, c, q1, q2, q3, q4⟩ := writeString_ok h
  have := writeStringLength_len q1
  rw [q3, List.length_append, q4]
  unfold units
  omega

theorem writeString_iff {s : PStr} : (∃ b, writeString s = .ok b) ↔ Clean s ∧ units s < 65536 := by
  constructor
  · rintro ⟨b, h⟩
    obtain ⟨l, c, h1, h2, _⟩ := writeString_ok h
    exact ⟨(encodeUtf16_ok h2).1, writeStringLength_iff.1 ⟨l, h1⟩⟩
  · rintro ⟨h1, h2⟩
    obtain ⟨l, hl⟩ := writeStringLength_iff.2 h2
    unfold writeString
    rw [utf16Length_eq h1]
    have he : encodeUtf16 s = .ok ((s.flatMap utf16Units).flatMap (leBytes 2)) := by
      unfold encodeUtf16; rw [if_pos (List.all_eq_true.2 h1)]
    unfold units at hl
    rw [hl, he]
    exact ⟨_, rfl⟩

theorem writeInts_iff {l : List Int} : (∃ b, writeInts l = .ok b) ↔ ∀ v ∈ l, FitsInt v := by
  induction l with
  | nil => exact ⟨fun _ v hv => (by cases hv), fun _ => ⟨[], rfl⟩⟩
  | cons v vs ih =>
    constructor
    · rintro ⟨b, h⟩
      exact (writeInts_ok h).2.2
    · intro h
      obtain ⟨a, ha⟩ := writeInt_int_iff.2 (h v (by simp))
      obtain ⟨b, hb⟩ := ih.2 (fun x hx => h x (by simp [hx]))
      unfold writeInts
      rw [ha, hb]
      exact ⟨_, rfl⟩

theorem writeIntArray_len {l : List Int} {b : Bytes} (h : writeIntArray l = .ok b) : b.length = 1 + 4 * l.length := by
  unfold writeIntArray at h
  obtain ⟨n, hn, h⟩ := bind_ok h
  obtain ⟨c, hc, h⟩ := bind_ok h
  cases h
  obtain ⟨_, _, rfl⟩ := writeInt_byte hn
  rw [List.length_append, (writeInts_ok hc).1]
  rfl

theorem writeIntArray_iff {l : List Int} : (∃ b, writeIntArray l = .ok b) ↔ l.length ≤ 255 ∧ ∀ v ∈ l, FitsInt v := by
  constructor
  · rintro ⟨b, h⟩
    unfold writeIntArray at h
    obtain ⟨n, hn, h⟩ := bind_ok h
    obtain ⟨c, hc, h⟩ := bind_ok h
    have := (writeInt_byte hn).2.1
    exact ⟨by omega, writeInts_iff.1 ⟨c, hc⟩⟩
  · rintro ⟨h1, h2⟩
    obtain ⟨b, hb⟩ := writeInts_iff.2 h2
    unfold writeIntArray
    rw [writeInt_byte_ok (show l.length < 256 by omega), hb]
    exact ⟨_, rfl⟩

theorem writeStrings_iff {ss : List PStr} : (∃ b, writeStrings ss = .ok b) ↔ ∀ s ∈ ss, Clean s ∧ units s < 65536 := by
  induction ss with
  | nil => exact ⟨fun _ v hv => (by cases hv), fun _ => ⟨[], rfl⟩⟩
  | cons s ss ih =>
    constructor
    · rintro ⟨b, h⟩
      unfold writeStrings at h
      obtain ⟨x, hx, h⟩ := bind_ok h
      obtain ⟨y, hy, h⟩ := bind_ok h
      intro t ht
      rcases List.mem_cons.1 ht with rfl | ht
      · exact writeString_iff.1 ⟨x, hx⟩
      · exact ih.1 ⟨y, hy⟩ t ht
    · intro h
      obtain ⟨a, ha⟩ := writeString_iff.2 (h s (by simp))
      obtain ⟨b, hb⟩ := ih.2 (fun x hx => h x (by simp [hx]))
      unfold writeStrings
      rw [ha, hb]
      exact ⟨_, rfl⟩

theorem writeStrings_len : ∀ {ss : List PStr} {b : Bytes}, writeStrings ss = .ok b → b.length ≤ (ss.map fun s => 2 + 2 * units s).sum
  | [], b, h => by cases h; simp
  | s :: ss, b, h => by
    unfold writeStrings at h
    obtain ⟨x, hx, h⟩ := bind_ok h
    obtain ⟨y, hy, h⟩ := bind_ok h
    cases h
    have h1 := writeStrings_len hy
    have h2 := writeString_len hx
    rw [List.length_append, List.map_cons, List.sum_cons]
    omega

theorem writePosList_iff {ps : List PStr} : (∃ b, writePosList ps = .ok b) ↔ ∀ p ∈ ps, ∀ s ∈ splitOn 44 p, Clean s ∧ units s < 65536 := by
  induction ps with
  | nil => exact ⟨fun _ v hv => (by cases hv), fun _ => ⟨[], rfl⟩⟩
  | cons p ps ih =>
    constructor
    · rintro ⟨b, h⟩
      unfold writePosList at h
      obtain ⟨x, hx, h⟩ := bind_ok h
      obtain ⟨y, hy, h⟩ := bind_ok h
      intro t ht
      rcases List.mem_cons.1 ht with rfl | ht
      · exact writeStrings_iff.1 ⟨x, hx⟩
      · exact ih.1 ⟨y, hy⟩ t ht
    · intro h
      obtain ⟨a, ha⟩ := writeStrings_iff.2 (h p (by simp))
      obtain ⟨b, hb⟩ := ih.2 (fun x hx => h x (by simp [hx]))
      unfold writePosList
      rw [ha, hb]
      exact ⟨_, rfl⟩

theorem writePosList_len : ∀ {ps : List PStr} {b : Bytes}, writePosList ps = .ok b →
    b.length ≤ (ps.map fun p => ((splitOn 44 p).map fun s => 2 + 2 * units s).sum).sum
  | [], b, h => by cases h; simp
  | p :: ps, b, h => by
    unfold writePosList at h
    obtain ⟨x, hx, h⟩ := bind_ok h
    obtain ⟨y, hy, h⟩ := bind_ok h
    cases h
    have h1 := writePosList_len hy
    have h2 := writeStrings_len hx
    rw [List.length_append, List.map_cons, List.sum_cons]
    omega

theorem convertPosTable_iff {ps : List PStr} : (∃ b, convertPosTable ps = .ok b) ↔
    ps.length ≤ 32767 ∧ ∀ p ∈ ps, ∀ s ∈ splitOn 44 p, Clean s ∧ units s < 65536 := by
  constructor
  · rintro ⟨b, h⟩
    obtain ⟨n, c, h1, h2, _⟩ := convertPosTable_ok h
    have := writeInt_short_iff.1 ⟨n, h1⟩
    unfold FitsShort at this
    exact ⟨by omega, writePosList_iff.1 ⟨c, h2⟩⟩
  · rintro ⟨h1, h2⟩
    obtain ⟨n, hn⟩ := writeInt_short_iff.2 (show FitsShort ps.length from ⟨by omega, by omega⟩)
    obtain ⟨b, hb⟩ := writePosList_iff.2 h2
    unfold convertPosTable
    rw [hn, hb]
    exact ⟨_, rfl⟩

theorem convertPosTable_len {ps : List PStr} {b : Bytes} (h : convertPosTable ps = .ok b) :
    b.length ≤ 2 + (ps.map fun p => ((splitOn 44 p).map fun s => 2 + 2 * units s).sum).sum := by
  obtain ⟨n, c, h1, h2, rfl⟩ := convertPosTable_ok h
  have := writePosList_len h2
  have := (writeInt_short h1).1
  rw [List.length_append]
  omega

/-! ### The matrix -/

theorem matrixEntry_none_of_short {line : PStr} (h3 : (splitWs (strip line)).length < 3) : matrixEntry line = none := by
  unfold matrixEntry
  split
  · rfl
  · split
    · rename_i h4; rw [h4] at h3; simp at h3
    · rfl

theorem matrixLines_line {n : Nat} {m m' : Stream} {line : PStr} {lines : List PStr} (h : matrixLines n m (line :: lines) = .ok m') :
    MatrixLineOk line ∧ ∃ m1, matrixLines n m1 lines = .ok m' := by
  unfold matrixLines at h
  by_cases hc : (strip line).isEmpty ∨ (strip line).head? = some 35
  · rw [if_pos hc] at h
    refine ⟨?_, m, h⟩
    rcases hc with hc | hc
    · exact .inl (by simpa using hc)
    · exact .inr (.inl hc)
  · rw [if_neg hc] at h
    by_cases h3 : (splitWs (strip line)).length < 3
    · rw [if_pos h3] at h
      exact ⟨.inr (.inr (.inl h3)), m, h⟩
    · rw [if_neg h3] at h
      obtain ⟨vs, hvs, h⟩ := bind_ok h
      split at h
      · rename_i l r cost
        obtain ⟨m1, hm1, h⟩ := bind_ok h
        obtain ⟨b, hb, h⟩ := bind_ok h
        obtain ⟨m2, hm2, hrest⟩ := bind_ok h
        obtain ⟨a', b', c', hw, e1, e2, e3⟩ := pyInts_three hvs
        have he : matrixEntry line = some (l, r, cost) := by
          unfold matrixEntry
          rw [if_neg (by intro hx; apply hc; rcases hx with hx | hx; · left; simp [hx]
                         · right; exact hx)]
          rw [hw]
          simp only [e1, e2, e3]
        exact ⟨.inr (.inr (.inr ⟨_, he, writeInt_short_iff.1 ⟨b, hb⟩⟩)), m2, hrest⟩
      · cases h

theorem matrixLines_lines {n : Nat} {lines : List PStr} : ∀ {m m' : Stream}, matrixLines n m lines = .ok m' →
    ∀ line ∈ lines, MatrixLineOk line := by
  induction lines with
  | nil => intro m m' _ line hl; cases hl
  | cons l ls ih =>
    intro m m' h line hl
    obtain ⟨h1, m1, h2⟩ := matrixLines_line h
    rcases List.mem_cons.1 hl with rfl | hl
    · exact h1
    · exact ih h2 line hl

theorem matrixEntry_some {line : PStr} {l r cost : Int} (h : matrixEntry line = some (l, r, cost)) :
    ¬ (strip line = [] ∨ (strip line).head? = some 35) ∧ ∃ a b c, splitWs (strip line) = [a, b, c] ∧ pyInts [a, b, c] = .ok [l, r, cost] := by
  unfold matrixEntry at h
  split at h
  · cases h
  · rename_i h0
    split at h
    · rename_i a b c hw
      split at h
      · rename_i x y z h1 h2 h3
        cases h
        refine ⟨h0, a, b, c, hw, ?_⟩
        simp only [pyInts, h1, h2, h3]
        rfl
      · cases h
    · cases h

theorem matrixLines_total {n : Nat} {lines : List PStr} : ∀ {m : Stream},
    (∀ e ∈ lines.filterMap matrixEntry, (0 ≤ e.1 ∧ e.1 < n) ∧ 0 ≤ e.2.1 ∧ e.2.1 < n) → (∀ line ∈ lines, MatrixLineOk line) →
    ∃ m', matrixLines n m lines = .ok m' := by
  induction lines with
  | nil => intro m _ _; exact ⟨m, rfl⟩
  | cons line lines ih =>
    intro m hr hl
    have hl1 := hl line (by simp)
    have hl2 : ∀ l ∈ lines, MatrixLineOk l := fun l h => hl l (by simp [h])
    have hr2 : ∀ e ∈ lines.filterMap matrixEntry, (0 ≤ e.1 ∧ e.1 < n) ∧ 0 ≤ e.2.1 ∧ e.2.1 < n := by
      intro e he
      apply hr
      obtain ⟨x, hx, hxe⟩ := List.mem_filterMap.1 he
      exact List.mem_filterMap.2 ⟨x, by simp [hx], hxe⟩
    unfold matrixLines
    by_cases hc : (strip line).isEmpty ∨ (strip line).head? = some 35
    · rw [if_pos hc]; exact ih hr2 hl2
    · rw [if_neg hc]
      by_cases h3 : (splitWs (strip line)).length < 3
      · rw [if_pos h3]; exact ih hr2 hl2
      · rw [if_neg h3]
        rcases hl1 with h | h | h | ⟨e, he, hs⟩
        · exact (hc (.inl (by simp [h]))).elim
        · exact (hc (.inr h)).elim
        · exact (h3 h).elim
        · obtain ⟨l, r, cost⟩ := e
          obtain ⟨_, a, b, c, hw, hp⟩ := matrixEntry_some he
          have hin := hr (l, r, cost) (List.mem_filterMap.2 ⟨line, by simp, he⟩)
          dsimp only at hin hs
          obtain ⟨bb, hbb⟩ := writeInt_short_iff.2 hs
          have hpos : 0 ≤ 2 * (l + (n : Int) * r) := by
            have : 0 ≤ (n : Int) * r := Int.mul_nonneg (by omega) hin.2.1
            omega
          rw [hw, hp]
          simp only [bind, Except.bind, Stream.seek]
          rw [if_neg (by omega)]
          simp only [hbb]
          rw [if_neg (by omega)]
          exact ih hr2 hl2

end Sudachi
