/-
Lemmas on bytes: where a piece of bytes is in a file, and reading it there; streams.
-/
import Verif.Lemmas.Bytes
namespace Sudachi

/-- The bytes `c` are in `b` at position `i`. -/
def At (b : Bytes) (i : Nat) (c : Bytes) : Prop := ∃ pre post, b = pre ++ c ++ post ∧ pre.length = i

theorem At.le {b : Bytes} {i : Nat} {c : Bytes} (h : At b i c) : i + c.length ≤ b.length := by
  obtain ⟨pre, post, rfl, rfl⟩ := h
  simp only [List.length_append]; omega

theorem At.left {b : Bytes} {i : Nat} {c d : Bytes} (h : At b i (c ++ d)) : At b i c := by
  obtain ⟨pre, post, rfl, rfl⟩ := h
  exact ⟨pre, d ++ post, by simp only [List.append_assoc], rfl⟩

theorem At.right {b : Bytes} {i : Nat} {c d : Bytes} (h : At b i (c ++ d)) : At b (i + c.length) d := by
  obtain ⟨pre, post, rfl, rfl⟩ := h
  exact ⟨pre ++ c, post, by simp only [List.append_assoc], by simp only [List.length_append]⟩

theorem At.append {b : Bytes} {i : Nat} {c d : Bytes} (h : At b i c) (h' : At b (i + c.length) d) : At b i (c ++ d) := by
  obtain ⟨pre, post, rfl, rfl⟩ := h
  obtain ⟨pre', post', he, hl⟩ := h'
  refine ⟨pre, post', ?_, rfl⟩
  have h1 := congrArg (List.take (pre.length + c.length)) he
  rw [List.take_append_of_le_length (by simp), List.take_of_length_le (by simp), List.append_assoc, List.take_append_of_le_length (by omega),
    List.take_of_length_le (by omega)] at h1
  rw [he, ← h1]
  simp only [List.append_assoc]

theorem At.whole (b : Bytes) : At b 0 b := ⟨[], [], by simp, rfl⟩

theorem At.mid (pre c post : Bytes) : At (pre ++ c ++ post) pre.length c := ⟨pre, post, rfl, rfl⟩

theorem At.slice {b : Bytes} {i : Nat} {c : Bytes} (h : At b i c) : pySlice b i (i + c.length) = c := by
  obtain ⟨pre, post, rfl, rfl⟩ := h
  unfold pySlice
  rw [List.take_append_of_le_length (by simp), List.take_of_length_le (by simp), List.drop_left']
  rfl

theorem At.slice' {b : Bytes} {i j : Nat} {c : Bytes} (h : At b i c) (hj : j = i + c.length) : pySlice b i j = c := by
  rw [hj]; exact h.slice

theorem At.mRead {b : Bytes} {i : Nat} {c : Bytes} (h : At b i c) : mRead b i c.length = (c, i + c.length) := by
  unfold Sudachi.mRead
  rw [h.slice]
  have := h.le
  congr 1
  omega

theorem At.mRead' {b : Bytes} {i n : Nat} {c : Bytes} (h : At b i c) (hn : n = c.length) : Sudachi.mRead b i n = (c, i + n) := by
  subst hn; exact h.mRead

theorem At.get {b : Bytes} {i : Nat} {x : Nat} {c : Bytes} (h : At b i (x :: c)) : b[i]? = some x := by
  obtain ⟨pre, post, rfl, rfl⟩ := h
  simp

theorem At.readByte {b : Bytes} {i : Nat} {x : Nat} {c : Bytes} (h : At b i (x :: c)) : mReadByte b i = .ok (x, i + 1) := by
  unfold mReadByte
  rw [h.get]

theorem At.cons {b : Bytes} {i : Nat} {x : Nat} {c : Bytes} (h : At b i (x :: c)) : At b (i + 1) c := by
  have : At b i ([x] ++ c) := h
  exact this.right

theorem At.seek {b : Bytes} {i : Nat} {c : Bytes} (h : At b i c) : mSeek b i = .ok i := by
  unfold mSeek
  have := h.le
  rw [if_pos (by omega)]

theorem At.sub {b : Bytes} {i : Nat} {c : Bytes} (h : At b i c) {j : Nat} {d : Bytes} (h' : At c j d) : At b (i + j) d := by
  obtain ⟨pre, post, rfl, rfl⟩ := h
  obtain ⟨pre', post', rfl, rfl⟩ := h'
  exact ⟨pre ++ pre', post' ++ post, by simp only [List.append_assoc], by simp⟩

theorem At.extend {b : Bytes} {i : Nat} {c : Bytes} (h : At b i c) (r : Bytes) : At (b ++ r) i c := by
  obtain ⟨pre, post, rfl, rfl⟩ := h
  exact ⟨pre, post ++ r, by simp only [List.append_assoc], rfl⟩

theorem At.of_getElem {b c : Bytes} {i : Nat} (hl : i + c.length ≤ b.length) (h : ∀ j, j < c.length → b[i + j]? = c[j]?) : At b i c := by
  refine ⟨b.take i, b.drop (i + c.length), ?_, by simp; omega⟩
  apply List.ext_getElem?
  intro k
  by_cases h1 : k < i
  · rw [List.append_assoc, List.getElem?_append_left (by simp; omega), List.getElem?_take_of_lt h1]
  · by_cases h2 : k < i + c.length
    · rw [List.append_assoc, List.getElem?_append_right (by simp; omega), List.getElem?_append_left (by simp; omega)]
      have := h (k - i) (by omega)
      rw [show i + (k - i) = k by omega] at this
      rw [this]
      congr 1
      simp; omega
    · rw [List.getElem?_append_right (by simp; omega), List.getElem?_drop]
      congr 1
      simp; omega

theorem At.getElem? {b c : Bytes} {i : Nat} (h : At b i c) {j : Nat} (hj : j < c.length) : b[i + j]? = c[j]? := by
  obtain ⟨pre, post, rfl, rfl⟩ := h
  rw [List.append_assoc, List.getElem?_append_right (by omega), List.getElem?_append_left (by omega)]
  congr 1
  omega

/-! ### Streams -/

namespace Stream

/-- Writing at the end appends. -/
theorem write_end (s : Stream) (h : s.pos = s.data.length) (b : Bytes) : s.write b = ⟨s.data ++ b, s.pos + b.length⟩ := by
  unfold write
  split
  · rename_i hb
    have : b = [] := by simpa using hb
    subst this
    simp
  · rw [h]
    simp

theorem write_pos (s : Stream) (b : Bytes) : (s.write b).pos = s.pos + b.length := by
  unfold write
  split
  · rename_i hb
    have : b = [] := by simpa using hb
    subst this
    simp
  · rfl

theorem write_length (s : Stream) (b : Bytes) :
    (s.write b).data.length = if b = [] then s.data.length else max s.data.length (s.pos + b.length) := by
  unfold write
  split
  · rename_i hb
    have : b = [] := by simpa using hb
    simp [this]
  · rename_i hb
    have : b ≠ [] := by simpa using hb
    simp only [this, if_false, List.length_append, List.length_take, List.length_replicate, List.length_drop]
    omega

theorem write_get (s : Stream) (b : Bytes) (k : Nat) :
    (s.write b).data[k]? = if b = [] then s.data[k]? else
      if k < s.pos then (if k < s.data.length then s.data[k]? else some 0)
      else if k < s.pos + b.length then b[k - s.pos]? else s.data[k]? := by
  unfold write
  split
  · rename_i hb
    have : b = [] := by simpa using hb
    simp [this]
  · rename_i hb
    have : b ≠ [] := by simpa using hb
    simp only [this, if_false]
    have hl : ((s.data ++ List.replicate (s.pos - s.data.length) 0).take s.pos).length = s.pos := by simp; omega
    split
    · rename_i h1
      rw [List.append_assoc, List.getElem?_append_left (by omega), List.getElem?_take_of_lt h1]
      split
      · rename_i h2
        rw [List.getElem?_append_left h2]
      · rename_i h2
        rw [List.getElem?_append_right (by omega), List.getElem?_replicate]
        rw [if_pos (by omega)]
    · rename_i h1
      split
      · rename_i h2
        rw [List.append_assoc, List.getElem?_append_right (by omega), hl, List.getElem?_append_left (by omega)]
      · rename_i h2
        rw [List.getElem?_append_right (by simp [hl]; omega), List.getElem?_drop]
        congr 1
        simp [hl]; omega

/-- What is written is there. -/
theorem write_at (s : Stream) (b : Bytes) (h : s.pos ≤ s.data.length ∨ b ≠ []) : At (s.write b).data s.pos b := by
  by_cases hb : b = []
  · subst hb
    rcases h with h | h
    · refine ⟨s.data.take s.pos, s.data.drop s.pos, ?_, by simp; omega⟩
      simp [write]
    · exact absurd rfl h
  · apply At.of_getElem
    · rw [write_length, if_neg hb]; omega
    · intro j hj
      rw [write_get, if_neg hb, if_neg (by omega), if_pos (by omega)]
      congr 1
      omega

/-- What was there before and is not overwritten stays. -/
theorem write_keep {s : Stream} {b : Bytes} {i : Nat} {c : Bytes} (h : At s.data i c)
    (hd : i + c.length ≤ s.pos ∨ s.pos + b.length ≤ i) : At (s.write b).data i c := by
  have hle := h.le
  apply At.of_getElem
  · rw [write_length]; split <;> omega
  · intro j hj
    rw [write_get]
    split
    · exact h.getElem? hj
    · split
      · rw [if_pos (by omega)]; exact h.getElem? hj
      · rw [if_neg (by omega)]; exact h.getElem? hj

end Stream

end Sudachi
