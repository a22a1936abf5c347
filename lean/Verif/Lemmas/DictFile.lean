/-
Lemmas: what the builder writes is what the reader reads (strings, arrays, word infos, parts of speech).
-/
import Verif.Model.Builder
import Verif.Lemmas.Bytes2
namespace Sudachi

/-- Inversion of a successful `do` step. -/
theorem bind_ok {α β : Type} {m : Res α} {f : α → Res β} {b : β} (h : m.bind f = .ok b) : ∃ a, m = .ok a ∧ f a = .ok b := by
  cases m with
  | error x => cases h
  | ok a => exact ⟨a, rfl, h⟩

theorem utf16Length_eq {s : PStr} (h : ∀ c ∈ s, encodable c = true) : utf16Length s = (s.flatMap utf16Units).length := by
  induction s with
  | nil => rfl
  | cons c cs ih =>
    have hc := encodable_iff.1 (h c (by simp))
    have := ih (fun x hx => h x (by simp [hx]))
    simp only [utf16Length, List.map_cons, List.sum_cons, List.flatMap_cons, List.length_append] at this ⊢
    rw [this]
    congr 1
    unfold utf16Units
    split <;> split <;> first | rfl | omega

theorem writeStringLength_ok {n : Nat} {w : Bytes} (h : writeStringLength n = .ok w) (hn : n ≤ 32767) :
    (n ≤ 127 ∧ w = [n]) ∨ (127 < n ∧ w = [n / 256 + 128, n % 256]) := by
  unfold writeStringLength at h
  split at h
  · rename_i h1
    obtain ⟨_, _, rfl⟩ := writeInt_byte h
    exact Or.inl ⟨h1, by simp⟩
  · rename_i h1
    right
    obtain ⟨a, ha, h⟩ := bind_ok h
    obtain ⟨b, hb, h⟩ := bind_ok h
    cases h
    obtain ⟨_, _, rfl⟩ := writeInt_byte ha
    obtain ⟨_, _, rfl⟩ := writeInt_byte hb
    refine ⟨by omega, ?_⟩
    rw [if_neg (by omega)]
    simp only [Int.toNat_natCast]
    rfl

theorem getStringLength_rt {n : Nat} {w b : Bytes} {i : Nat} (h : writeStringLength n = .ok w) (hn : n ≤ 32767) (hA : At b i w) :
    getStringLength b i = .ok (n, i + w.length) := by
  unfold getStringLength
  rcases writeStringLength_ok h hn with ⟨h1, rfl⟩ | ⟨h1, rfl⟩
  · rw [hA.readByte]
    simp only [bind, Except.bind]
    rw [if_pos (by omega)]
    rfl
  · rw [hA.readByte]
    simp only [bind, Except.bind]
    rw [if_neg (by omega), hA.cons.readByte]
    simp only [pure, Except.pure, List.length_cons, List.length_nil, Nat.add_assoc]
    congr 2
    omega

theorem writeString_ok {s : PStr} {w : Bytes} (h : writeString s = .ok w) :
    ∃ l b, writeStringLength (s.flatMap utf16Units).length = .ok l ∧ encodeUtf16 s = .ok b ∧ w = l ++ b ∧
      b.length = 2 * (s.flatMap utf16Units).length := by
  unfold writeString at h
  obtain ⟨l, hl, h⟩ := bind_ok h
  obtain ⟨b, hb, h⟩ := bind_ok h
  cases h
  have h2 := encodeUtf16_ok hb
  rw [utf16Length_eq h2.1] at hl
  exact ⟨l, b, hl, hb, rfl, by rw [h2.2, flatMap_le2_length]⟩

theorem getString_rt {s : PStr} {w b : Bytes} {i : Nat} (h : writeString s = .ok w) (hs : (s.flatMap utf16Units).length ≤ 32767)
    (hA : At b i w) : getString b i = .ok (s, i + w.length) := by
  obtain ⟨l, c, hl, hc, rfl, hcl⟩ := writeString_ok h
  unfold getString
  rw [getStringLength_rt hl hs hA.left]
  simp only [bind, Except.bind, hA.right.mRead' hcl.symm, decodeUtf16Le_encode hc, pure, Except.pure, List.length_append, hcl]
  congr 2
  omega

theorem writeInts_ok {l : List Int} {w : Bytes} (h : writeInts l = .ok w) :
    w.length = 4 * l.length ∧ unpackI32 l.length w = .ok l ∧ ∀ v ∈ l, -2147483648 ≤ v ∧ v ≤ 2147483647 := by
  induction l generalizing w with
  | nil => cases h; exact ⟨rfl, rfl, by simp⟩
  | cons v vs ih =>
    unfold writeInts at h
    obtain ⟨a, ha, h⟩ := bind_ok h
    obtain ⟨b, hb, h⟩ := bind_ok h
    cases h
    obtain ⟨h1, _, h3, h4, h5⟩ := writeInt_int ha
    obtain ⟨i1, i2, i3⟩ := ih hb
    refine ⟨by simp only [List.length_append, List.length_cons]; omega, ?_, ?_⟩
    · simp only [List.length_cons, unpackI32]
      rw [if_pos (by simp only [List.length_append]; omega)]
      rw [← h1, List.drop_left, List.take_left, i2, h3]
      rfl
    · intro x hx
      rcases List.mem_cons.1 hx with rfl | hx
      · exact ⟨h4, h5⟩
      · exact i3 x hx

theorem getIntArray_rt {l : List Int} {w b : Bytes} {i : Nat} (h : writeIntArray l = .ok w) (hA : At b i w) :
    getIntArray b i = .ok (l, i + w.length) := by
  unfold writeIntArray at h
  obtain ⟨n, hn, h⟩ := bind_ok h
  obtain ⟨c, hc, h⟩ := bind_ok h
  cases h
  obtain ⟨_, _, rfl⟩ := writeInt_byte hn
  obtain ⟨h1, h2, _⟩ := writeInts_ok hc
  simp only [Int.toNat_natCast] at hA ⊢
  unfold getIntArray
  rw [At.readByte (c := c) hA]
  simp only [bind, Except.bind]
  rw [(At.cons (c := c) hA).mRead' h1.symm]
  simp only [h2, pure, Except.pure, List.cons_append, List.nil_append, List.length_cons, h1]
  rw [show i + 1 + 4 * l.length = i + (4 * l.length + 1) by omega]

/-! ### Parts of speech -/

theorem getPosString_rt {s : PStr} {w b : Bytes} {i : Nat} (h : writeString s = .ok w) (hs : (s.flatMap utf16Units).length ≤ 127)
    (hb : NoBom s) (hA : At b i w) : getPosString b i = .ok (s, i + w.length) := by
  obtain ⟨l, c, hl, hc, rfl, hcl⟩ := writeString_ok h
  have h3 := writeStringLength_ok hl (Nat.le_trans hs (by decide))
  rcases h3 with h3 | h3
  · obtain ⟨h1, h2⟩ := h3
    subst h2
    unfold getPosString
    rw [At.readByte (c := c) hA]
    simp only [bind, Except.bind, (At.cons (c := c) hA).mRead' hcl.symm, decodeUtf16_encode hc hb, pure, Except.pure,
      List.cons_append, List.nil_append, List.length_cons, hcl]
    congr 2
    omega
  · have := h3.1
    omega

theorem getPosStrings_rt {ss : List PStr} {w b : Bytes} {i : Nat} (h : writeStrings ss = .ok w)
    (hs : ∀ s ∈ ss, (s.flatMap utf16Units).length ≤ 127 ∧ NoBom s) (hA : At b i w) :
    getPosStrings b ss.length i = .ok (ss, i + w.length) := by
  induction ss generalizing w i with
  | nil => cases h; rfl
  | cons s ss ih =>
    unfold writeStrings at h
    obtain ⟨a, ha, h⟩ := bind_ok h
    obtain ⟨c, hc, h⟩ := bind_ok h
    cases h
    have h1 := hs s (by simp)
    simp only [List.length_cons, getPosStrings]
    rw [getPosString_rt ha h1.1 h1.2 hA.left]
    simp only [bind, Except.bind]
    rw [ih hc (fun x hx => hs x (by simp [hx])) hA.right]
    simp only [pure, Except.pure, List.length_append, Nat.add_assoc]

theorem splitOn_no {sep : Nat} {s : PStr} (h : sep ∉ s) : splitOn sep s = [s] := by
  induction s with
  | nil => rfl
  | cons c cs ih =>
    have hc : c ≠ sep := fun e => h (by simp [e])
    rw [splitOn, if_neg hc, ih (fun hm => h (by simp [hm]))]

theorem splitOn_append {sep : Nat} {s : PStr} (h : sep ∉ s) (r : PStr) : splitOn sep (s ++ sep :: r) = s :: splitOn sep r := by
  induction s with
  | nil => simp [splitOn]
  | cons c cs ih =>
    have hc : c ≠ sep := fun e => h (by simp [e])
    rw [List.cons_append, splitOn, if_neg hc, ih (fun hm => h (by simp [hm]))]

theorem splitOn_joinOn {sep : Nat} : ∀ {ss : List PStr}, ss ≠ [] → (∀ s ∈ ss, sep ∉ s) → splitOn sep (joinOn sep ss) = ss
  | [], h, _ => absurd rfl h
  | [s], _, hs => splitOn_no (hs s (by simp))
  | s :: t :: ts, _, hs => by
    rw [joinOn, splitOn_append (hs s (by simp)), splitOn_joinOn (by simp) (fun x hx => hs x (by simp [hx]))]

theorem joinOn_splitOn (sep : Nat) : ∀ s : PStr, joinOn sep (splitOn sep s) = s
  | [] => rfl
  | c :: cs => by
    have ih := joinOn_splitOn sep cs
    rw [splitOn]
    split
    · rename_i h
      cases hh : splitOn sep cs with
      | nil => rw [hh] at ih; simp [joinOn] at ih; subst ih; simp [splitOn] at hh
      | cons a as => rw [hh] at ih; rw [joinOn, ih, h]; rfl
    · cases hh : splitOn sep cs with
      | nil => rw [hh] at ih; simp [joinOn] at ih; subst ih; rfl
      | cons a as =>
        rw [hh] at ih
        cases as with
        | nil => simp only [joinOn] at ih ⊢; rw [ih]
        | cons b bs => simp only [joinOn, List.cons_append] at ih ⊢; rw [ih]

/-- What a part of speech must be like to survive: six components, each short, without comma and byte-order mark. -/
structure PosOk (pos : List PStr) : Prop where
  six : pos.length = 6
  short : ∀ s ∈ pos, (s.flatMap utf16Units).length ≤ 127
  comma : ∀ s ∈ pos, 44 ∉ s
  bom : ∀ s ∈ pos, NoBom s

theorem getPosList_rt {table : List (List PStr)} {w b : Bytes} {i : Nat} (h : writePosList (table.map (joinOn 44)) = .ok w)
    (hs : ∀ p ∈ table, PosOk p) (hA : At b i w) : getPosList b table.length i = .ok (table, i + w.length) := by
  induction table generalizing w i with
  | nil => cases h; rfl
  | cons p ps ih =>
    simp only [List.map_cons] at h
    unfold writePosList at h
    obtain ⟨a, ha, h⟩ := bind_ok h
    obtain ⟨c, hc, h⟩ := bind_ok h
    cases h
    have h1 := hs p (by simp)
    have hp0 : p ≠ [] := fun e => by have := h1.six; simp [e] at this
    rw [splitOn_joinOn hp0 h1.comma] at ha
    have h2 := getPosStrings_rt ha (fun s hs' => ⟨h1.short s hs', h1.bom s hs'⟩) hA.left
    rw [h1.six] at h2
    simp only [List.length_cons, getPosList]
    rw [h2]
    simp only [bind, Except.bind]
    rw [ih hc (fun x hx => hs x (by simp [hx])) hA.right]
    simp only [pure, Except.pure, List.length_append, Nat.add_assoc]

end Sudachi
