/-
Lemmas on the header of a dictionary file.
-/
import Verif.Model.DictFile
import Verif.Lemmas.Bytes2
namespace Sudachi

/-- The text before its first NUL. -/
def beforeNul (s : PStr) : PStr := s.takeWhile (fun c => decide (c ≠ 0))

theorem descriptionLength_zero {b : Bytes} {i n : Nat} : ∀ {c : Bytes}, At b i (c ++ [0]) → 0 ∉ c → c.length < n →
    descriptionLength b i n = .ok c.length := by
  induction n generalizing i with
  | zero => intro c _ _ h; omega
  | succ n ih =>
    intro c h h0 hl
    unfold descriptionLength
    cases c with
    | nil => rw [At.get (c := []) h]; rfl
    | cons x c =>
      have hx : x ≠ 0 := fun e => h0 (by simp [e])
      rw [At.get (c := c ++ [0]) h]
      split
      · rename_i heq; cases heq
      · rename_i heq; cases heq; exact absurd rfl hx
      · simp only [List.length_cons] at hl ⊢
        rw [ih (At.cons (c := c ++ [0]) h) (fun hm => h0 (by simp [hm])) (by omega)]
        rfl

theorem descriptionLength_full {b : Bytes} {i n : Nat} : ∀ {c : Bytes}, At b i c → 0 ∉ c → c.length = n →
    descriptionLength b i n = .ok c.length := by
  induction n generalizing i with
  | zero => intro c _ _ h; rw [h]; rfl
  | succ n ih =>
    intro c h h0 hl
    unfold descriptionLength
    cases c with
    | nil => simp at hl
    | cons x c =>
      have hx : x ≠ 0 := fun e => h0 (by simp [e])
      rw [h.get]
      split
      · rename_i heq; cases heq
      · rename_i heq; cases heq; exact absurd rfl hx
      · simp only [List.length_cons] at hl ⊢
        rw [ih h.cons (fun hm => h0 (by simp [hm])) (by omega)]
        rfl

theorem flatMap_utf8_zero {s : PStr} (h : 0 ∈ s.flatMap utf8Cp) : 0 ∈ s := by
  obtain ⟨c, hc, h0⟩ := List.mem_flatMap.1 h
  rw [← utf8Cp_zero h0]; exact hc

theorem beforeNul_no (s : PStr) : 0 ∉ beforeNul s := by
  intro h
  have := List.all_eq_true.1 (List.all_takeWhile (l := s) (p := fun c => decide (c ≠ 0))) 0 h
  simp at this

theorem beforeNul_split (s : PStr) : s = beforeNul s ∨ ∃ r, s = beforeNul s ++ 0 :: r := by
  induction s with
  | nil => exact Or.inl rfl
  | cons c cs ih =>
    by_cases hc : c = 0
    · subst hc
      exact Or.inr ⟨cs, rfl⟩
    · have e : beforeNul (c :: cs) = c :: beforeNul cs := by simp [beforeNul, hc]
      rw [e]
      rcases ih with ih | ⟨r, ih⟩
      · left; rw [← ih]
      · right; exact ⟨r, by rw [List.cons_append, ← ih]⟩

theorem beforeNul_eq {s : PStr} (h : 0 ∉ s) : beforeNul s = s := by
  rcases beforeNul_split s with h1 | ⟨r, h1⟩
  · exact h1.symm
  · rw [h1] at h; simp at h

/-- The bytes of a header. -/
theorem header_bytes {h : Header} {b : Bytes} (hb : h.toBytes = .ok b) :
    ∃ v t, toBytes 8 false h.version = .ok v ∧ toBytes 8 true h.createTime = .ok t ∧ (∀ c ∈ h.description, encodable c = true) ∧
      (h.description.flatMap utf8Cp).length ≤ 256 ∧
      b = v ++ t ++ h.description.flatMap utf8Cp ++ List.replicate (256 - (h.description.flatMap utf8Cp).length) 0 := by
  unfold Header.toBytes at hb
  cases hv : writeInt h.version .long false with
  | error x => rw [hv] at hb; cases hb
  | ok v =>
    cases ht : writeInt h.createTime .long with
    | error x => rw [hv, ht] at hb; cases hb
    | ok t =>
      cases hd : encodeUtf8 h.description with
      | error x => rw [hv, ht, hd] at hb; cases hb
      | ok d =>
        rw [hv, ht, hd] at hb
        simp only [bind, Except.bind] at hb
        obtain ⟨he, hdd⟩ := encodeUtf8_ok hd
        have hvl : v.length = 8 := toBytes_length (show Sudachi.toBytes 8 false _ = _ from hv)
        have htl : t.length = 8 := toBytes_length (show Sudachi.toBytes 8 true _ = _ from ht)
        split at hb
        · cases hb
        · rename_i hl
          simp only [DESCRIPTION_SIZE] at hl hb
          refine ⟨v, t, hv, ht, he, by rw [← hdd]; omega, ?_⟩
          rw [← hdd]
          injection hb with hb
          subst hb
          have hp1 : ((⟨List.replicate (16 + 256) 0, 0⟩ : Stream).write v).pos = 8 := by rw [Stream.write_pos, hvl]
          have hp2 : (((⟨List.replicate (16 + 256) 0, 0⟩ : Stream).write v).write t).pos = 16 := by rw [Stream.write_pos, hp1, htl]
          have hv0 : v ≠ [] := fun e => by simp [e] at hvl
          have ht0 : t ≠ [] := fun e => by simp [e] at htl
          apply List.ext_getElem?
          intro k
          rw [Stream.write_get, hp2, Stream.write_get, hp1, Stream.write_get, Stream.write_length, Stream.write_length, hp1]
          simp only [hv0, ht0, if_false, Nat.not_lt_zero, Nat.zero_add, hvl, htl, List.length_replicate, Nat.sub_zero]
          have key : (v ++ t ++ d ++ List.replicate (256 - d.length) 0)[k]? =
              if k < 8 then v[k]? else if k < 16 then t[k - 8]? else if k < 16 + d.length then d[k - 16]?
              else if k < 272 then some 0 else none := by
            split
            · rw [List.append_assoc, List.append_assoc, List.getElem?_append_left (by omega)]
            · split
              · rw [List.append_assoc, List.append_assoc, List.getElem?_append_right (by omega), List.getElem?_append_left (by omega), hvl]
              · split
                · rw [List.append_assoc, List.getElem?_append_right (by simp; omega), List.getElem?_append_left (by simp; omega)]
                  congr 1; simp; omega
                · rw [List.getElem?_append_right (by simp; omega), List.getElem?_replicate]
                  split
                  · rename_i h5; simp at h5; rw [if_pos (by omega)]
                  · rename_i h5; simp at h5; rw [if_neg (by omega)]
          rw [key]
          have hrep : (List.replicate (16 + 256) (0 : Nat))[k]? = if k < 272 then some 0 else none := List.getElem?_replicate
          rw [hrep]
          by_cases hd0 : d = []
          · simp only [hd0, if_true, List.length_nil]
            repeat' split
            all_goals first | rfl | (exfalso; omega)
          · simp only [hd0, if_false]
            repeat' split
            all_goals first | rfl | (exfalso; omega)

theorem header_length {h : Header} {b : Bytes} (hb : h.toBytes = .ok b) : b.length = 272 := by
  obtain ⟨v, t, hv, ht, _, hl, rfl⟩ := header_bytes hb
  simp only [List.length_append, toBytes_length hv, toBytes_length ht, List.length_replicate]
  omega

theorem fromLe_signed {n : Nat} {v : Int} {b : Bytes} (h : toBytes n true v = .ok b) : (fromLe b : Int) = v % 2 ^ (8 * n) := by
  unfold toBytes at h
  simp only [if_true] at h
  split at h
  · cases h
    rw [fromLe_leBytes, pow256]
    have h3 : ((2 ^ (8 * n) : Nat) : Int) = 2 ^ (8 * n) := by push_cast; rfl
    rw [← h3]
    have hM : 0 < 2 ^ (8 * n) := Nat.two_pow_pos _
    generalize 2 ^ (8 * n) = M at *
    have := Int.emod_lt_of_pos v (show (0 : Int) < M by omega)
    have := Int.emod_nonneg v (show (M : Int) ≠ 0 by omega)
    rw [Nat.mod_eq_of_lt (by omega)]
    omega
  · cases h

theorem header_read {h : Header} {b : Bytes} (hb : h.toBytes = .ok b) (rest : Bytes) :
    Header.fromBytes (b ++ rest) 0 = .ok ⟨h.version, h.createTime % 2 ^ 64, beforeNul h.description⟩ := by
  have hbl := header_length hb
  obtain ⟨v, t, hv, ht, he, hl, rfl⟩ := header_bytes hb
  have hvl := toBytes_length hv
  have htl := toBytes_length ht
  generalize hdd : h.description.flatMap utf8Cp = d at *
  generalize hpad : List.replicate (256 - d.length) 0 = pad at *
  have hw : At (v ++ t ++ d ++ pad ++ rest) 0 (v ++ t ++ d ++ pad) := (At.whole _).extend rest
  have hA := hw.left.left
  have hAd := hw.left.right
  have hAdp : At (v ++ t ++ d ++ pad ++ rest) 16 (d ++ pad) := by
    have : At (v ++ t ++ d ++ pad ++ rest) 0 ((v ++ t) ++ (d ++ pad)) := by
      have h3 := hw
      rw [List.append_assoc (v ++ t) d pad] at h3
      rw [List.append_assoc (v ++ t) d pad]
      exact h3
    have := this.right
    simp only [List.length_append, hvl, htl] at this
    exact this
  have h1 := hA.left.slice' (j := 8) (by omega)
  have h2 : pySlice (v ++ t ++ d ++ pad ++ rest) 8 16 = t := by
    have := hA.right
    rw [hvl] at this
    exact this.slice' (by omega)
  generalize hB : v ++ t ++ d ++ pad ++ rest = B at *
  have hBl : 272 ≤ B.length := by rw [← hB, List.length_append, hbl]; omega
  unfold Header.fromBytes
  rw [if_neg (by omega)]
  simp only [Nat.zero_add, h1, h2]
  -- the description
  have key : ∃ c, descriptionLength B 16 DESCRIPTION_SIZE = .ok c.length ∧ c = (beforeNul h.description).flatMap utf8Cp ∧ At B 16 c := by
    have hno : 0 ∉ (beforeNul h.description).flatMap utf8Cp := fun hm => beforeNul_no _ (flatMap_utf8_zero hm)
    refine ⟨_, ?_, rfl, ?_⟩
    · rcases beforeNul_split h.description with h3 | ⟨r, h3⟩
      · rw [← h3, hdd] at hno ⊢
        by_cases hfull : d.length = 256
        · exact descriptionLength_full hAdp.left hno hfull
        · refine descriptionLength_zero ?_ hno (by simp only [DESCRIPTION_SIZE]; omega)
          have : pad = [0] ++ List.replicate (255 - d.length) 0 := by
            rw [← hpad, show 256 - d.length = (255 - d.length) + 1 by omega, List.replicate_succ]; rfl
          rw [this, ← List.append_assoc] at hAdp
          exact hAdp.left
      · have e : d = (beforeNul h.description).flatMap utf8Cp ++ [0] ++ r.flatMap utf8Cp := by
          rw [← hdd]
          conv => lhs; rw [h3]
          rw [List.flatMap_append, List.flatMap_cons, List.append_assoc]
          rfl
        have hAd' := hAdp.left
        rw [e] at hAd'
        refine descriptionLength_zero hAd'.left hno ?_
        have := congrArg List.length e
        simp only [List.length_append, List.length_cons] at this
        simp only [DESCRIPTION_SIZE]; omega
    · rcases beforeNul_split h.description with h3 | ⟨r, h3⟩
      · rw [← h3, hdd]; exact hAdp.left
      · have e : d = (beforeNul h.description).flatMap utf8Cp ++ ([0] ++ r.flatMap utf8Cp) := by
          rw [← hdd]
          conv => lhs; rw [h3]
          rw [List.flatMap_append, List.flatMap_cons]
          rfl
        have hAd' := hAdp.left
        rw [e] at hAd'
        exact hAd'.left
  obtain ⟨c, hk1, hk2, hk3⟩ := key
  rw [hk1]
  simp only [bind, Except.bind, hk3.slice]
  rw [hk2, decodeUtf8_flatMap]
  · show Except.ok _ = _
    rw [fromLe_toBytes hv, fromLe_signed ht]
  · intro x hx
    exact he x ((List.takeWhile_sublist _).subset hx)

end Sudachi
