import Verif.Spec.Text
namespace Sudachi

/-! ### `replace` -/

theorem replaceLoop_append (b e v : Nat) (l1 l2 : List Nat) : ∀ m : List Nat,
    replaceLoop b e v m (l1 ++ l2) = replaceLoop b e v (replaceLoop b e v m l1) l2 := by
  induction l1 with
  | nil => intro m; rfl
  | cons i is ih => intro m; simp only [List.cons_append, replaceLoop]; rw [ih]

theorem replaceLoop_set (b e v : Nat) : ∀ (k i : Nat) (A mid D : List Nat), b + i + k ≤ e → A.length = b + i →
    mid.length = k →
    replaceLoop b e v (A ++ mid ++ D) (List.range' i k) = A ++ List.replicate k v ++ D := by
  intro k
  induction k with
  | zero => intro i A mid D _ _ h; simp [replaceLoop, List.length_eq_zero_iff.mp h]
  | succ k ih =>
    intro i A mid D h1 h2 h3
    obtain ⟨x, mid', rfl⟩ : ∃ x mid', mid = x :: mid' := by
      cases mid with
      | nil => simp at h3
      | cons x m => exact ⟨x, m, rfl⟩
    simp only [List.range'_succ, replaceLoop]
    rw [if_pos (by omega)]
    have : (A ++ x :: mid' ++ D).set (b + i) v = (A ++ [v]) ++ mid' ++ D := by
      rw [← h2]; simp
    rw [this, ih (i + 1) (A ++ [v]) mid' D (by omega) (by simp; omega) (by simpa using h3)]
    simp [List.replicate_succ]

theorem replaceLoop_insert (b e v : Nat) : ∀ (k i : Nat) (A D : List Nat), e ≤ b + i → A.length = b + i →
    replaceLoop b e v (A ++ D) (List.range' i k) = A ++ List.replicate k v ++ D := by
  intro k
  induction k with
  | zero => intro i A D _ _; simp [replaceLoop]
  | succ k ih =>
    intro i A D h1 h2
    simp only [List.range'_succ, replaceLoop]
    rw [if_neg (by omega)]
    have : (A ++ D).take (b + i) ++ v :: (A ++ D).drop (b + i) = (A ++ [v]) ++ D := by
      rw [← h2]; simp
    rw [this, ih (i + 1) (A ++ [v]) D (by omega) (by simp; omega)]
    simp [List.replicate_succ]

theorem split_at3 (m : List Nat) (b e : Nat) (hbe : b ≤ e) (he : e ≤ m.length) :
    ∃ A M D, m = A ++ M ++ D ∧ A.length = b ∧ M.length = e - b ∧ A = m.take b ∧ D = m.drop e := by
  refine ⟨m.take b, (m.drop b).take (e - b), m.drop e, ?_, ?_, ?_, rfl, rfl⟩
  · have h1 : m.drop e = (m.drop b).drop (e - b) := by rw [List.drop_drop]; congr 1; omega
    rw [h1, List.append_assoc, List.take_append_drop, List.take_append_drop]
  · simp; omega
  · simp; omega

/-- Closed form of the edit of the position map for `b < e < m.length` and `L ≥ 1`. -/
theorem replace_map (m : List Nat) (b e L mb me : Nat) (hbe : b < e) (he : e < m.length) (hL : 1 ≤ L) :
    replaceLoop b e me ((if e - b > L then m.take (b + L) ++ m.drop e else m).set b mb) (List.range' 1 (L - 1))
      = m.take b ++ mb :: List.replicate (L - 1) me ++ m.drop e := by
  obtain ⟨A, M, D, hm, hA, hM, hA', hD'⟩ := split_at3 m b e (by omega) (by omega)
  rw [← hA', ← hD']
  by_cases hc : e - b > L
  · rw [if_pos hc]
    have h1 : m.take (b + L) = A ++ M.take L := by
      rw [hm, List.append_assoc, List.take_append, List.take_of_length_le (by omega), List.take_append]
      have : L - M.length = 0 := by omega
      have h2 : b + L - A.length = L := by omega
      simp [h2, this]
    rw [h1]
    obtain ⟨x, M', hM'⟩ : ∃ x M', M.take L = x :: M' := by
      cases h : M.take L with
      | nil => have := congrArg List.length h; rw [List.length_take, List.length_nil] at this; omega
      | cons x M' => exact ⟨x, M', rfl⟩
    have hl : M'.length = L - 1 := by
      have := congrArg List.length hM'; simp at this; omega
    rw [hM']
    have : (A ++ x :: M' ++ D).set b mb = (A ++ [mb]) ++ M' ++ D := by rw [← hA]; simp
    rw [this, replaceLoop_set b e me (L - 1) 1 (A ++ [mb]) M' D (by omega) (by simp; omega) hl]
    simp
  · rw [if_neg hc]
    obtain ⟨x, M', hM'⟩ : ∃ x M', M = x :: M' := by
      cases h : M with
      | nil => rw [h] at hM; simp at hM; omega
      | cons x M' => exact ⟨x, M', rfl⟩
    have hl : M'.length = e - b - 1 := by
      have := congrArg List.length hM'; simp at this; omega
    have : m.set b mb = (A ++ [mb]) ++ M' ++ D := by rw [hm, hM', ← hA]; simp
    rw [this]
    have hr : List.range' 1 (L - 1) = List.range' 1 (e - b - 1) ++ List.range' (e - b) (L - (e - b)) := by
      have h3 : L - 1 = (e - b - 1) + (L - (e - b)) := by omega
      rw [h3, ← List.range'_append]
      congr 2 <;> omega
    rw [hr, replaceLoop_append,
      replaceLoop_set b e me (e - b - 1) 1 (A ++ [mb]) M' D (by omega) (by simp; omega) hl,
      replaceLoop_insert b e me (L - (e - b)) (e - b) _ D (by omega) (by simp; omega)]
    have h4 : L - 1 = (e - b - 1) + (L - (e - b)) := by omega
    rw [h4, ← List.replicate_append_replicate]
    simp

/-- The whole of `replace` for `b < e ≤ n` and a non-empty string. -/
theorem replace_eq (bd : Builder) (b e : Nat) (s : PStr) (hlen : bd.m2o.length = bd.modified.length + 1)
    (hbe : b < e) (he : e ≤ bd.modified.length) (hs : s ≠ []) :
    bd.replace b e s = .ok { bd with
      modified := bd.modified.take b ++ s ++ bd.modified.drop e
      m2o := bd.m2o.take b ++ bd.m2o[b]'(by omega) :: List.replicate (s.length - 1) (bd.m2o[e]'(by omega))
        ++ bd.m2o.drop e } := by
  have hL : 1 ≤ s.length := by cases s <;> simp_all
  unfold Builder.replace Builder.replaceM
  rw [if_neg (by omega), if_neg (by omega), if_neg (by omega), if_neg (by omega)]
  simp only [Int.toNat_natCast, Nat.min_eq_left he]
  rw [List.getElem?_eq_getElem (show b < bd.m2o.length by omega),
    List.getElem?_eq_getElem (show e < bd.m2o.length by omega)]
  simp only
  rw [if_pos]
  · rw [replace_map bd.m2o b e s.length _ _ hbe (by omega) hL]
  · split
    · simp; omega
    · omega

theorem replace_clip (bd : Builder) (b e : Int) (s : PStr) (h : (bd.modified.length : Int) ≤ e)
    (hb : b < bd.modified.length) :
    bd.replace b e s = bd.replace b bd.modified.length s := by
  unfold Builder.replace Builder.replaceM
  by_cases h0 : b < 0
  · simp [h0]
  · rw [if_neg h0, if_neg h0, if_neg (by omega), if_neg (by omega), if_neg (by omega), if_neg (by omega),
      if_neg (by omega), if_neg (by omega)]
    have : min e.toNat bd.modified.length = bd.modified.length := by omega
    simp [this]

theorem validMap_iff_pairwise {m : List Nat} :
    (∀ i j (hi : i < m.length) (hj : j < m.length), i ≤ j → m[i] ≤ m[j]) ↔ m.Pairwise (· ≤ ·) := by
  rw [List.pairwise_iff_getElem]
  constructor
  · intro h i j hi hj hij; exact h i j hi hj (by omega)
  · intro h i j hi hj hij
    rcases Nat.lt_or_ge i j with h1 | h1
    · exact h i j hi hj h1
    · have : i = j := by omega
      subst this; exact Nat.le_refl _

theorem ValidMap.replaced {m : List Nat} {n orig b e L : Nat} (h : ValidMap m n orig) (hbe : b < e) (he : e ≤ n)
    (hL : 1 ≤ L) :
    ValidMap (m.take b ++ m[b]'(by have := h.len; omega) :: List.replicate (L - 1) (m[e]'(by have := h.len; omega))
      ++ m.drop e) (b + L + (n - e)) orig := by
  have hlen := h.len
  have hmono := h.mono
  refine ⟨by simp; omega, ?_, ?_, ?_⟩
  · rw [validMap_iff_pairwise]
    have hp := validMap_iff_pairwise.mp hmono
    rw [List.append_assoc, List.pairwise_append]
    refine ⟨hp.sublist (List.take_sublist _ _), ?_, ?_⟩
    · rw [List.cons_append, List.pairwise_cons]
      refine ⟨?_, ?_⟩
      · intro x hx
        rw [List.mem_append] at hx
        rcases hx with hx | hx
        · rw [(List.mem_replicate.mp hx).2]; exact hmono _ _ _ _ (by omega)
        · obtain ⟨i, hi, rfl⟩ := List.getElem_of_mem hx
          rw [List.getElem_drop]; exact hmono _ _ _ _ (by omega)
      · rw [List.pairwise_append]
        refine ⟨?_, hp.sublist (List.drop_sublist _ _), ?_⟩
        · simp [List.pairwise_replicate]
        · intro x hx y hy
          rw [(List.mem_replicate.mp hx).2]
          obtain ⟨i, hi, rfl⟩ := List.getElem_of_mem hy
          rw [List.getElem_drop]; exact hmono _ _ _ _ (by omega)
    · intro x hx y hy
      obtain ⟨i, hi, rfl⟩ := List.getElem_of_mem hx
      have hi' : i < b := by simp at hi; omega
      rw [List.getElem_take]
      rw [List.cons_append, List.mem_cons, List.mem_append] at hy
      rcases hy with rfl | hy | hy
      · exact hmono _ _ _ _ (by omega)
      · rw [(List.mem_replicate.mp hy).2]; exact hmono _ _ _ _ (by omega)
      · obtain ⟨j, hj, rfl⟩ := List.getElem_of_mem hy
        rw [List.getElem_drop]; exact hmono _ _ _ _ (by omega)
  · have h0 := h.first
    rw [List.getElem?_eq_getElem (by omega)] at h0
    cases b with
    | zero => simpa using h0
    | succ b =>
      rw [List.append_assoc, List.getElem?_append_left (by simp; omega), List.getElem?_take, if_pos (by omega),
        List.getElem?_eq_getElem (by omega), h0]
  · have hl := h.last
    rw [List.getElem?_append_right (by simp; omega), List.getElem?_drop, ← hl]
    congr 1
    simp; omega

theorem Builder.Valid.init (text : PStr) : (Builder.init text).Valid := by
  refine ⟨by simp [Builder.init], ?_, by simp [Builder.init], by simp [Builder.init]⟩
  intro i j hi hj hij
  simpa [Builder.init] using hij

theorem Builder.Valid.replace {bd : Builder} (h : bd.Valid) {b e : Nat} {s : PStr} (hbe : b < e)
    (hb : b < bd.modified.length) (hs : s ≠ []) :
    ∃ bd', bd.replace b e s = .ok bd' ∧ bd'.Valid ∧ bd'.original = bd.original ∧
      bd'.modified = bd.modified.take b ++ s ++ bd.modified.drop e := by
  have hL : 1 ≤ s.length := by cases s <;> simp_all
  have key : ∀ e : Nat, b < e → e ≤ bd.modified.length → ∃ bd', bd.replace b e s = .ok bd' ∧ bd'.Valid ∧
      bd'.original = bd.original ∧ bd'.modified = bd.modified.take b ++ s ++ bd.modified.drop e := by
    intro e hbe he
    refine ⟨_, replace_eq bd b e s h.len hbe he hs, ?_, rfl, rfl⟩
    have := ValidMap.replaced h hbe he hL
    show ValidMap _ _ _
    have e1 : (bd.modified.take b ++ s ++ bd.modified.drop e).length
        = b + s.length + (bd.modified.length - e) := by simp; omega
    simp only [e1]
    exact this
  by_cases he : e ≤ bd.modified.length
  · exact key e hbe he
  · have hc := replace_clip bd b e s (by omega) (by omega)
    rw [hc]
    obtain ⟨bd', h1, h2, h3, h4⟩ := key bd.modified.length hb (Nat.le_refl _)
    refine ⟨bd', h1, h2, h3, ?_⟩
    rw [h4, List.drop_of_length_le (by omega : bd.modified.length ≤ e)]
    simp

/-! ### `build` -/

/-- Every value of `vs` repeated as often as `ws` says. -/
def expand {α : Type} : List Nat → List α → List α
  | w :: ws, v :: vs => List.replicate w v ++ expand ws vs
  | _, _ => []

theorem expand_length {α : Type} (ws : List Nat) : ∀ (vs : List α), ws.length = vs.length →
    (expand ws vs).length = ws.sum := by
  induction ws with
  | nil => intro vs _; simp [expand]
  | cons w ws ih =>
    intro vs h
    cases vs with
    | nil => simp at h
    | cons v vs => simp [expand, ih vs (by simpa using h)]

theorem expand_getElem? {α : Type} (ws : List Nat) : ∀ (vs : List α), ws.length = vs.length →
    ∀ (k j : Nat) (hk : k < ws.length), j < ws[k] → (expand ws vs)[(ws.take k).sum + j]? = vs[k]? := by
  induction ws with
  | nil => intro vs _ k j hk; simp at hk
  | cons w ws ih =>
    intro vs h k j hk hj
    cases vs with
    | nil => simp at h
    | cons v vs =>
      cases k with
      | zero =>
        simp at hj
        simp [expand, List.getElem?_append, hj]
      | succ k =>
        simp only [expand, List.take_succ_cons, List.sum_cons, List.getElem?_cons_succ]
        rw [List.getElem?_append_right (by simp; omega)]
        rw [← ih vs (by simpa using h) k j (by simpa using hk) (by simpa using hj)]
        congr 1
        simp; omega

/-- Every position below the total weight lies in exactly one block. -/
theorem exists_block (ws : List Nat) : ∀ p, p < ws.sum → ∃ k j, ∃ hk : k < ws.length, j < ws[k] ∧
    p = (ws.take k).sum + j := by
  induction ws with
  | nil => intro p h; simp at h
  | cons w ws ih =>
    intro p h
    by_cases hp : p < w
    · exact ⟨0, p, by simp, by simpa using hp, by simp⟩
    · obtain ⟨k, j, hk, hj, he⟩ := ih (p - w) (by simp at h; omega)
      refine ⟨k + 1, j, by simpa using hk, by simpa using hj, ?_⟩
      simp; omega

theorem expand_pairwise (ws : List Nat) : ∀ (vs : List Nat), vs.Pairwise (· ≤ ·) →
    (expand ws vs).Pairwise (· ≤ ·) ∧ ∀ x ∈ expand ws vs, x ∈ vs := by
  induction ws with
  | nil => intro vs _; simp [expand]
  | cons w ws ih =>
    intro vs h
    cases vs with
    | nil => simp [expand]
    | cons v vs =>
      obtain ⟨h1, h2⟩ := ih vs (List.pairwise_cons.mp h).2
      refine ⟨?_, ?_⟩
      · rw [expand, List.pairwise_append]
        refine ⟨by simp [List.pairwise_replicate], h1, ?_⟩
        intro x hx y hy
        rw [(List.mem_replicate.mp hx).2]
        exact (List.pairwise_cons.mp h).1 y (h2 y hy)
      · intro x hx
        rw [expand, List.mem_append] at hx
        rcases hx with hx | hx
        · rw [(List.mem_replicate.mp hx).2]; simp
        · exact List.mem_cons_of_mem _ (h2 x hx)

theorem utf8Cp_length {c : Nat} (h : encodable c = true) : (utf8Cp c).length = utf8ByteLength c := by
  unfold utf8Cp utf8ByteLength
  simp only [encodable, Bool.and_eq_true, decide_eq_true_eq] at h
  split
  · rfl
  · split
    · rfl
    · split
      · rfl
      · simp [h.1]

theorem utf8ByteLength_pos {c : Nat} (h : encodable c = true) : 0 < utf8ByteLength c := by
  rw [← utf8Cp_length h]
  unfold utf8Cp
  split
  · simp
  · split
    · simp
    · split <;> simp

/-- The widths of the characters. -/
def widths (s : PStr) : List Nat := s.map utf8ByteLength

@[simp] theorem widths_length (s : PStr) : (widths s).length = s.length := by simp [widths]

theorem flatMap_utf8_length {s : PStr} (h : s.all encodable = true) :
    (s.flatMap utf8Cp).length = (widths s).sum := by
  induction s with
  | nil => rfl
  | cons c s ih =>
    simp only [List.all_cons, Bool.and_eq_true] at h
    simp [widths, utf8Cp_length h.1] at ih ⊢
    rw [← ih (by simpa using h.2)]

theorem bytePos_eq {s : PStr} (h : s.all encodable = true) (k : Nat) :
    bytePos s k = ((widths s).take k).sum := by
  unfold bytePos
  rw [flatMap_utf8_length]
  · simp [widths, List.map_take]
  · rw [List.all_eq_true] at h ⊢
    intro x hx; exact h x (List.mem_of_mem_take hx)

theorem fillByteIndexes_eq (s : PStr) : ∀ i, fillByteIndexes s i = expand (widths s) (List.range' i s.length) := by
  induction s with
  | nil => intro i; rfl
  | cons c s ih => intro i; simp [fillByteIndexes, widths, expand, List.range'_succ, ih]

theorem fillOffsets_eq (m : List Nat) (s : PStr) : ∀ i, i + s.length ≤ m.length →
    fillOffsets m s i = .ok (expand (widths s) ((m.drop i).take s.length)) := by
  induction s with
  | nil => intro i _; rfl
  | cons c s ih =>
    intro i h
    simp only [List.length_cons] at h
    have hi : i < m.length := by omega
    rw [fillOffsets, ih (i + 1) (by omega), pyGet, List.getElem?_eq_getElem hi]
    rw [List.drop_eq_getElem_cons hi]
    rfl

/-- What `build` returns for a builder with a long enough map. -/
theorem build_eq {bd : Builder} {catOf : Nat → CatSet} {t : InputText} (hlen : bd.m2o.length = bd.modified.length + 1)
    (h : bd.build catOf = .ok t) :
    bd.modified.all encodable = true ∧ emptyCatTypeError (bd.modified.map catOf) = false ∧ t = {
      original := bd.original
      modified := bd.modified
      bytes := bd.modified.flatMap utf8Cp
      offsets := expand (widths bd.modified) (bd.m2o.take bd.modified.length) ++ [bd.m2o[bd.modified.length]'(by omega)]
      byteIndexes := expand (widths bd.modified) (List.range bd.modified.length) ++ [bd.modified.length]
      charCats := bd.modified.map catOf
      conts := charCategoryContinuities bd.modified (bd.modified.map catOf)
      canBowList := buildCanBowList (bd.modified.map catOf) } := by
  unfold Builder.build encodeUtf8 at h
  by_cases he : bd.modified.all encodable = true
  · rw [if_pos he, fillOffsets_eq _ _ 0 (by omega)] at h
    have hl : bd.m2o.getLast? = some (bd.m2o[bd.modified.length]'(by omega)) := by
      have h1 : bd.m2o.length - 1 = bd.modified.length := by omega
      simp only [List.getLast?_eq_getElem?, h1]
      exact List.getElem?_eq_getElem _
    rw [hl] at h
    by_cases ht : emptyCatTypeError (bd.modified.map catOf) = true
    · simp [ht, bind, Except.bind] at h
    · refine ⟨he, by simpa using ht, ?_⟩
      simp only [bind, Except.bind, ht, pure, Except.pure] at h
      simp at h
      rw [← h]
      simp [fillByteIndexes_eq, List.range_eq_range']
  · rw [if_neg he] at h
    simp [bind, Except.bind] at h

end Sudachi
