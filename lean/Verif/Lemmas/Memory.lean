import Verif.Lemmas.Tokenizer4
import Verif.Spec.Memory
namespace Sudachi

theorem simulates_frame {conn : Conn} (n s c l : Nat) :
    Simulates conn n (fun _ => True) (fun L L' => L = L' ∧ L.size = s ∧ L.capacity = c ∧ L.endLists.length = l) := by
  constructor
  · rintro L _ d ⟨rfl, h1, h2, h3⟩ _
    obtain ⟨f1, f2, _, f4⟩ := insert_frame (conn := conn) (L := L) (d := d) (L' := (L.insert conn d).1) (r := (L.insert conn d).2) rfl
    exact ⟨rfl, rfl, f1.trans h1, f2.trans h2, f4.trans h3⟩
  · rintro L _ i ⟨rfl, _⟩ _; rfl

/-- The lists after `resize`. -/
theorem resize_lists (L : Lattice) (n : Nat) : (L.resize n).size = n ∧ (L.resize n).capacity = max L.capacity n ∧
    (L.resize n).endLists.length = L.endLists.length + (if L.capacity < n then n - L.size else 0) := by
  unfold Lattice.resize Lattice.expand
  dsimp only
  by_cases h : L.capacity < n
  · rw [if_pos h, if_pos h]
    refine ⟨rfl, by dsimp only; omega, by simp⟩
  · rw [if_neg h, if_neg h]
    refine ⟨rfl, ?_, by simp⟩
    show L.capacity = _
    omega

theorem buildLattice_lists {conn : Conn} {lex : Lex} {plugins : List OovPlugin} {t : InputText} {L L' : Lattice} {r : Res Unit}
    (h : buildLattice conn lex plugins t L = (L', r)) : L'.size = t.bytes.length ∧ L'.capacity = max L.capacity t.bytes.length ∧
    L'.endLists.length = L.endLists.length + (if L.capacity < t.bytes.length then t.bytes.length - L.size else 0) := by
  obtain ⟨r1, r2, r3⟩ := resize_lists L t.bytes.length
  obtain ⟨_, _, g1, g2, g3⟩ := (simulates_frame (conn := conn) t.bytes.length t.bytes.length (max L.capacity t.bytes.length)
    (L.endLists.length + (if L.capacity < t.bytes.length then t.bytes.length - L.size else 0))).buildLoop (lex := lex) (plugins := plugins) (t := t) (is := List.range t.bytes.length)
    (L := L.resize t.bytes.length) (L' := L.resize t.bytes.length)
    (fun i hi => ⟨List.mem_range.1 hi, fun _ => ⟨fun _ _ _ _ _ _ _ => trivial, fun _ _ _ _ _ _ _ => trivial⟩⟩) ⟨rfl, r1, r2, r3⟩
  unfold buildLattice at h
  cases hb : buildLoop conn lex plugins t (List.range t.bytes.length) (L.resize t.bytes.length) with
  | mk L1 r1 =>
    rw [hb] at h g1 g2 g3
    cases r1 with
    | error x => cases h; exact ⟨g1, g2, g3⟩
    | ok u =>
      obtain ⟨c1, c2, c3⟩ := connectEos_frame h
      rw [c1, c2, c3]
      exact ⟨g1, g2, g3⟩

theorem clearLoop_length : ∀ (is : List Nat) (ls : List (List LNode)), (Lattice.clearLoop ls is).1.length = ls.length
  | [], _ => rfl
  | i :: is, ls => by
    rw [Lattice.clearLoop]
    split
    · rw [clearLoop_length is]; simp
    · rfl

theorem clear_lists {L L' : Lattice} {r : Res Unit} (h : L.clear = (L', r)) : L'.capacity = L.capacity ∧ L'.endLists.length = L.endLists.length ∧
    L'.size ≤ L.size ∧ (r = .ok () → L'.size = 0) := by
  unfold Lattice.clear at h
  have hl := clearLoop_length (List.range' 1 L.size) L.endLists
  cases hc : Lattice.clearLoop L.endLists (List.range' 1 L.size) with
  | mk ls r' =>
    rw [hc] at h hl
    cases r' with
    | error x => cases h; exact ⟨rfl, hl, Nat.le_refl _, nofun⟩
    | ok u => cases h; exact ⟨rfl, hl, Nat.zero_le _, fun _ => rfl⟩

/-- The lists after a call. -/
theorem tokenize_lists {T : Tokenizer} {L L' : Lattice} {text : PStr} {mode : Option Mode} {r : Res MorphemeList} {t : InputText} (hne : text ≠ [])
    (ht : T.buildInput text = .ok t) (h : T.tokenize L text mode = (L', r)) : L'.capacity = max L.capacity t.bytes.length ∧
    L'.endLists.length = L.endLists.length + (if L.capacity < t.bytes.length then t.bytes.length - L.size else 0) ∧
    ((∃ ml, r = .ok ml) → L'.size = 0) := by
  unfold Tokenizer.tokenize at h
  rw [if_neg (by simpa using hne), ht] at h
  dsimp only at h
  cases hb : buildLattice T.conn T.lex T.oov t L with
  | mk L1 r1 =>
    rw [hb] at h
    obtain ⟨b1, b2, b3⟩ := buildLattice_lists hb
    cases r1 with
    | error x => cases h; exact ⟨b2, b3, by rintro ⟨_, h⟩; cases h⟩
    | ok u =>
      dsimp only at h
      cases hp : T.bestPath t L1 with
      | error x => rw [hp] at h; cases h; exact ⟨b2, b3, by rintro ⟨_, h⟩; cases h⟩
      | ok path =>
        rw [hp] at h
        dsimp only at h
        cases hc : L1.clear with
        | mk L2 r2 =>
          rw [hc] at h
          obtain ⟨c1, c2, c3, c4⟩ := clear_lists hc
          rw [← c1] at b2
          rw [← c2] at b3
          cases r2 with
          | error x => cases h; exact ⟨b2, b3, by rintro ⟨_, h⟩; cases h⟩
          | ok u =>
            dsimp only at h
            split at h <;> cases h <;> exact ⟨b2, b3, fun _ => c4 rfl⟩

theorem tokenize_unread {T : Tokenizer} {L L' : Lattice} {text : PStr} {mode : Option Mode} {r : Res MorphemeList} {x : Err} (hne : text ≠ [])
    (ht : T.buildInput text = .error x) (h : T.tokenize L text mode = (L', r)) : L' = L := by
  unfold Tokenizer.tokenize at h
  rw [if_neg (by simpa using hne), ht] at h
  cases h
  rfl

theorem records_append : ∀ (ns : List Nat) (m n : Nat), records m (ns ++ [n]) = records m ns + (if ns.foldl max m < n then n else 0)
  | [], m, n => by
    rw [List.nil_append, records, records, records]
    show _ = 0 + (if m < n then n else 0)
    split <;> simp [records]
  | k :: ns, m, n => by
    rw [List.cons_append, records, records, List.foldl_cons]
    by_cases h : m < k
    · rw [if_pos h, if_pos h, records_append ns k n, Nat.max_eq_right (Nat.le_of_lt h)]; omega
    · rw [if_neg h, if_neg h, records_append ns m n, Nat.max_eq_left (Nat.le_of_not_lt h)]

theorem Tokenizer.Ran.lists {T : Tokenizer} {ns : List Nat} {L : Lattice} (h : T.Ran ns L) :
    L.size = 0 ∧ L.capacity = ns.foldl max 0 ∧ L.endLists.length = 1 + records 0 ns := by
  induction h with
  | fresh => exact ⟨rfl, rfl, rfl⟩
  | call text mode _ hne ht hr ih =>
    obtain ⟨h1, h2, h3⟩ := ih
    obtain ⟨g1, g2, g3⟩ := tokenize_lists hne ht hr
    refine ⟨g3 ⟨_, rfl⟩, by rw [g1, h2]; simp, ?_⟩
    rw [g2, h3, h1, h2, records_append, Nat.sub_zero, Nat.add_assoc]

theorem Tokenizer.Ran.cleanHistory {T : Tokenizer} {ns : List Nat} {L : Lattice} (h : T.Ran ns L) : T.CleanHistory L := by
  induction h with
  | fresh => exact .fresh
  | call text mode _ hne ht hr ih => exact .call text mode ih hr

theorem Tokenizer.Tried.lists {T : Tokenizer} {ns : List Nat} {L : Lattice} (h : T.Tried ns L) :
    L.capacity = ns.foldl max 0 ∧ L.endLists.length ≤ 1 + ns.sum := by
  induction h with
  | fresh => exact ⟨rfl, Nat.le_refl _⟩
  | call text mode _ hne ht hr ih =>
    obtain ⟨h1, h2⟩ := ih
    obtain ⟨g1, g2, _⟩ := tokenize_lists hne ht hr
    refine ⟨by rw [g1, h1]; simp, ?_⟩
    rw [g2, List.sum_append]
    simp
    split <;> omega
  | unread text mode _ hne ht hr ih =>
    rw [tokenize_unread hne ht hr]
    exact ⟨by rw [ih.1]; simp, by simpa using ih.2⟩

theorem records_range : ∀ (n m : Nat), records m (List.range' (m + 1) n) = n * m + n * (n + 1) / 2
  | 0, m => by simp [records]
  | n + 1, m => by
    rw [List.range'_succ, records, if_pos (by omega), records_range n (m + 1)]
    have e : (n + 1) * (n + 1 + 1) = n * (n + 1) + 2 * (n + 1) := by rw [Nat.mul_comm, ← Nat.add_mul]
    rw [e, Nat.add_mul_div_left _ _ (by decide), Nat.mul_add, Nat.add_mul]
    omega

end Sudachi
