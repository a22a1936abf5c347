/-
C82: what the lattice of a tokenizer keeps between calls (sudachipy/lattice.pyx:37-54).

After successful calls no node but BOS is kept.  The number of lists is one and the sum of the lengths (in bytes, rewritten) of the texts
longer than all before them; after any calls it is at most one and the sum of all lengths.  So it is not bounded by the longest text:
`expand` adds lists for the whole new size although `size` is 0 between calls and the old lists are still there.
-/
import Verif.Lemmas.Memory
import Verif.Props.Total
namespace Sudachi

/-- C82: the lists after successful calls. -/
theorem C82_lists (T : Tokenizer) (ns : List Nat) (L : Lattice) (h : T.Ran ns L) :
    L.capacity = ns.foldl max 0 ∧ L.endLists.length = 1 + records 0 ns := h.lists.2

/-- C82: only BOS is kept. -/
theorem C82_empty (T : Tokenizer) (hp : T.PluginsOk) (hlex : T.lex.Ok) (ns : List Nat) (L : Lattice) (h : T.Ran ns L) (e : Nat)
    (xs : List LNode) (he : L.endLists[e]? = some xs) : xs = if e = 0 then [bosNode] else [] := by
  have hc := h.cleanHistory.clean hp hlex
  by_cases h0 : e = 0
  · subst h0
    rw [hc.bos] at he
    cases he
    rfl
  · rw [if_neg h0]
    exact hc.empty e xs (Nat.pos_of_ne_zero h0) he

/-- C82: the lists after any calls. -/
theorem C82_at_most (T : Tokenizer) (ns : List Nat) (L : Lattice) (h : T.Tried ns L) :
    L.capacity = ns.foldl max 0 ∧ L.endLists.length ≤ 1 + ns.sum := h.lists

namespace DemoTok

theorem dead_input (n : Nat) : ∃ t, deadTok.buildInput (List.replicate n 97) = .ok t ∧ t.bytes.length = n := by
  obtain ⟨t, ht⟩ := deadTok_complete.buildInput (text := List.replicate n 97) (fun c hc => by rw [List.eq_of_mem_replicate hc]; rfl)
  refine ⟨t, ht, ?_⟩
  have hb : (Builder.init (List.replicate n 97)).build deadTok.catOf = .ok t := ht
  rw [(built (Builder.Valid.init _).len hb).bytes]
  show (List.flatMap utf8Cp (List.replicate n 97)).length = n
  have h1 : utf8Cp 97 = [97] := rfl
  simp [List.length_flatMap, h1]

/-- Texts of 1, 2, …, `n` letters. -/
theorem dead_ran (n : Nat) (h : SafeLength n) : ∃ L, deadTok.Ran (List.range' 1 n) L := by
  induction n with
  | zero => exact ⟨_, .fresh⟩
  | succ n ih =>
    obtain ⟨L, hL⟩ := ih (Nat.le_trans (Nat.mul_le_mul_right _ (Nat.le_succ _)) h)
    obtain ⟨t, ht, hlen⟩ := dead_input (n + 1)
    have hne : List.replicate (n + 1) 97 ≠ [] := by simp
    have henc : ∀ c ∈ List.replicate (n + 1) 97, encodable c = true := fun c hc => by rw [List.eq_of_mem_replicate hc]; rfl
    have hs : ∀ t', deadTok.buildInput (List.replicate (n + 1) 97) = .ok t' → SafeLength t'.bytes.length := by
      intro t' ht'
      rw [ht] at ht'
      cases ht'
      rw [hlen]; exact h
    obtain ⟨ml, hml⟩ := (tokenize_cases deadTok_complete (hL.cleanHistory.clean deadTok_complete.plugins deadTok_complete.lexOk) hne henc hs
      (mode := none) (.inl rfl)).2.1 rfl
    refine ⟨(deadTok.tokenize L (List.replicate (n + 1) 97) none).1, ?_⟩
    have e : List.range' 1 (n + 1) = List.range' 1 n ++ [t.bytes.length] := by rw [List.range'_1_concat, hlen, Nat.add_comm]
    rw [e]
    exact .call _ none hL hne ht (Prod.ext rfl hml)

end DemoTok

/-- C82: texts that get longer by a byte: the lattice has about n²/2 lists for texts of at most n bytes. -/
theorem C82_unbounded (n : Nat) (hn : SafeLength n) :
    ∃ L, DemoTok.deadTok.Ran (List.range' 1 n) L ∧ L.capacity = n ∧ L.endLists.length = 1 + n * (n + 1) / 2 := by
  obtain ⟨L, hL⟩ := DemoTok.dead_ran n hn
  obtain ⟨h1, h2⟩ := C82_lists _ _ _ hL
  refine ⟨L, hL, ?_, ?_⟩
  · rw [h1]
    clear h1 h2 hL hn
    induction n with
    | zero => rfl
    | succ n ih => rw [List.range'_1_concat, List.foldl_append, ih]; simp; omega
  · rw [h2, records_range]; simp

/-- A failed call ("x") and a successful one ("yz"): the lists of the first stay. -/
example : ∃ L, DemoTok.staleTok.Tried [1, 2] L ∧ L.endLists.length = 3 := by
  obtain ⟨t1, h1, e1⟩ : ∃ t, DemoTok.staleTok.buildInput [120] = .ok t ∧ t.bytes.length = 1 := ⟨_, rfl, by decide +kernel⟩
  obtain ⟨t2, h2, e2⟩ : ∃ t, DemoTok.staleTok.buildInput [121, 122] = .ok t ∧ t.bytes.length = 2 := ⟨_, rfl, by decide +kernel⟩
  have a := Tokenizer.Tried.call (T := DemoTok.staleTok) [120] none .fresh (by simp) h1 (L' := (DemoTok.staleTok.tokenize Lattice.init [120] none).1) rfl
  have b := a.call [121, 122] none (by simp) h2 (L' := (DemoTok.staleTok.tokenize (DemoTok.staleTok.tokenize Lattice.init [120] none).1 [121, 122] none).1) rfl
  rw [e1, e2] at b
  exact ⟨_, b, by decide +kernel⟩

/-- 1000 bytes, half a million lists. -/
example : ∃ L, DemoTok.deadTok.Ran (List.range' 1 1000) L ∧ L.capacity = 1000 ∧ L.endLists.length = 500501 :=
  C82_unbounded 1000 (by unfold SafeLength; decide)

end Sudachi
