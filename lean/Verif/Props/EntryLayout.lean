/-
C92: what the entry of a word says, and what reading a wrong entry raises.
-/
import Verif.Lemmas.EntryLayout2
import Verif.Lemmas.Compiled
namespace Sudachi

/-- **C92** What is read at a place is the entry there. -/
theorem C92_entry (b : Bytes) (hb : Octets b) (syn : Bool) (i : Nat) (w : WordInfo) : getStoredInfo b syn i = .ok w ↔ EntryAt b syn i w := by
  rcases getStoredInfo_outcome hb syn i with ⟨e, h, r⟩ | ⟨w', k, h, hp, r⟩
  · rw [r]
    refine ⟨nofun, fun h' => ?_⟩
    obtain ⟨hi, k, hk⟩ := entryAt_parts h'
    exact (partsAt_not (entryFails_parts hi h) hk).elim
  · rw [r]
    constructor
    · intro h'
      cases h'
      exact h
    · intro h'
      rw [entryAt_unique h h']

/-- **C92** Where there is no entry, the exception tells what is wrong first: `ValueError` if the file ends before a length or a number of
numbers, `UnicodeDecodeError` if the text is no UTF-16, `struct.error` if the file ends in the numbers. -/
theorem C92_entry_raises (b : Bytes) (hb : Octets b) (syn : Bool) (i : Nat) (e : Err) : getStoredInfo b syn i = .error e ↔ EntryFails b syn i e := by
  rcases getStoredInfo_outcome hb syn i with ⟨e', h, r⟩ | ⟨w', k, h, hp, r⟩
  · rw [r]
    constructor
    · intro h'
      cases h'
      exact h
    · intro h'
      rw [entryFails_unique h h']
  · rw [r]
    refine ⟨nofun, fun h' => ?_⟩
    exact (partsAt_not (entryFails_parts (entryAt_parts h).1 h') hp).elim

private theorem place (x : DALex) (w : Nat) : x.infoOffset w = x.entryPlace w := fromLe_numberAt x.bytes 4 _

private theorem stored_iff {x : DALex} (hb : Octets x.bytes) {w : Nat} {wi : WordInfo} :
    getStoredInfo x.bytes x.hasSyn (x.infoOffset w) = .ok wi ↔ x.Entry w wi := by
  rw [place]
  exact C92_entry _ hb _ _ _

private theorem stored_error {x : DALex} (hb : Octets x.bytes) {w : Nat} {e : Err} :
    getStoredInfo x.bytes x.hasSyn (x.infoOffset w) = .error e ↔ EntryFails x.bytes x.hasSyn (x.entryPlace w) e := by
  rw [place]
  exact C92_entry_raises _ hb _ _ _

private theorem entry_unique {x : DALex} {w : Nat} {a b : WordInfo} (h : x.Entry w a) (h' : x.Entry w b) : a = b := entryAt_unique h h'

private theorem leads_step {x : DALex} {n w u v : Nat} {wi : WordInfo} (h : x.Entry w wi) (hd : wi.dictionaryFormWordId = u)
    (hl : x.Leads (n + 1) w v) : x.Leads n u v := by
  cases hl with
  | step _ _ u' _ wi' h' hd' hu' hl =>
    cases entry_unique h h'
    have : u = u' := by omega
    exact this ▸ hl

private theorem leads_not_last {x : DALex} {n w v : Nat} {wi : WordInfo} (h : x.Entry w wi)
    (hd : wi.dictionaryFormWordId < 0 ∨ wi.dictionaryFormWordId = w) (hl : x.Leads (n + 1) w v) : False := by
  cases hl with
  | step _ _ u' _ wi' h' hd' hu' hl =>
    cases entry_unique h h'
    omega

/-- What asking for a word does: it gives the word, and going on ends; or some entry on the way is wrong; or the way is too long. -/
private theorem wordInfo_outcome {x : DALex} (hb : Octets x.bytes) : ∀ (depth w : Nat),
    (∃ info n v, x.wordInfo depth w = .ok info ∧ n < depth ∧ x.Leads n w v ∧ x.Last v ∧ x.InfoIs w info) ∨
    (∃ e n v, x.wordInfo depth w = .error e ∧ n < depth ∧ x.Leads n w v ∧ EntryFails x.bytes x.hasSyn (x.entryPlace v) e) ∨
    (∃ v, x.wordInfo depth w = .error .recursion ∧ x.Leads depth w v)
  | 0, w => .inr (.inr ⟨w, rfl, .here w⟩)
  | depth + 1, w => by
    cases hs : getStoredInfo x.bytes x.hasSyn (x.infoOffset w) with
    | error e =>
      refine .inr (.inl ⟨e, 0, w, ?_, by omega, .here w, (stored_error hb).1 hs⟩)
      unfold DALex.wordInfo
      rw [hs]
      rfl
    | ok wi =>
      have he := (stored_iff hb).1 hs
      by_cases hd : wi.dictionaryFormWordId < 0 ∨ wi.dictionaryFormWordId = w
      · exact .inl ⟨wi, 0, w, wordInfo_own hs hd depth, by omega, .here w, ⟨wi, he, hd⟩, wi, he, .inl ⟨hd, rfl⟩⟩
      · obtain ⟨u, hu⟩ := Int.eq_ofNat_of_zero_le (show 0 ≤ wi.dictionaryFormWordId by omega)
        have hne : u ≠ w := by omega
        rw [wordInfo_other hs hu hne]
        rcases wordInfo_outcome hb depth u with ⟨info, n, v, r, hn, hl, hv, wu, hwu, hi⟩ | ⟨e, n, v, r, hn, hl, hv⟩ | ⟨v, r, hl⟩
        · refine .inl ⟨{ wi with dictionaryForm := info.surface }, n + 1, v, by rw [r]; rfl, by omega, .step _ _ _ _ _ he hu hne hl, hv, wi, he,
            .inr ⟨u, wu, hu, hne, hwu, ?_⟩⟩
          rcases hi with ⟨_, rfl⟩ | ⟨_, _, _, _, _, rfl⟩ <;> rfl
        · exact .inr (.inl ⟨e, n + 1, v, by rw [r]; rfl, by omega, .step _ _ _ _ _ he hu hne hl, hv⟩)
        · exact .inr (.inr ⟨v, by rw [r]; rfl, .step _ _ _ _ _ he hu hne hl⟩)

private theorem infoIs_unique {x : DALex} {w : Nat} {a b : WordInfo} (h : x.InfoIs w a) (h' : x.InfoIs w b) : a = b := by
  obtain ⟨wi, h1, h2⟩ := h
  obtain ⟨wi', h1', h2'⟩ := h'
  cases entry_unique h1 h1'
  rcases h2 with ⟨d, rfl⟩ | ⟨u, wu, d, hu, hw, rfl⟩ <;> rcases h2' with ⟨d', rfl⟩ | ⟨u', wu', d', hu', hw', rfl⟩
  · rfl
  · omega
  · omega
  · have : u = u' := by omega
    subst this
    cases entry_unique hw hw'
    rfl

/-- Where two ways from a word end, they are the same way. -/
private theorem leads_end {x : DALex} : ∀ {n m w v v' : Nat}, x.Leads n w v → x.Leads m w v' →
    (n ≤ m → x.Leads (m - n) v v') ∧ (m ≤ n → x.Leads (n - m) v' v)
  | 0, m, w, v, v', h, h' => by
    cases h
    refine ⟨fun _ => h', fun hm => ?_⟩
    have : m = 0 := by omega
    subst this
    cases h'
    exact .here _
  | n + 1, 0, w, v, v', h, h' => by
    cases h'
    exact ⟨fun _ => by omega, fun _ => h⟩
  | n + 1, m + 1, w, v, v', h, h' => by
    cases h with
    | step _ _ u _ wi he hd hu hl =>
      have ih := leads_end hl (leads_step he hd h')
      rw [Nat.add_sub_add_right, Nat.add_sub_add_right]
      exact ⟨fun _ => ih.1 (by omega), fun _ => ih.2 (by omega)⟩

private theorem leads_zero {x : DALex} {w v : Nat} (h : x.Leads 0 w v) : w = v := by
  cases h
  rfl

/-- From a word with a wrong entry no way goes on. -/
private theorem leads_not_wrong {x : DALex} {n w v : Nat} {e : Err} (h : EntryFails x.bytes x.hasSyn (x.entryPlace w) e)
    (hl : x.Leads (n + 1) w v) : False := by
  cases hl with
  | step _ _ u' _ wi' h' =>
    obtain ⟨hi, k, hk⟩ := entryAt_parts h'
    exact partsAt_not (entryFails_parts hi h) hk

private theorem entry_not_wrong {x : DALex} {w : Nat} {wi : WordInfo} {e : Err} (h : EntryFails x.bytes x.hasSyn (x.entryPlace w) e)
    (h' : x.Entry w wi) : False := by
  obtain ⟨hi, k, hk⟩ := entryAt_parts h'
  exact partsAt_not (entryFails_parts hi h) hk

/-- A word stops: its entry is wrong or it is the last. -/
private def Stops (x : DALex) (v : Nat) : Prop := x.Last v ∨ ∃ e, EntryFails x.bytes x.hasSyn (x.entryPlace v) e

private theorem stops_not {x : DALex} {n w v : Nat} (h : Stops x w) (hl : x.Leads (n + 1) w v) : False := by
  rcases h with ⟨wi, h, hd⟩ | ⟨e, h⟩
  · exact leads_not_last h hd hl
  · exact leads_not_wrong h hl

/-- A way that ends is not longer than any other, and the longest ways end at the same word. -/
private theorem stops_end {x : DALex} {n m w v v' : Nat} (h : x.Leads n w v) (hs : Stops x v) (h' : x.Leads m w v') : m ≤ n := by
  apply Nat.le_of_not_lt
  intro hlt
  have := (leads_end h h').1 (by omega)
  obtain ⟨k, hk⟩ : ∃ k, m - n = k + 1 := ⟨m - n - 1, by omega⟩
  rw [hk] at this
  exact stops_not hs this

private theorem stops_same {x : DALex} {n m w v v' : Nat} (h : x.Leads n w v) (hs : Stops x v) (h' : x.Leads m w v') (hs' : Stops x v') : v = v' := by
  have : n = m := Nat.le_antisymm (stops_end h' hs' h) (stops_end h hs h')
  subst this
  have := (leads_end h h').1 (Nat.le_refl _)
  rw [Nat.sub_self] at this
  exact leads_zero this

/-- **C92** A word can be read if the way along the dictionary forms ends within the recursion limit and all entries on it are right; then the
word has what its entry says, and the surface of its dictionary form. -/
theorem C92_word (x : DALex) (hb : Octets x.bytes) (depth w : Nat) (info : WordInfo) :
    x.wordInfo depth w = .ok info ↔ x.InfoIs w info ∧ ∃ n v, n < depth ∧ x.Leads n w v ∧ x.Last v := by
  rcases wordInfo_outcome hb depth w with ⟨info', n, v, r, hn, hl, hv, hi⟩ | ⟨e, n, v, r, hn, hl, hv⟩ | ⟨v, r, hl⟩
  · rw [r]
    constructor
    · intro h
      cases h
      exact ⟨hi, n, v, hn, hl, hv⟩
    · rintro ⟨h, _⟩
      rw [infoIs_unique hi h]
  · rw [r]
    refine ⟨nofun, fun ⟨_, m, v', hm, hl', hv'⟩ => ?_⟩
    have := stops_same hl (.inr ⟨e, hv⟩) hl' (.inl hv')
    subst this
    obtain ⟨wi, he, _⟩ := hv'
    exact (entry_not_wrong hv he).elim
  · rw [r]
    refine ⟨nofun, fun ⟨_, m, v', hm, hl', hv'⟩ => ?_⟩
    have := stops_end hl' (.inl hv') hl
    omega

/-- **C92** Otherwise the exception is that of the first wrong entry on the way, if it comes within the recursion limit, and `RecursionError`
if the way goes on to the limit. -/
theorem C92_word_raises (x : DALex) (hb : Octets x.bytes) (depth w : Nat) (e : Err) :
    x.wordInfo depth w = .error e ↔
      (∃ n v, n < depth ∧ x.Leads n w v ∧ EntryFails x.bytes x.hasSyn (x.entryPlace v) e) ∨ (e = .recursion ∧ ∃ v, x.Leads depth w v) := by
  rcases wordInfo_outcome hb depth w with ⟨info', n, v, r, hn, hl, hv, hi⟩ | ⟨e', n, v, r, hn, hl, hv⟩ | ⟨v, r, hl⟩
  · rw [r]
    refine ⟨nofun, ?_⟩
    rintro (⟨m, v', hm, hl', hv'⟩ | ⟨_, v', hl'⟩)
    · have := stops_same hl (.inl hv) hl' (.inr ⟨e, hv'⟩)
      subst this
      obtain ⟨wi, he, _⟩ := hv
      exact (entry_not_wrong hv' he).elim
    · have := stops_end hl (.inl hv) hl'
      omega
  · rw [r]
    constructor
    · intro h
      cases h
      exact .inl ⟨n, v, hn, hl, hv⟩
    · rintro (⟨m, v', hm, hl', hv'⟩ | ⟨_, v', hl'⟩)
      · have := stops_same hl (.inr ⟨_, hv⟩) hl' (.inr ⟨_, hv'⟩)
        subst this
        rw [entryFails_unique hv hv']
      · have := stops_end hl (.inr ⟨_, hv⟩) hl'
        omega
  · rw [r]
    constructor
    · intro h
      cases h
      exact .inr ⟨rfl, v, hl⟩
    · rintro (⟨m, v', hm, hl', hv'⟩ | ⟨rfl, _⟩)
      · have := stops_end hl' (.inr ⟨_, hv'⟩) hl
        omega
      · rfl

private theorem leads_append {x : DALex} : ∀ {n m w u v : Nat}, x.Leads n w u → x.Leads m u v → x.Leads (n + m) w v
  | 0, m, w, u, v, h, h' => by
    cases h
    rw [Nat.zero_add]
    exact h'
  | n + 1, m, w, u, v, h, h' => by
    cases h with
    | step _ _ u' _ wi he hd hu hl =>
      rw [show n + 1 + m = (n + m) + 1 by omega]
      exact .step _ _ _ _ _ he hd hu (leads_append hl h')

private theorem leads_take {x : DALex} : ∀ {n w v : Nat} (m : Nat), x.Leads n w v → m ≤ n → ∃ u, x.Leads m w u
  | _, w, _, 0, _, _ => ⟨w, .here w⟩
  | 0, _, _, m + 1, _, hm => by omega
  | n + 1, w, v, m + 1, h, hm => by
    cases h with
    | step _ _ u' _ wi he hd hu hl =>
      obtain ⟨u, h'⟩ := leads_take m hl (by omega)
      exact ⟨u, .step _ _ _ _ _ he hd hu h'⟩

/-- **C92** Words whose dictionary forms lead back to themselves cannot be read, whatever the recursion limit. -/
theorem C92_cycle (x : DALex) (hb : Octets x.bytes) (w n : Nat) (h : x.Leads (n + 1) w w) (depth : Nat) :
    x.wordInfo depth w = .error .recursion := by
  refine (C92_word_raises x hb depth w _).2 (.inr ⟨rfl, ?_⟩)
  have : ∀ k, x.Leads (k * (n + 1)) w w := by
    intro k
    induction k with
    | zero => rw [Nat.zero_mul]; exact .here w
    | succ k ih => rw [Nat.add_mul, Nat.one_mul]; exact leads_append ih h
  exact leads_take depth (this depth) (Nat.le_mul_of_pos_right _ (by omega))

/-- Six words: `a` with the dictionary form `b`; `b`; two words that name each other; one whose entry is behind the end of the file; one with it
as the dictionary form. -/
private def bytes : Bytes :=
  [24, 0, 0, 0, 39, 0, 0, 0, 54, 0, 0, 0, 69, 0, 0, 0, 200, 0, 0, 0, 84, 0, 0, 0,
   1, 97, 0, 1, 3, 0, 0, 1, 0, 0, 0, 0, 0, 0, 0,
   1, 98, 0, 1, 3, 0, 0, 255, 255, 255, 255, 0, 0, 0, 0,
   1, 99, 0, 1, 3, 0, 0, 3, 0, 0, 0, 0, 0, 0, 0,
   1, 100, 0, 1, 3, 0, 0, 2, 0, 0, 0, 0, 0, 0, 0,
   1, 101, 0, 1, 3, 0, 0, 4, 0, 0, 0, 0, 0, 0, 0]

private def lex : DALex := ⟨bytes, [], 0, 0, 6, 0, 0, 0, false⟩

private def info (c : Nat) (v : Int) (d : Nat) : WordInfo := ⟨[c], 1, 3, [c], v, [d], [c], [], [], [], []⟩

private theorem bytes_octets : Octets bytes := by
  have : bytes.all (fun x => decide (x < 256)) = true := by decide +kernel
  exact fun x hx => of_decide_eq_true (List.all_eq_true.1 this x hx)

private theorem lex_leads {w v : Nat} {c d : Nat} (h : getStoredInfo bytes false (lex.infoOffset w) = .ok (info c v d)) (hv : v ≠ w) : lex.Leads 1 w v :=
  .step 0 w v v _ ((stored_iff bytes_octets).1 h) rfl hv (.here v)

example : lex.Entry 0 (info 97 1 97) ∧ lex.InfoIs 0 (info 97 1 98) ∧ lex.Last 1 ∧ lex.Leads 1 0 1 ∧ lex.Leads 2 2 2 ∧
    (∀ depth, lex.wordInfo depth 2 = .error .recursion) ∧ EntryFails bytes false (lex.entryPlace 4) .value ∧
    lex.wordInfo 2 5 = .error .value ∧ lex.wordInfo 1 5 = .error .recursion ∧
    EntryFails bytes false 97 .value ∧ EntryFails (bytes.take 98 ++ [1, 0]) false 84 .struct ∧
    EntryFails (bytes.take 85 ++ [0, 0xD8] ++ bytes.drop 87) false 84 .unicode := by
  have cyc : lex.Leads 2 2 2 := leads_append (n := 1) (m := 1) (lex_leads (c := 99) (d := 99) (v := 3) (by decide +kernel) (by decide)) (lex_leads (c := 100) (d := 100) (by decide +kernel) (by decide))
  refine ⟨(stored_iff bytes_octets).1 (by decide +kernel), ((C92_word lex bytes_octets 2 0 _).1 (by decide +kernel)).1,
    ⟨_, (stored_iff bytes_octets (wi := info 98 (-1) 98)).1 (by decide +kernel), .inl (by decide)⟩,
    lex_leads (c := 97) (d := 97) (by decide +kernel) (by decide), cyc, C92_cycle lex bytes_octets 2 1 cyc,
    (stored_error (x := lex) (w := 4) bytes_octets).1 (by decide +kernel), by decide +kernel, by decide +kernel,
    (C92_entry_raises _ bytes_octets _ _ _).1 (by decide +kernel), (C92_entry_raises _ ?_ _ _ _).1 (by decide +kernel),
    (C92_entry_raises _ ?_ _ _ _).1 (by decide +kernel)⟩
  · intro x hx
    rcases List.mem_append.1 hx with hx | hx
    · exact bytes_octets x (List.mem_of_mem_take hx)
    · simp only [List.mem_cons, List.not_mem_nil, or_false] at hx
      omega
  · intro x hx
    rcases List.mem_append.1 hx with hx | hx
    · rcases List.mem_append.1 hx with hx | hx
      · exact bytes_octets x (List.mem_of_mem_take hx)
      · simp only [List.mem_cons, List.not_mem_nil, or_false] at hx
        omega
    · exact bytes_octets x (List.mem_of_mem_drop hx)

end Sudachi
