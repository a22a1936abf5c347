/-
Lemmas on closing dictionaries.
-/
import Verif.Spec.Close
namespace Sudachi.Closing

/-- Something other than the dictionary refers to its `LexiconSet`. -/
def Held (s : Process) (d : Nat) : Prop := d ∈ s.holders ∨ ∃ w, (d, w) ∈ s.cache

theorem exported_iff {s : Process} {d i : Nat} : s.exported d i = true ↔ Held s d := by
  unfold Process.exported Held
  simp only [Bool.or_eq_true, Bool.and_eq_true, List.contains_iff_mem, List.any_eq_true, beq_iff_eq]
  constructor
  · rintro ((h | ⟨⟨a, w⟩, h1, rfl⟩) | ⟨_, h⟩)
    · exact .inl h
    · exact .inr ⟨w, h1⟩
    · exact .inl h
  · rintro (h | ⟨w, h⟩)
    · exact .inl (.inl h)
    · exact .inl (.inr ⟨(d, w), h, rfl⟩)

theorem closeFiles_held {exp : Nat → Bool} {i : Nat} (h : exp i = true) {f : File} {fs : List File} (hf : f.whole = true) :
    closeFiles exp i (f :: fs) = ({ f with whole := false } :: fs, .error .buffer) := by
  unfold closeFiles
  rw [hf, h]
  rfl

theorem closeFiles_again {exp : Nat → Bool} {i : Nat} {f : File} {fs : List File} (hf : f.whole = false) :
    closeFiles exp i (f :: fs) = (f :: fs, .error .attribute) := by
  unfold closeFiles
  rw [hf]
  rfl

theorem closeFiles_free {exp : Nat → Bool} (h : ∀ i, exp i = false) : ∀ {i : Nat} {fs : List File}, (∀ f ∈ fs, f.whole = true) →
    closeFiles exp i fs = (fs.map fun _ => ⟨false, false⟩, .ok ())
  | _, [], _ => rfl
  | i, f :: fs, hw => by
    unfold closeFiles
    rw [hw f (by simp), h i, closeFiles_free h (fun f hf => hw f (by simp [hf]))]
    rfl

/-- The state of one dictionary; `held` says that something other than itself refers to its `LexiconSet`. -/
structure Good (held : Prop) (dic : Dic) : Prop where
  live : dic.live = true → dic.files ≠ [] ∧ ∀ f ∈ dic.files, f = ⟨true, true⟩
  closed : dic.live = false → ∃ f fs, dic.files = f :: fs ∧ f.whole = false
  held : held → ∀ f ∈ dic.files, f.mapped = true
  whole : ∀ f ∈ dic.files, f.whole = true → f.mapped = true

structure Inv (s : Process) : Prop where
  dics : ∀ (d : Nat) (dic : Dic), s.dics[d]? = some dic → Good (Held s d) dic
  known : ∀ d, Held s d → d < s.dics.length
  nodup : s.cache.Nodup
  short : s.cache.length ≤ 1024

theorem mem_touch {cache : List (Nat × Int)} {k x : Nat × Int} (h : x ∈ touch cache k) : x = k ∨ x ∈ cache := by
  unfold touch at h
  rcases List.mem_cons.mp (List.mem_of_mem_take h) with h | h
  · exact .inl h
  · exact .inr (List.mem_of_mem_erase h)

theorem touch_nodup {cache : List (Nat × Int)} {k : Nat × Int} (h : cache.Nodup) : (touch cache k).Nodup := by
  unfold touch
  refine List.Pairwise.sublist (List.take_sublist _ _) (List.nodup_cons.mpr ⟨?_, h.erase k⟩)
  intro hk
  exact (h.mem_erase_iff.mp hk).1 rfl

theorem touch_short {cache : List (Nat × Int)} {k : Nat × Int} : (touch cache k).length ≤ 1024 := List.length_take_le _ _

theorem Good.imp {p q : Prop} {dic : Dic} (h : Good p dic) (hq : q → p) : Good q dic := ⟨h.live, h.closed, fun k => h.held (hq k), h.whole⟩

theorem inv_init : Inv .init :=
  ⟨fun d dic h => by simp [Process.init] at h, fun d h => by simp [Held, Process.init] at h, by simp [Process.init], by simp [Process.init]⟩

/-- What closing does. -/
theorem close_cases {s : Process} (hI : Inv s) {d : Nat} {dic : Dic} (h : s.dics[d]? = some dic) :
    (dic.live = true ∧ ¬ Held s d ∧ s.close d dic = ({ s with dics := s.dics.set d ⟨false, dic.files.map fun _ => ⟨false, false⟩⟩ }, .ok ())) ∨
    (dic.live = true ∧ Held s d ∧ ∃ f fs, dic.files = f :: fs ∧
      s.close d dic = ({ s with dics := s.dics.set d ⟨false, { f with whole := false } :: fs⟩ }, .error .buffer)) ∨
    (dic.live = false ∧ s.close d dic = (s, .error .attribute)) := by
  have hg := hI.dics d dic h
  unfold Process.close
  cases hl : dic.live with
  | true =>
    obtain ⟨hne, hall⟩ := hg.live hl
    by_cases hh : Held s d
    · refine .inr (.inl ⟨rfl, hh, ?_⟩)
      obtain ⟨f, fs, hf⟩ := List.exists_cons_of_ne_nil hne
      refine ⟨f, fs, hf, ?_⟩
      rw [hf, closeFiles_held (exported_iff.mpr hh) (by rw [hall f (by simp [hf])])]
    · refine .inl ⟨rfl, hh, ?_⟩
      rw [closeFiles_free (fun i => by
        cases he : s.exported d i with
        | false => rfl
        | true => exact absurd (exported_iff.mp he) hh) (fun f hf => by rw [hall f hf])]
  | false =>
    refine .inr (.inr ⟨rfl, ?_⟩)
    obtain ⟨f, fs, hf, hw⟩ := hg.closed hl
    rw [hf, closeFiles_again hw, ← hf]
    have : (⟨false, dic.files⟩ : Dic) = dic := by rw [← hl]
    dsimp only
    rw [this]
    have hs : s.dics.set d dic = s.dics := by
      apply List.ext_getElem?
      intro n
      by_cases hn : n = d
      · subst hn
        rw [List.getElem?_set_self (List.getElem?_eq_some_iff.mp h).1, h]
      · rw [List.getElem?_set_ne (by omega)]
    rw [hs]

theorem inv_set {s : Process} (hI : Inv s) {d : Nat} {dic : Dic} (hg : Good (Held s d) dic) : Inv { s with dics := s.dics.set d dic } := by
  refine ⟨?_, ?_, hI.nodup, hI.short⟩
  · intro n x hx
    by_cases hn : n = d
    · subst hn
      have hlt : n < s.dics.length := by
        have := (List.getElem?_eq_some_iff.mp hx).1
        simpa using this
      dsimp only at hx
      rw [List.getElem?_set_self hlt] at hx
      cases hx
      exact hg
    · dsimp only at hx
      rw [List.getElem?_set_ne (by omega)] at hx
      exact hI.dics n x hx
  · intro n hn
    have := hI.known n hn
    simpa using this

theorem inv_step {s : Process} (hI : Inv s) (o : Op) : Inv (step s o).1 := by
  cases o with
  | opens n =>
    show Inv { s with dics := s.dics ++ [⟨true, List.replicate (n + 1) ⟨true, true⟩⟩] }
    refine ⟨?_, ?_, hI.nodup, hI.short⟩
    · intro d dic h
      dsimp only at h
      rw [List.getElem?_append] at h
      split at h
      · exact hI.dics d dic h
      · have : dic = ⟨true, List.replicate (n + 1) ⟨true, true⟩⟩ := by
          have := List.mem_of_getElem? h
          simpa using this
        subst this
        refine ⟨fun _ => ⟨by simp, fun f hf => (List.mem_replicate.mp hf).2⟩, fun h => (by cases h), fun _ f hf => by
          rw [(List.mem_replicate.mp hf).2], fun f hf _ => by rw [(List.mem_replicate.mp hf).2]⟩
    · intro d h
      have := hI.known d h
      simp only [List.length_append]
      omega
  | create d =>
    unfold step
    dsimp only
    cases h : s.dics[d]? with
    | none => exact hI
    | some dic =>
      dsimp only
      split
      · rename_i hl
        refine ⟨?_, ?_, hI.nodup, hI.short⟩
        · intro n x hx
          have hg := hI.dics n x hx
          refine ⟨hg.live, hg.closed, ?_, hg.whole⟩
          rintro (hn | hn)
          · rcases List.mem_append.mp hn with hn | hn
            · exact hg.held (.inl hn)
            · have : n = d := by simpa using hn
              subst this
              have hx : s.dics[n]? = some x := hx
              rw [hx] at h
              cases h
              intro f hf
              rw [(hg.live hl).2 f hf]
          · exact hg.held (.inr hn)
        · rintro n (hn | hn)
          · rcases List.mem_append.mp hn with hn | hn
            · exact hI.known n (.inl hn)
            · have : n = d := by simpa using hn
              subst this
              exact (List.getElem?_eq_some_iff.mp h).1
          · exact hI.known n (.inr hn)
      · exact hI
  | more k =>
    unfold step
    dsimp only
    cases h : s.holders[k]? with
    | none => exact hI
    | some d =>
      have hd : d ∈ s.holders := List.mem_of_getElem? h
      have key : ∀ n, Held { s with holders := s.holders ++ [d] } n → Held s n := by
        rintro n (hn | hn)
        · rcases List.mem_append.mp hn with hn | hn
          · exact .inl hn
          · have : n = d := by simpa using hn
            exact .inl (this ▸ hd)
        · exact .inr hn
      exact ⟨fun n x hx => (hI.dics n x hx).imp (key n), fun n hn => hI.known n (key n hn), hI.nodup, hI.short⟩
  | drop k =>
    show Inv { s with holders := s.holders.eraseIdx k }
    have key : ∀ n, Held { s with holders := s.holders.eraseIdx k } n → Held s n := by
      rintro n (hn | hn)
      · exact .inl ((List.eraseIdx_sublist _ _).subset hn)
      · exact .inr hn
    exact ⟨fun n x hx => (hI.dics n x hx).imp (key n), fun n hn => hI.known n (key n hn), hI.nodup, hI.short⟩
  | look d w =>
    unfold step
    dsimp only
    cases h : s.dics[d]? with
    | none => exact hI
    | some dic =>
      dsimp only
      split
      · rename_i hl
        refine ⟨?_, ?_, touch_nodup hI.nodup, touch_short⟩
        · intro n x hx
          have hg := hI.dics n x hx
          refine ⟨hg.live, hg.closed, ?_, hg.whole⟩
          rintro (hn | ⟨v, hn⟩)
          · exact hg.held (.inl hn)
          · rcases mem_touch hn with hn | hn
            · cases hn
              have hx : s.dics[d]? = some x := hx
              rw [hx] at h
              cases h
              rcases Bool.or_eq_true_iff.mp hl with hl | hl
              · intro f hf
                rw [(hg.live hl).2 f hf]
              · exact hg.held (.inl (List.contains_iff_mem.mp hl))
            · exact hg.held (.inr ⟨v, hn⟩)
        · rintro n (hn | ⟨v, hn⟩)
          · exact hI.known n (.inl hn)
          · rcases mem_touch hn with hn | hn
            · cases hn
              exact (List.getElem?_eq_some_iff.mp h).1
            · exact hI.known n (.inr ⟨v, hn⟩)
      · exact hI
  | close d =>
    unfold step
    dsimp only
    cases h : s.dics[d]? with
    | none => exact hI
    | some dic =>
      dsimp only
      have hg := hI.dics d dic h
      rcases close_cases hI h with ⟨hl, hh, e⟩ | ⟨hl, hh, f, fs, hf, e⟩ | ⟨hl, e⟩
      · rw [e]
        refine inv_set hI ⟨fun k => (by cases k), fun _ => ?_, fun k => absurd k hh, fun f hf hw => ?_⟩
        · obtain ⟨f, fs, hf⟩ := List.exists_cons_of_ne_nil (hg.live hl).1
          exact ⟨⟨false, false⟩, fs.map fun _ => ⟨false, false⟩, by rw [hf]; rfl, rfl⟩
        · obtain ⟨_, _, rfl⟩ := List.mem_map.mp hf
          cases hw
      · rw [e]
        refine inv_set hI ⟨fun k => (by cases k), fun _ => ⟨_, _, rfl, rfl⟩, fun _ => ?_, fun g hg' _ => ?_⟩
        all_goals have hm := hg.held hh; rw [hf] at hm
        · intro g hg'
          rcases List.mem_cons.mp hg' with rfl | hg'
          · exact hm f (by simp)
          · exact hm g (by simp [hg'])
        · rcases List.mem_cons.mp hg' with rfl | hg'
          · exact hm f (by simp)
          · exact hm g (by simp [hg'])
      · rw [e]
        exact hI

theorem inv_run : ∀ {ops : List Op} {s : Process}, Inv s → Inv (run s ops)
  | [], _, h => h
  | o :: ops, s, h => inv_run (ops := ops) (s := (step s o).1) (inv_step h o)

theorem Happens.inv {s : Process} (h : Happens s) : Inv s := by
  obtain ⟨ops, rfl⟩ := h
  exact inv_run inv_init

theorem Happens.run {s : Process} (h : Happens s) (ops : List Op) : Happens (run s ops) := by
  obtain ⟨ops', rfl⟩ := h
  refine ⟨ops' ++ ops, ?_⟩
  have : ∀ (a : List Op) (s : Process), Closing.run s (a ++ ops) = Closing.run (Closing.run s a) ops := by
    intro a
    induction a with
    | nil => intro s; rfl
    | cons o a ih => intro s; exact ih _
  rw [this]

/-! ### Closed for good -/

theorem closed_step {s : Process} (hI : Inv s) {d : Nat} {dic : Dic} (h : s.dics[d]? = some dic) (hl : dic.live = false) (o : Op) :
    (step s o).1.dics[d]? = some dic := by
  have hlt := (List.getElem?_eq_some_iff.mp h).1
  cases o with
  | opens n =>
    show (s.dics ++ _)[d]? = _
    rw [List.getElem?_append_left hlt]
    exact h
  | create e =>
    unfold step
    dsimp only
    cases s.dics[e]? with
    | none => exact h
    | some x => dsimp only; split <;> exact h
  | more i =>
    unfold step
    dsimp only
    cases s.holders[i]? <;> exact h
  | drop i => exact h
  | look e w =>
    unfold step
    dsimp only
    cases s.dics[e]? with
    | none => exact h
    | some x => dsimp only; split <;> exact h
  | close e =>
    unfold step
    dsimp only
    cases he : s.dics[e]? with
    | none => exact h
    | some x =>
      dsimp only
      by_cases hd : e = d
      · subst hd
        rw [h] at he
        cases he
        rcases close_cases hI h with ⟨k, _⟩ | ⟨k, _⟩ | ⟨_, k⟩
        · rw [hl] at k; cases k
        · rw [hl] at k; cases k
        · rw [k]; exact h
      · unfold Process.close
        dsimp only
        rw [List.getElem?_set_ne hd]
        exact h

theorem closed_run : ∀ {ops : List Op} {s : Process}, Inv s → ∀ {d : Nat} {dic : Dic}, s.dics[d]? = some dic → dic.live = false →
    (run s ops).dics[d]? = some dic
  | [], _, _, _, _, h, _ => h
  | o :: ops, s, hI, _, _, h, hl => closed_run (ops := ops) (s := (step s o).1) (inv_step hI o) (closed_step hI h hl o) hl

/-- A dictionary that nobody closes stays as it is. -/
theorem live_step {s : Process} {d : Nat} {dic : Dic} (h : s.dics[d]? = some dic) {o : Op} (ho : o ≠ .close d) :
    (step s o).1.dics[d]? = some dic := by
  have hlt := (List.getElem?_eq_some_iff.mp h).1
  cases o with
  | opens n =>
    show (s.dics ++ _)[d]? = _
    rw [List.getElem?_append_left hlt]
    exact h
  | create e =>
    unfold step
    dsimp only
    cases s.dics[e]? with
    | none => exact h
    | some x => dsimp only; split <;> exact h
  | more i =>
    unfold step
    dsimp only
    cases s.holders[i]? <;> exact h
  | drop i => exact h
  | look e w =>
    unfold step
    dsimp only
    cases s.dics[e]? with
    | none => exact h
    | some x => dsimp only; split <;> exact h
  | close e =>
    unfold step
    dsimp only
    cases he : s.dics[e]? with
    | none => exact h
    | some x =>
      unfold Process.close
      dsimp only
      rw [List.getElem?_set_ne (fun k => ho (by rw [k]))]
      exact h

theorem live_run : ∀ {ops : List Op} {s : Process} {d : Nat} {dic : Dic}, s.dics[d]? = some dic → (∀ o ∈ ops, o ≠ .close d) →
    (run s ops).dics[d]? = some dic
  | [], _, _, _, h, _ => h
  | o :: ops, s, _, _, h, ho => live_run (ops := ops) (s := (step s o).1) (live_step h (ho o (by simp))) (fun o' h' => ho o' (by simp [h']))

/-! ### What is alive -/

theorem alive_set {s : Process} {d : Nat} : Alive s (.set d) ↔ (∃ dic, s.dics[d]? = some dic ∧ dic.live = true) ∨ Held s d := by
  constructor
  · intro h
    cases h with
    | step ha hr =>
      cases hr with
      | dictionarySet h1 h2 => exact .inl ⟨_, h1, h2⟩
      | holderSet h1 => exact .inr (.inl (List.mem_of_getElem? h1))
      | cacheSet h1 => exact .inr (.inr ⟨_, h1⟩)
  · rintro (⟨dic, h1, h2⟩ | h | ⟨w, h⟩)
    · exact .step .dictionary (.dictionarySet h1 h2)
    · obtain ⟨i, hi⟩ := List.mem_iff_getElem?.mp h
      exact .step .holder (.holderSet (h := i) hi)
    · exact .step .cache (.cacheSet h)

theorem alive_lexicon {s : Process} {d i : Nat} : Alive s (.lexicon d i) ↔
    ∃ dic f, s.dics[d]? = some dic ∧ dic.files[i]? = some f ∧ (f.whole = true ∨ dic.live = true ∨ Held s d) := by
  constructor
  · intro h
    cases h with
    | step ha hr =>
      cases hr with
      | fileLexicon h1 h2 h3 => exact ⟨_, _, h1, h2, .inl h3⟩
      | @setLexicon _ _ dic h1 h2 =>
        refine ⟨_, _, h1, List.getElem?_eq_getElem h2, ?_⟩
        rcases alive_set.mp ha with ⟨dic', h3, h4⟩ | h3
        · rw [h1] at h3
          cases h3
          exact .inr (.inl h4)
        · exact .inr (.inr h3)
  · rintro ⟨dic, f, h1, h2, h3⟩
    have hlt := (List.getElem?_eq_some_iff.mp h2).1
    rcases h3 with h3 | h3
    · exact .step (.step .dictionary (.dictionaryFile h1 hlt)) (.fileLexicon h1 h2 h3)
    · refine .step (alive_set.mpr ?_) (.setLexicon h1 hlt)
      rcases h3 with h3 | h3
      · exact .inl ⟨dic, h1, h3⟩
      · exact .inr h3

theorem alive_grammar {s : Process} {d i : Nat} (h : Alive s (.grammar d i)) :
    (∃ dic f, s.dics[d]? = some dic ∧ dic.files[i]? = some f ∧ f.whole = true) ∨ (i = 0 ∧ ((∃ dic, s.dics[d]? = some dic ∧ dic.live = true) ∨ Held s d)) := by
  cases h with
  | step ha hr =>
    cases hr with
    | fileGrammar h1 h2 h3 => exact .inl ⟨_, _, h1, h2, h3⟩
    | dictionaryGrammar h1 h2 => exact .inr ⟨rfl, .inl ⟨_, h1, h2⟩⟩
    | holderGrammar h1 => exact .inr ⟨rfl, .inr (.inl (List.mem_of_getElem? h1))⟩

/-! ### The cache -/

theorem take_erase {k k' : Nat × Int} (hk : k ≠ k') : ∀ {l : List (Nat × Int)} {n : Nat}, k ∈ l.take n → k ∈ (l.erase k').take n
  | [], _, h => by simp at h
  | a :: l, 0, h => by simp at h
  | a :: l, n + 1, h => by
    rw [List.take_succ_cons] at h
    by_cases ha : a = k'
    · subst ha
      rw [List.erase_cons_head]
      rcases List.mem_cons.mp h with h | h
      · exact absurd h hk
      · exact (List.take_subset_take_left l (Nat.le_succ n)) h
    · rw [List.erase_cons_tail (by simpa using ha), List.take_succ_cons]
      rcases List.mem_cons.mp h with h | h
      · simp [h]
      · exact List.mem_cons_of_mem _ (take_erase hk h)

theorem touch_keeps {cache : List (Nat × Int)} {k k' : Nat × Int} {n : Nat} (h : k ∈ cache.take n) (hn : n < 1024) :
    k ∈ (touch cache k').take (n + 1) := by
  unfold touch
  rw [List.take_take, Nat.min_eq_left (by omega), List.take_succ_cons]
  by_cases hk : k = k'
  · simp [hk]
  · exact List.mem_cons_of_mem _ (take_erase hk h)

theorem step_keeps {s : Process} {k : Nat × Int} {n : Nat} (o : Op) (h : k ∈ s.cache.take n) (hn : n + looks [o] ≤ 1024) :
    k ∈ (step s o).1.cache.take (n + looks [o]) := by
  cases o with
  | opens u => exact h
  | create d =>
    unfold step
    dsimp only [looks, Nat.add_zero]
    cases s.dics[d]? with
    | none => exact h
    | some dic => dsimp only; split <;> exact h
  | more i =>
    unfold step
    dsimp only [looks, Nat.add_zero]
    cases s.holders[i]? <;> exact h
  | drop i => exact h
  | look d w =>
    unfold step
    dsimp only [looks, Nat.zero_add]
    have h' : k ∈ s.cache.take (n + 1) := (List.take_subset_take_left _ (Nat.le_succ n)) h
    cases s.dics[d]? with
    | none => exact h'
    | some dic =>
      dsimp only
      split
      · exact touch_keeps h (by simp only [looks] at hn; omega)
      · exact h'
  | close d =>
    unfold step
    dsimp only [looks, Nat.add_zero]
    cases s.dics[d]? with
    | none => exact h
    | some dic => exact h

theorem looks_cons (o : Op) (ops : List Op) : looks (o :: ops) = looks [o] + looks ops := by
  cases o <;> simp [looks] <;> omega

theorem run_keeps : ∀ {ops : List Op} {s : Process} {k : Nat × Int} {n : Nat}, k ∈ s.cache.take n → n + looks ops ≤ 1024 → k ∈ (run s ops).cache
  | [], _, _, _, h, _ => List.mem_of_mem_take h
  | o :: ops, s, k, n, h, hn => by
    rw [looks_cons] at hn
    exact run_keeps (ops := ops) (s := (step s o).1) (step_keeps o h (by omega)) (by omega)

/-- What the cache keeps of the words asked for last: the others are forgotten before them. -/
def Recent (touched cache : List (Nat × Int)) : Prop :=
  (∀ k ∈ cache, k ∈ touched) ∨ ∃ a b, cache = a ++ b ∧ (∀ k ∈ a, k ∈ touched) ∧ ∀ k ∈ touched, k ∈ a

theorem recent_touch {touched cache : List (Nat × Int)} (h : Recent touched cache) (hs : cache.length ≤ 1024) (k : Nat × Int) :
    Recent (touched ++ [k]) (touch cache k) := by
  rcases h with h | ⟨a, b, rfl, h1, h2⟩
  · refine .inl fun x hx => ?_
    rcases mem_touch hx with rfl | hx
    · simp
    · simp [h x hx]
  · by_cases hfit : (k :: (a ++ b).erase k).length ≤ 1024
    · have ht : touch (a ++ b) k = k :: (a ++ b).erase k := by
        unfold touch
        exact List.take_of_length_le hfit
      rw [ht]
      by_cases ha : k ∈ a
      · refine .inr ⟨k :: a.erase k, b, by rw [List.erase_append_left _ ha]; rfl, ?_, ?_⟩
        · intro x hx
          rcases List.mem_cons.mp hx with rfl | hx
          · simp
          · simp [h1 x (List.mem_of_mem_erase hx)]
        · intro x hx
          by_cases hxk : x = k
          · simp [hxk]
          · rcases List.mem_append.mp hx with hx | hx
            · exact List.mem_cons_of_mem _ ((List.mem_erase_of_ne hxk).mpr (h2 x hx))
            · simp at hx; exact absurd hx hxk
      · refine .inr ⟨k :: a, b.erase k, by rw [List.erase_append_right _ ha]; rfl, ?_, ?_⟩
        · intro x hx
          rcases List.mem_cons.mp hx with rfl | hx
          · simp
          · simp [h1 x hx]
        · intro x hx
          rcases List.mem_append.mp hx with hx | hx
          · simp [h2 x hx]
          · simp at hx; simp [hx]
    · -- the cache is full and `k` is new
      have hnew : k ∉ a ++ b := by
        intro hk
        rw [List.length_cons, List.length_erase_of_mem hk] at hfit
        have := List.length_pos_of_mem hk
        omega
      have ht : touch (a ++ b) k = (k :: (a ++ b)).take 1024 := by
        unfold touch
        rw [List.erase_of_not_mem hnew]
      rw [ht]
      by_cases hb : a.length + 1 ≤ 1024
      · refine .inr ⟨k :: a, b.take (1024 - (a.length + 1)), ?_, ?_, ?_⟩
        · rw [← List.cons_append, List.take_append, List.take_of_length_le (by simpa using hb)]
          rfl
        · intro x hx
          rcases List.mem_cons.mp hx with rfl | hx
          · simp
          · simp [h1 x hx]
        · intro x hx
          rcases List.mem_append.mp hx with hx | hx
          · simp [h2 x hx]
          · simp at hx; simp [hx]
      · have hb0 : b = [] := by
          rw [List.length_append] at hs
          exact List.length_eq_zero_iff.mp (by omega)
        subst hb0
        refine .inl fun x hx => ?_
        rcases List.mem_cons.mp (List.mem_of_mem_take hx) with rfl | hx
        · simp
        · simp at hx; simp [h1 x hx]

/-- After 1024 different other keys nothing else is left. -/
theorem Recent.only {touched cache l : List (Nat × Int)} (h : Recent touched cache) (hs : cache.length ≤ 1024) (hl : l.Nodup)
    (hn : l.length = 1024) (hsub : ∀ k ∈ l, k ∈ touched) : ∀ k ∈ cache, k ∈ touched := by
  rcases h with h | ⟨a, b, rfl, h1, h2⟩
  · exact h
  · have hle : l.length ≤ a.length := hl.length_le_of_subset (fun x hx => h2 x (hsub x hx))
    rw [List.length_append] at hs
    have : b = [] := List.length_eq_zero_iff.mp (by omega)
    subst this
    intro k hk
    simp at hk
    exact h1 k hk

theorem run_looks : ∀ {ks : List (Nat × Int)} {s : Process} {touched : List (Nat × Int)}, Inv s → Recent touched s.cache →
    (∀ k ∈ ks, ∃ dic, s.dics[k.1]? = some dic ∧ dic.live = true) →
    Recent (touched ++ ks) (run s (ks.map fun k => .look k.1 k.2)).cache ∧
    (run s (ks.map fun k => .look k.1 k.2)).holders = s.holders
  | [], s, touched, _, h, _ => by simpa [run] using h
  | k :: ks, s, touched, hI, h, hk => by
    obtain ⟨dic, h1, h2⟩ := hk k (by simp)
    have e : step s (.look k.1 k.2) = ({ s with cache := touch s.cache k }, .ok ()) := by
      unfold step
      dsimp only
      rw [h1]
      dsimp only
      rw [h2]
      rfl
    have hI' := inv_step hI (.look k.1 k.2)
    have ih := run_looks (ks := ks) (s := (step s (.look k.1 k.2)).1) (touched := touched ++ [k]) hI' (by rw [e]; exact recent_touch h hI.short k)
      (fun k' hk' => by rw [e]; exact hk k' (by simp [hk']))
    have ea : touched ++ [k] ++ ks = touched ++ k :: ks := by simp
    rw [ea] at ih
    refine ⟨ih.1, ih.2.trans ?_⟩
    rw [e]

end Sudachi.Closing
