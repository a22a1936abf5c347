/-
C86: closing a dictionary.
-/
import Verif.Lemmas.Close
namespace Sudachi.Closing

/-- **C86** The views that closing a file meets are those of the objects that are alive. -/
theorem C86_viewed (s : Process) (d i : Nat) (dic : Dic) (f : File) (hd : s.dics[d]? = some dic) (hl : dic.live = false)
    (hf : dic.files[i]? = some f) (hw : f.whole = false) : s.exported d i = true ↔ Viewed s d i := by
  rw [exported_iff]
  unfold Viewed
  constructor
  · intro h
    exact .inr (alive_lexicon.mpr ⟨dic, f, hd, hf, .inr (.inr h)⟩)
  · rintro (h | h)
    · rcases alive_grammar h with ⟨dic', f', h1, h2, h3⟩ | ⟨_, ⟨dic', h1, h2⟩ | h⟩
      · rw [hd] at h1; cases h1
        rw [hf] at h2; cases h2
        rw [hw] at h3; cases h3
      · rw [hd] at h1; cases h1
        rw [hl] at h2; cases h2
      · exact h
    · obtain ⟨dic', f', h1, h2, h3⟩ := alive_lexicon.mp h
      rw [hd] at h1; cases h1
      rw [hf] at h2; cases h2
      rcases h3 with h3 | h3 | h3
      · rw [hw] at h3; cases h3
      · rw [hl] at h3; cases h3
      · exact h3

/-- **C86** Whatever a program does: what a live object reads is there.  No tokenizer, result or dictionary finds a file closed under
its feet. -/
theorem C86_safe (s : Process) (h : Happens s) (d i : Nat) (hv : Viewed s d i) (hd : ∃ dic, s.dics[d]? = some dic ∧ i < dic.files.length) :
    Readable s d i := by
  obtain ⟨dic, h1, hi⟩ := hd
  have hg := h.inv.dics d dic h1
  obtain ⟨f, hf⟩ : ∃ f, dic.files[i]? = some f := ⟨_, List.getElem?_eq_getElem hi⟩
  have hm := List.mem_of_getElem? hf
  refine ⟨dic, f, h1, hf, ?_⟩
  have live : dic.live = true → f.mapped = true := fun hl => by rw [(hg.live hl).2 f hm]
  rcases hv with hv | hv
  · rcases alive_grammar hv with ⟨dic', f', k1, k2, k3⟩ | ⟨_, ⟨dic', k1, k2⟩ | k⟩
    · rw [h1] at k1; cases k1
      rw [hf] at k2; cases k2
      exact hg.whole f hm k3
    · rw [h1] at k1; cases k1
      exact live k2
    · exact hg.held k f hm
  · obtain ⟨dic', f', k1, k2, k3⟩ := alive_lexicon.mp hv
    rw [h1] at k1; cases k1
    rw [hf] at k2; cases k2
    rcases k3 with k3 | k3 | k3
    · exact hg.whole f hm k3
    · exact live k3
    · exact hg.held k3 f hm

/-- **C86** Tokenizers and results belong to dictionaries, and all the files of these can be read. -/
theorem C86_tokenizers (s : Process) (h : Happens s) (d : Nat) (hd : d ∈ s.holders) :
    ∃ dic, s.dics[d]? = some dic ∧ ∀ i, i < dic.files.length → Readable s d i := by
  have hk := h.inv.known d (.inl hd)
  refine ⟨s.dics[d], List.getElem?_eq_getElem hk, fun i hi => ?_⟩
  refine C86_safe s h d i (.inr ?_) ⟨_, List.getElem?_eq_getElem hk, hi⟩
  exact alive_lexicon.mpr ⟨_, _, List.getElem?_eq_getElem hk, List.getElem?_eq_getElem hi, .inr (.inr (.inl hd))⟩

/-- **C86** `close` succeeds exactly when the dictionary has not been closed before, there is no tokenizer or result of it left, and the
cache remembers none of its words.  Then none of its files can be read any more. -/
theorem C86_close (s : Process) (h : Happens s) (d : Nat) (dic : Dic) (hd : s.dics[d]? = some dic) :
    ((step s (.close d)).2 = .ok () ↔ dic.live = true ∧ d ∉ s.holders ∧ ∀ w, (d, w) ∉ s.cache) ∧
    ((step s (.close d)).2 = .ok () → ∀ i, ¬ Readable (step s (.close d)).1 d i) := by
  have hlt := (List.getElem?_eq_some_iff.mp hd).1
  have e : step s (.close d) = s.close d dic := by unfold step; dsimp only; rw [hd]
  rw [e]
  rcases close_cases h.inv hd with ⟨hl, hh, k⟩ | ⟨hl, hh, f, fs, hf, k⟩ | ⟨hl, k⟩ <;> rw [k]
  · refine ⟨⟨fun _ => ⟨hl, fun x => hh (.inl x), fun w x => hh (.inr ⟨w, x⟩)⟩, fun _ => rfl⟩, fun _ i => ?_⟩
    rintro ⟨dic', f, h1, h2, h3⟩
    dsimp only at h1
    rw [List.getElem?_set_self hlt] at h1
    cases h1
    obtain ⟨_, _, rfl⟩ := List.mem_map.mp (List.mem_of_getElem? h2)
    cases h3
  · refine ⟨⟨fun x => (by cases x), fun ⟨_, x, y⟩ => ?_⟩, fun x => (by cases x)⟩
    rcases hh with hh | ⟨w, hh⟩
    · exact absurd hh x
    · exact absurd hh (y w)
  · refine ⟨⟨fun x => (by cases x), fun ⟨x, _⟩ => ?_⟩, fun x => (by cases x)⟩
    rw [hl] at x
    cases x

/-- **C86** Otherwise it raises: `AttributeError` if the dictionary has been closed before, and nothing changes; else `BufferError`, and
all the files can still be read. -/
theorem C86_raises (s : Process) (h : Happens s) (d : Nat) (dic : Dic) (hd : s.dics[d]? = some dic) :
    ((step s (.close d)).2 = .error .attribute ↔ dic.live = false) ∧
    (dic.live = false → step s (.close d) = (s, .error .attribute)) ∧
    ((step s (.close d)).2 = .error .buffer ↔ dic.live = true ∧ (d ∈ s.holders ∨ ∃ w, (d, w) ∈ s.cache)) ∧
    ((step s (.close d)).2 = .error .buffer → ∀ i, i < dic.files.length → Readable (step s (.close d)).1 d i) := by
  have hlt := (List.getElem?_eq_some_iff.mp hd).1
  have hg := h.inv.dics d dic hd
  have e : step s (.close d) = s.close d dic := by unfold step; dsimp only; rw [hd]
  rw [e]
  rcases close_cases h.inv hd with ⟨hl, hh, k⟩ | ⟨hl, hh, f, fs, hf, k⟩ | ⟨hl, k⟩ <;> rw [k, hl]
  · exact ⟨⟨fun x => (by cases x), fun x => (by cases x)⟩, fun x => (by cases x), ⟨fun x => (by cases x), fun ⟨_, x⟩ => absurd x hh⟩,
      fun x => (by cases x)⟩
  · refine ⟨⟨fun x => (by cases x), fun x => (by cases x)⟩, fun x => (by cases x), ⟨fun _ => ⟨rfl, hh⟩, fun _ => rfl⟩, fun _ i hi => ?_⟩
    have hm := hg.held hh
    rw [hf] at hm hi
    cases i with
    | zero => exact ⟨_, _, List.getElem?_set_self hlt, rfl, hm f (by simp)⟩
    | succ i =>
      have hi' : i < fs.length := by simpa using hi
      exact ⟨_, fs[i], List.getElem?_set_self hlt, List.getElem?_eq_getElem hi', hm _ (List.mem_cons_of_mem _ (List.getElem_mem _))⟩
  · exact ⟨⟨fun _ => rfl, fun _ => rfl⟩, fun _ => rfl, ⟨fun x => (by cases x), fun ⟨x, _⟩ => (by cases x)⟩, fun x => (by cases x)⟩

/-- **C86** There is one chance: after a call of `close`, whether it raises or not, every later call of `close` and of `create` raises
`AttributeError`, whatever happens between.  A dictionary that could not be closed has its files mapped for ever. -/
theorem C86_once (s : Process) (h : Happens s) (d : Nat) (dic : Dic) (hd : s.dics[d]? = some dic) (ops : List Op) :
    (step (run (step s (.close d)).1 ops) (.close d)).2 = .error .attribute ∧
    (step (run (step s (.close d)).1 ops) (.create d)).2 = .error .attribute ∧
    ((step s (.close d)).2 = .error .buffer → ∀ i, i < dic.files.length → Readable (run (step s (.close d)).1 ops) d i) := by
  have hlt := (List.getElem?_eq_some_iff.mp hd).1
  have e : step s (.close d) = s.close d dic := by unfold step; dsimp only; rw [hd]
  have hI := h.inv
  have hc : ∃ dic', (step s (.close d)).1.dics[d]? = some dic' ∧ dic'.live = false := by
    rw [e]
    rcases close_cases hI hd with ⟨_, _, k⟩ | ⟨_, _, f, fs, _, k⟩ | ⟨hl, k⟩ <;> rw [k]
    · exact ⟨_, List.getElem?_set_self hlt, rfl⟩
    · exact ⟨_, List.getElem?_set_self hlt, rfl⟩
    · exact ⟨dic, hd, hl⟩
  obtain ⟨dic', h1, h2⟩ := hc
  have hI1 := inv_step hI (.close d)
  have hr := closed_run (ops := ops) hI1 h1 h2
  have hH : Happens (run (step s (.close d)).1 ops) := by
    have := (h.run (.close d :: ops))
    exact this
  refine ⟨((C86_raises _ hH d dic' hr).1).mpr h2, ?_, fun hb i hi => ?_⟩
  · unfold step
    dsimp only
    unfold step at hr
    dsimp only at hr
    rw [hr]
    dsimp only
    rw [h2]
    rfl
  · obtain ⟨x, f, k1, k2, k3⟩ := (C86_raises s h d dic hd).2.2.2 hb i hi
    rw [h1] at k1
    cases k1
    exact ⟨dic', f, hr, k2, k3⟩

/-- **C86** The cache is enough to make it fail: for at least 1023 further words after one of `d` has been asked for, `d` cannot be
closed, even when all the tokenizers and results are gone. -/
theorem C86_remembered (s : Process) (h : Happens s) (d : Nat) (dic : Dic) (hd : s.dics[d]? = some dic) (hl : dic.live = true) (w : Int)
    (ops : List Op) (hn : looks ops < 1024) (hc : ∀ o ∈ ops, o ≠ .close d) :
    (step (run (step s (.look d w)).1 ops) (.close d)).2 = .error .buffer := by
  have e : step s (.look d w) = ({ s with cache := touch s.cache (d, w) }, .ok ()) := by
    unfold step
    dsimp only
    rw [hd]
    dsimp only
    rw [hl]
    rfl
  have hm : (d, w) ∈ (run (step s (.look d w)).1 ops).cache := by
    refine run_keeps (n := 1) ?_ (by omega)
    rw [e]
    unfold touch
    simp
  have hr : (run (step s (.look d w)).1 ops).dics[d]? = some dic := live_run (by rw [e]; exact hd) hc
  have hH : Happens (run (step s (.look d w)).1 ops) := h.run (.look d w :: ops)
  exact ((C86_raises _ hH d dic hr).2.2.1).mpr ⟨hl, .inr ⟨w, hm⟩⟩

/-- **C86** It works again when 1024 different words of other dictionaries have been asked for since. -/
theorem C86_forgotten (s : Process) (h : Happens s) (d : Nat) (dic : Dic) (hd : s.dics[d]? = some dic) (hl : dic.live = true)
    (hn : d ∉ s.holders) (ks l : List (Nat × Int)) (hk : ∀ k ∈ ks, k.1 ≠ d ∧ ∃ x, s.dics[k.1]? = some x ∧ x.live = true)
    (h1 : l.Nodup) (h2 : l.length = 1024) (h3 : ∀ k ∈ l, k ∈ ks) :
    (step (run s (ks.map fun k => .look k.1 k.2)) (.close d)).2 = .ok () := by
  have hI := h.inv
  have hH := h.run (ks.map fun k => .look k.1 k.2)
  obtain ⟨r1, r2⟩ := run_looks (touched := []) hI (.inr ⟨[], s.cache, rfl, by simp, by simp⟩) (fun k hk' => (hk k hk').2)
  have hr : (run s (ks.map fun k => .look k.1 k.2)).dics[d]? = some dic := by
    refine live_run hd ?_
    intro o ho
    obtain ⟨k, _, rfl⟩ := List.mem_map.mp ho
    intro x
    cases x
  refine (C86_close _ hH d dic hr).1.mpr ⟨hl, by rw [r2]; exact hn, fun w hw => ?_⟩
  have := r1.only hH.inv.short h1 h2 (fun k hk => by simpa using h3 k hk) _ hw
  simp only [List.nil_append] at this
  exact (hk _ this).1 rfl

/-! ### Cases -/

/-- A tokenizer is made, a word of its result is looked at, and all is dropped. -/
def used : List Op := [.opens 1, .create 0, .more 0, .look 0 5, .drop 1, .drop 0]

/-- **C86** "A dictionary can be closed when its tokenizers and results are gone" is false: nothing is left but the cache, and `close`
raises `BufferError`. -/
theorem C86_violated : (run .init used).holders = [] ∧ (step (run .init used) (.close 0)).2 = .error .buffer ∧
    (step (step (run .init used) (.close 0)).1 (.close 0)).2 = .error .attribute := by decide

/-- Had no word been looked at, it would have worked. -/
example : (step (run .init [.opens 1, .create 0, .drop 0]) (.close 0)).2 = .ok () ∧
    ∀ i, ¬ Readable (step (run .init [.opens 1, .create 0, .drop 0]) (.close 0)).1 0 i :=
  ⟨by decide, (C86_close _ ⟨_, rfl⟩ 0 ⟨true, [⟨true, true⟩, ⟨true, true⟩]⟩ (by decide)).2 (by decide)⟩

/-- The cache, without looking at it. -/
example : (step (run (step (run .init [.opens 0]) (.look 0 7)).1 [.opens 2, .look 1 3, .look 1 4]) (.close 0)).2 = .error .buffer :=
  C86_remembered _ ⟨_, rfl⟩ 0 ⟨true, [⟨true, true⟩]⟩ (by decide) rfl 7 _ (by decide) (by decide)

/-- The words 0 to 1023 of the second dictionary. -/
def others : List (Nat × Int) := (List.range 1024).map fun w => (1, Int.ofNat w)

/-- Another dictionary makes the cache forget. -/
example : (step (run (run .init [.opens 0, .opens 0, .look 0 7]) (others.map fun k => .look k.1 k.2)) (.close 0)).2 = .ok () := by
  refine C86_forgotten _ ⟨_, rfl⟩ 0 ⟨true, [⟨true, true⟩]⟩ (by decide) rfl (by decide) others others ?_ ?_ (by simp [others]) (fun k hk => hk)
  · intro k hk
    obtain ⟨w, _, rfl⟩ := List.mem_map.mp hk
    exact ⟨(by decide : (1 : Nat) ≠ 0), ⟨true, [⟨true, true⟩]⟩, rfl, rfl⟩
  · exact List.nodup_range.map _ (fun a b hab e => hab (Int.ofNat.inj (Prod.mk.inj e).2))

/-- A tokenizer goes on after an attempt to close its dictionary. -/
example : ∃ dic, (run .init [.opens 1, .create 0, .close 0, .more 0]).dics[0]? = some dic ∧
    ∀ i, i < dic.files.length → Readable (run .init [.opens 1, .create 0, .close 0, .more 0]) 0 i :=
  C86_tokenizers _ ⟨_, rfl⟩ 0 (by decide)

end Sudachi.Closing
