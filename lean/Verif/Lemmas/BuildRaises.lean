/-
Lemmas: exceptions of the steps of a build.
-/
import Verif.Spec.BuildRaises
import Verif.Lemmas.Buildable5
namespace Sudachi

/-! ### Checks in order -/

/-- None of the checks fails. -/
def Passes (l : List Check) : Prop := ∀ c ∈ l, ¬ c.2

theorem not_fails {l : List Check} : ∀ {e : Err}, Passes l → ¬ Fails l e := by
  induction l with
  | nil => intro e _ h; exact h
  | cons c l ih =>
    intro e h hf
    rcases hf with ⟨h1, _⟩ | ⟨_, h2⟩
    · exact h c (by simp) h1
    · exact ih (fun x hx => h x (by simp [hx])) h2

theorem fails_append {l m : List Check} {e : Err} : Fails (l ++ m) e ↔ Fails l e ∨ (Passes l ∧ Fails m e) := by
  induction l with
  | nil => exact ⟨fun h => .inr ⟨fun _ hc => (by cases hc), h⟩, fun h => h.elim (fun h => h.elim) (·.2)⟩
  | cons c l ih =>
    simp only [List.cons_append, Fails]
    rw [ih]
    constructor
    · rintro (h | ⟨h1, h2 | ⟨h2, h3⟩⟩)
      · exact .inl (.inl h)
      · exact .inl (.inr ⟨h1, h2⟩)
      · refine .inr ⟨?_, h3⟩
        intro x hx
        rcases List.mem_cons.1 hx with rfl | hx
        · exact h1
        · exact h2 x hx
    · rintro ((h | ⟨h1, h2⟩) | ⟨h1, h2⟩)
      · exact .inl h
      · exact .inr ⟨h1, .inl h2⟩
      · exact .inr ⟨h1 c (by simp), .inr ⟨fun x hx => h1 x (by simp [hx]), h2⟩⟩

theorem passes_or_fails (l : List Check) : Passes l ∨ ∃ e, Fails l e := by
  induction l with
  | nil => exact .inl fun _ hc => (by cases hc)
  | cons c l ih =>
    by_cases hc : c.2
    · exact .inr ⟨c.1, .inl ⟨hc, rfl⟩⟩
    · rcases ih with h | ⟨e, h⟩
      · left
        intro x hx
        rcases List.mem_cons.1 hx with rfl | hx
        · exact hc
        · exact h x hx
      · exact .inr ⟨e, .inr ⟨hc, h⟩⟩

theorem passes_append {l m : List Check} : Passes (l ++ m) ↔ Passes l ∧ Passes m := by
  constructor
  · intro h; exact ⟨fun x hx => h x (by simp [hx]), fun x hx => h x (by simp [hx])⟩
  · rintro ⟨h1, h2⟩ x hx
    rcases List.mem_append.1 hx with hx | hx
    · exact h1 x hx
    · exact h2 x hx

/-- Two checks with the same exception are one. -/
theorem fails_congr {l m : List Check} (h : ∀ e, Fails l e ↔ Fails m e) : Passes l ↔ Passes m := by
  constructor
  · intro hp
    rcases passes_or_fails m with h1 | ⟨e, h1⟩
    · exact h1
    · exact (not_fails hp ((h e).2 h1)).elim
  · intro hp
    rcases passes_or_fails l with h1 | ⟨e, h1⟩
    · exact h1
    · exact (not_fails hp ((h e).1 h1)).elim

/-- A computation that raises exactly what the checks say. -/
def Exact {α : Type} (r : Res α) (l : List Check) : Prop := ∀ e, r = .error e ↔ Fails l e

namespace Exact

variable {α β : Type}

theorem ok {a : α} {l : List Check} (h : Passes l) : Exact (.ok a : Res α) l :=
  fun _ => ⟨fun h => (by cases h), fun hf => (not_fails h hf).elim⟩

theorem nil {r : Res α} (h : ∃ a, r = .ok a) : Exact r [] := by
  obtain ⟨a, rfl⟩ := h
  exact ok fun _ hc => (by cases hc)

theorem passes_iff {r : Res α} {l : List Check} (h : Exact r l) : (∃ a, r = .ok a) ↔ Passes l := by
  constructor
  · rintro ⟨a, rfl⟩
    rcases passes_or_fails l with h1 | ⟨e, h1⟩
    · exact h1
    · cases (h e).2 h1
  · intro hp
    cases r with
    | ok a => exact ⟨a, rfl⟩
    | error e => exact (not_fails hp ((h e).1 rfl)).elim

theorem bind {r : Res α} {f : α → Res β} {l m : List Check} (hr : Exact r l) (hf : ∀ a, r = .ok a → Exact (f a) m) :
    Exact (r >>= f) (l ++ m) := by
  intro e
  rw [fails_append]
  cases r with
  | error x =>
    constructor
    · intro h
      cases h
      exact .inl ((hr _).1 rfl)
    · rintro (h | ⟨h, _⟩)
      · have := (hr e).2 h; cases this; rfl
      · obtain ⟨a, ha⟩ := hr.passes_iff.2 h; cases ha
  | ok a =>
    have hp := hr.passes_iff.1 ⟨a, rfl⟩
    constructor
    · intro h; exact .inr ⟨hp, (hf a rfl e).1 h⟩
    · rintro (h | ⟨_, h⟩)
      · exact (not_fails hp h).elim
      · exact (hf a rfl e).2 h

/-- A last step that cannot fail. -/
theorem map {r : Res α} {f : α → Res β} {l : List Check} (hr : Exact r l) (hf : ∀ a, r = .ok a → ∃ b, f a = .ok b) : Exact (r >>= f) l := by
  have := hr.bind (m := []) fun a ha => nil (hf a ha)
  rwa [List.append_nil] at this

theorem congr {r : Res α} {l m : List Check} (h : Exact r l) (he : ∀ e, Fails l e ↔ Fails m e) : Exact r m :=
  fun e => (h e).trans (he e)

/-- One check. -/
theorem one {r : Res α} {x : Err} {p : Prop} (h1 : p → r = .error x) (h2 : ¬ p → ∃ a, r = .ok a) : Exact r [(x, p)] := by
  by_cases hp : p
  · rw [h1 hp]
    intro e
    constructor
    · intro h; cases h; exact .inl ⟨hp, rfl⟩
    · rintro (⟨_, rfl⟩ | ⟨h, _⟩)
      · rfl
      · exact (h hp).elim
  · obtain ⟨a, rfl⟩ := h2 hp
    exact ok (by intro c hc; rw [List.mem_singleton.1 hc]; exact hp)

/-- One kind of exception only. -/
theorem one' {r : Res α} {x : Err} {p : Prop} (h1 : ∀ e, r = .error e → e = x) (h2 : (∃ a, r = .ok a) ↔ ¬ p) : Exact r [(x, p)] := by
  refine one ?_ h2.2
  intro hp
  cases r with
  | ok a => exact (h2.1 ⟨a, rfl⟩ hp).elim
  | error e => rw [h1 e rfl]

end Exact

/-- The same for a step that writes. -/
def ExactOut (o : Out) (l : List Check) : Prop := ∀ e, o.2 = .error e ↔ Fails l e

namespace ExactOut

theorem passes_iff {o : Out} {l : List Check} (h : ExactOut o l) : o.2 = .ok () ↔ Passes l := by
  have := Exact.passes_iff (r := o.2) h
  rw [← this]
  exact ⟨fun h => ⟨(), h⟩, fun ⟨_, h⟩ => h⟩

theorem withRes {α : Type} {r : Res α} {f : α → Out} {l m : List Check} (hr : Exact r l) (hf : ∀ a, r = .ok a → ExactOut (f a) m) :
    ExactOut (Out.withRes r f) (l ++ m) := by
  have h : (Out.withRes r f).2 = r >>= fun a => (f a).2 := by cases r <;> rfl
  intro e
  rw [h]
  exact Exact.bind hr hf e

theorem andThen {a : Out} {b : Unit → Out} {l m : List Check} (ha : ExactOut a l) (hb : a.2 = .ok () → ExactOut (b ()) m) :
    ExactOut (a.andThen b) (l ++ m) := by
  have h : (a.andThen b).2 = a.2 >>= fun _ => (b ()).2 := by
    obtain ⟨ops, r⟩ := a
    cases r <;> rfl
  intro e
  rw [h]
  exact Exact.bind (r := a.2) ha (fun u hu => hb hu) e

theorem ok (ops : List OutOp) : ExactOut (ops, .ok ()) [] := fun _ => ⟨fun h => (by cases h), fun h => h.elim⟩

theorem write {r : Res Bytes} {l : List Check} (h : Exact r l) : ExactOut (Out.withRes r Out.write) l := by
  have := withRes h (m := []) fun a _ => ok [.write a]
  rwa [List.append_nil] at this

end ExactOut

/-! ### Numbers and texts -/

theorem writeInt_exact {v : Int} {t : IntType} {s : Bool} {p : Prop} (h : (∃ b, writeInt v t s = .ok b) ↔ ¬ p) :
    Exact (writeInt v t s) [(.overflow, p)] := by
  refine Exact.one' ?_ h
  intro e he
  have key : ∀ (n : Nat) (sg : Bool), toBytes n sg v = .error e → e = .overflow := by
    intro n sg h
    unfold toBytes at h
    split at h <;> split at h <;> cases h <;> rfl
  cases t <;> exact key _ _ he

theorem writeInt_short_exact {v : Int} : Exact (writeInt v .short) [(.overflow, ¬ FitsShort v)] :=
  writeInt_exact (by rw [writeInt_short_iff, Classical.not_not])

theorem writeInt_int_exact {v : Int} : Exact (writeInt v .int) [(.overflow, ¬ FitsInt v)] :=
  writeInt_exact (by rw [writeInt_int_iff, Classical.not_not])

theorem all_clean {s : PStr} : s.all encodable = true ↔ Clean s := List.all_eq_true

theorem encodeUtf16_exact {s : PStr} : Exact (encodeUtf16 s) [textCheck s] := by
  refine Exact.one ?_ ?_
  · intro h; unfold encodeUtf16; rw [if_neg (fun h' => h (all_clean.1 h'))]
  · intro h; unfold encodeUtf16; rw [if_pos (all_clean.2 (Classical.not_not.1 h))]; exact ⟨_, rfl⟩

theorem encodeUtf8_exact {s : PStr} : Exact (encodeUtf8 s) [textCheck s] := by
  refine Exact.one ?_ ?_
  · intro h; unfold encodeUtf8; rw [if_neg (fun h' => h (all_clean.1 h'))]
  · intro h; unfold encodeUtf8; rw [if_pos (all_clean.2 (Classical.not_not.1 h))]; exact ⟨_, rfl⟩

theorem utf16Length_le (s : PStr) : utf16Length s ≤ 2 * s.length := by
  induction s with
  | nil => exact Nat.le_refl _
  | cons c cs ih =>
    simp only [utf16Length, List.map_cons, List.sum_cons, List.length_cons] at ih ⊢
    split <;> omega

/-- A text of at most 32767 characters. -/
theorem writeString_exact {s : PStr} (h : s.length ≤ 32767) : Exact (writeString s) [textCheck s] := by
  unfold writeString
  have h1 := utf16Length_le s
  exact (Exact.nil (writeStringLength_iff.2 (by omega))).bind fun l _ => encodeUtf16_exact.map fun b _ => ⟨_, rfl⟩

theorem clean_nil : Clean [] := fun _ h => (by cases h)

/-- A text that is left out if it is the surface. -/
theorem writeString_same_exact {s t : PStr} (h : s.length ≤ 32767) (ht : Clean t) : Exact (writeString (if s = t then [] else s)) [textCheck s] := by
  split
  · rename_i he
    obtain ⟨b, hb⟩ := writeString_iff.2 ⟨clean_nil, show units [] < 65536 by decide⟩
    rw [hb]
    refine Exact.ok ?_
    intro c hc
    rw [List.mem_singleton.1 hc, he]
    exact fun hn => hn ht
  · exact writeString_exact h

theorem writeInts_exact {l : List Int} : Exact (writeInts l) [(.overflow, ∃ v ∈ l, ¬ FitsInt v)] := by
  refine Exact.one' ?_ ?_
  · induction l with
    | nil => intro e h; cases h
    | cons v vs ih =>
      intro e h
      unfold writeInts at h
      rcases bind_error h with h | ⟨a, _, h⟩
      · have := (writeInt_int_exact e).1 h
        rcases this with ⟨_, h⟩ | ⟨_, h⟩
        · exact h
        · exact h.elim
      · rcases bind_error h with h | ⟨b, _, h⟩
        · exact ih e h
        · cases h
  · rw [writeInts_iff]
    constructor
    · rintro h ⟨v, hv, hn⟩; exact hn (h v hv)
    · intro h v hv
      exact Classical.byContradiction fun hn => h ⟨v, hv, hn⟩

theorem writeIntArray_exact {l : List Int} (h : l.length ≤ 255) : Exact (writeIntArray l) [(.overflow, ∃ v ∈ l, ¬ FitsInt v)] := by
  unfold writeIntArray
  exact (Exact.nil ⟨_, writeInt_byte_ok (by omega)⟩).bind fun n _ => writeInts_exact.map fun b _ => ⟨_, rfl⟩

theorem header_exact {h : Header} : Exact h.toBytes h.checks := by
  unfold Header.toBytes Header.checks
  have e64 : (2 : Int) ^ (8 * 8) = 18446744073709551616 := by decide
  have h1 : Exact (writeInt h.version .long false) [(.overflow, ¬ (0 ≤ h.version ∧ h.version < 2 ^ 64))] :=
    writeInt_exact (by
      rw [Classical.not_not]
      exact (toBytes_unsigned_iff (n := 8)))
  have h2 : Exact (writeInt h.createTime .long) [(.overflow, ¬ (-(2 ^ 63) ≤ h.createTime ∧ h.createTime < 2 ^ 63))] :=
    writeInt_exact (by
      rw [Classical.not_not]
      refine (toBytes_signed_iff (n := 8)).trans ?_
      rw [e64]
      omega)
  refine h1.bind (m := [_, _, _]) fun v _ => h2.bind (m := [_, _]) fun t _ => encodeUtf8_exact.bind (m := [_]) fun b hb => ?_
  have hbl : b = h.description.flatMap utf8Cp := (encodeUtf8_ok hb).2
  refine Exact.one ?_ ?_
  · intro h'
    rw [hbl, if_pos (show _ > DESCRIPTION_SIZE from h')]
  · intro h'
    rw [hbl, if_neg (show ¬ _ > DESCRIPTION_SIZE from h')]
    exact ⟨_, rfl⟩

/-! ### Loops -/

theorem writeStrings_exact {ss : List PStr} (h : ∀ s ∈ ss, s.length ≤ 32767) : Exact (writeStrings ss) (ss.map textCheck) := by
  induction ss with
  | nil => exact Exact.nil ⟨_, rfl⟩
  | cons s ss ih =>
    unfold writeStrings
    exact (writeString_exact (h s (by simp))).bind fun a _ => (ih fun x hx => h x (by simp [hx])).map fun b _ => ⟨_, rfl⟩

theorem writePosList_exact {ps : List PStr} (h : ∀ p ∈ ps, ∀ s ∈ splitOn 44 p, s.length ≤ 32767) :
    Exact (writePosList ps) ((ps.map (splitOn 44)).flatMap fun p => p.map textCheck) := by
  induction ps with
  | nil => exact Exact.nil ⟨_, rfl⟩
  | cons p ps ih =>
    unfold writePosList
    rw [List.map_cons, List.flatMap_cons]
    exact (writeStrings_exact (h p (by simp))).bind fun a _ => (ih fun x hx => h x (by simp [hx])).map fun b _ => ⟨_, rfl⟩

theorem convertPosTable_exact {ps : List PStr} (h : ∀ p ∈ ps, ∀ s ∈ splitOn 44 p, s.length ≤ 32767) :
    Exact (convertPosTable ps) (posChecks (ps.map (splitOn 44))) := by
  unfold convertPosTable posChecks
  refine (writeInt_exact (p := 32767 < (ps.map (splitOn 44)).length) ?_).bind fun n _ => (writePosList_exact h).map fun b _ => ⟨_, rfl⟩
  rw [writeInt_short_iff, List.length_map]
  unfold FitsShort
  omega

theorem matrixLine_exact {lsize : Int} {lines : List PStr} : ∀ {m : Stream}, Exact (matrixLines lsize m lines) (lines.flatMap (matrixLineChecks lsize)) := by
  induction lines with
  | nil => intro m; exact Exact.nil ⟨_, rfl⟩
  | cons line lines ih =>
    intro m
    rw [List.flatMap_cons]
    have hsil : MatrixLineSilent line → Exact (matrixLines lsize m lines) (matrixLineChecks lsize line ++ lines.flatMap (matrixLineChecks lsize)) := by
      intro hs
      refine ih.congr ?_
      intro e
      rw [fails_append]
      have hp : Passes (matrixLineChecks lsize line) := by
        intro c hc
        simp only [matrixLineChecks, List.mem_cons, List.not_mem_nil, or_false] at hc
        rcases hc with rfl | rfl | rfl <;> exact fun h => h.1 hs
      exact ⟨fun h => .inr ⟨hp, h⟩, fun h => h.elim (fun h => (not_fails hp h).elim) (·.2)⟩
    unfold matrixLines
    by_cases hc : (strip line).isEmpty ∨ (strip line).head? = some 35
    · rw [if_pos hc]
      refine hsil ?_
      rcases hc with hc | hc
      · exact .inl (by simpa using hc)
      · exact .inr (.inl hc)
    · rw [if_neg hc]
      by_cases h3 : (splitWs (strip line)).length < 3
      · rw [if_pos h3]
        exact hsil (.inr (.inr h3))
      · rw [if_neg h3]
        have hns : ¬ MatrixLineSilent line := by
          rintro (h | h | h)
          · exact hc (.inl (by simp [h]))
          · exact hc (.inr h)
          · exact h3 h
        clear hsil hc h3
        unfold matrixLineChecks
        by_cases hv : ∃ l r c, pyInts (splitWs (strip line)) = .ok [l, r, c]
        · obtain ⟨l, r, c, hv⟩ := hv
          rw [hv]
          show Exact (m.seek (2 * (l + lsize * r)) >>= fun m1 => _) _
          have hu : ∀ l' r' c', (Except.ok [l, r, c] : Res (List Int)) = .ok [l', r', c'] → l' = l ∧ r' = r ∧ c' = c := by
            intro l' r' c' h; cases h; exact ⟨rfl, rfl, rfl⟩
          refine Exact.congr (l := [(.value, l + lsize * r < 0), (.overflow, ¬ FitsShort c)] ++ lines.flatMap (matrixLineChecks lsize)) ?_ ?_
          · refine (Exact.one (p := l + lsize * r < 0) ?_ ?_).bind (m := [_] ++ _) fun m1 hm1 => ?_
            · intro h; unfold Stream.seek; rw [if_pos (by omega)]
            · intro h; unfold Stream.seek; rw [if_neg (by omega)]; exact ⟨_, rfl⟩
            · refine writeInt_short_exact.bind fun b hb => ?_
              refine (Exact.nil ?_).bind (m := lines.flatMap (matrixLineChecks lsize)) fun m2 _ => ih
              unfold Stream.seek
              rw [if_neg (by omega)]
              exact ⟨_, rfl⟩
          · intro e
            have e1 : (∃ l' r' c', (Except.ok [l, r, c] : Res (List Int)) = .ok [l', r', c'] ∧ l' + lsize * r' < 0) ↔ l + lsize * r < 0 :=
              ⟨fun ⟨l', r', c', h, h'⟩ => by obtain ⟨rfl, rfl, rfl⟩ := hu _ _ _ h; exact h', fun h => ⟨l, r, c, rfl, h⟩⟩
            have e2 : (∃ l' r' c', (Except.ok [l, r, c] : Res (List Int)) = .ok [l', r', c'] ∧ ¬ FitsShort c') ↔ ¬ FitsShort c :=
              ⟨fun ⟨l', r', c', h, h'⟩ => by obtain ⟨rfl, rfl, rfl⟩ := hu _ _ _ h; exact h', fun h => ⟨l, r, c, rfl, h⟩⟩
            have e3 : ∃ l' r' c', (Except.ok [l, r, c] : Res (List Int)) = .ok [l', r', c'] := ⟨l, r, c, rfl⟩
            simp only [List.cons_append, List.nil_append, Fails, e1, e2, e3, hns, not_true_eq_false, and_false, not_false_eq_true, true_and, false_and,
              false_or]
            exact Iff.rfl
        · intro e
          simp only [List.cons_append, List.nil_append, Fails, hv, hns, not_false_eq_true, true_and, not_true_eq_false, false_and, or_false, and_true]
          cases hp : pyInts (splitWs (strip line)) with
          | error x =>
            rw [pyInts_error hp]
            exact ⟨fun h => (Except.error.inj h).symm, fun h => by rw [h]; rfl⟩
          | ok vs =>
            rw [DictBuilder.ok_bind]
            split
            · rename_i l r c
              exact (hv ⟨l, r, c, hp⟩).elim
            · exact ⟨fun h => (Except.error.inj h).symm, fun h => by rw [h]⟩

theorem convertMatrix_exact {header : PStr} {lines : List PStr} : Exact (convertMatrix header lines) (matrixChecks (some (header, lines))) := by
  unfold convertMatrix matrixChecks
  dsimp only
  by_cases he : (strip header).isEmpty = true
  · rw [if_pos he]
    have : strip header = [] := by simpa using he
    rw [this]
    have h0 : pyInts (splitWs []) = .ok [] := by decide
    rw [h0]
    exact Exact.one (fun _ => rfl) (fun h => (h trivial).elim)
  · rw [if_neg he]
    cases hp : pyInts (splitWs (strip header)) with
    | error x =>
      rw [pyInts_error hp]
      exact Exact.one (fun _ => rfl) (fun h => (h trivial).elim)
    | ok vs =>
      rw [DictBuilder.ok_bind]
      match vs with
      | [] => exact Exact.one (fun _ => rfl) (fun h => (h trivial).elim)
      | [_] => exact Exact.one (fun _ => rfl) (fun h => (h trivial).elim)
      | _ :: _ :: _ :: _ => exact Exact.one (fun _ => rfl) (fun h => (h trivial).elim)
      | [l, r] =>
        exact writeInt_short_exact.bind (m := [_] ++ _) fun a _ => writeInt_short_exact.bind fun b _ => matrixLine_exact.map fun m _ => ⟨_, rfl⟩

end Sudachi
