/-
Lemmas: lists, objects and whole texts in the scanner of `json`.
-/
import Verif.Lemmas.JsonText
namespace Sudachi
namespace JsonText

/-! ### White space -/

theorem isSpace_iff {c : Nat} : isSpace c = true ↔ c = 32 ∨ c = 9 ∨ c = 10 ∨ c = 13 := by simp [isSpace, or_assoc]

/-- No white space in front. -/
def NoSpace (r : PStr) : Prop := ∀ c, r.head? = some c → isSpace c = false

theorem skipSpace_complete {w r : PStr} (hw : Spaces w) (hr : NoSpace r) : skipSpace (w ++ r) = r := by
  unfold skipSpace
  induction w with
  | nil =>
    cases r with
    | nil => rfl
    | cons c r => simp [hr c rfl]
  | cons c w ih =>
    rw [List.cons_append, List.dropWhile_cons, if_pos (isSpace_iff.mpr (hw c (by simp)))]
    exact ih (fun x hx => hw x (by simp [hx]))

theorem skipSpace_sound (s : PStr) : ∃ w, Spaces w ∧ s = w ++ skipSpace s := by
  unfold skipSpace
  induction s with
  | nil => exact ⟨[], (fun _ h => by cases h), rfl⟩
  | cons c s ih =>
    rw [List.dropWhile_cons]
    split
    · rename_i hc
      obtain ⟨w, hw, hs⟩ := ih
      refine ⟨c :: w, fun x hx => ?_, by rw [List.cons_append, ← hs]⟩
      rcases List.mem_cons.mp hx with rfl | hx
      · exact isSpace_iff.mp hc
      · exact hw x hx
    · exact ⟨[], (fun _ h => by cases h), rfl⟩

theorem skipSpace_suffix (s : PStr) : skipSpace s <:+ s := List.dropWhile_suffix _

/-! ### Dictionaries -/

/-- What keys and values make of a dictionary. -/
def collect (ps : List (PStr × Json)) (d : JDict) : JDict := ps.foldl (fun d p => d.set p.1 p.2) d

theorem set_new {d : JDict} {k : PStr} (v : Json) (h : ∀ w, (k, w) ∉ d) : d.set k v = d ++ [(k, v)] := by
  induction d with
  | nil => rfl
  | cons p d ih =>
    obtain ⟨x, w⟩ := p
    rw [JDict.set, if_neg (fun hx => h w (by rw [hx]; simp)), ih (fun w hw => h w (List.mem_cons_of_mem _ hw))]
    rfl

theorem set_again {d d' : JDict} {k : PStr} (w v : Json) (h : ∀ w, (k, w) ∉ d) : JDict.set (d ++ (k, w) :: d') k v = d ++ (k, v) :: d' := by
  induction d with
  | nil => exact if_pos rfl
  | cons p d ih =>
    obtain ⟨x, w'⟩ := p
    rw [List.cons_append, JDict.set, if_neg (fun hx => h w' (by rw [hx]; simp)), ih (fun w hw => h w (List.mem_cons_of_mem _ hw))]
    rfl

theorem set_cases (d : JDict) (k : PStr) (v : Json) : ((∀ w, (k, w) ∉ d) ∧ d.set k v = d ++ [(k, v)]) ∨
    ∃ d1 w d2, d = d1 ++ (k, w) :: d2 ∧ d.set k v = d1 ++ (k, v) :: d2 := by
  induction d with
  | nil => exact .inl ⟨(fun _ h => by cases h), rfl⟩
  | cons p d ih =>
    obtain ⟨x, w⟩ := p
    rw [JDict.set]
    split
    · rename_i hx
      subst hx
      exact .inr ⟨[], w, d, rfl, rfl⟩
    · rename_i hx
      rcases ih with ⟨h1, h2⟩ | ⟨d1, w', d2, h1, h2⟩
      · refine .inl ⟨fun w' hw => ?_, by rw [h2]; rfl⟩
        rcases List.mem_cons.mp hw with hw | hw
        · cases hw; exact hx rfl
        · exact h1 w' hw
      · exact .inr ⟨(x, w) :: d1, w', d2, by rw [h1]; rfl, by rw [h2]; rfl⟩

theorem collected_keys {ps : List (PStr × Json)} {d : JDict} (h : Collected ps d) : (d.map (·.1)).Nodup := by
  induction h with
  | nil => exact List.nodup_nil
  | new ps d k v _ hk ih =>
    rw [List.map_append, List.nodup_append]
    refine ⟨ih, by simp, fun a ha b hb => ?_⟩
    simp only [List.map_cons, List.map_nil, List.mem_singleton] at hb
    subst hb
    rintro rfl
    obtain ⟨p, hp, hp'⟩ := List.mem_map.mp ha
    exact hk p.2 (by rw [← hp']; exact hp)
  | again ps d d' k w v _ ih => simpa using ih

theorem collected_iff {ps : List (PStr × Json)} {d : JDict} : Collected ps d ↔ d = collect ps [] := by
  constructor
  · intro h
    induction h with
    | nil => rfl
    | new ps d k v _ hk ih =>
      rw [collect, List.foldl_append]
      show _ = JDict.set (collect ps []) k v
      rw [← ih, set_new v hk]
    | again ps d d' k w v h ih =>
      rw [collect, List.foldl_append]
      show _ = JDict.set (collect ps []) k v
      rw [← ih, set_again w v]
      intro u hu
      have hn := collected_keys h
      rw [List.map_append, List.nodup_append] at hn
      exact hn.2.2 k (List.mem_map.mpr ⟨(k, u), hu, rfl⟩) k (by simp) rfl
  · rintro rfl
    have key : ∀ (qs ps : List (PStr × Json)) (d : JDict), Collected ps d → Collected (ps ++ qs) (collect qs d) := by
      intro qs
      induction qs with
      | nil => intro ps d h; simpa [collect] using h
      | cons q qs ih =>
        intro ps d h
        obtain ⟨k, v⟩ := q
        have hs : Collected (ps ++ [(k, v)]) (d.set k v) := by
          rcases set_cases d k v with ⟨h1, h2⟩ | ⟨d1, w, d2, h1, h2⟩
          · rw [h2]; exact .new ps d k v h h1
          · rw [h2]; rw [h1] at h; exact .again ps d1 d2 k w v h
        have := ih _ _ hs
        rwa [List.append_assoc] at this
    exact key ps [] [] .nil

/-! ### What is read is what the grammar says -/

theorem map_ok {α β : Type} {m : Res α} {f : α → β} {y : β} (h : m.map f = .ok y) : ∃ x, m = .ok x ∧ f x = y := by
  cases m with
  | error e => cases h
  | ok x => cases h; exact ⟨x, rfl, rfl⟩

theorem map_error {α β : Type} {m : Res α} {f : α → β} {e : Err} (h : m.map f = .error e) : m = .error e := by
  cases m with
  | error e => cases h; rfl
  | ok x => cases h

theorem scan_sound (fuel : Nat) :
    (∀ n s v r, scanOnce fuel n s = .ok (v, r) → ∃ t, s = t ++ r ∧ Denotes n t v) ∧
    (∀ n s vs r, scanElements fuel n s = .ok (vs, r) → ∃ t, s = t ++ 93 :: r ∧ Elements n t vs) ∧
    (∀ n acc s d r, scanMembers fuel n acc s = .ok (d, r) → ∃ t ps, s = t ++ 125 :: r ∧ Members n t ps ∧ d = collect ps acc) := by
  induction fuel with
  | zero => exact ⟨(fun _ _ _ _ h => by cases h), (fun _ _ _ _ h => by cases h), (fun _ _ _ _ _ h => by cases h)⟩
  | succ fuel ih =>
    obtain ⟨ih1, ih2, ih3⟩ := ih
    refine ⟨fun n s v r h => ?_, fun n s vs r h => ?_, fun n acc s d r h => ?_⟩
    · rw [scanOnce.eq_def] at h
      dsimp only at h
      split at h
      · obtain ⟨⟨x, r'⟩, h1, h2⟩ := map_ok h
        cases h2
        obtain ⟨p, rfl, hp⟩ := scanString_sound _ _ _ h1
        exact ⟨34 :: p ++ [34], by simp, .string n p x hp⟩
      · rename_i t
        split at h
        · cases h
        · rename_i n
          obtain ⟨w, hw, ht⟩ := skipSpace_sound t
          split at h
          · rename_i r' hr
            cases h
            rw [hr] at ht
            exact ⟨123 :: w ++ [125], by rw [ht]; simp, .emptyObject n w hw⟩
          · obtain ⟨⟨d, r'⟩, h1, h2⟩ := map_ok h
            cases h2
            obtain ⟨u, ps, hu, hm, hd⟩ := ih3 _ _ _ _ _ h1
            rw [hu] at ht
            exact ⟨123 :: w ++ u ++ [125], by rw [ht]; simp, .object n w u ps d hw hm (collected_iff.mpr hd)⟩
      · rename_i t
        split at h
        · cases h
        · rename_i n
          obtain ⟨w, hw, ht⟩ := skipSpace_sound t
          split at h
          · rename_i r' hr
            cases h
            rw [hr] at ht
            exact ⟨91 :: w ++ [93], by rw [ht]; simp, .emptyList n w hw⟩
          · obtain ⟨⟨vs, r'⟩, h1, h2⟩ := map_ok h
            cases h2
            obtain ⟨u, hu, hm⟩ := ih2 _ _ _ _ h1
            rw [hu] at ht
            exact ⟨91 :: w ++ u ++ [93], by rw [ht]; simp, .list n w u vs hw hm⟩
      · obtain ⟨t, ht, hp⟩ := scanPlain_sound h
        exact ⟨t, ht, .plain n t v hp⟩
    · rw [scanElements] at h
      split at h
      · cases h
      · rename_i v r1 h1
        obtain ⟨t, rfl, ht⟩ := ih1 _ _ _ _ h1
        obtain ⟨w, hw, hr⟩ := skipSpace_sound r1
        split at h
        · rename_i r2 h2
          cases h
          rw [h2] at hr
          exact ⟨t ++ w, by rw [hr]; simp, .one n t w v ht hw⟩
        · rename_i r2 h2
          obtain ⟨⟨vs', r'⟩, h3, h4⟩ := map_ok h
          cases h4
          obtain ⟨w', hw', hr2⟩ := skipSpace_sound r2
          obtain ⟨t', ht', hel⟩ := ih2 _ _ _ _ h3
          rw [ht'] at hr2
          rw [h2, hr2] at hr
          exact ⟨t ++ w ++ 44 :: w' ++ t', by rw [hr]; simp, .more n t w w' t' v vs' ht hw hw' hel⟩
        · cases h
    · rw [scanMembers.eq_def] at h
      dsimp only at h
      split at h
      · split at h
        · cases h
        · rename_i k r1 h1
          obtain ⟨p, rfl, hp⟩ := scanString_sound _ _ _ h1
          obtain ⟨w1, hw1, hr1⟩ := skipSpace_sound r1
          split at h
          · rename_i r2 h2
            rw [h2] at hr1
            obtain ⟨w2, hw2, hr2⟩ := skipSpace_sound r2
            split at h
            · cases h
            · rename_i v r3 h3
              obtain ⟨t, ht', ht⟩ := ih1 _ _ _ _ h3
              obtain ⟨w, hw, hr3⟩ := skipSpace_sound r3
              split at h
              · rename_i r4 h4
                cases h
                rw [h4] at hr3
                rw [ht', hr3] at hr2
                rw [hr2] at hr1
                exact ⟨34 :: p ++ 34 :: w1 ++ 58 :: w2 ++ t ++ w, [(k, v)], by rw [hr1]; simp, .one n p k w1 w2 t w v hp hw1 hw2 ht hw, rfl⟩
              · rename_i r4 h4
                obtain ⟨w', hw', hr4⟩ := skipSpace_sound r4
                obtain ⟨t', ps, ht'', hm, hd⟩ := ih3 _ _ _ _ _ h
                rw [ht''] at hr4
                rw [h4, hr4] at hr3
                rw [ht', hr3] at hr2
                rw [hr2] at hr1
                exact ⟨34 :: p ++ 34 :: w1 ++ 58 :: w2 ++ t ++ w ++ 44 :: w' ++ t', (k, v) :: ps, by rw [hr1]; simp,
                  .more n p k w1 w2 t w w' t' v ps hp hw1 hw2 ht hw hw' hm, hd⟩
              · cases h
          · cases h
      · cases h

/-! ### What the grammar says is read -/

theorem Denotes.head {n : Nat} {t : PStr} {v : Json} (h : Denotes n t v) : ∃ c s, t = c :: s ∧ c ≠ 93 ∧ c ≠ 125 ∧ isSpace c = false ∧ c ≠ 0xFEFF := by
  cases h with
  | plain n t v h =>
    obtain ⟨c, s, rfl, _, _, _, h1, h2, h3, h4⟩ := h.head
    refine ⟨c, s, rfl, h1, h2, ?_, h4⟩
    cases hc : isSpace c
    · rfl
    · have := isSpace_iff.mp hc; omega
  | string => exact ⟨34, _, rfl, by decide⟩
  | emptyList => exact ⟨91, _, rfl, by decide⟩
  | list => exact ⟨91, _, rfl, by decide⟩
  | emptyObject => exact ⟨123, _, rfl, by decide⟩
  | object => exact ⟨123, _, rfl, by decide⟩

theorem Elements.head {n : Nat} {t : PStr} {vs : List Json} (h : Elements n t vs) : ∃ c s, t = c :: s ∧ c ≠ 93 ∧ isSpace c = false := by
  cases h with
  | one n t w v h _ => obtain ⟨c, s, rfl, h1, _, h2, _⟩ := h.head; exact ⟨c, _, rfl, h1, h2⟩
  | more n t w w' t' v vs h _ _ _ => obtain ⟨c, s, rfl, h1, _, h2, _⟩ := h.head; exact ⟨c, _, rfl, h1, h2⟩

theorem Members.head {n : Nat} {t : PStr} {ps : List (PStr × Json)} (h : Members n t ps) : ∃ s, t = 34 :: s := by
  cases h with
  | one => exact ⟨_, rfl⟩
  | more => exact ⟨_, rfl⟩

theorem spaces_stops {w r : PStr} (hw : Spaces w) (hr : Stops r) : Stops (w ++ r) := by
  cases w with
  | nil => exact hr
  | cons c w =>
    intro x hx
    cases hx
    have := hw c (by simp)
    omega

theorem noSpace_cons {c : Nat} {r : PStr} (h : isSpace c = false) : NoSpace (c :: r) := fun x hx => by cases hx; exact h

theorem stops_cons {c : Nat} {r : PStr} (h : c = 44 ∨ c = 93 ∨ c = 125) : Stops (c :: r) := fun x hx => by cases hx; omega

theorem scanOnce_plain {fuel n c : Nat} {s : PStr} (h1 : c ≠ 34) (h2 : c ≠ 91) (h3 : c ≠ 123) :
    scanOnce (fuel + 1) n (c :: s) = scanPlain (c :: s) := by
  rw [scanOnce.eq_def]
  dsimp only
  split
  · rename_i heq; cases heq; exact absurd rfl h1
  · rename_i heq; cases heq; exact absurd rfl h3
  · rename_i heq; cases heq; exact absurd rfl h2
  · rfl

theorem scanOnce_bracket (fuel n : Nat) (t : PStr) : scanOnce (fuel + 1) (n + 1) (91 :: t) =
    match skipSpace t with
    | 93 :: r => .ok (.list [], r)
    | u => (scanElements fuel n u).map fun (l, r) => (.list l, r) := rfl

theorem scanOnce_brace (fuel n : Nat) (t : PStr) : scanOnce (fuel + 1) (n + 1) (123 :: t) =
    match skipSpace t with
    | 125 :: r => .ok (.obj [], r)
    | u => (scanMembers fuel n [] u).map fun (d, r) => (.obj d, r) := rfl

theorem scanMembers_quote (fuel n : Nat) (acc : JDict) (t : PStr) : scanMembers (fuel + 1) n acc (34 :: t) =
    match scanString t with
    | .error e => .error e
    | .ok (k, r) =>
      match skipSpace r with
      | 58 :: r =>
        match scanOnce fuel n (skipSpace r) with
        | .error e => .error e
        | .ok (v, r) =>
          match skipSpace r with
          | 125 :: r => .ok (acc.set k v, r)
          | 44 :: r => scanMembers fuel n (acc.set k v) (skipSpace r)
          | _ => .error .value
      | _ => .error .value := rfl

theorem scanElements_comma {fuel n : Nat} {s r u : PStr} {v : Json} (h1 : scanOnce fuel n s = .ok (v, r)) (h2 : skipSpace r = 44 :: u) :
    scanElements (fuel + 1) n s = (scanElements fuel n (skipSpace u)).map fun (vs, r) => (v :: vs, r) := by
  rw [scanElements, h1]
  dsimp only
  rw [h2]
  rfl

theorem scanMembers_value {fuel n : Nat} {acc : JDict} {t k r u : PStr} (h1 : scanString t = .ok (k, r)) (h2 : skipSpace r = 58 :: u) :
    scanMembers (fuel + 1) n acc (34 :: t) =
      match scanOnce fuel n (skipSpace u) with
      | .error e => .error e
      | .ok (v, r) =>
        match skipSpace r with
        | 125 :: r => .ok (acc.set k v, r)
        | 44 :: r => scanMembers fuel n (acc.set k v) (skipSpace r)
        | _ => .error .value := by
  rw [scanMembers_quote, h1]
  dsimp only
  rw [h2]
  rfl

theorem scanMembers_comma {fuel n : Nat} {acc : JDict} {t k r u r' u' : PStr} {v : Json} (h1 : scanString t = .ok (k, r))
    (h2 : skipSpace r = 58 :: u) (h3 : scanOnce fuel n (skipSpace u) = .ok (v, r')) (h4 : skipSpace r' = 44 :: u') :
    scanMembers (fuel + 1) n acc (34 :: t) = scanMembers fuel n (acc.set k v) (skipSpace u') := by
  rw [scanMembers_value h1 h2, h3]
  dsimp only
  rw [h4]
  rfl

theorem scanOnce_list {fuel n : Nat} {t c u} (hs : skipSpace t = c :: u) (hc : c ≠ 93) :
    scanOnce (fuel + 1) (n + 1) (91 :: t) = (scanElements fuel n (c :: u)).map fun (l, r) => (.list l, r) := by
  rw [scanOnce_bracket, hs]
  split
  · rename_i heq; cases heq; exact absurd rfl hc
  · rfl

theorem scanOnce_object {fuel n : Nat} {t c u} (hs : skipSpace t = c :: u) (hc : c ≠ 125) :
    scanOnce (fuel + 1) (n + 1) (123 :: t) = (scanMembers fuel n [] (c :: u)).map fun (d, r) => (.obj d, r) := by
  rw [scanOnce_brace, hs]
  split
  · rename_i heq; cases heq; exact absurd rfl hc
  · rfl

/-- Read, unless the fuel runs out. -/
def ReadAs {α : Type} (m : Res α) (x : α) : Prop := m = .ok x ∨ m = .error .outOfFuel

theorem ReadAs.map {α β : Type} {m : Res α} {x : α} (h : ReadAs m x) (f : α → β) : ReadAs (m.map f) (f x) := by
  rcases h with h | h
  · rw [h]; exact .inl rfl
  · rw [h]; exact .inr rfl

theorem scan_complete {n : Nat} {t : PStr} {v : Json} (h : Denotes n t v) :
    ∀ fuel r, Stops r → ReadAs (scanOnce fuel n (t ++ r)) (v, r) := by
  refine Denotes.rec (motive_1 := fun n t v _ => ∀ fuel r, Stops r → ReadAs (scanOnce fuel n (t ++ r)) (v, r))
    (motive_2 := fun n t vs _ => ∀ fuel r, ReadAs (scanElements fuel n (t ++ 93 :: r)) (vs, r))
    (motive_3 := fun n t ps _ => ∀ fuel acc r, ReadAs (scanMembers fuel n acc (t ++ 125 :: r)) (collect ps acc, r))
    ?_ ?_ ?_ ?_ ?_ ?_ ?_ ?_ ?_ ?_ h
  · intro n t v h fuel r hr
    cases fuel with
    | zero => exact .inr rfl
    | succ fuel =>
      have hp := scanPlain_complete h hr
      obtain ⟨c, s, rfl, h1, h2, h3, _⟩ := h.head
      rw [List.cons_append] at hp ⊢
      rw [scanOnce_plain h1 h2 h3, hp]
      exact .inl rfl
  · intro n t s h fuel r hr
    cases fuel with
    | zero => exact .inr rfl
    | succ fuel =>
      have hp := scanString_complete h r
      rw [show ('"'.toNat :: t ++ ['"'.toNat]) ++ r = 34 :: (t ++ 34 :: r) by simp]
      show ReadAs ((scanString (t ++ 34 :: r)).map _) _
      rw [hp]
      exact .inl rfl
  · intro n w hw fuel r hr
    cases fuel with
    | zero => exact .inr rfl
    | succ fuel =>
      rw [show ('['.toNat :: w ++ [']'.toNat]) ++ r = 91 :: (w ++ 93 :: r) by simp, scanOnce_bracket, skipSpace_complete hw (noSpace_cons (by decide))]
      exact .inl rfl
  · intro n w t vs hw hel ih fuel r hr
    cases fuel with
    | zero => exact .inr rfl
    | succ fuel =>
      obtain ⟨c, s, rfl, h1, h2⟩ := hel.head
      rw [show ('['.toNat :: w ++ (c :: s) ++ [']'.toNat]) ++ r = 91 :: (w ++ (c :: (s ++ 93 :: r))) by simp,
        scanOnce_list (skipSpace_complete hw (noSpace_cons h2)) h1]
      exact (ih fuel r).map _
  · intro n w hw fuel r hr
    cases fuel with
    | zero => exact .inr rfl
    | succ fuel =>
      rw [show ('{'.toNat :: w ++ ['}'.toNat]) ++ r = 123 :: (w ++ 125 :: r) by simp, scanOnce_brace, skipSpace_complete hw (noSpace_cons (by decide))]
      exact .inl rfl
  · intro n w t ps d hw hm hc ih fuel r hr
    cases fuel with
    | zero => exact .inr rfl
    | succ fuel =>
      obtain ⟨s, rfl⟩ := hm.head
      rw [show ('{'.toNat :: w ++ (34 :: s) ++ ['}'.toNat]) ++ r = 123 :: (w ++ (34 :: (s ++ 125 :: r))) by simp,
        scanOnce_object (skipSpace_complete hw (noSpace_cons (by decide))) (by decide), collected_iff.mp hc]
      exact (ih fuel [] r).map _
  · intro n t w v hd hw ih fuel r
    cases fuel with
    | zero => exact .inr rfl
    | succ fuel =>
      rw [List.append_assoc, scanElements]
      rcases ih fuel (w ++ 93 :: r) (spaces_stops hw (stops_cons (by decide))) with h | h
      · rw [h]
        dsimp only
        rw [skipSpace_complete hw (noSpace_cons (by decide))]
        exact .inl rfl
      · rw [h]; exact .inr rfl
  · intro n t w w' t' v vs hd hw hw' hel ih ih' fuel r
    cases fuel with
    | zero => exact .inr rfl
    | succ fuel =>
      obtain ⟨c, s, rfl, h1, h2⟩ := hel.head
      rw [show (t ++ w ++ ','.toNat :: w' ++ (c :: s)) ++ 93 :: r = t ++ (w ++ 44 :: (w' ++ c :: (s ++ 93 :: r))) by simp]
      rcases ih fuel _ (spaces_stops hw (stops_cons (c := 44) (r := w' ++ c :: (s ++ 93 :: r)) (by decide))) with h | h
      · rw [scanElements_comma h (skipSpace_complete hw (noSpace_cons (by decide))), skipSpace_complete hw' (noSpace_cons h2)]
        exact (ih' fuel r).map _
      · rw [scanElements, h]; exact .inr rfl
  · intro n k key w1 w2 t w v hk hw1 hw2 hd hw ih fuel acc r
    cases fuel with
    | zero => exact .inr rfl
    | succ fuel =>
      obtain ⟨c, s, hcs, _, _, h2, _⟩ := hd.head
      rw [show ('"'.toNat :: k ++ '"'.toNat :: w1 ++ ':'.toNat :: w2 ++ t ++ w) ++ 125 :: r =
        34 :: (k ++ 34 :: (w1 ++ 58 :: (w2 ++ (t ++ (w ++ 125 :: r))))) by simp,
        scanMembers_value (scanString_complete hk _) (skipSpace_complete hw1 (noSpace_cons (by decide))), skipSpace_complete hw2 (by rw [hcs]; exact noSpace_cons h2)]
      rcases ih fuel _ (spaces_stops hw (stops_cons (c := 125) (r := r) (by decide))) with h | h
      · rw [h]
        dsimp only
        rw [skipSpace_complete hw (noSpace_cons (by decide))]
        exact .inl rfl
      · rw [h]; exact .inr rfl
  · intro n k key w1 w2 t w w' t' v ps hk hw1 hw2 hd hw hw' hm ih ih' fuel acc r
    cases fuel with
    | zero => exact .inr rfl
    | succ fuel =>
      obtain ⟨c, s, hcs, _, _, h2, _⟩ := hd.head
      obtain ⟨s', hs'⟩ := hm.head
      rw [show ('"'.toNat :: k ++ '"'.toNat :: w1 ++ ':'.toNat :: w2 ++ t ++ w ++ ','.toNat :: w' ++ t') ++ 125 :: r =
        34 :: (k ++ 34 :: (w1 ++ 58 :: (w2 ++ (t ++ (w ++ 44 :: (w' ++ (t' ++ 125 :: r))))))) by simp,
        scanMembers_value (scanString_complete hk _) (skipSpace_complete hw1 (noSpace_cons (by decide))), skipSpace_complete hw2 (by rw [hcs]; exact noSpace_cons h2)]
      rcases ih fuel _ (spaces_stops hw (stops_cons (c := 44) (r := w' ++ (t' ++ 125 :: r)) (by decide))) with h | h
      · rw [h]
        dsimp only
        rw [skipSpace_complete hw (noSpace_cons (by decide))]
        show ReadAs (scanMembers fuel n (acc.set key v) (skipSpace (w' ++ (t' ++ 125 :: r)))) _
        rw [skipSpace_complete hw' (by rw [hs']; exact noSpace_cons (by decide))]
        exact ih' fuel (acc.set key v) r
      · rw [h]; exact .inr rfl

/-! ### What is refused -/

/-- The brackets and braces that open something. -/
def opening (s : PStr) : Nat := s.count 91 + s.count 123

theorem opening_suffix {s t : PStr} (h : s <:+ t) : opening s ≤ opening t := by
  have h1 := h.sublist.count_le 91
  have h2 := h.sublist.count_le 123
  unfold opening; omega

theorem scanString_suffix {s x r : PStr} (h : scanString s = .ok (x, r)) : r <:+ s ∧ r.length < s.length := by
  obtain ⟨p, rfl, _⟩ := scanString_sound _ _ _ h
  exact ⟨⟨p ++ [34], by simp⟩, by simp; omega⟩

theorem scanOnce_suffix {fuel n : Nat} {s r : PStr} {v : Json} (h : scanOnce fuel n s = .ok (v, r)) : r <:+ s ∧ r.length < s.length := by
  obtain ⟨t, rfl, ht⟩ := (scan_sound fuel).1 _ _ _ _ h
  obtain ⟨c, s, rfl, _⟩ := ht.head
  exact ⟨⟨_, rfl⟩, by simp; omega⟩

theorem skipSpace_cons {s r : PStr} {c : Nat} (h : skipSpace s = c :: r) : r <:+ s ∧ r.length < s.length := by
  have hs := skipSpace_suffix s
  rw [h] at hs
  exact ⟨(List.suffix_cons c r).trans hs, by have := hs.length_le; simp at this; omega⟩

theorem scan_error (fuel : Nat) :
    (∀ n s e, scanOnce fuel n s = .error e → 2 * s.length + 1 ≤ fuel → e = .value ∨ (e = .recursion ∧ n < opening s)) ∧
    (∀ n s e, scanElements fuel n s = .error e → 2 * s.length + 2 ≤ fuel → e = .value ∨ (e = .recursion ∧ n < opening s)) ∧
    (∀ n acc s e, scanMembers fuel n acc s = .error e → 2 * s.length + 1 ≤ fuel → e = .value ∨ (e = .recursion ∧ n < opening s)) := by
  induction fuel with
  | zero => exact ⟨(fun _ _ _ _ h => by omega), (fun _ _ _ _ h => by omega), (fun _ _ _ _ _ h => by omega)⟩
  | succ fuel ih =>
    obtain ⟨ih1, ih2, ih3⟩ := ih
    refine ⟨fun n s e h hf => ?_, fun n s e h hf => ?_, fun n acc s e h hf => ?_⟩
    · rw [scanOnce.eq_def] at h
      dsimp only at h
      split at h
      · exact .inl (scanString_error (map_error h))
      · rename_i t
        have ho : opening (123 :: t) = opening t + 1 := by simp [opening]; omega
        split at h
        · cases h; exact .inr ⟨rfl, by omega⟩
        · split at h
          · cases h
          · have hs := skipSpace_suffix t
            have := opening_suffix hs
            have := hs.length_le
            rcases ih3 _ _ _ _ (map_error h) (by simp at hf; omega) with h | ⟨h, h'⟩
            · exact .inl h
            · exact .inr ⟨h, by omega⟩
      · rename_i t
        have ho : opening (91 :: t) = opening t + 1 := by simp [opening]; omega
        split at h
        · cases h; exact .inr ⟨rfl, by omega⟩
        · split at h
          · cases h
          · have hs := skipSpace_suffix t
            have := opening_suffix hs
            have := hs.length_le
            rcases ih2 _ _ _ (map_error h) (by simp at hf; omega) with h | ⟨h, h'⟩
            · exact .inl h
            · exact .inr ⟨h, by omega⟩
      · exact .inl (scanPlain_error h)
    · rw [scanElements] at h
      split at h
      · rename_i h1
        cases h
        exact ih1 _ _ _ h1 (by omega)
      · rename_i v r1 h1
        have ⟨hs1, hl1⟩ := scanOnce_suffix h1
        split at h
        · cases h
        · rename_i r2 h2
          have ⟨hs2, hl2⟩ := skipSpace_cons h2
          have hs3 := skipSpace_suffix r2
          have := opening_suffix (hs3.trans (hs2.trans hs1))
          have := hs3.length_le
          rcases ih2 _ _ _ (map_error h) (by omega) with h | ⟨h, h'⟩
          · exact .inl h
          · exact .inr ⟨h, by omega⟩
        · cases h; exact .inl rfl
    · rw [scanMembers.eq_def] at h
      dsimp only at h
      split at h
      · rename_i t
        have ht : opening (34 :: t) = opening t := by simp [opening]
        split at h
        · rename_i h1
          cases h
          exact .inl (scanString_error h1)
        · rename_i k r1 h1
          have ⟨hs1, hl1⟩ := scanString_suffix h1
          split at h
          · rename_i r2 h2
            have ⟨hs2, hl2⟩ := skipSpace_cons h2
            have hs2' := skipSpace_suffix r2
            have hl2' := hs2'.length_le
            have hs2'' := hs2'.trans (hs2.trans hs1)
            have := opening_suffix hs2''
            simp only [List.length_cons] at hf
            split at h
            · rename_i h3
              cases h
              rcases ih1 _ _ _ h3 (by omega) with h | ⟨h, h'⟩
              · exact .inl h
              · exact .inr ⟨h, by omega⟩
            · rename_i v r3 h3
              have ⟨hs3, hl3⟩ := scanOnce_suffix h3
              split at h
              · cases h
              · rename_i r4 h4
                have ⟨hs4, hl4⟩ := skipSpace_cons h4
                have hs5 := skipSpace_suffix r4
                have := opening_suffix (hs5.trans (hs4.trans (hs3.trans hs2'')))
                have := hs5.length_le
                rcases ih3 _ _ _ _ h (by omega) with h | ⟨h, h'⟩
                · exact .inl h
                · exact .inr ⟨h, by omega⟩
              · cases h; exact .inl rfl
          · cases h; exact .inl rfl
      · cases h; exact .inl rfl

/-- Deeper nesting may only help. -/
def Keeps {α : Type} (m m' : Res α) : Prop := m ≠ .error .recursion → m' = m

theorem Keeps.map {α β : Type} {m m' : Res α} (h : Keeps m m') (f : α → β) : Keeps (m.map f) (m'.map f) := by
  intro hne
  rw [h (fun hm => hne (by rw [hm]; rfl))]

theorem scan_mono (fuel : Nat) :
    (∀ n n' s, n ≤ n' → Keeps (scanOnce fuel n s) (scanOnce fuel n' s)) ∧
    (∀ n n' s, n ≤ n' → Keeps (scanElements fuel n s) (scanElements fuel n' s)) ∧
    (∀ n n' acc s, n ≤ n' → Keeps (scanMembers fuel n acc s) (scanMembers fuel n' acc s)) := by
  induction fuel with
  | zero => exact ⟨fun _ _ _ _ _ => rfl, fun _ _ _ _ _ => rfl, fun _ _ _ _ _ _ => rfl⟩
  | succ fuel ih =>
    obtain ⟨ih1, ih2, ih3⟩ := ih
    refine ⟨fun n n' s hn => ?_, fun n n' s hn => ?_, fun n n' acc s hn => ?_⟩
    · rw [scanOnce.eq_def, scanOnce.eq_def (fuel + 1) n']
      dsimp only
      split
      · exact fun _ => rfl
      · cases n with
        | zero => intro h; exact absurd rfl h
        | succ n =>
          cases n' with
          | zero => omega
          | succ n' =>
            dsimp only
            split
            · exact fun _ => rfl
            · exact (ih3 n n' _ _ (by omega)).map _
      · cases n with
        | zero => intro h; exact absurd rfl h
        | succ n =>
          cases n' with
          | zero => omega
          | succ n' =>
            dsimp only
            split
            · exact fun _ => rfl
            · exact (ih2 n n' _ (by omega)).map _
      · exact fun _ => rfl
    · intro hne
      rw [scanElements] at hne ⊢
      rw [scanElements]
      rw [ih1 n n' s hn (fun h => hne (by rw [h]))]
      split
      · rfl
      · rename_i h1
        rw [h1] at hne
        dsimp only at hne
        split
        · rfl
        · rename_i h2
          rw [h2] at hne
          exact (ih2 n n' _ hn).map _ hne
        · rfl
    · intro hne
      rw [scanMembers.eq_def, scanMembers.eq_def (fuel + 1) n]
      dsimp only
      split
      · split
        · rfl
        · rename_i h1
          split
          · rename_i h2
            rw [ih1 n n' _ hn (fun h => hne (by rw [scanMembers_value h1 h2, h]))]
            split
            · rfl
            · rename_i h3
              split
              · rfl
              · rename_i h4
                exact ih3 n n' _ _ hn (fun h => hne (by rw [scanMembers_comma h1 h2 h3 h4, h]))
              · rfl
          · rfl
      · rfl

end JsonText
end Sudachi
