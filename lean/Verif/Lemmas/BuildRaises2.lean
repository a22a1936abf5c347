/-
Lemmas: exceptions of references and word infos.
-/
import Verif.Lemmas.BuildRaises
namespace Sudachi
namespace DictBuilder

theorem decodeAux_error : ∀ (n : Nat) {s : PStr} {x : Err}, decodeAux n s = .error x → x = .unicode
  | 0, _, _, h => by cases h
  | _ + 1, [], _, h => by cases h
  | n + 1, c :: cs, x, h => by
    unfold decodeAux at h
    split at h
    · rcases bind_error h with h | ⟨a, _, h⟩
      · unfold replaceLiteral at h
        split at h
        · cases h
        · split at h
          · cases h
          · cases h; rfl
      · rcases bind_error h with h | ⟨b, _, h⟩
        · exact decodeAux_error n h
        · cases h
    · rcases bind_error h with h | ⟨b, _, h⟩
      · exact decodeAux_error n h
      · cases h

theorem decodeText_error {s : PStr} {x : Err} (h : decodeText s = .error x) : x = .unicode := decodeAux_error _ h

theorem checkWordid_error {db : DictBuilder} {w : Int} {x : Err} (h : db.checkWordid w = .error x) : x = .value := by
  unfold checkWordid at h
  split at h
  · split at h <;> cases h; rfl
  · split at h
    · split at h <;> cases h; rfl
    · split at h <;> cases h; rfl

theorem parseId_error {db : DictBuilder} {u : PStr} {x : Err} (h : db.parseId u = .error x) : x = .value := by
  unfold parseId at h
  rcases bind_error h with h | ⟨a, _, h⟩
  · unfold idNumber at h
    split at h
    · rcases bind_error h with h | ⟨b, _, h⟩
      · exact pyInt_error h
      · cases h
    · exact pyInt_error h
  · rcases bind_error h with h | ⟨b, _, h⟩
    · exact checkWordid_error h
    · cases h

theorem number_value {u : PStr} (hid : isId u = true) {v : Int} (hv : pyInt (if u.head? = some 85 then u.tail else u) = .ok v) : 0 ≤ v := by
  cases u with
  | nil => cases hid
  | cons c cs =>
    by_cases hc : c = 85
    · subst hc
      exact pyInt_digits (isId_tail hid) (by simpa using hv)
    · rw [if_neg (by simpa using hc)] at hv
      refine pyInt_digits ?_ hv
      unfold isId at hid
      split at hid
      · rename_i heq; cases heq; exact (hc rfl).elim
      · simp only [Bool.and_eq_true, Bool.not_eq_true'] at hid
        exact hid.1

theorem idNumber_eq (db : DictBuilder) (u : PStr) : db.idNumber u = (pyInt (if u.head? = some 85 then u.tail else u)).bind fun v =>
    .ok (if u.head? = some 85 ∧ db.sys.isSome then (setUserBit v.toNat : Int) else v) := by
  unfold idNumber
  split
  · simp only [List.head?_cons, if_true, List.tail_cons, true_and]
    rfl
  · rename_i h
    have hh : u.head? ≠ some 85 := by
      intro he
      cases u with
      | nil => cases he
      | cons c cs => injection he with he; exact h cs (by rw [he])
    simp only [hh, if_false, false_and]
    cases pyInt u <;> rfl

/-- A reference by number is accepted if it finds a word. -/
theorem parseId_finds {db : DictBuilder} {u : PStr} (hid : isId u = true) :
    (∃ w, db.parseId u = .ok w) ↔ NumberFinds db.sys db.entries.length u := by
  have hparse : (∃ w, db.parseId u = .ok w) ↔ ∃ w, db.idNumber u = .ok w ∧ db.checkWordid w = .ok () := by
    unfold parseId
    cases db.idNumber u with
    | error x => exact ⟨fun ⟨_, h⟩ => (by cases h), fun ⟨_, h, _⟩ => (by cases h)⟩
    | ok w =>
      cases h : db.checkWordid w with
      | error x =>
        refine ⟨fun ⟨_, h'⟩ => ?_, fun ⟨w', h1, h2⟩ => ?_⟩
        · rw [ok_bind, h] at h'; cases h'
        · cases h1; rw [h] at h2; cases h2
      | ok y => exact ⟨fun _ => ⟨w, rfl, h⟩, fun _ => ⟨w, by rw [ok_bind, h]; rfl⟩⟩
  rw [hparse, idNumber_eq]
  unfold NumberFinds
  cases hp : pyInt (if u.head? = some 85 then u.tail else u) with
  | error x =>
    constructor
    · rintro ⟨w, h, _⟩; cases h
    · rintro ⟨v, h, _⟩; cases h
  | ok v =>
    obtain ⟨k, rfl⟩ := Int.eq_ofNat_of_zero_le (number_value hid hp)
    simp only [Except.bind, Except.ok.injEq, Int.toNat_natCast]
    have h1 := setUserBit_ge k
    have h2 := setUserBit_mod k
    have hv : ∀ {q : Int → Prop} {x : Int}, (∃ w, x = w ∧ q w) ↔ q x := fun {q x} => ⟨fun ⟨_, h, h'⟩ => h ▸ h', fun h => ⟨x, rfl, h⟩⟩
    have hk : ∀ {q : Nat → Prop}, (∃ v : Nat, (k : Int) = v ∧ q v) ↔ q k := fun {q} =>
      ⟨fun ⟨v, h, h'⟩ => (by have : k = v := by omega
                             subst this; exact h'), fun h => ⟨k, rfl, h⟩⟩
    have hif : ∀ {p : Prop} [Decidable p], (if p then .error .value else .ok () : Res Unit) = .ok () ↔ ¬ p := by
      intro p _
      split
      · rename_i hp; exact ⟨fun h => (by cases h), fun h => (h hp).elim⟩
      · rename_i hp; exact ⟨fun _ => hp, fun _ => rfl⟩
    rw [hv, hk]
    unfold checkWordid
    cases hsys : db.sys with
    | none =>
      simp only [Option.isSome_none, Bool.false_eq_true, and_false, if_false]
      rw [hif]
      omega
    | some s =>
      simp only [Option.isSome_some, and_true]
      by_cases hu : u.head? = some 85
      · simp only [hu, if_true, true_or]
        rw [if_pos (by omega), hif]
        omega
      · simp only [hu, if_false, false_or]
        by_cases hk : 2 ^ 28 ≤ k
        · rw [if_pos (by omega), if_pos hk, hif]
          omega
        · rw [if_neg (by omega), if_neg hk, hif]
          omega

theorem numberResolves_iff {sys : Option SysDict} {n : Nat} {u : PStr} : NumberResolves sys n u ↔ NumberFinds sys n u ∧ ¬ NumberHuge u := by
  unfold NumberResolves NumberFinds NumberHuge
  constructor
  · rintro ⟨v, h1, h2, h3⟩
    refine ⟨⟨v, h1, h3⟩, ?_⟩
    rintro ⟨v', h1', h2'⟩
    rw [h1] at h1'
    injection h1' with h1'
    omega
  · rintro ⟨⟨v, h1, h3⟩, h⟩
    refine ⟨v, h1, ?_, h3⟩
    exact Nat.lt_of_not_le fun hle => h ⟨v, h1, hle⟩

theorem wordToId_short {db : DictBuilder} {u : PStr} (h : (splitOn 44 u).length < 8) : db.wordToId u = .error .value := by
  unfold wordToId
  split
  · rename_i heq
    rw [heq] at h
    simp only [List.length_cons] at h
    omega
  · rfl

theorem eight_fields {l : List PStr} (h : ¬ l.length < 8) : ∃ c0 c1 c2 c3 c4 c5 c6 c7 more, l = c0 :: c1 :: c2 :: c3 :: c4 :: c5 :: c6 :: c7 :: more := by
  match l, h with
  | c0 :: c1 :: c2 :: c3 :: c4 :: c5 :: c6 :: c7 :: more, _ => exact ⟨c0, c1, c2, c3, c4, c5, c6, c7, more, rfl⟩
  | [], h | [_], h | [_, _], h | [_, _, _], h | [_, _, _, _], h | [_, _, _, _, _], h | [_, _, _, _, _, _], h | [_, _, _, _, _, _, _], h =>
    exact (h (by simp)).elim

/-- The number of the word that fields find fits. -/
theorem getWordid_fits {sys : Option SysDict} {rows : List (List PStr)} {db db1 : DictBuilder} (hr : (init sys).addRows rows = .ok db)
    (hS : Same db db1) (hn : rows.length < 2 ^ 28) (ha : ∀ s, sys = some s → s.Answers) (headword : PStr) (p : Int) (reading : PStr) :
    (∃ w, db1.getWordid headword p reading = .ok w ∧ w ≤ 2147483647 ∧ (sys ≠ none → ¬ Clean headword → 0 ≤ w)) ∨
      (sys ≠ none ∧ ¬ Clean headword ∧ db1.getWordid headword p reading = .error .unicode) := by
  obtain ⟨r1, r2, _, _⟩ := rows_entries hr
  have hb : db1.baseGetWordid headword p reading < rows.length ∨ db1.baseGetWordid headword p reading = -1 := by
    unfold baseGetWordid
    split
    · rename_i i hi
      obtain ⟨hlt, _⟩ := List.findIdx?_eq_some_iff_getElem.1 hi
      rw [hS.entries] at hlt
      exact .inl (by omega)
    · exact .inr rfl
  unfold getWordid
  rw [hS.sys, r1]
  cases sys with
  | none => exact .inl ⟨_, rfl, by omega, fun h => (h rfl).elim⟩
  | some s =>
    dsimp only
    split
    · refine .inl ⟨_, rfl, ?_, fun _ _ => Int.natCast_nonneg _⟩
      have := setUserBit_lt (v := (db1.baseGetWordid headword p reading).toNat) (by omega)
      omega
    · obtain ⟨h1, h2⟩ := ha s rfl headword p reading
      by_cases hcl : Clean headword
      · obtain ⟨w, h3, h4⟩ := h1 hcl
        exact .inl ⟨w, h3, h4, fun _ h => (h hcl).elim⟩
      · exact .inr ⟨nofun, hcl, h2 hcl⟩

/-- One reference. -/
theorem parseUnit_exact {sys : Option SysDict} {rows : List (List PStr)} {db db1 : DictBuilder} (hr : (init sys).addRows rows = .ok db)
    (hp : PosColumnsOk rows) (hS : Same db db1) (hn : rows.length < 2 ^ 28) (hk : ∀ s, sys = some s → s.KnowsPos ∧ s.Answers) (u : PStr) :
    Exact (db1.parseUnit u) (unitChecks sys rows u) := by
  obtain ⟨r1, r2, _, _⟩ := rows_entries hr
  by_cases hid : isId u = true
  · refine Exact.congr (l := [(.value, ¬ NumberFinds sys rows.length u)]) ?_ ?_
    · unfold parseUnit
      rw [if_pos hid]
      refine Exact.map (Exact.one' (fun e he => parseId_error he) ?_) fun w _ => ⟨_, rfl⟩
      rw [Classical.not_not, parseId_finds hid, hS.sys, hS.entries, r1, r2]
    · intro e
      simp only [unitChecks, Fails, hid, true_and, Bool.true_eq_false, false_and, and_false, or_false]
  · have hid' : isId u = false := by simpa using hid
    refine Exact.congr (l := [(.value, (splitOn 44 u).length < 8),
      (.unicode, ∃ s, ((splitOn 44 u)[0]? = some s ∨ (splitOn 44 u)[7]? = some s) ∧ ∀ t, decodeText s ≠ .ok t),
      (.unicode, ¬ FieldsResolve sys rows u ∧ sys ≠ none ∧ ∃ s t, (splitOn 44 u)[0]? = some s ∧ decodeText s = .ok t ∧ ¬ Clean t),
      (.value, ¬ FieldsResolve sys rows u)]) ?_ ?_
    · by_cases hlen : (splitOn 44 u).length < 8
      · have : db1.parseUnit u = .error .value := by
          unfold parseUnit
          rw [if_neg hid, wordToId_short hlen]
          rfl
        rw [this]
        intro e
        simp only [Fails, hlen, true_and, not_true_eq_false, false_and, or_false]
        exact ⟨fun h => (Except.error.inj h).symm, fun h => by rw [h]⟩
      · obtain ⟨c0, c1, c2, c3, c4, c5, c6, c7, more, heq⟩ := eight_fields hlen
        have hex : (∃ s, ((splitOn 44 u)[0]? = some s ∨ (splitOn 44 u)[7]? = some s) ∧ ∀ t, decodeText s ≠ .ok t) ↔
            (∀ t, decodeText c0 ≠ .ok t) ∨ ∀ t, decodeText c7 ≠ .ok t := by
          rw [heq]
          constructor
          · rintro ⟨s, h | h, ht⟩ <;> cases h
            · exact .inl ht
            · exact .inr ht
          · rintro (h | h)
            · exact ⟨c0, .inl rfl, h⟩
            · exact ⟨c7, .inr rfl, h⟩
        have hfail : ∀ {x : Err}, db1.wordToId u = .error x → db1.parseUnit u = .error x := by
          intro x h
          unfold parseUnit
          rw [if_neg hid, h]
          rfl
        by_cases hdec : (∀ t, decodeText c0 ≠ .ok t) ∨ ∀ t, decodeText c7 ≠ .ok t
        · have : db1.parseUnit u = .error .unicode := by
            apply hfail
            unfold wordToId
            rw [heq]
            dsimp only
            cases h0 : decodeText c0 with
            | error x => obtain rfl := decodeText_error h0; rfl
            | ok a =>
              rw [ok_bind]
              rw [if_neg (by have := getPosid_nonneg db1 [c1, c2, c3, c4, c5, c6]; omega)]
              cases h7 : decodeText c7 with
              | error x => obtain rfl := decodeText_error h7; rfl
              | ok b =>
                rcases hdec with h | h
                · exact (h a h0).elim
                · exact (h b h7).elim
          rw [this]
          intro e
          simp only [Fails, hlen, hex, hdec, true_and, not_true_eq_false, not_false_eq_true, false_and, or_false, false_or]
          exact ⟨fun h => (Except.error.inj h).symm, fun h => by rw [h]⟩
        · refine Exact.congr (l := [(.unicode, ¬ FieldsResolve sys rows u ∧ sys ≠ none ∧ ∃ s t, (splitOn 44 u)[0]? = some s ∧ decodeText s = .ok t ∧ ¬ Clean t),
            (.value, ¬ FieldsResolve sys rows u)]) ?_ ?_
          · have hdec0 : ∃ a, decodeText c0 = .ok a := Classical.byContradiction fun hn => hdec (.inl fun t ht => hn ⟨t, ht⟩)
            have hdec7 : ∃ b, decodeText c7 = .ok b := Classical.byContradiction fun hn => hdec (.inr fun t ht => hn ⟨t, ht⟩)
            obtain ⟨a, h0⟩ := hdec0
            obtain ⟨b, h7⟩ := hdec7
            have hsame := hS.trans (getPosid_same db1 [c1, c2, c3, c4, c5, c6])
            have hclean : (∃ s t, (splitOn 44 u)[0]? = some s ∧ decodeText s = .ok t ∧ ¬ Clean t) ↔ ¬ Clean a := by
              rw [heq]
              constructor
              · rintro ⟨s, t, h1, h2, h3⟩
                cases h1
                rw [h0] at h2
                cases h2
                exact h3
              · intro h; exact ⟨c0, a, rfl, h0, h⟩
            rw [hclean]
            rcases getWordid_fits hr hsame hn (fun s hs => (hk s hs).2) a (db1.getPosid [c1, c2, c3, c4, c5, c6]).1 b with
              ⟨w, hw, hw', hw0⟩ | ⟨hsys, hcl, hw⟩
            rotate_left
            · have hword : db1.wordToId u = .error .unicode := by
                unfold wordToId
                rw [heq]
                dsimp only
                rw [h0, ok_bind, if_neg (by have := getPosid_nonneg db1 [c1, c2, c3, c4, c5, c6]; omega), h7, ok_bind, hw]
                rfl
              have hno : ¬ FieldsResolve sys rows u := by
                intro h
                obtain ⟨w', db2, h1, _⟩ := wordToId_total hr hp hS hn h
                rw [hword] at h1
                cases h1
              rw [hfail hword]
              intro e
              simp only [Fails, hno, hsys, hcl, ne_eq, not_false_eq_true, true_and, and_self, not_true_eq_false, false_and, or_false]
              exact ⟨fun h => (Except.error.inj h).symm, fun h => by rw [h]⟩
            have hword : db1.wordToId u = .ok (w, (db1.getPosid [c1, c2, c3, c4, c5, c6]).2) := by
              unfold wordToId
              rw [heq]
              dsimp only
              rw [h0, ok_bind, if_neg (by have := getPosid_nonneg db1 [c1, c2, c3, c4, c5, c6]; omega), h7, ok_bind, hw]
              rfl
            have hunit : db1.parseUnit u = if w < 0 then .error .value else .ok (w, (db1.getPosid [c1, c2, c3, c4, c5, c6]).2) := by
              unfold parseUnit
              rw [if_neg hid, hword]
              rfl
            have hiff : FieldsResolve sys rows u ↔ 0 ≤ w := by
              constructor
              · intro h
                obtain ⟨w', db2, h1, h2, _⟩ := wordToId_total hr hp hS hn h
                rw [hword] at h1
                cases h1
                exact h2
              · intro h
                rw [if_neg (by omega)] at hunit
                have := parseUnit_resolves hr hp hS (fun s hs => (hk s hs).1) hunit ⟨by omega, hw'⟩
                rwa [if_neg hid] at this
            rw [hunit]
            refine Exact.congr (l := [(.value, ¬ FieldsResolve sys rows u)]) ?_ (fun e => ?_)
            rotate_left
            · have : ¬ (¬ FieldsResolve sys rows u ∧ sys ≠ none ∧ ¬ Clean a) := by
                rintro ⟨h1, h2, h3⟩
                exact h1 (hiff.2 (hw0 h2 h3))
              simp only [Fails, this, false_and, not_false_eq_true, true_and, false_or]
            refine Exact.one ?_ ?_
            · intro h; rw [if_pos]; rw [hiff] at h; omega
            · intro h
              rw [if_neg]
              · exact ⟨_, rfl⟩
              · rw [Classical.not_not, hiff] at h; omega
          · intro e
            simp only [Fails, hlen, hex, hdec, not_false_eq_true, true_and, false_and, false_or]
    · intro e
      simp only [unitChecks, Fails, hid', true_and, Bool.false_eq_true, false_and, not_false_eq_true, false_or]

theorem parseUnits_exact {sys : Option SysDict} {rows : List (List PStr)} {db : DictBuilder} (hr : (init sys).addRows rows = .ok db)
    (hp : PosColumnsOk rows) (hn : rows.length < 2 ^ 28) (hk : ∀ s, sys = some s → s.KnowsPos ∧ s.Answers) {us : List PStr} :
    ∀ {db1 : DictBuilder}, Same db db1 → Exact (db1.parseUnits us) (us.flatMap (unitChecks sys rows)) := by
  induction us with
  | nil => intro db1 _; exact Exact.nil ⟨_, rfl⟩
  | cons u us ih =>
    intro db1 hS
    unfold parseUnits
    rw [List.flatMap_cons]
    refine (parseUnit_exact hr hp hS hn hk u).bind fun a ha => ?_
    obtain ⟨w, d1⟩ := a
    exact (ih (hS.trans (parseUnit_same ha))).map fun b _ => ⟨_, rfl⟩

/-- A reference that raises nothing finds a word. -/
theorem unit_finds {sys : Option SysDict} {rows : List (List PStr)} {u : PStr} (h : Passes (unitChecks sys rows u)) :
    if isId u = true then NumberFinds sys rows.length u else FieldsResolve sys rows u := by
  by_cases hid : isId u = true
  · rw [if_pos hid]
    exact Classical.byContradiction fun hn => h _ (.head _) ⟨hid, hn⟩
  · rw [if_neg hid]
    exact Classical.byContradiction fun hn => h _ (.tail _ (.tail _ (.tail _ (.tail _ (.head _))))) ⟨by simpa using hid, hn⟩

/-- A split column, with what is written of it. -/
theorem split_exact {β : Type} {sys : Option SysDict} {rows : List (List PStr)} {db db1 : DictBuilder} (hr : (init sys).addRows rows = .ok db)
    (hp : PosColumnsOk rows) (hS : Same db db1) (hn : rows.length < 2 ^ 28) (hk : ∀ s, sys = some s → s.KnowsPos ∧ s.Answers) {col : PStr}
    (hc : col.count 47 + 1 ≤ 127) {g : List Int × DictBuilder → Res β} {m : List Check}
    (hg : ∀ ws db2, Same db db2 → ∃ f, g (ws, db2) = (writeIntArray ws >>= f) ∧ ∀ b, Exact (f b) m) :
    Exact (db1.parseSplitinfo col >>= g) (splitChecks sys rows col ++ m) := by
  unfold splitChecks parseSplitinfo
  by_cases h42 : col = [42]
  · rw [if_pos h42, if_pos h42, ok_bind]
    obtain ⟨f, h1, h2⟩ := hg [] db1 hS
    rw [h1]
    exact (Exact.nil (writeIntArray_iff.2 ⟨by simp, fun _ h => (by cases h)⟩)).bind fun b _ => h2 b
  · rw [if_neg h42, if_neg h42, if_neg (by rw [splitOn_count]; omega), List.append_assoc]
    have hex := parseUnits_exact hr hp hn hk (us := splitOn 47 col) hS
    refine hex.bind fun a ha => ?_
    obtain ⟨ws, db2⟩ := a
    have hpass := hex.passes_iff.1 ⟨_, ha⟩
    have hlen := (parseUnits_ok hr hp hS ha).1
    obtain ⟨f, h1, h2⟩ := hg ws db2 (hS.trans (parseUnits_same ha))
    rw [h1]
    refine Exact.bind ?_ fun b _ => h2 b
    refine (writeIntArray_exact (by rw [hlen, splitOn_count]; omega)).congr ?_
    have hiff : (∃ v ∈ ws, ¬ FitsInt v) ↔ ∃ u ∈ splitOn 47 col, isId u = true ∧ NumberHuge u := by
      constructor
      · rintro ⟨v, hv, hnv⟩
        apply Classical.byContradiction
        intro hno
        obtain ⟨ws', db', h1, _, h3⟩ := parseUnits_total hr hp hn hS (us := splitOn 47 col) (by
          intro u hu
          have h4 := unit_finds (fun c hc => hpass c (List.mem_flatMap.2 ⟨u, hu, hc⟩))
          by_cases hid : isId u = true
          · rw [if_pos hid] at h4 ⊢
            exact numberResolves_iff.2 ⟨h4, fun hh => hno ⟨u, hu, hid, hh⟩⟩
          · rw [if_neg hid] at h4 ⊢
            exact h4)
        rw [ha] at h1
        cases h1
        exact hnv (h3 v hv)
      · rintro ⟨u, hu, hid, hh⟩
        apply Classical.byContradiction
        intro hno
        have := parseUnits_resolves hr hp (fun s hs => (hk s hs).1) hS ha (fun w hw => Classical.byContradiction fun hn => hno ⟨w, hw, hn⟩) u hu
        rw [if_pos hid] at this
        exact (numberResolves_iff.1 this).2 hh
    intro e
    simp only [Fails, hiff]

/-- The word info of a row. -/
theorem wordInfoBytes_exact {sys : Option SysDict} {rows : List (List PStr)} {db db1 : DictBuilder} (hr : (init sys).addRows rows = .ok db)
    (hp : PosColumnsOk rows) {cs : List Cols} (hc : RowsRead rows cs) (hS : Same db db1) (hn : rows.length < 2 ^ 28)
    (hk : ∀ s, sys = some s → s.KnowsPos ∧ s.Answers) {w : Nat} {c : Cols} (hw : cs[w]? = some c) {e : Entry} (he : db.entries[w]? = some e) :
    Exact (db1.wordInfoBytes e) (c.infoChecks sys rows cs) := by
  obtain ⟨_, hl⟩ := rows_list hr hc
  obtain ⟨hok, e', p, he', hE, hpid, hpis⟩ := hl w c hw
  rw [he] at he'
  cases he'
  have hpos := posid_idxOf hr hp hc hw
  unfold wordInfoBytes Cols.infoChecks
  rw [hE.surface, hE.headWordLength, hE.posId, hE.normalized, hE.reading, hE.aSplit, hE.bSplit, hE.structureSplit]
  simp only [List.append_assoc]
  have hsx := writeString_exact hok.surface
  refine hsx.bind (m := [_, _, _, _] ++ _) fun a1 h1 => ?_
  have hclean : Clean c.surface := (writeString_iff.1 ⟨a1, h1⟩).1
  refine (Exact.nil (writeStringLength_iff.2 (show (c.headword.flatMap utf8Cp).length < _ by have := hok.headwordBytes; omega))).bind (m := [_, _, _, _] ++ _) fun a2 _ => ?_
  refine (writeInt_exact (p := 32767 < (allPos sys cs).idxOf c.pos) ?_).bind (m := [_, _, _] ++ _) fun a3 _ => ?_
  · rw [writeInt_short_iff, ← hpid, hpos]
    unfold FitsShort
    omega
  refine (writeString_same_exact hok.normalized hclean).bind (m := [_, _] ++ _) fun a4 _ => ?_
  refine (writeInt_exact (p := ∃ v, c.DicForm v ∧ ¬ FitsInt v) ?_).bind (m := [_] ++ _) fun a5 _ => ?_
  · rw [writeInt_int_iff]
    constructor
    · rintro h ⟨v, hv, hnv⟩
      rw [dicForm_unique hv hE.dicForm] at hnv
      exact hnv h
    · intro h
      exact Classical.byContradiction fun hnf => h ⟨_, hE.dicForm, hnf⟩
  refine (writeString_same_exact hok.reading hclean).bind fun a6 _ => ?_
  refine split_exact hr hp hS hn hk hok.aSplit fun w1 d1 hS1 => ⟨_, rfl, fun b1 => ?_⟩
  refine split_exact hr hp hS1 hn hk hok.bSplit fun w2 d2 hS2 => ⟨_, rfl, fun b2 => ?_⟩
  refine split_exact hr hp hS2 hn hk hok.structureSplit fun w3 d3 hS3 => ⟨_, rfl, fun b3 => ?_⟩
  obtain ⟨s1, s2⟩ := synonyms_len hE.synonyms
  refine (writeIntArray_exact (by omega)).congr ?_ |>.map fun _ _ => ⟨_, rfl⟩
  have hiff : (∃ v ∈ e.info.synonymGroupIds, ¬ FitsInt v) ↔ ∃ ids, c.Synonyms ids ∧ ∃ v ∈ ids, ¬ FitsInt v := by
    constructor
    · intro h; exact ⟨_, hE.synonyms, h⟩
    · rintro ⟨ids, h1, h2⟩; rw [synonyms_unique h1 hE.synonyms] at h2; exact h2
  intro x
  simp only [Fails, hiff]

end DictBuilder
end Sudachi
