/-
C92: which files are dictionaries, what is in them, and what reading the others raises.
-/
import Verif.Lemmas.FileLayout4
import Verif.Lemmas.Sample
namespace Sudachi

private theorem version_nat {b : Bytes} {h : Header} (hh : HeaderIs b h) : h.version.toNat = numberAt b 0 8 := by
  rw [hh.2.1]
  rfl

private theorem isDict_iff (v : Nat) : isDictionary v = true ↔ v ∈ 0xa50f31188bd211e7 :: versionsWithGrammar := by
  unfold isDictionary versionsWithGrammar SYSTEM_DICT_VERSION_1 SYSTEM_DICT_VERSION_2 USER_DICT_VERSION_1 USER_DICT_VERSION_2 USER_DICT_VERSION_3
  simp only [List.contains_iff_mem, List.mem_cons, List.not_mem_nil, or_false]
  omega

private theorem hasGrammar_iff (v : Nat) : hasGrammar v = true ↔ v ∈ versionsWithGrammar := by
  unfold hasGrammar isSystemDictionary versionsWithGrammar SYSTEM_DICT_VERSION_1 SYSTEM_DICT_VERSION_2 USER_DICT_VERSION_2 USER_DICT_VERSION_3
  simp only [Bool.or_eq_true, beq_iff_eq, List.mem_cons, List.not_mem_nil, or_false, or_assoc]

private theorem hasSyn_eq (v : Nat) : hasSynonymGroupIds v = decide (v ∈ versionsWithSynonyms) := by
  rw [Bool.eq_iff_iff, decide_eq_true_iff]
  unfold hasSynonymGroupIds versionsWithSynonyms SYSTEM_DICT_VERSION_2 USER_DICT_VERSION_3
  simp only [Bool.or_eq_true, beq_iff_eq, List.mem_cons, List.not_mem_nil, or_false]

private theorem no_grammar {v : Nat} (h : v = 0xa50f31188bd211e7) : v ∉ versionsWithGrammar ∧ decide (v ∈ versionsWithSynonyms) = false := by
  subst h
  decide

/-- Reading, after the header. -/
private theorem after_header {b : Bytes} {h : Header} (hh : HeaderIs b h) :
    readDictionary b =
      if numberAt b 0 8 ∉ 0xa50f31188bd211e7 :: versionsWithGrammar then .error .exception
      else if numberAt b 0 8 ∈ versionsWithGrammar then
        (Grammar.read b HEADER_SIZE).bind fun g =>
          (DALex.read b (272 + g.storageSize) (decide (numberAt b 0 8 ∈ versionsWithSynonyms))).bind fun x => .ok ⟨h, some g, x⟩
      else (DALex.read b 272 (decide (numberAt b 0 8 ∈ versionsWithSynonyms))).bind fun x => .ok ⟨h, none, x⟩ := by
  have hne : b.isEmpty = false := by
    cases b with
    | nil => exact absurd hh.1 (by decide)
    | cons => rfl
  unfold readDictionary
  rw [hne, if_neg (by decide), header_ok.2 hh]
  show (if (!isDictionary h.version.toNat) = true then _ else if hasGrammar h.version.toNat = true then _ else _) = _
  rw [version_nat hh, hasSyn_eq]
  by_cases h1 : numberAt b 0 8 ∈ 0xa50f31188bd211e7 :: versionsWithGrammar
  · rw [if_neg (by rw [(isDict_iff _).2 h1]; decide), if_neg (fun (h : numberAt b 0 8 ∉ _) => h h1)]
    by_cases h2 : numberAt b 0 8 ∈ versionsWithGrammar
    · rw [if_pos ((hasGrammar_iff _).2 h2), if_pos h2]
      rfl
    · rw [if_neg (fun h => h2 ((hasGrammar_iff _).1 h)), if_neg h2]
      rfl
  · have : isDictionary (numberAt b 0 8) = false := by
      cases hd : isDictionary (numberAt b 0 8) with
      | true => exact absurd ((isDict_iff _).1 hd) h1
      | false => rfl
    rw [if_pos (by rw [this]; rfl), if_pos h1]

/-- **C92** A file is read as a dictionary exactly when it has the format: a header of a known version, for all versions but one the
parts of speech and the matrix, and the lexicon.  What is read is what stands at these places. -/
theorem C92_reads (b : Bytes) (hb : Octets b) (d : BinDict) : readDictionary b = .ok d ↔ FileIs b d := by
  constructor
  · intro h
    have hh : ∃ h, HeaderIs b h := by
      unfold readDictionary at h
      split at h
      · cases h
      · obtain ⟨hd, h1, _⟩ := bind_ok h
        exact ⟨hd, header_ok.1 h1⟩
    obtain ⟨hd, hh⟩ := hh
    rw [after_header hh] at h
    split at h
    · cases h
    · rename_i h1
      have h1 := Decidable.not_not.1 h1
      split at h
      · rename_i h2
        obtain ⟨g, hg, h⟩ := bind_ok h
        obtain ⟨x, hx, h⟩ := bind_ok h
        cases h
        exact .grammar _ _ _ hh h2 ((grammar_ok hb).1 hg) (lexicon_ok.1 hx)
      · rename_i h2
        obtain ⟨x, hx, h⟩ := bind_ok h
        cases h
        have hv : numberAt b 0 8 = 0xa50f31188bd211e7 := by
          rcases List.mem_cons.1 h1 with h1 | h1
          · exact h1
          · exact absurd h1 h2
        rw [(no_grammar hv).2] at hx
        exact .plain _ _ hh hv (lexicon_ok.1 hx)
  · intro h
    cases h with
    | grammar hd g x hh hv hg hx =>
      rw [after_header hh, if_neg (fun h => h (List.mem_cons_of_mem _ hv)), if_pos hv, (grammar_ok hb).2 hg]
      show (DALex.read b (272 + g.storageSize) _).bind _ = _
      rw [lexicon_ok.2 hx]
      rfl
    | plain hd x hh hv hx =>
      rw [after_header hh, if_neg (fun h => h (by rw [hv]; exact List.mem_cons_self)), if_neg (no_grammar hv).1, (no_grammar hv).2, lexicon_ok.2 hx]
      rfl

/-- **C92** Every other file is refused, and the exception tells what is wrong first: in the order header, version, parts of speech, matrix,
lexicon. -/
theorem C92_raises (b : Bytes) (hb : Octets b) (e : Err) : readDictionary b = .error e ↔ FileFails b e := by
  constructor
  · intro h
    by_cases hn : b = []
    · subst hn
      cases h
      exact .empty rfl
    cases hh : Header.fromBytes b 0 with
    | error e' =>
      have : readDictionary b = .error e' := by
        unfold readDictionary
        rw [if_neg (by rw [List.isEmpty_iff]; exact hn), hh]
        rfl
      rw [this] at h
      cases h
      exact .header _ hn (header_error.1 hh)
    | ok hd =>
      have hh := header_ok.1 hh
      rw [after_header hh] at h
      split at h
      · rename_i h1
        cases h
        exact .version _ hh h1
      · rename_i h1
        have h1 := Decidable.not_not.1 h1
        split at h
        · rename_i h2
          rcases bind_error h with h | ⟨g, hg, h⟩
          · exact .grammar _ _ hh h2 ((grammar_error hb).1 h)
          · rcases bind_error h with h | ⟨x, hx, h⟩
            · exact .lexicon _ _ _ hh h2 ((grammar_ok hb).1 hg) (lexicon_error.1 h)
            · cases h
        · rename_i h2
          rcases bind_error h with h | ⟨x, hx, h⟩
          · refine .plain _ _ hh ?_ (lexicon_error.1 h)
            rcases List.mem_cons.1 h1 with h1 | h1
            · exact h1
            · exact absurd h1 h2
          · cases h
  · intro h
    cases h with
    | empty h => subst h; rfl
    | header _ hn h =>
      unfold readDictionary
      rw [if_neg (by rw [List.isEmpty_iff]; exact hn), header_error.2 h]
      rfl
    | version hd hh hv => rw [after_header hh, if_pos hv]
    | grammar hd _ hh hv h =>
      rw [after_header hh, if_neg (fun h => h (List.mem_cons_of_mem _ hv)), if_pos hv, (grammar_error hb).2 h]
      rfl
    | lexicon hd g _ hh hv hg h =>
      rw [after_header hh, if_neg (fun h => h (List.mem_cons_of_mem _ hv)), if_pos hv, (grammar_ok hb).2 hg]
      show (DALex.read b (272 + g.storageSize) _).bind _ = _
      rw [lexicon_error.2 h]
      rfl
    | plain hd _ hh hv h =>
      rw [after_header hh, if_neg (fun h => h (by rw [hv]; exact List.mem_cons_self)), if_neg (no_grammar hv).1, lexicon_error.2 h]
      rfl

/-- The file of the sample dictionary. -/
private def file : Bytes := (runOps Sample.built.1).data

private theorem file_octets : Octets file := by
  have : file.all (fun x => decide (x < 256)) = true := by decide +kernel
  exact fun x hx => of_decide_eq_true (List.all_eq_true.1 this x hx)

/-- The sample file has the format; some files made of it have not: one without bytes, one of 15 bytes, one that ends in the description, one of
another version, one that ends in the parts of speech, in the matrix, in the word-id table, in a parameter; and one whose first part of speech
is a lone surrogate. -/
example : (∃ d, FileIs file d) ∧ FileFails [] .value ∧ FileFails (file.take 15) .struct ∧ FileFails (file.take 16) .index ∧
    FileFails (0 :: file.drop 1) .exception ∧ FileFails (file.take 277) .value ∧ FileFails (file.take 318) .type ∧ FileFails (file.take 358) .value ∧
    FileFails (file.take 375) .type ∧ FileFails (file.take 275 ++ [0, 0xD8] ++ file.drop 277) .unicode := by
  have take : ∀ n, Octets (file.take n) := fun n x hx => file_octets x (List.mem_of_mem_take hx)
  have drop : ∀ n, Octets (file.drop n) := fun n x hx => file_octets x (List.mem_of_mem_drop hx)
  refine ⟨?_, .empty rfl, (C92_raises _ (take _) _).1 (by decide +kernel), (C92_raises _ (take _) _).1 (by decide +kernel),
    (C92_raises _ ?_ _).1 (by decide +kernel), (C92_raises _ (take _) _).1 (by decide +kernel), (C92_raises _ (take _) _).1 (by decide +kernel), (C92_raises _ (take _) _).1 (by decide +kernel),
    (C92_raises _ (take _) _).1 (by decide +kernel), (C92_raises _ ?_ _).1 (by decide +kernel)⟩
  · obtain ⟨d, hd⟩ := Sample.compiled
    exact ⟨d, (C92_reads _ file_octets _).1 (Sample.compiled_eq hd)⟩
  · intro x hx
    rcases List.mem_cons.1 hx with rfl | hx
    · decide
    · exact drop 1 x hx
  · intro x hx
    rcases List.mem_append.1 hx with hx | hx
    · rcases List.mem_append.1 hx with hx | hx
      · exact take _ x hx
      · simp only [List.mem_cons, List.not_mem_nil, or_false] at hx
        omega
    · exact drop _ x hx

end Sudachi
