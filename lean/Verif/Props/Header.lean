/-
Properties of the dictionary header and the dictionary versions: C35, C36.
-/
import Verif.Lemmas.Header2
namespace Sudachi

/-- **C35** A written header, anywhere in a file, is read back as it was, if its creation time is not negative and its
description has no NUL. -/
theorem C35_round_trip (h : Header) (b : Bytes) (hb : h.toBytes = .ok b) (ht : 0 ≤ h.createTime) (hd : 0 ∉ h.description)
    (pre rest : Bytes) : Header.fromBytes (pre ++ (b ++ rest)) pre.length = .ok h := by
  rw [fromBytes_shift, header_read hb, beforeNul_eq hd]
  have : h.createTime % 2 ^ 64 = h.createTime := by
    obtain ⟨v, t, _, ht', _, _, _⟩ := header_bytes hb
    unfold toBytes at ht'
    simp only [if_true] at ht'
    split at ht'
    · rename_i hv
      have e : (2 : Int) ^ (8 * 8) = 18446744073709551616 := by decide
      rw [e] at hv
      have e : (2 : Int) ^ 64 = 18446744073709551616 := by decide
      rw [e]
      omega
    · cases ht'
  rw [this]

/-- **C35** In general: a negative creation time is read as an unsigned number, and a NUL ends the description. -/
theorem C35_what_is_read (h : Header) (b : Bytes) (hb : h.toBytes = .ok b) (pre rest : Bytes) :
    Header.fromBytes (pre ++ (b ++ rest)) pre.length =
      .ok ⟨h.version, h.createTime % 2 ^ 64, h.description.takeWhile (fun c => decide (c ≠ 0))⟩ := by
  rw [fromBytes_shift, header_read hb]
  rfl

/-- **C35** A written header has 272 bytes. -/
theorem C35_size (h : Header) (b : Bytes) (hb : h.toBytes = .ok b) : b.length = 272 := header_length hb

/-- **C35** A header is written if its version is an unsigned and its creation time a signed 64-bit number and its
description has at most 256 UTF-8 bytes. -/
theorem C35_accepts (h : Header) (hv : 0 ≤ h.version ∧ h.version < 2 ^ 64) (ht : -(2 ^ 63) ≤ h.createTime ∧ h.createTime < 2 ^ 63)
    (he : ∀ c ∈ h.description, encodable c = true) (hl : (h.description.flatMap utf8Cp).length ≤ 256) : ∃ b, h.toBytes = .ok b := by
  rw [header_writes h hv ht he, if_pos hl]
  exact ⟨_, rfl⟩

/-- **C35** A longer description is refused. -/
theorem C35_refuses_long (h : Header) (hv : 0 ≤ h.version ∧ h.version < 2 ^ 64) (ht : -(2 ^ 63) ≤ h.createTime ∧ h.createTime < 2 ^ 63)
    (he : ∀ c ∈ h.description, encodable c = true) (hl : 256 < (h.description.flatMap utf8Cp).length) :
    h.toBytes = .error .value := by
  rw [header_writes h hv ht he, if_neg (by omega)]

/-- **C35** Nothing else is written: no version or time that does not fit, no surrogates, no long description. -/
theorem C35_refuses (h : Header) (b : Bytes) (hb : h.toBytes = .ok b) :
    (0 ≤ h.version ∧ h.version < 2 ^ 64) ∧ (-(2 ^ 63) ≤ h.createTime ∧ h.createTime < 2 ^ 63) ∧
    (∀ c ∈ h.description, encodable c = true) ∧ (h.description.flatMap utf8Cp).length ≤ 256 := by
  obtain ⟨v, t, hv, ht, he, hl, _⟩ := header_bytes hb
  refine ⟨?_, ?_, he, hl⟩
  · unfold toBytes at hv
    simp only [Bool.false_eq_true, if_false] at hv
    split at hv
    · rename_i h1
      have : (2 : Int) ^ (8 * 8) = 2 ^ 64 := by decide
      rw [this] at h1; exact h1
    · cases hv
  · unfold toBytes at ht
    simp only [if_true] at ht
    split at ht
    · rename_i h1
      have e : (2 : Int) ^ (8 * 8) = 18446744073709551616 := by decide
      rw [e] at h1
      have e : (2 : Int) ^ 63 = 9223372036854775808 := by decide
      rw [e]
      omega
    · cases ht

/-- A header with a two-byte character; one with a NUL and a time before 1970; one of exactly 256 bytes. -/
example : ∃ b, (⟨SYSTEM_DICT_VERSION_2, 1600000000, [0x65E5, 0x41]⟩ : Header).toBytes = .ok b ∧
    Header.fromBytes b 0 = .ok ⟨SYSTEM_DICT_VERSION_2, 1600000000, [0x65E5, 0x41]⟩ := ⟨_, rfl, by decide +kernel⟩

example : ∃ b, (⟨1, -1, [0x41, 0, 0x42]⟩ : Header).toBytes = .ok b ∧
    Header.fromBytes b 0 = .ok ⟨1, 18446744073709551615, [0x41]⟩ := ⟨_, rfl, by decide +kernel⟩

example : (⟨1, 0, List.replicate 256 0x41⟩ : Header).toBytes.map List.length = .ok 272 ∧
    (⟨1, 0, List.replicate 257 0x41⟩ : Header).toBytes = .error .value := by decide +kernel

/-- The two versions of system dictionaries. -/
def systemVersions : List Nat := [0x7366d3f18bd111e7, 0xce9f011a92394434]

/-- The three versions of user dictionaries. -/
def userVersions : List Nat := [0xa50f31188bd211e7, 0x9fdeb5a90168d868, 0xca9811756ff64fb0]

/-- The version number at the start of a file. -/
def fileVersion (b : Bytes) : Nat := fromLe (b.take 8)

/-- **C36** No version is both. -/
theorem C36_disjoint (v : Nat) (h : v ∈ systemVersions) : v ∉ userVersions := by
  simp only [systemVersions, List.mem_cons, List.not_mem_nil, or_false] at h
  rcases h with rfl | rfl <;> decide

theorem isSystem_iff (v : Nat) : isSystemDictionary v = true ↔ v ∈ systemVersions := by
  simp [isSystemDictionary, systemVersions, SYSTEM_DICT_VERSION_1, SYSTEM_DICT_VERSION_2]

theorem isUser_iff (v : Nat) : isUserDictionary v = true ↔ v ∈ userVersions := by
  simp [isUserDictionary, userVersions, USER_DICT_VERSION_1, USER_DICT_VERSION_2, USER_DICT_VERSION_3, or_assoc]

theorem isDictionary_iff (v : Nat) : isDictionary v = true ↔ v ∈ systemVersions ∨ v ∈ userVersions := by
  simp [isDictionary, systemVersions, userVersions, SYSTEM_DICT_VERSION_1, SYSTEM_DICT_VERSION_2, USER_DICT_VERSION_1,
    USER_DICT_VERSION_2, USER_DICT_VERSION_3, or_assoc]

/-- The version in a header that was read. -/
theorem fromBytes_version {b : Bytes} {h : Header} (hb : Header.fromBytes b 0 = .ok h) : h.version = fileVersion b := by
  unfold Header.fromBytes at hb
  split at hb
  · cases hb
  · obtain ⟨len, _, hb⟩ := bind_ok hb
    obtain ⟨d, _, hb⟩ := bind_ok hb
    cases hb
    simp [fileVersion, pySlice]

theorem readDictionary_version {b : Bytes} {d : BinDict} (h : readDictionary b = .ok d) :
    d.header.version = fileVersion b ∧ (fileVersion b ∈ systemVersions ∨ fileVersion b ∈ userVersions) := by
  unfold readDictionary at h
  split at h
  · cases h
  · obtain ⟨hd, hh, h⟩ := bind_ok h
    have hv := fromBytes_version hh
    split at h
    · cases h
    · rename_i hdict
      have hd' : isDictionary (fileVersion b) = true := by
        rw [hv] at hdict; simpa using hdict
      have hm := (isDictionary_iff _).1 hd'
      split at h
      · obtain ⟨g, _, h⟩ := bind_ok h
        obtain ⟨l, _, h⟩ := bind_ok h
        cases h
        exact ⟨hv, hm⟩
      · obtain ⟨l, _, h⟩ := bind_ok h
        cases h
        exact ⟨hv, hm⟩

/-- **C36** A file whose version is not one of the five is refused: with the message "invalid dictionary version" if its
header can be read at all. -/
theorem C36_unknown_version_refused (b : Bytes) (hv : fileVersion b ∉ systemVersions ∧ fileVersion b ∉ userVersions) :
    (∃ e, readDictionary b = .error e) ∧ (∀ h, Header.fromBytes b 0 = .ok h → readDictionary b = .error .exception) := by
  constructor
  · cases h : readDictionary b with
    | error e => exact ⟨e, rfl⟩
    | ok d => exact ((readDictionary_version h).2.elim hv.1 hv.2).elim
  · intro h hh
    have h1 := fromBytes_version hh
    unfold readDictionary
    have hne : b.isEmpty = false := by
      cases b with
      | nil => simp [Header.fromBytes] at hh
      | cons _ _ => rfl
    rw [hne, hh]
    simp only [Bool.false_eq_true, if_false, bind, Except.bind]
    have : isDictionary h.version.toNat = false := by
      rw [h1, Int.toNat_natCast]
      cases hc : isDictionary (fileVersion b) with
      | false => rfl
      | true => exact (((isDictionary_iff _).1 hc).elim hv.1 hv.2).elim
    rw [this]
    rfl

/-- **C36** The system loader opens exactly the readable files with one of the two system versions. -/
theorem C36_system_loader (b : Bytes) (d : BinDict) :
    fromSystemDictionary b = .ok d ↔ readDictionary b = .ok d ∧ fileVersion b ∈ systemVersions := by
  unfold fromSystemDictionary
  constructor
  · intro h
    obtain ⟨d', hd, h⟩ := bind_ok h
    have hv := (readDictionary_version hd).1
    rw [hv, Int.toNat_natCast] at h
    split at h
    · cases h
    · rename_i hs
      cases h
      exact ⟨hd, (isSystem_iff _).1 (by simpa using hs)⟩
  · rintro ⟨hd, hs⟩
    have hv := (readDictionary_version hd).1
    rw [hd]
    simp only [bind, Except.bind, hv, Int.toNat_natCast, (isSystem_iff _).2 hs]
    rfl

/-- **C36** The user loader opens exactly the readable files with one of the three user versions. -/
theorem C36_user_loader (b : Bytes) (d : BinDict) :
    fromUserDictionary b = .ok d ↔ readDictionary b = .ok d ∧ fileVersion b ∈ userVersions := by
  unfold fromUserDictionary
  constructor
  · intro h
    obtain ⟨d', hd, h⟩ := bind_ok h
    have hv := (readDictionary_version hd).1
    rw [hv, Int.toNat_natCast] at h
    split at h
    · cases h
    · rename_i hs
      cases h
      exact ⟨hd, (isUser_iff _).1 (by simpa using hs)⟩
  · rintro ⟨hd, hs⟩
    have hv := (readDictionary_version hd).1
    rw [hd]
    simp only [bind, Except.bind, hv, Int.toNat_natCast, (isUser_iff _).2 hs]
    rfl

/-- **C36** A readable dictionary of the other kind is refused with `IOError`. -/
theorem C36_wrong_kind (b : Bytes) (d : BinDict) (hd : readDictionary b = .ok d) :
    (fileVersion b ∈ userVersions → fromSystemDictionary b = .error .io) ∧
    (fileVersion b ∈ systemVersions → fromUserDictionary b = .error .io) := by
  have hv := (readDictionary_version hd).1
  constructor
  · intro hu
    have hs : isSystemDictionary (fileVersion b) = false := by
      cases hc : isSystemDictionary (fileVersion b) with
      | false => rfl
      | true => exact (C36_disjoint _ ((isSystem_iff _).1 hc) hu).elim
    unfold fromSystemDictionary
    rw [hd]
    simp only [bind, Except.bind, hv, Int.toNat_natCast, hs]
    rfl
  · intro hs
    have hu : isUserDictionary (fileVersion b) = false := by
      cases hc : isUserDictionary (fileVersion b) with
      | false => rfl
      | true => exact (C36_disjoint _ hs ((isUser_iff _).1 hc)).elim
    unfold fromUserDictionary
    rw [hd]
    simp only [bind, Except.bind, hv, Int.toNat_natCast, hu]
    rfl

/-- **C36** What the versions say about the content: only the oldest user dictionaries have no grammar, and only the
newest of each kind have synonym groups. -/
theorem C36_features (v : Nat) (h : v ∈ systemVersions ∨ v ∈ userVersions) :
    (hasGrammar v = true ↔ v ≠ 0xa50f31188bd211e7) ∧
    (hasSynonymGroupIds v = true ↔ v = 0xce9f011a92394434 ∨ v = 0xca9811756ff64fb0) := by
  simp only [systemVersions, userVersions, List.mem_cons, List.not_mem_nil, or_false] at h
  rcases h with (rfl | rfl) | rfl | rfl | rfl <;> decide +kernel

/-- A minimal system dictionary: no words, an empty trie. -/
example : ∃ hb, (⟨SYSTEM_DICT_VERSION_2, 0, []⟩ : Header).toBytes = .ok hb ∧
    fileVersion (hb ++ List.replicate 14 0) ∈ systemVersions ∧
    (fromSystemDictionary (hb ++ List.replicate 14 0)).isOk = true ∧
    fromUserDictionary (hb ++ List.replicate 14 0) = .error .io :=
  ⟨_, rfl, by decide +kernel, by decide +kernel, by decide +kernel⟩

/-- A file with an unknown version. -/
example : readDictionary (List.replicate 300 1) = .error .exception ∧ fileVersion (List.replicate 300 1) ∉ systemVersions :=
  ⟨by decide +kernel, by decide +kernel⟩

end Sudachi
