/-
C93: the setting file as it is written.
-/
import Verif.Spec.SettingFile
import Verif.Lemmas.JsonScan
import Verif.Lemmas.Shipped
import Verif.Lemmas.FileLayout
import Verif.Props.ShippedCore
namespace Sudachi
open JsonText

theorem Document.first {n : Nat} {text : PStr} {v : Json} (h : Document n text v) : text.head? ≠ some 0xFEFF := by
  obtain ⟨w, t, w', hw, ht, _, rfl⟩ := h
  obtain ⟨c, s, rfl, _, _, _, hc⟩ := ht.head
  cases w with
  | nil => intro hx; cases hx; exact hc rfl
  | cons x w =>
    intro hx
    cases hx
    have := hw 0xFEFF (by simp)
    omega

theorem Spaces.stops {w : PStr} (h : Spaces w) : Stops w := by
  intro c hc
  cases w with
  | nil => cases hc
  | cons x w => cases hc; have := h c (by simp); omega

theorem loadText_scan {n : Nat} {text : PStr} (h : text.head? ≠ some 0xFEFF) : loadText n text =
    match scanOnce (2 * text.length + 2) n (skipSpace text) with
    | .error e => .error e
    | .ok (v, r) => if (skipSpace r).isEmpty then .ok v else .error .value := by rw [loadText, if_neg h]; rfl

/-- **C93** `json.loads` gives the value that the text stands for: exactly the texts of the grammar are read. -/
theorem C93_reads (n : Nat) (text : PStr) (v : Json) : loadText n text = .ok v ↔ Document n text v := by
  constructor
  · intro h
    unfold loadText at h
    split at h
    · cases h
    · split at h
      · cases h
      · rename_i v' r h1
        split at h
        · rename_i h2
          cases h
          obtain ⟨t, ht, hd⟩ := (scan_sound _).1 _ _ _ _ h1
          obtain ⟨w, hw, hs⟩ := skipSpace_sound text
          obtain ⟨w', hw', hr⟩ := skipSpace_sound r
          rw [List.isEmpty_iff.mp h2, List.append_nil] at hr
          refine ⟨w, t, r, hw, hd, hr ▸ hw', ?_⟩
          rw [List.append_assoc, ← ht]
          exact hs
        · cases h
  · intro h
    rw [loadText_scan (Document.first h)]
    obtain ⟨w, t, w', hw, ht, hw', rfl⟩ := h
    obtain ⟨c, s, hcs, _, _, hsp, _⟩ := ht.head
    have h1 : skipSpace (w ++ t ++ w') = t ++ w' := by
      rw [List.append_assoc]
      exact skipSpace_complete hw (by rw [hcs]; exact noSpace_cons hsp)
    rw [h1]
    rcases scan_complete ht (2 * (w ++ t ++ w').length + 2) w' (Spaces.stops hw') with h | h
    · rw [h]
      dsimp only
      have h2 : skipSpace w' = [] := by
        have := skipSpace_complete (r := []) hw' (fun c hc => by cases hc)
        rwa [List.append_nil] at this
      rw [h2]
      rfl
    · rcases (scan_error _).1 _ _ _ h (by simp; omega) with h | ⟨h, _⟩ <;> cases h

/-- A text that is read nested `n` deep is read nested deeper, with the same result. -/
theorem loadText_mono {n n' : Nat} (hn : n ≤ n') {text : PStr} (h : loadText n text ≠ .error .recursion) : loadText n' text = loadText n text := by
  unfold loadText at h ⊢
  split
  · rfl
  · rename_i h0
    rw [if_neg h0] at h
    rw [(scan_mono _).1 n n' _ hn (fun hx => h (by rw [hx]))]

/-- **C93** What is not read raises `JSONDecodeError`, a `ValueError`, if the text stands for nothing, however deep lists and objects
may be nested, and `RecursionError` if there are more brackets than they may be nested. -/
theorem C93_refused (n : Nat) (text : PStr) (e : Err) (h : loadText n text = .error e) :
    (e = .value ∧ ∀ n' v, ¬ Document n' text v) ∨
    (e = .recursion ∧ (∀ v, ¬ Document n text v) ∧ n < text.count '['.toNat + text.count '{'.toNat) := by
  have hnot : ∀ v, ¬ Document n text v := fun v hv => by
    have := (C93_reads n text v).mpr hv
    rw [h] at this; cases this
  have hcases : e = .value ∨ (e = .recursion ∧ n < opening text) := by
    unfold loadText at h
    split at h
    · cases h; exact .inl rfl
    · split at h
      · rename_i h1
        cases h
        have hs := skipSpace_suffix text
        have := hs.length_le
        rcases (scan_error _).1 _ _ _ h1 (by omega) with h | ⟨h, h'⟩
        · exact .inl h
        · exact .inr ⟨h, Nat.lt_of_lt_of_le h' (opening_suffix hs)⟩
      · split at h
        · cases h
        · cases h; exact .inl rfl
  rcases hcases with rfl | ⟨rfl, h'⟩
  · refine .inl ⟨rfl, fun n' v hv => ?_⟩
    have h1 := (C93_reads n' text v).mpr hv
    have h2 := loadText_mono (Nat.le_max_left n n') (text := text) (by rw [h]; intro hx; cases hx)
    have h3 := loadText_mono (Nat.le_max_right n n') (text := text) (by rw [h1]; intro hx; cases hx)
    rw [h2, h, h1] at h3
    cases h3
  · exact .inr ⟨rfl, hnot, h'⟩

/-- **C93** A text that stands for something, but with lists and objects nested deeper than they may be, is refused for that. -/
theorem C93_deep (n n' : Nat) (text : PStr) (v : Json) (h : Document n' text v) (hn : ∀ v, ¬ Document n text v) :
    loadText n text = .error .recursion := by
  cases hl : loadText n text with
  | ok v => exact absurd ((C93_reads n text v).mp hl) (hn v)
  | error e =>
    rcases C93_refused n text e hl with ⟨_, h'⟩ | ⟨rfl, _⟩
    · exact absurd h (h' n' v)
    · rfl

/-- **C93** The grammar is unambiguous, and a text stands for the same value if more nesting is allowed. -/
theorem C93_unambiguous (n n' : Nat) (text : PStr) (v : Json) (h : Document n text v) :
    (n ≤ n' → Document n' text v) ∧ ∀ v', Document n' text v' → v' = v := by
  have h1 := (C93_reads n text v).mpr h
  have mono : ∀ m, n ≤ m → loadText m text = .ok v := fun m hm => by
    rw [loadText_mono hm (by rw [h1]; intro hx; cases hx), h1]
  refine ⟨fun hn => (C93_reads n' text v).mp (mono n' hn), fun v' hv' => ?_⟩
  have h2 := (C93_reads n' text v').mpr hv'
  have h3 := loadText_mono (Nat.le_max_right n n') (text := text) (by rw [h2]; intro hx; cases hx)
  rw [h2, mono _ (Nat.le_max_left n n')] at h3
  cases h3
  rfl

theorem loadFile_lines (n : Nat) (b : Bytes) : loadFile n b = (textLines b).bind fun ls => loadText n ls.flatten := by
  unfold loadFile textLines
  cases decodeUtf8 b <;> rfl

/-- **C93** The file is UTF-8, with line ends of any kind, or there is a `UnicodeDecodeError`. -/
theorem C93_file (n : Nat) (b : Bytes) :
    ((¬ ∃ text, encodeUtf8 text = .ok b) → loadFile n b = .error .unicode) ∧
    ∀ text ls, encodeUtf8 text = .ok b → Lines text ls → loadFile n b = loadText n ls.flatten := by
  rw [loadFile_lines]
  unfold textLines
  constructor
  · intro h
    cases hd : decodeUtf8 b with
    | ok text => exact absurd ⟨text, decodeUtf8_iff.mp hd⟩ h
    | error e => rw [decodeUtf8_error _ (Nat.le_refl _) hd]; rfl
  · intro text ls h hl
    rw [decodeUtf8_iff.mpr h]
    show loadText n (linesAux [] text).flatten = _
    rw [lines_iff.mpr hl]

theorem refuses_of {M : Disk} {path : PStr} {e : Err} (h : M.settings path = .error e) : M.Refuses path e := by
  refine ⟨h, fun s dir dictType hp => ?_⟩
  unfold Settings.setUp
  have : strOr (some path) M.defaultSetting = path := by
    cases path with
    | nil => exact absurd rfl hp
    | cons => rfl
  rw [this]
  dsimp only
  rw [h]

/-- **C93** What setting up with a setting file raises, and when the settings are the file's: a file that cannot be opened raises what
opening it raises, one that is not UTF-8 a `UnicodeDecodeError`, one that stands for nothing a `ValueError` (if it has not too many
brackets), one nested too deep a `RecursionError`; otherwise its object becomes the settings. -/
theorem C93_set_up {M : Disk} {n : Nat} (h : M.ReadsSettings n) (path : PStr) :
    (∀ e, M.file path = .error e → M.Refuses path e) ∧
    ∀ b, M.file path = .ok b →
      ((¬ ∃ text, encodeUtf8 text = .ok b) → M.Refuses path .unicode) ∧
      ∀ text ls, encodeUtf8 text = .ok b → Lines text ls →
        ((∀ n' v, ¬ Document n' ls.flatten v) → M.Refuses path .value ∨
          (n < ls.flatten.count '['.toNat + ls.flatten.count '{'.toNat ∧ M.Refuses path .recursion)) ∧
        ((∃ n' v, Document n' ls.flatten v) → (∀ v, ¬ Document n ls.flatten v) → M.Refuses path .recursion) ∧
        ∀ d, Document n ls.flatten (.obj d) → M.settings path = .ok d := by
  refine ⟨fun e he => refuses_of (h.missing path e he), fun b hb => ⟨fun hu => ?_, fun text ls ht hl => ?_⟩⟩
  · exact refuses_of (h.refused path b _ hb ((C93_file n b).1 hu))
  · have hload := (C93_file n b).2 text ls ht hl
    refine ⟨fun hn => ?_, fun ⟨n', v, hv⟩ hn => ?_, fun d hd => ?_⟩
    · cases hx : loadText n ls.flatten with
      | ok v => exact absurd ((C93_reads _ _ _).mp hx) (hn n v)
      | error e =>
        rcases C93_refused _ _ _ hx with ⟨rfl, _⟩ | ⟨rfl, _, hlt⟩
        · exact .inl (refuses_of (h.refused path b _ hb (hload.trans hx)))
        · exact .inr ⟨hlt, refuses_of (h.refused path b _ hb (hload.trans hx))⟩
    · exact refuses_of (h.refused path b _ hb (hload.trans (C93_deep n n' _ v hv hn)))
    · exact h.read path b d hb (hload.trans ((C93_reads _ _ _).mpr hd))

/-- A text with an escaped pair of surrogates, a lone surrogate, nested lists and a repeated key: it is read, if lists and objects may be nested
three deep. -/
example : Document 3 (pstr! " {\"a\" : 1, \"b\":[true,0,[ 12 ,NaN]],\n\"a\":\"\\ud83d\\ude00\\ud83d\\n/\"}\r\n")
    (.obj [(pstr! "a", .str [0x1F600, 0xD83D, 10, 47]), (pstr! "b", .list [.bool true, .num 0, .list [.num 12, .real .nan]])]) :=
  (C93_reads _ _ _).mp (by rfl)

/-- It is too deep for two. -/
example : loadText 2 (pstr! " {\"a\" : 1, \"b\":[true,0,[ 12 ,NaN]],\n\"a\":\"\\ud83d\\ude00\\ud83d\\n/\"}\r\n") = .error .recursion := by rfl

/-- A fraction with an exponent. -/
example : loadText 0 (pstr! "-12.50e-3") = .ok (.real (.decimal true 1250 (-5))) := by
  rw [C93_reads]
  have h12 : Digits [49, 50] 12 := .more [49] 1 2 (.one 1 (by decide)) (by decide)
  have h50 : Digits [53, 48] 50 := .more [53] 5 0 (.one 5 (by decide)) (by decide)
  have h : Digits ([49, 50] ++ [53, 48]) 1250 := .more [49, 50, 53] 125 0 (.more [49, 50] 12 5 h12 (by decide)) (by decide)
  have he : ExponentText [101, 45, 51] (-3) := .minus 101 [51] 3 (.inl rfl) (.one 3 (by decide))
  exact ⟨[], _, [], nofun, .plain 0 _ _ (.both [45] [49, 50] [53, 48] _ true 12 50 1250 (-3) .minus ⟨h12, .inr (by decide)⟩ h50 h he), nofun, rfl⟩

/-- No texts of the grammar: a comma too many, a zero in front, a tab in a string, an unknown escape, single quotes, a comment, two values, nothing,
a byte order mark. -/
example : ∀ text ∈ [(pstr! "[1,]"), (pstr! "{\"a\":1,}"), (pstr! "01"), (pstr! "1."), (pstr! "-"), (pstr! "+1"), (pstr! "\"\t\""), (pstr! "\"\\x\""),
    (pstr! "\"\\ud83d\\u00\""), (pstr! "'a'"), (pstr! "{a:1}"), (pstr! "[1] // one"), (pstr! "1 2"), (pstr! "True"), [], [0xFEFF, 49]],
    ∀ n v, ¬ Document n text v := by
  intro text ht n v
  have : loadText 9 text = .error .value := by
    revert text
    simp only [List.forall_mem_cons, List.not_mem_nil, false_implies, implies_true, and_true]
    exact ⟨rfl, rfl, rfl, rfl, rfl, rfl, rfl, rfl, rfl, rfl, rfl, rfl, rfl, rfl, rfl, rfl⟩
  rcases C93_refused _ _ _ this with ⟨_, h⟩ | ⟨h, _⟩
  · exact h n v
  · cases h

/-! ### The shipped file -/

theorem shipped_setting_plain : shippedSettingFile.all plainLine = true := by decide +kernel

set_option maxRecDepth 100000 in
theorem shipped_setting_text : loadText 4 (shippedSettingFile.map (· ++ [10])).flatten = .ok (.obj shippedSettings) := by rfl

/-- **C93** The setting file that ships is read as the shipped settings. -/
theorem C93_shipped_file (n : Nat) (hn : 4 ≤ n) : loadFile n (textFile shippedSettingFile) = .ok (.obj shippedSettings) := by
  rw [loadFile_lines, textLines_textFile shipped_setting_plain]
  simp only [Except.bind]
  rw [loadText_mono hn (by rw [shipped_setting_text]; intro h; cases h), shipped_setting_text]

/-- **C93** A machine whose files are the shipped ones has the shipped settings: C69 and what follows from it hold there. -/
theorem C93_shipped {M : Disk} {core : PStr} {n : Nat} (hn : 4 ≤ n) (h : M.ReadsSettings n) (hM : M.ShippedFiles core) : M.Shipped core where
  directory := hM.directory
  setting := hM.setting
  settings := by
    rw [hM.setting]
    exact h.read _ _ _ hM.settingFile (C93_shipped_file n hn)
  charDef := hM.charDef
  unkDef := hM.unkDef
  rewriteDef := hM.rewriteDef
  package := hM.package
  absolute := hM.absolute

namespace Sample

/-- The machine of `coreDisk` with the setting file instead of the settings. -/
def fileDisk (file : Bytes) : Disk :=
  let files : PStr → Res Bytes := fun path =>
    if path = coreDir ++ codes "/sudachi.json" then .ok (textFile shippedSettingFile) else (coreDisk file).file path
  { coreDisk file with
    file := files
    settings := fun path =>
      match files path with
      | .error e => .error e
      | .ok b =>
        match loadFile 4 b with
        | .ok (.obj d) => .ok d
        | .ok _ => .error .attribute
        | .error e => .error e }

theorem file_reads (file : Bytes) : (fileDisk file).ReadsSettings 4 where
  missing path e h := by
    show (match (fileDisk file).file path with | .error e => _ | .ok b => _) = _
    rw [h]
  refused path b e h h' := by
    show (match (fileDisk file).file path with | .error e => _ | .ok b => _) = _
    rw [h]
    dsimp only
    rw [h']
  read path b d h h' := by
    show (match (fileDisk file).file path with | .error e => _ | .ok b => _) = _
    rw [h]
    dsimp only
    rw [h']

theorem file_shipped (file : Bytes) : (fileDisk file).ShippedFiles corePath := by
  have hne : ∀ name, name ≠ codes "/sudachi.json" → (fileDisk file).file (coreDir ++ name) = (coreDisk file).file (coreDir ++ name) := by
    intro name hn
    exact if_neg (fun h => hn (List.append_cancel_left h))
  have h := core_shipped file
  have hf : (fileDisk file).file (coreDir ++ codes "/sudachi.json") = .ok (textFile shippedSettingFile) := by
    unfold fileDisk
    dsimp only
    rw [if_pos rfl]
  exact ⟨h.directory, h.setting, hf, (hne _ (by decide)).trans h.charDef, (hne _ (by decide)).trans h.unkDef,
    (hne _ (by decide)).trans h.rewriteDef, h.package, h.absolute⟩

end Sample

/-- A machine with the shipped files has the shipped settings. -/
example (file : Bytes) : (Sample.fileDisk file).Shipped Sample.corePath :=
  C93_shipped (Nat.le_refl 4) (Sample.file_reads file) (Sample.file_shipped file)

end Sudachi
