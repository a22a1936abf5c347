/-
The input and the output of the command `tokenize`.
-/
import Verif.Spec.TokenizeCommand
import Verif.Lemmas.Commands
import Verif.Props.TextStream
import Verif.Props.Exactly
namespace Sudachi

theorem lit_dash : lit "-" = [45] := by decide

theorem lit_newline : lit "\n" = [10] := by decide

theorem inputLines_ok {M : Disk} : ∀ {files lines : List PStr} {stdin : List PStr × Res Unit},
    inputLines M stdin files = (lines, .ok ()) ↔ InputIs M stdin files lines
  | [], lines, stdin => by
    constructor
    · intro h; cases h; exact .nil
    · intro h; cases h; rfl
  | p :: files, lines, (sl, sr) => by
    unfold inputLines
    by_cases hp : p = [45]
    · rw [if_pos hp]
      cases sr with
      | error e =>
        constructor
        · intro h; cases h
        · intro h
          rw [hp, ← lit_dash] at h
          cases h with
          | file h1 => exact absurd rfl h1
      | ok u =>
        dsimp only
        constructor
        · intro h
          obtain ⟨h1, h2⟩ := Prod.mk.inj h
          rw [← h1, hp, ← lit_dash]
          exact .stdin (inputLines_ok.mp (Prod.ext rfl h2))
        · intro h
          rw [hp, ← lit_dash] at h
          cases h with
          | stdin h1 => rw [inputLines_ok.mpr h1]
          | file h1 => exact absurd rfl h1
    · rw [if_neg hp]
      cases hf : M.file p with
      | error e =>
        dsimp only
        constructor
        · intro h; cases h
        · intro h
          cases h with
          | stdin h1 => exact absurd lit_dash hp
          | file h1 h2 => obtain ⟨b, h2, _⟩ := h2; rw [h2] at hf; cases hf
      | ok b =>
        dsimp only
        cases hl : streamLines b with
        | mk ls r =>
          cases r with
          | error e =>
            dsimp only
            constructor
            · intro h; cases h
            · intro h
              cases h with
              | stdin h1 => exact absurd lit_dash hp
              | file h1 h2 =>
                obtain ⟨b', h2, h3⟩ := h2
                rw [h2] at hf
                cases hf
                rw [(C90_at_once _ _).2 h3] at hl
                cases hl
          | ok u =>
            dsimp only
            constructor
            · intro h
              obtain ⟨h1, h2⟩ := Prod.mk.inj h
              rw [← h1]
              exact .file (by rw [lit_dash]; exact hp) ⟨b, hf, (C90_at_once _ _).1 hl⟩ (inputLines_ok.mp (Prod.ext rfl h2))
            · intro h
              cases h with
              | stdin h1 => exact absurd lit_dash hp
              | file h1 h2 h3 =>
                obtain ⟨b', h2, h4⟩ := h2
                rw [h2] at hf
                cases hf
                rw [(C90_at_once _ _).2 h4] at hl
                cases hl
                rw [inputLines_ok.mpr h3]

theorem inputLines_error {M : Disk} {e : Err} : ∀ {files lines : List PStr} {stdin : List PStr × Res Unit},
    inputLines M stdin files = (lines, .error e) ↔ InputFails M stdin files lines e
  | [], lines, stdin => by
    constructor
    · intro h; cases h
    · intro h; cases h
  | p :: files, lines, (sl, sr) => by
    unfold inputLines
    by_cases hp : p = [45]
    · rw [if_pos hp]
      cases sr with
      | error e =>
        dsimp only
        constructor
        · intro h; cases h; rw [hp, ← lit_dash]; exact .stdin
        · intro h
          rw [hp, ← lit_dash] at h
          cases h with
          | stdin => rfl
          | absent h1 => exact absurd rfl h1
          | notText h1 => exact absurd rfl h1
          | afterFile h1 => exact absurd rfl h1
      | ok u =>
        dsimp only
        constructor
        · intro h
          obtain ⟨h1, h2⟩ := Prod.mk.inj h
          rw [← h1, hp, ← lit_dash]
          exact .afterStdin (inputLines_error.mp (Prod.ext rfl h2))
        · intro h
          rw [hp, ← lit_dash] at h
          cases h with
          | afterStdin h1 => rw [inputLines_error.mpr h1]
          | absent h1 => exact absurd rfl h1
          | notText h1 => exact absurd rfl h1
          | afterFile h1 => exact absurd rfl h1
    · rw [if_neg hp]
      have hp' : p ≠ lit "-" := by rw [lit_dash]; exact hp
      cases hf : M.file p with
      | error e' =>
        dsimp only
        constructor
        · intro h
          cases h
          exact .absent hp' hf
        · intro h
          cases h with
          | stdin => exact absurd lit_dash hp
          | afterStdin => exact absurd lit_dash hp
          | absent h1 h2 => rw [h2] at hf; cases hf; rfl
          | notText h1 h2 h3 => rw [h2] at hf; cases hf
          | afterFile h1 h2 => obtain ⟨b, h2, _⟩ := h2; rw [h2] at hf; cases hf
      | ok b =>
        dsimp only
        cases hl : streamLines b with
        | mk ls r =>
          cases r with
          | error e' =>
            dsimp only
            constructor
            · intro h
              cases h
              obtain ⟨rfl, h2⟩ := ((C90_file _ _).2 _).1 hl
              exact .notText hp' hf h2
            · intro h
              cases h with
              | stdin => exact absurd lit_dash hp
              | afterStdin => exact absurd lit_dash hp
              | absent h1 h2 => rw [h2] at hf; cases hf
              | notText h1 h2 h3 =>
                rw [h2] at hf
                cases hf
                rw [((C90_file _ _).2 _).2 ⟨rfl, h3⟩] at hl
                cases hl
                rfl
              | afterFile h1 h2 =>
                obtain ⟨b', h2, h3⟩ := h2
                rw [h2] at hf
                cases hf
                rw [(C90_at_once _ _).2 h3] at hl
                cases hl
          | ok u =>
            dsimp only
            constructor
            · intro h
              obtain ⟨h1, h2⟩ := Prod.mk.inj h
              rw [← h1]
              exact .afterFile hp' ⟨b, hf, (C90_at_once _ _).1 hl⟩ (inputLines_error.mp (Prod.ext rfl h2))
            · intro h
              cases h with
              | stdin => exact absurd lit_dash hp
              | afterStdin => exact absurd lit_dash hp
              | absent h1 h2 => rw [h2] at hf; cases hf
              | notText h1 h2 h3 =>
                rw [h2] at hf
                cases hf
                rw [((C90_file _ _).2 _).2 ⟨rfl, h3⟩] at hl
                cases hl
              | afterFile h1 h2 h3 =>
                obtain ⟨b', h2, h4⟩ := h2
                rw [h2] at hf
                cases hf
                rw [(C90_at_once _ _).2 h4] at hl
                cases hl
                rw [inputLines_error.mpr h3]

theorem inputOf_files {M : Disk} {stdin : List PStr × Res Unit} {a : TokenizeArgs} {files : List PStr} (h : a.Files files) :
    inputOf M stdin a.inFiles = inputLines M stdin files := by
  unfold inputOf
  rcases h with ⟨h1, rfl⟩ | ⟨h1, rfl⟩
  · rw [h1, lit_dash]; rfl
  · rw [if_neg]
    cases hf : a.inFiles with
    | nil => exact absurd hf h1
    | cons => simp

theorem files_exists (a : TokenizeArgs) : ∃ files, a.Files files := by
  cases h : a.inFiles with
  | nil => exact ⟨_, .inl ⟨h, rfl⟩⟩
  | cons => exact ⟨_, .inr ⟨by rw [h]; simp, rfl⟩⟩

theorem inMode_iff {a : TokenizeArgs} {mode : Mode} : a.InMode mode ↔ mode = modeArg a.mode := by
  have hA : lit "A" = [65] := by decide
  have hB : lit "B" = [66] := by decide
  unfold TokenizeArgs.InMode modeArg
  rw [hA, hB]
  constructor
  · rintro (⟨h, rfl⟩ | ⟨h, rfl⟩ | ⟨h1, h2, rfl⟩)
    · rw [if_pos h]
    · rw [h]; rfl
    · rw [if_neg h1, if_neg h2]
  · rintro rfl
    by_cases h1 : a.mode = [65]
    · exact .inl ⟨h1, by rw [if_pos h1]⟩
    · by_cases h2 : a.mode = [66]
      · exact .inr (.inl ⟨h2, by rw [if_neg h1, if_pos h2]⟩)
      · exact .inr (.inr ⟨h1, h2, by rw [if_neg h1, if_neg h2]⟩)

theorem written_iff {encode : PStr → Res Bytes} : ∀ {ls : List PStr} {b : Bytes}, Written encode ls b ↔ b = logLines encode ls
  | [], b => by
    constructor
    · intro h; cases h; rfl
    · rintro rfl; exact .nil
  | l :: ls, b => by
    unfold logLines
    constructor
    · intro h
      cases h with
      | line h1 h2 =>
        rw [lit_newline] at h1
        rw [h1]
        dsimp only
        rw [written_iff.mp h2]
      | lost h1 h2 =>
        rw [lit_newline] at h1
        rw [h1]
        dsimp only
        exact written_iff.mp h2
    · intro h
      cases he : encode (l ++ [10]) with
      | ok b' => rw [he] at h; rw [h]; exact .line (by rw [lit_newline]; exact he) (written_iff.mpr rfl)
      | error e => rw [he] at h; rw [h]; exact .lost (by rw [lit_newline]; exact he) (written_iff.mpr rfl)

/-- Before anything is read. -/
theorem command_starts {R : Runtime} {S : Terminal} {version : PStr} {a : TokenizeArgs} (hv : a.version = false)
    (hp : S.AllPresent a.inFiles) {M : Shell} (hM : S.Starts a M) :
    S.Leaves a (runInput R M.toDisk S.stdin a).1 (commandTokenize R S version a) ∧
      (commandTokenize R S version a).ended = (runInput R M.toDisk S.stdin a).2 := by
  unfold commandTokenize
  rw [hv, if_neg (by simp), all_present.mpr hp, if_neg (by simp)]
  rcases hM with ⟨ho, rfl⟩ | ⟨p, ⟨ho, hne⟩, h1, rfl⟩
  · refine ⟨.inl ⟨ho, ?_⟩, ?_⟩
    · rcases ho with ho | ho <;> (rw [ho]; exact ⟨rfl, written_iff.mpr rfl⟩)
    · rcases ho with ho | ho <;> (rw [ho])
  · cases p with
    | nil => exact absurd rfl hne
    | cons c p =>
      refine ⟨.inr ⟨c :: p, ⟨ho, hne⟩, ?_⟩, ?_⟩
      · rw [ho]
        dsimp only
        rw [h1]
        exact ⟨rfl, put_sameBut _ _ _, if_pos rfl, _, written_iff.mpr rfl, put_file _ _ _⟩
      · rw [ho]
        dsimp only
        rw [h1]

theorem command_not_starts {R : Runtime} {S : Terminal} {version : PStr} {a : TokenizeArgs} (hv : a.version = false)
    (hp : S.AllPresent a.inFiles) (hM : ∀ M, ¬ S.Starts a M) :
    ∃ p e, a.ToFile p ∧ S.opens p = .error e ∧ commandTokenize R S version a = ⟨S.toShell, [], .raised e⟩ := by
  unfold commandTokenize
  rw [hv, if_neg (by simp), all_present.mpr hp, if_neg (by simp)]
  cases ho : a.out with
  | none => exact absurd (.inl ⟨.inl ho, rfl⟩) (hM S.toShell)
  | some p =>
    cases p with
    | nil => exact absurd (.inl ⟨.inr ho, rfl⟩) (hM S.toShell)
    | cons c p =>
      cases hop : S.opens (c :: p) with
      | ok u => exact absurd (.inr ⟨c :: p, ⟨ho, by simp⟩, hop, rfl⟩) (hM _)
      | error e =>
        refine ⟨c :: p, e, ⟨ho, by simp⟩, hop, ?_⟩
        dsimp only
        rw [hop]

theorem prints_iff {T : Tokenizer} (hp : T.PluginsOk) (hlex : T.lex.Ok) {g : Grammar} {mode : Mode} {a : TokenizeArgs} {L : Lattice}
    (hL : T.CleanHistory L) {input out : List PStr} :
    (if a.dump then runDump else runLines) T g mode a.all L input = (out, .ok ()) ↔ a.Prints T g mode input out := by
  unfold TokenizeArgs.Prints
  cases hd : a.dump with
  | false =>
    rw [if_neg (by simp), C53_exactly T hp hlex g mode a.all L hL]
    simp
  | true =>
    rw [if_pos rfl, C77_loop T hp hlex g mode a.all L hL]
    constructor
    · rintro ⟨dumps, blocks, h1, h2, h3⟩
      exact ⟨blocks, h2, .inr ⟨rfl, dumps, h1, h3⟩⟩
    · rintro ⟨blocks, h2, ⟨h, _⟩ | ⟨_, dumps, h1, h3⟩⟩
      · cases h
      · exact ⟨dumps, blocks, h1, h2, h3⟩

end Sudachi
