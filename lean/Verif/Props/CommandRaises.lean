/-
C91: the exceptions of the commands `build` and `ubuild`.
-/
import Verif.Lemmas.CommandRaises
namespace Sudachi

theorem ended_raised {r : Res Unit} {e : Err} : Ended.of r = .raised e ↔ r = .error e := by
  cases r with
  | ok u => exact ⟨fun h => (by cases h), fun h => (by cases h)⟩
  | error x => exact ⟨fun h => by cases h; rfl, fun h => by cases h; rfl⟩

theorem against_fails {S : Shell} {name : Option PStr} {e : Err} : systemDicOf S name = .error e ↔ S.AgainstFails name e := by
  unfold systemDicOf Shell.AgainstFails
  have main : ∀ (q : Settings × Res Unit), (match q with | (_, .error e) => .error e | (s, .ok ()) => s.systemDictPath : Res PStr) = .error e ↔
      ∃ s, q = (s, .error e) ∨ q = (s, .ok ()) ∧ s.systemDictPath = .error e := by
    rintro ⟨s, r⟩
    cases r with
    | error x =>
      constructor
      · intro h; cases h; exact ⟨s, .inl rfl⟩
      · rintro ⟨s', h | ⟨h, _⟩⟩ <;> cases h
        rfl
    | ok u =>
      constructor
      · intro h; exact ⟨s, .inr ⟨rfl, h⟩⟩
      · rintro ⟨s', h | ⟨h, h'⟩⟩ <;> cases h
        exact h'
  rcases name with _ | _ | ⟨c, p⟩
  · rw [← main]; exact ⟨fun h => ⟨.inl rfl, h⟩, fun h => h.2⟩
  · rw [← main]; exact ⟨fun h => ⟨.inr rfl, h⟩, fun h => h.2⟩
  · simp

variable {e : Err}

/-- **C91** The exception that ends `build` is that of the first step that fails: opening the output file, opening the matrix, the
header, the source files in order with each row checked as it is read, and then the build of all rows together; whether the matrix can be
decoded is seen after the parts of speech, and if its first line can be read, after the errors of that line. -/
theorem C91_build (D : Darts) (S : Shell) (m : PStr) (ins : List PStr) (out description : PStr)
    (hp : (∀ b, (S.put out []).file m = .ok b → ∃ text, S.decode b = .ok text) ∨
      ∀ tables, Each (S.put out []).toDisk.HasRows ins tables → PosColumnsOk tables.flatten) :
    (commandBuild D S m ins out description).2 = .raised e ↔ S.BuildFails D m ins out description e := by
  unfold commandBuild Shell.BuildFails
  cases hm : S.present m with
  | false => simp
  | true =>
    rw [if_neg (by simp)]
    cases hi : !ins.all S.present with
    | true =>
      rw [if_pos rfl]
      constructor
      · intro h; cases h
      · rintro ⟨_, h, _⟩
        rw [all_present.mpr h] at hi
        cases hi
    | false =>
      rw [if_neg (by simp)]
      have hi := all_present.mp hi
      cases ho : S.opens out with
      | error x =>
        dsimp only
        constructor
        · intro h; cases h; exact ⟨rfl, hi, .inl rfl⟩
        · rintro ⟨_, _, h | ⟨_, h, _⟩⟩ <;> cases h
          rfl
      | ok u =>
        dsimp only
        cases hf : (S.put out []).file m with
        | error x =>
          dsimp only
          constructor
          · intro h; cases h; exact ⟨rfl, hi, .inr ⟨(), rfl, .inl rfl⟩⟩
          · rintro ⟨_, _, h | ⟨_, _, h | ⟨_, h, _⟩⟩⟩ <;> cases h
            rfl
        | ok b =>
          dsimp only
          have hp' : (∃ m, (S.put out []).matrixText b = .ok m) ∨
              ∀ tables, Each (S.put out []).toDisk.HasRows ins tables → PosColumnsOk tables.flatten := by
            rcases hp with h | h
            · obtain ⟨text, ht⟩ := h b hf
              refine .inl ⟨some (headAndRest (linesAux [] text)), ?_⟩
              show (match S.decode b with | .ok text => _ | .error e => _ : MatrixInput) = _
              rw [ht]
            · exact .inr h
          rw [ended_raised, buildOf_error hp']
          constructor
          · intro h; exact ⟨rfl, hi, .inr ⟨(), rfl, .inr ⟨b, rfl, h⟩⟩⟩
          · rintro ⟨_, _, h | ⟨_, _, h | ⟨_, h, h'⟩⟩⟩ <;> cases h
            exact h'

/-- **C91** The same of `ubuild`; here the system dictionary comes first. -/
theorem C91_ubuild (D : Darts) (depth : Nat) (S : Shell) (system : Option PStr) (ins : List PStr) (out description : PStr) :
    (commandUserBuild D depth S system ins out description).2 = .raised e ↔ S.UserBuildFails D depth system ins out description e := by
  unfold commandUserBuild Shell.UserBuildFails
  cases hs : systemDicOf S system with
  | error x =>
    dsimp only
    constructor
    · intro h; cases h; exact .inl (against_fails.mp hs)
    · rintro (h | ⟨_, h, _⟩)
      · rw [← against_fails, hs] at h; cases h; rfl
      · rw [← systemDicOf_ok, hs] at h; cases h
  | ok path =>
    dsimp only
    have step : ∀ K : PStr → Err → Prop, Next (S.Against system) (S.AgainstFails system) K e ↔ K path e := by
      intro K
      constructor
      · rintro (h | ⟨p, h, h'⟩)
        · rw [← against_fails, hs] at h; cases h
        · rw [← systemDicOf_ok, hs] at h; cases h; exact h'
      · intro h; exact .inr ⟨path, systemDicOf_ok.mp hs, h⟩
    rw [step]
    cases hm : S.present path with
    | false => simp
    | true =>
      rw [if_neg (by simp)]
      cases hi : !ins.all S.present with
      | true =>
        rw [if_pos rfl]
        constructor
        · intro h; cases h
        · rintro ⟨_, h, _⟩
          rw [all_present.mpr h] at hi
          cases hi
      | false =>
        rw [if_neg (by simp)]
        have hi := all_present.mp hi
        cases hf : S.file path with
        | error x =>
          show (S, Ended.raised x).2 = _ ↔ _
          constructor
          · intro h; cases h; exact ⟨rfl, hi, .inl rfl⟩
          · rintro ⟨_, _, h | ⟨_, h, _⟩⟩ <;> cases h
            rfl
        | ok b =>
          show (match fromSystemDictionary b with | .error e => _ | .ok d => _ : Shell × Ended).2 = _ ↔ _
          cases hd : fromSystemDictionary b with
          | error x =>
            dsimp only
            constructor
            · intro h; cases h; exact ⟨rfl, hi, .inr ⟨b, rfl, .inl hd⟩⟩
            · rintro ⟨_, _, h | ⟨_, h, h' | ⟨_, h', _⟩⟩⟩
              · cases h
              · cases h; rw [hd] at h'; cases h'; rfl
              · cases h; rw [hd] at h'; cases h'
          | ok d =>
            dsimp only
            cases ho : S.opens out with
            | error x =>
              dsimp only
              constructor
              · intro h; cases h; exact ⟨rfl, hi, .inr ⟨b, rfl, .inr ⟨d, hd, .inl rfl⟩⟩⟩
              · rintro ⟨_, _, h | ⟨_, h, h' | ⟨_, h', h'' | ⟨_, h'', _⟩⟩⟩⟩
                · cases h
                · cases h; rw [hd] at h'; cases h'
                · cases h''; rfl
                · cases h''
            | ok u =>
              dsimp only
              rw [ended_raised, buildOf_error (.inl ⟨none, rfl⟩)]
              constructor
              · intro h; exact ⟨rfl, hi, .inr ⟨b, rfl, .inr ⟨d, hd, .inr ⟨(), rfl, h⟩⟩⟩⟩
              · rintro ⟨_, _, h | ⟨_, h, h' | ⟨_, h', h'' | ⟨_, _, h''⟩⟩⟩⟩
                · cases h
                · cases h; rw [hd] at h'; cases h'
                · cases h''
                · cases h; rw [hd] at h'; cases h'; exact h''

theorem buildOf_left_header (D : Darts) {header : Header} (read : Res DictBuilder) (matrix : MatrixInput) {x : Err}
    (hh : header.toBytes = .error x) : (DictBuilder.buildOf D header read matrix).1 = [] := by
  obtain ⟨after, h⟩ := buildOf_shape D header read matrix
  rw [h, hh]
  rfl

theorem buildOf_left_unread (D : Darts) {header : Header} (matrix : MatrixInput) {hb : Bytes} (hh : header.toBytes = .ok hb)
    (x : Err) : (DictBuilder.buildOf D header (.error x) matrix).1 = [.write hb] := by
  obtain ⟨after, h⟩ := buildOf_shape D header (.error x) matrix
  rw [h, hh]
  rfl

/-- **C91** What a `build` leaves that fails before the sources have been read: nothing is changed if the output file cannot be opened;
otherwise what the output file had is lost, and it is empty, or has the header if it is a source that fails. -/
theorem C91_left (D : Darts) (S : Shell) (m : PStr) (ins : List PStr) (out description : PStr) (hm : S.present m = true) (hi : S.AllPresent ins) :
    (∀ x, S.opens out = .error x → (commandBuild D S m ins out description).1 = S) ∧
    (S.opens out = .ok () →
      (∀ x, (S.put out []).file m = .error x → (commandBuild D S m ins out description).1 = S.put out []) ∧
      ∀ b, (S.put out []).file m = .ok b →
        (∀ x, Fails (Header.checks ⟨SYSTEM_DICT_VERSION_2, S.time, description⟩) x → (commandBuild D S m ins out description).1 = S.put out []) ∧
        ∀ x hb, Header.toBytes ⟨SYSTEM_DICT_VERSION_2, S.time, description⟩ = .ok hb → (S.put out []).toDisk.SourcesFail ins x →
          (commandBuild D S m ins out description).1 = S.put out hb) := by
  unfold commandBuild
  rw [hm, all_present.mpr hi, if_neg (by simp), if_neg (by simp)]
  refine ⟨fun x h => by rw [h], fun ho => ?_⟩
  rw [ho]
  refine ⟨fun x h => by dsimp only; rw [h], fun b hb => ?_⟩
  dsimp only
  rw [hb]
  refine ⟨fun x h => ?_, fun x h1 hh h2 => ?_⟩
  · dsimp only
    rw [buildOf_left_header D _ _ ((C89_header _).2 h)]
    rfl
  · dsimp only
    rw [addFiles_error.mpr h2, buildOf_left_unread D _ hh]
    have := DictBuilder.data_writes [h1]
    rw [List.map_cons, List.map_nil] at this
    rw [this, List.flatten_singleton]

/-- The sample sources, and a row before them that has one column only, in a second file: a `ValueError`, and the output is the header. -/
example : (commandBuild SimpleTrie.trie ((Sample.shell (.error .io)).put [120] [97, 10]) Sample.matrixFile [[120], Sample.csvFile] Sample.systemDic [100]).2 =
    .raised .value := by decide +kernel
/-- A row with one column, then a byte that is no text, in the same piece: the byte is seen first. -/
example : (commandBuild SimpleTrie.trie ((Sample.shell (.error .io)).put [120] [97, 10, 0xFF]) Sample.matrixFile [[120], Sample.csvFile] Sample.systemDic [100]).2 =
    .raised .unicode := by decide +kernel
/-- A source that is not text after one that cannot be read as rows. -/
example : (commandBuild SimpleTrie.trie (((Sample.shell (.error .io)).put [120] [97, 10]).put [121] [0xFF]) Sample.matrixFile [[120], [121]]
    Sample.systemDic [100]).2 = .raised .value := by decide +kernel

/-- The sample machine with a matrix that cannot be decoded, though its first line may be read. -/
def Sample.badMatrix (head : Option PStr) : Shell := { Sample.shell (.error .io) with decode := fun _ => .error .unicode, headLine := fun _ => head }

/-- A first line that cannot be read; one that can, and is right; one with a number too large; and one without numbers. -/
example : [none, some (pstr! "2 2\n"), some (pstr! "2 40000\n"), some (pstr! "x\n")].map (fun h =>
    (commandBuild SimpleTrie.trie (Sample.badMatrix h) Sample.matrixFile [Sample.csvFile] Sample.systemDic [100]).2) =
    [.raised .unicode, .raised .unicode, .raised .overflow, .raised .value] := by decide +kernel

end Sudachi
