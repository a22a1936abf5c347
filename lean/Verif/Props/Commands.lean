/-
C75: the commands `build` and `ubuild`.
-/
import Verif.Lemmas.Commands
import Verif.Lemmas.SampleInstall
namespace Sudachi

/-- **C75** `build` ends normally exactly if the files exist, the output file can be opened, and (with the output file emptied) the
sources are read, the matrix is text and the build of all rows together succeeds; the output file then has what the build wrote. -/
theorem C75_build (D : Darts) (S S' : Shell) (m : PStr) (ins : List PStr) (out description : PStr) :
    commandBuild D S m ins out description = (S', .done) ↔
      S.present m = true ∧ S.AllPresent ins ∧ S.opens out = .ok () ∧
      ∃ header lines tables ops, (S.put out []).IsMatrix m header lines ∧ Each (S.put out []).toDisk.HasRows ins tables ∧
        (DictBuilder.init none).build D ⟨SYSTEM_DICT_VERSION_2, S.time, description⟩ tables.flatten (some (header, lines)) = (ops, .ok ()) ∧
        S' = S.put out (runOps ops).data := by
  unfold commandBuild
  cases hm : S.present m with
  | false => simp
  | true =>
    rw [if_neg (by simp)]
    cases hi : !ins.all S.present with
    | true =>
      rw [if_pos rfl]
      constructor
      · intro h; cases h
      · rintro ⟨_, h, _⟩
        rw [all_present.mpr h] at hi
        cases hi
    | false =>
      rw [if_neg (by simp)]
      have hi := all_present.mp hi
      cases ho : S.opens out with
      | error e =>
        constructor
        · intro h; cases h
        · rintro ⟨_, _, h, _⟩; cases h
      | ok u =>
        dsimp only
        cases hf : (S.put out []).file m with
        | error e =>
          dsimp only
          constructor
          · intro h; cases h
          · rintro ⟨_, _, _, header, lines, _, _, ⟨b, _, _, h, _⟩, _⟩
            rw [hf] at h
            cases h
        | ok b =>
          dsimp only
          constructor
          · intro h
            have h1 := congrArg Prod.snd h
            have h2 := congrArg Prod.fst h
            dsimp only at h1 h2
            have h1 := ended_done.mp h1
            have hout := buildOf_ok (Prod.ext rfl h1)
            obtain ⟨⟨db, hr⟩, mo, hmo⟩ := hout
            obtain ⟨tables, t1, t2⟩ := addFiles_ok.mp hr
            rw [hr, hmo, buildOf_build t2] at h1 h2
            cases hd : S.decode b with
            | error e =>
              exfalso
              have : (S.put out []).matrixText b = .error (S.headLine b, e) := by
                show (match S.decode b with | .ok text => _ | .error e => _ : MatrixInput) = _
                rw [hd]
                rfl
              rw [this] at hmo
              cases hmo
            | ok text =>
              have hmt : (S.put out []).matrixText b = .ok (some (headAndRest (linesAux [] text))) := by
                show (match S.decode b with | .ok text => _ | .error e => _ : MatrixInput) = _
                rw [hd]
              rw [hmt] at hmo
              cases hmo
              exact ⟨rfl, hi, rfl, _, _, tables, _, isMatrix_iff.mpr ⟨b, hf, hmt⟩, t1, Prod.ext rfl h1, h2.symm⟩
          · rintro ⟨_, _, _, header, lines, tables, ops, k1, k2, k3, k4⟩
            obtain ⟨b', e1, e2⟩ := isMatrix_iff.mp k1
            rw [hf] at e1
            cases e1
            have k3' := k3
            unfold DictBuilder.build at k3'
            obtain ⟨_, _, _, k3', _⟩ := Out.andThen_ok k3'
            obtain ⟨db, hdb, _⟩ := Out.withRes_ok k3'
            rw [addFiles_ok.mpr ⟨tables, k2, hdb⟩, e2, buildOf_build hdb, k3, k4]
            rfl

/-- **C75** `ubuild` ends normally exactly if the system dictionary and the files exist, the system dictionary is one, the output file
can be opened, and (with the output file emptied) the sources are read and the build of all rows against the system dictionary succeeds;
the output file then has what the build wrote. -/
theorem C75_ubuild (D : Darts) (depth : Nat) (S S' : Shell) (system : Option PStr) (ins : List PStr) (out description : PStr) :
    commandUserBuild D depth S system ins out description = (S', .done) ↔
      ∃ path, S.Against system path ∧ S.present path = true ∧ S.AllPresent ins ∧ S.opens out = .ok () ∧
      ∃ file d tables ops, S.file path = .ok file ∧ fromSystemDictionary file = .ok d ∧ Each (S.put out []).toDisk.HasRows ins tables ∧
        (DictBuilder.init (some (d.toSysDict D depth))).build D ⟨USER_DICT_VERSION_3, S.time, description⟩ tables.flatten none =
          (ops, .ok ()) ∧
        S' = S.put out (runOps ops).data := by
  unfold commandUserBuild
  cases hs : systemDicOf S system with
  | error e =>
    dsimp only
    constructor
    · intro h; cases h
    · rintro ⟨path, h, _⟩
      rw [systemDicOf_ok.mpr h] at hs
      cases hs
  | ok path =>
    have key : ∀ {P : PStr → Prop}, (∃ p, S.Against system p ∧ P p) ↔ P path := by
      intro P
      constructor
      · rintro ⟨p, h1, h2⟩
        rw [systemDicOf_ok.mpr h1] at hs
        cases hs
        exact h2
      · intro h; exact ⟨path, systemDicOf_ok.mp hs, h⟩
    rw [key]
    dsimp only
    cases hm : S.present path with
    | false => simp
    | true =>
      rw [if_neg (by simp)]
      cases hi : !ins.all S.present with
      | true =>
        rw [if_pos rfl]
        constructor
        · intro h; cases h
        · rintro ⟨_, h, _⟩
          rw [all_present.mpr h] at hi
          cases hi
      | false =>
        rw [if_neg (by simp)]
        have hi := all_present.mp hi
        cases hf : S.file path >>= fromSystemDictionary with
        | error e =>
          dsimp only
          constructor
          · intro h; cases h
          · rintro ⟨_, _, _, file, d, _, _, h1, h2, _⟩
            rw [h1] at hf
            have hf : fromSystemDictionary file = _ := hf
            rw [h2] at hf
            cases hf
        | ok d =>
          obtain ⟨file, f1, f2⟩ := bind_ok hf
          cases ho : S.opens out with
          | error e =>
            dsimp only
            constructor
            · intro h; cases h
            · rintro ⟨_, _, h, _⟩; cases h
          | ok u =>
            dsimp only
            constructor
            · intro h
              have h1 := congrArg Prod.snd h
              have h2 := congrArg Prod.fst h
              dsimp only at h1 h2
              have h1 := ended_done.mp h1
              obtain ⟨⟨db, hr⟩, _⟩ := buildOf_ok (Prod.ext rfl h1)
              obtain ⟨tables, t1, t2⟩ := addFiles_ok.mp hr
              rw [hr, buildOf_build t2] at h1 h2
              exact ⟨rfl, hi, rfl, file, d, tables, _, f1, f2, t1, Prod.ext rfl h1, h2.symm⟩
            · rintro ⟨_, _, _, file', d', tables, ops, k0, k1, k2, k3, k4⟩
              rw [f1] at k0
              cases k0
              rw [f2] at k1
              cases k1
              have k3' := k3
              unfold DictBuilder.build at k3'
              obtain ⟨_, _, _, k3', _⟩ := Out.andThen_ok k3'
              obtain ⟨db, hdb, _⟩ := Out.withRes_ok k3'
              rw [addFiles_ok.mpr ⟨tables, k2, hdb⟩, buildOf_build hdb, k3, k4]
              rfl

/-- **C75** `build` exits with code 1 exactly if a file is missing, and then changes nothing. -/
theorem C75_build_refused (D : Darts) (S S' : Shell) (m : PStr) (ins : List PStr) (out description : PStr) (code : Nat) :
    commandBuild D S m ins out description = (S', .exit code) ↔
      code = 1 ∧ S' = S ∧ (S.present m = false ∨ ∃ p ∈ ins, S.present p = false) := by
  unfold commandBuild
  have hall : (!ins.all S.present) = true ↔ ∃ p ∈ ins, S.present p = false := by simp [List.all_eq_true]
  cases hm : S.present m with
  | false =>
    rw [if_pos (by simp)]
    simp only [Prod.mk.injEq, Ended.exit.injEq, true_or, and_true]
    constructor
    · rintro ⟨h1, h2⟩; exact ⟨h2.symm, h1.symm⟩
    · rintro ⟨h1, h2⟩; exact ⟨h2.symm, h1.symm⟩
  | true =>
    rw [if_neg (by simp)]
    cases hi : !ins.all S.present with
    | true =>
      rw [if_pos rfl]
      have := hall.mp hi
      simp only [Prod.mk.injEq, Ended.exit.injEq]
      constructor
      · rintro ⟨h1, h2⟩; exact ⟨h2.symm, h1.symm, .inr this⟩
      · rintro ⟨h1, h2, _⟩; exact ⟨h2.symm, h1.symm⟩
    | false =>
      rw [if_neg (by simp)]
      constructor
      · intro h
        exfalso
        cases ho : S.opens out with
        | error e => rw [ho] at h; cases h
        | ok u =>
          rw [ho] at h
          dsimp only at h
          split at h
          · cases h
          · exact ended_exit (congrArg Prod.snd h)
      · rintro ⟨_, _, h | h⟩
        · cases h
        · rw [hall.mpr h] at hi; cases hi

/-- **C75** `ubuild` exits with code 1 exactly if a file is missing, and then changes nothing. -/
theorem C75_ubuild_refused (D : Darts) (depth : Nat) (S S' : Shell) (system : Option PStr) (ins : List PStr) (out description : PStr)
    (code : Nat) :
    commandUserBuild D depth S system ins out description = (S', .exit code) ↔
      code = 1 ∧ S' = S ∧ ∃ path, S.Against system path ∧ (S.present path = false ∨ ∃ p ∈ ins, S.present p = false) := by
  unfold commandUserBuild
  have hall : (!ins.all S.present) = true ↔ ∃ p ∈ ins, S.present p = false := by simp [List.all_eq_true]
  cases hs : systemDicOf S system with
  | error e =>
    dsimp only
    constructor
    · intro h; cases h
    · rintro ⟨_, _, path, h, _⟩
      rw [systemDicOf_ok.mpr h] at hs
      cases hs
  | ok path =>
    have key : ∀ {P : PStr → Prop}, (∃ p, S.Against system p ∧ P p) ↔ P path := by
      intro P
      constructor
      · rintro ⟨p, h1, h2⟩
        rw [systemDicOf_ok.mpr h1] at hs
        cases hs
        exact h2
      · intro h; exact ⟨path, systemDicOf_ok.mp hs, h⟩
    rw [key]
    dsimp only
    cases hm : S.present path with
    | false =>
      rw [if_pos (by simp)]
      simp only [Prod.mk.injEq, Ended.exit.injEq, true_or, and_true]
      constructor
      · rintro ⟨h1, h2⟩; exact ⟨h2.symm, h1.symm⟩
      · rintro ⟨h1, h2⟩; exact ⟨h2.symm, h1.symm⟩
    | true =>
      rw [if_neg (by simp)]
      cases hi : !ins.all S.present with
      | true =>
        rw [if_pos rfl]
        have := hall.mp hi
        simp only [Prod.mk.injEq, Ended.exit.injEq]
        constructor
        · rintro ⟨h1, h2⟩; exact ⟨h2.symm, h1.symm, .inr this⟩
        · rintro ⟨h1, h2, _⟩; exact ⟨h2.symm, h1.symm⟩
      | false =>
        rw [if_neg (by simp)]
        constructor
        · intro h
          exfalso
          split at h
          · cases h
          · split at h
            · cases h
            · exact ended_exit (congrArg Prod.snd h)
        · rintro ⟨_, _, h | h⟩
          · cases h
          · rw [hall.mpr h] at hi; cases hi

/-- **C75** However `build` ends, no other file than the output file is touched. -/
theorem C75_build_touches (D : Darts) (S : Shell) (m : PStr) (ins : List PStr) (out description : PStr) :
    S.SameBut (commandBuild D S m ins out description).1 out := by
  unfold commandBuild
  split
  · exact .refl _ _
  · split
    · exact .refl _ _
    · split
      · exact .refl _ _
      · dsimp only
        split
        · exact put_sameBut _ _ _
        · exact put_sameBut _ _ _

/-- **C75** The same for `ubuild`. -/
theorem C75_ubuild_touches (D : Darts) (depth : Nat) (S : Shell) (system : Option PStr) (ins : List PStr) (out description : PStr) :
    S.SameBut (commandUserBuild D depth S system ins out description).1 out := by
  unfold commandUserBuild
  split
  · exact .refl _ _
  · split
    · exact .refl _ _
    · split
      · exact .refl _ _
      · split
        · exact .refl _ _
        · split
          · exact .refl _ _
          · exact put_sameBut _ _ _

theorem put_present {S : Shell} {p out : PStr} {b : Bytes} (h : S.present p = true) : (S.put out b).present p = true := by
  show (if p = out then true else S.present p) = true
  split
  · rfl
  · exact h

/-- **C75** What was in the output file is lost before anything is read: `build` then does the same as with an empty file there, so
rows that were in it, if it is one of the sources, are not in the dictionary. -/
theorem C75_build_overwrites (D : Darts) {S : Shell} {m : PStr} {ins : List PStr} {out : PStr} (description : PStr)
    (hm : S.present m = true) (hi : S.AllPresent ins) (ho : S.opens out = .ok ()) :
    commandBuild D S m ins out description = commandBuild D (S.put out []) m ins out description := by
  have hi' : (S.put out []).AllPresent ins := fun p hp => put_present (hi p hp)
  unfold commandBuild
  rw [hm, all_present.mpr hi, put_present hm, all_present.mpr hi', if_neg (by simp), if_neg (by simp), if_neg (by simp), if_neg (by simp)]
  have ho' : (S.put out []).opens out = .ok () := ho
  rw [ho, ho']
  dsimp only
  rw [put_put]
  cases (S.put out []).file m with
  | error e => rfl
  | ok b =>
    dsimp only
    rw [put_put]
    rfl

/-- **C75** Given the matrix file as its output file, `build` destroys it and fails. -/
theorem C75_matrix_lost (D : Darts) {S : Shell} {m : PStr} {ins : List PStr} (description : PStr) (hd : S.decode [] = .ok []) :
    (commandBuild D S m ins m description).2 ≠ .done := by
  intro h
  obtain ⟨_, _, _, header, lines, tables, ops, h1, _, h2, _⟩ := (C75_build D S _ m ins m description).mp (Prod.ext rfl h)
  obtain ⟨b, e1, e2⟩ := isMatrix_iff.mp h1
  rw [put_file] at e1
  cases e1
  have e3 : (S.put m []).matrixText [] = .ok (some ([], [])) := by
    show (match S.decode [] with | .ok text => _ | .error e => _ : MatrixInput) = _
    rw [hd]
    rfl
  rw [e3] at e2
  cases e2
  unfold DictBuilder.build at h2
  obtain ⟨_, _, _, h2, _⟩ := Out.andThen_ok h2
  obtain ⟨db, _, h2⟩ := Out.withRes_ok h2
  obtain ⟨_, _, h2, _, _⟩ := Out.andThen_ok h2
  unfold DictBuilder.writeGrammar at h2
  obtain ⟨_, _, _, h2, _⟩ := Out.andThen_ok h2
  obtain ⟨_, h2, _⟩ := Out.withRes_ok h2
  cases h2

theorem hasRows_put {S : Shell} {out : PStr} {b : Bytes} {ins : List PStr} {tables : List (List (List PStr))} (hn : out ∉ ins) :
    Each (S.put out b).toDisk.HasRows ins tables ↔ Each S.toDisk.HasRows ins tables := by
  have one : ∀ p rows, p ∈ ins → ((S.put out b).toDisk.HasRows p rows ↔ S.toDisk.HasRows p rows) := by
    intro p rows hp
    have hne : p ≠ out := fun h => hn (h ▸ hp)
    unfold Disk.HasRows Disk.HasLines
    have : (S.put out b).toDisk.file p = S.toDisk.file p := if_neg hne
    rw [this]
  clear hn
  constructor
  · intro h
    induction h with
    | nil => exact .nil
    | cons h1 _ ih => exact .cons ((one _ _ (by simp)).mp h1) (ih (fun p rows hp => one p rows (by simp [hp])))
  · intro h
    induction h with
    | nil => exact .nil
    | cons h1 _ ih => exact .cons ((one _ _ (by simp)).mpr h1) (ih (fun p rows hp => one p rows (by simp [hp])))

theorem isMatrix_put {S : Shell} {out m header : PStr} {b : Bytes} {lines : List PStr} (hn : out ≠ m) :
    (S.put out b).IsMatrix m header lines ↔ S.IsMatrix m header lines := by
  unfold Shell.IsMatrix
  have : (S.put out b).file m = S.file m := if_neg (Ne.symm hn)
  rw [this]
  rfl

theorem isMatrix_unique {S : Shell} {m h h' : PStr} {l l' : List PStr} (h1 : S.IsMatrix m h l) (h2 : S.IsMatrix m h' l') : h = h' ∧ l = l' := by
  obtain ⟨b, e1, e2⟩ := isMatrix_iff.mp h1
  obtain ⟨b', e3, e4⟩ := isMatrix_iff.mp h2
  rw [e1] at e3
  cases e3
  rw [e2] at e4
  cases e4
  exact ⟨rfl, rfl⟩

theorem hasRows_unique {M : Disk} {ins : List PStr} {t t' : List (List (List PStr))} (h : Each M.HasRows ins t) (h' : Each M.HasRows ins t') :
    t = t' := by
  induction h generalizing t' with
  | nil => cases h'; rfl
  | @cons p rows ps ts h1 _ ih =>
    cases h' with
    | cons h3 h4 =>
      rw [ih h4]
      obtain ⟨ls, ⟨b, a1, a2⟩, a3⟩ := h1
      obtain ⟨ls', ⟨b', c1, c2⟩, c3⟩ := h3
      rw [a1] at c1
      cases c1
      rw [a2] at c2
      cases c2
      rw [a3] at c3
      cases c3
      rfl

/-- **C75** From tables and a matrix in files, whose rows are together a source that can be built, `build` makes the system dictionary
of that source, and the file can be loaded. -/
theorem C75_build_makes {D : Darts} (hD : D.Ok) {S : Shell} {m : PStr} {ins : List PStr} {out description header : PStr} {lines : List PStr}
    {tables : List (List (List PStr))} (hm : S.IsMatrix m header lines) (ht : Each S.toDisk.IsTable ins tables) (hout : out ∉ m :: ins)
    (hpm : S.present m = true) (hpi : S.AllPresent ins) (ho : S.opens out = .ok ())
    (hb : DictSource.Buildable D none ⟨⟨SYSTEM_DICT_VERSION_2, S.time, description⟩, tables.flatten, some (header, lines)⟩) :
    ∃ file d, commandBuild D S m ins out description = (S.put out file, .done) ∧
      DictSource.Builds D none ⟨⟨SYSTEM_DICT_VERSION_2, S.time, description⟩, tables.flatten, some (header, lines)⟩ file ∧
      fromSystemDictionary file = .ok d := by
  obtain ⟨hSO, cs, T, hcs, hroom, hw⟩ := hb
  obtain ⟨file, d, hbuild, hr, _, hh⟩ := C71_usable hD hSO hcs hroom hw
  have hbuild0 := hbuild
  obtain ⟨_, ops, h1, h2⟩ := hbuild
  refine ⟨file, d, ?_, hbuild0, ?_⟩
  · rw [C75_build]
    refine ⟨hpm, hpi, ho, header, lines, tables, ops, ?_, ?_, h1, by rw [h2]⟩
    · exact (isMatrix_put (fun h => hout (by simp [h]))).mpr hm
    · exact (hasRows_put (fun h => hout (by simp [h]))).mpr (ht.imp fun _ _ => isTable_rows)
  · unfold fromSystemDictionary
    rw [hr]
    show (if _ then _ else _) = _
    rw [hh, if_neg (show ¬(!isSystemDictionary (SYSTEM_DICT_VERSION_2 : Int).toNat) = true by decide)]
    rfl

/-- **C75** Likewise `ubuild` with the user dictionary of a source, against a system dictionary. -/
theorem C75_ubuild_makes {D : Darts} (hD : D.Ok) {depth : Nat} {S : Shell} {name : Option PStr} {system : PStr} {ins : List PStr}
    {out description : PStr} {tables : List (List (List PStr))} {file : Bytes} {d : BinDict} (hag : S.Against name system)
    (hf : S.file system = .ok file) (hd : fromSystemDictionary file = .ok d) (ht : Each S.toDisk.IsTable ins tables)
    (hout : out ∉ system :: ins) (hpm : S.present system = true) (hpi : S.AllPresent ins) (ho : S.opens out = .ok ())
    (hb : DictSource.Buildable D (some (d.toSysDict D depth)) ⟨⟨USER_DICT_VERSION_3, S.time, description⟩, tables.flatten, none⟩) :
    ∃ file' d', commandUserBuild D depth S name ins out description = (S.put out file', .done) ∧
      DictSource.Builds D (some (d.toSysDict D depth)) ⟨⟨USER_DICT_VERSION_3, S.time, description⟩, tables.flatten, none⟩ file' ∧
      fromUserDictionary file' = .ok d' := by
  obtain ⟨hSO, cs, T, hcs, hroom, hw⟩ := hb
  obtain ⟨file', d', hbuild, hr, _, hh⟩ := C71_usable hD hSO hcs hroom hw
  have hbuild0 := hbuild
  obtain ⟨_, ops, h1, h2⟩ := hbuild
  refine ⟨file', d', ?_, hbuild0, ?_⟩
  · rw [C75_ubuild]
    refine ⟨system, hag, hpm, hpi, ho, file, d, tables, ops, hf, hd, ?_, h1, by rw [h2]⟩
    exact (hasRows_put (fun h => hout (by simp [h]))).mpr (ht.imp fun _ _ => isTable_rows)
  · unfold fromUserDictionary
    rw [hr]
    show (if _ then _ else _) = _
    rw [hh, if_neg (show ¬(!isUserDictionary (USER_DICT_VERSION_3 : Int).toNat) = true by decide)]
    rfl

theorem builtSystem_builds {M : Disk} {D : Darts} {path : PStr} {src : DictSource} {file : Bytes} (h : M.BuiltSystem D path src)
    (hf : M.file path = .ok file) (hS : SourceOk src.header src.rows src.matrix) : src.Builds D none file := by
  obtain ⟨S, S', m, ins, description, header, lines, tables, h1, h2, h3, h4, h5, rfl⟩ := h
  obtain ⟨_, _, _, header', lines', tables', ops, k1, k2, k3, k4⟩ := (C75_build ..).mp h1
  obtain ⟨rfl, rfl⟩ := isMatrix_unique h3 ((isMatrix_put (fun h => h5 (by simp [h]))).mp k1)
  have := hasRows_unique (h4.imp fun _ _ => isTable_rows) ((hasRows_put (fun h => h5 (by simp [h]))).mp k2)
  subst this
  refine ⟨hS, ops, k3, ?_⟩
  rw [h2, k4, put_file] at hf
  exact (Except.ok.inj hf).symm

theorem builtUser_builds {M : Disk} {D : Darts} {depth : Nat} {system path : PStr} {src : DictSource} {file file' : Bytes} {d : BinDict}
    (h : M.BuiltUser D depth system path src) (hs : M.file system = .ok file) (hd : readDictionary file = .ok d)
    (hf : M.file path = .ok file') (hS : SourceOk src.header src.rows src.matrix) : src.Builds D (some (d.toSysDict D depth)) file' := by
  obtain ⟨S, S', name, ins, description, tables, h1, h0, h2, h3, h4, h5, rfl⟩ := h
  obtain ⟨p, k0, _, _, _, f, d', tables', ops, k1, k2, k3, k4, k5⟩ := (C75_ubuild ..).mp h1
  have hp : system = p := by
    have := systemDicOf_ok.mpr h0
    rw [systemDicOf_ok.mpr k0] at this
    exact (Except.ok.inj this).symm
  subst hp
  rw [h2, hs] at k1
  cases k1
  unfold fromSystemDictionary at k2
  rw [hd] at k2
  have hdd : d = d' := by
    have k2 : (if (!isSystemDictionary d.header.version.toNat) = true then (.error .io : Res BinDict) else pure d) = .ok d' := k2
    split at k2
    · cases k2
    · exact Except.ok.inj k2
  subst hdd
  have := hasRows_unique (h4.imp fun _ _ => isTable_rows) ((hasRows_put (fun h => h5 (by simp [h]))).mp k3)
  subst this
  refine ⟨hS, ops, k4, ?_⟩
  rw [h3, k5, put_file] at hf
  exact (Except.ok.inj hf).symm

/-- **C75** An installation made with the commands: if the system dictionary of the settings was made with `build`, the user
dictionaries with `ubuild` against it, and `Dictionary` opens them, then the installation is that of the sources in the files. -/
theorem C75_installed {R : Runtime} {M : Disk} {s s' : Settings} {c r t : Option PStr} {cfg : DictConfig} {dict : Dict} {system : PStr}
    {paths : List PStr} {depth : Nat} {src : DictSource} {srcs : List DictSource}
    (ho : openDictionary R M s c r t = (s', .ok (cfg, dict))) (hp : s'.systemDictPath = .ok system) (hu : s'.userDictPaths = .ok paths)
    (hsys : M.BuiltSystem R.D system src) (husers : Each (M.BuiltUser R.D depth system) paths srcs)
    (hok : SourceOk src.header src.rows src.matrix) (hoks : ∀ u ∈ srcs, SourceOk u.header u.rows u.matrix) :
    ∃ sys, Sources.Installed ⟨src, srcs, sys⟩ cfg dict := by
  obtain ⟨_, d, dir, file, files, hO⟩ := (C68_opens ..).mp ho
  obtain ⟨p, h1, h2⟩ := hO.system
  rw [hp] at h1
  cases h1
  obtain ⟨ps, h3, h4⟩ := hO.users
  rw [hu] at h3
  cases h3
  obtain ⟨sys, objs, h5, _⟩ := hO.providers
  obtain ⟨bd, h6, _⟩ := bind_ok h5
  obtain ⟨ds, h7, h8⟩ := bind_ok h6
  have h9 : readDictionary file = .ok ds := h7
  refine ⟨ds.toSysDict R.D depth, file, files, ds, depth, ?_, h9, ?_, ?_, ?_, hO.loaded⟩
  · rw [hO.runtime.1]
    exact builtSystem_builds hsys h2 hok
  · rw [hO.runtime.1]
  · show files.length = srcs.length
    rw [← h4.length, ← husers.length]
  · show ∀ (k : Nat) (u : DictSource) (b : Bytes), srcs[k]? = some u → files[k]? = some b → u.Builds cfg.D _ b
    rw [hO.runtime.1]
    clear hO ho hu
    induction husers generalizing files with
    | nil => intro k u b h; cases h
    | @cons path u paths us a1 _ ih =>
      cases h4 with
      | @cons _ b _ bs c1 c2 =>
        intro k u' b' e1 e2
        cases k with
        | zero =>
          cases e1
          cases e2
          exact builtUser_builds a1 h2 h9 c1 (hoks _ (by simp))
        | succ k => exact ih (fun u hu => hoks u (by simp [hu])) _ c2 k u' b' e1 e2

theorem fieldsText_plain : ∀ {row : List PStr}, row ≠ [] → (∀ f ∈ row, (∀ c ∈ f, c ≠ 44 ∧ c ≠ 10 ∧ c ≠ 13) ∧ f.head? ≠ some 34) →
    FieldsText row (joinOn 44 row)
  | [], h, _ => absurd rfl h
  | [f], _, h => .one _ _ (.plain _ (h f (by simp)).1 (h f (by simp)).2)
  | f :: g :: row, _, h => .more f f (g :: row) _ (.plain _ (h f (by simp)).1 (h f (by simp)).2)
      (fieldsText_plain (by simp) (fun x hx => h x (by simp [hx])))

namespace Sample

def csvFile : PStr := pstr! "lex.csv"
def matrixFile : PStr := pstr! "matrix.def"
def systemDic : PStr := pstr! "system.dic"
def userCsv : PStr := pstr! "user.csv"
def userDic : PStr := pstr! "user.dic"

def csvText : PStr := pstr! "a,1,1,5,a,p,p,p,p,p,p,,,*,A,*,*,*\nab,0,1,-3,ab,p,p,p,p,p,q,r,n,0,C,0/0,*,0,7/8\n"
def matrixText : PStr := pstr! "2 2\n0 1 5\n1 1 -2\n"

/-- A machine with the sample's source in files, and `system` as system.dic if given. -/
def shell (system : Res Bytes) : Shell where
  defaultSetting := []
  settings _ := .error .io
  package _ := none
  file p := if p = csvFile then .ok csvText else if p = matrixFile then .ok matrixText else if p = userCsv then .ok (joinOn 44 userCols2.list)
    else if p = systemDic then system else .error .io
  resources := []
  present p := p = csvFile ∨ p = matrixFile ∨ p = userCsv ∨ (p = systemDic ∧ system.isOk = true)
  opens _ := .ok ()
  decode b := .ok b
  headLine _ := none
  time := 100

theorem shell_present (b : Bytes) : (shell (.ok b)).present systemDic = true ∧ (shell (.ok b)).AllPresent [userCsv] := by
  refine ⟨by simp [shell, Except.isOk, Except.toBool], ?_⟩
  intro p hp
  simp [shell, List.mem_singleton.1 hp]

theorem shell_table (system : Res Bytes) : (shell system).toDisk.IsTable csvFile rows := by
  have h0 : FieldsText cols0.list (joinOn 44 cols0.list) := fieldsText_plain (by decide) (by decide)
  have h1 : FieldsText cols1.list (joinOn 44 cols1.list) := fieldsText_plain (by decide) (by decide)
  have h := CsvText.cons _ _ _ _ h0 (by decide) (CsvText.cons _ _ _ _ h1 (by decide) .nil)
  refine ⟨csvText, csvText, _, rfl, by decide +kernel, lines_iff.mp rfl, ?_, by decide⟩
  have e : (linesAux [] csvText).flatten = joinOn 44 cols0.list ++ 10 :: (joinOn 44 cols1.list ++ 10 :: []) := by decide +kernel
  rw [e]
  exact h

theorem shell_matrix (system : Res Bytes) :
    (shell system).IsMatrix matrixFile [50, 32, 50, 10] [[48, 32, 49, 32, 53, 10], [49, 32, 49, 32, 45, 50, 10]] :=
  ⟨matrixText, matrixText, _, rfl, rfl, lines_iff.mp rfl, .inr (by decide +kernel)⟩

theorem shell_user (system : Res Bytes) : (shell system).toDisk.IsTable userCsv userRows2 := by
  have h0 : FieldsText userCols2.list (joinOn 44 userCols2.list) := fieldsText_plain (by decide) (by decide)
  refine ⟨joinOn 44 userCols2.list, joinOn 44 userCols2.list, _, rfl, by decide +kernel, lines_iff.mp rfl, ?_, by decide⟩
  have e : (linesAux [] (joinOn 44 userCols2.list)).flatten = joinOn 44 userCols2.list := by decide +kernel
  rw [e]
  exact .last _ _ h0 (by decide)

end Sample

example : ∃ file d, commandBuild SimpleTrie.trie (Sample.shell (.error .io)) Sample.matrixFile [Sample.csvFile] Sample.systemDic [100] =
      ((Sample.shell (.error .io)).put Sample.systemDic file, .done) ∧
    DictSource.Builds SimpleTrie.trie none ⟨Sample.header, Sample.rows, Sample.matrix⟩ file ∧ fromSystemDictionary file = .ok d :=
  C75_build_makes SimpleTrie.ok (Sample.shell_matrix _) (.cons (Sample.shell_table _) .nil) (by decide) (by decide) (by unfold Shell.AllPresent; decide) rfl
    (by rw [show [Sample.rows].flatten = Sample.rows from List.append_nil _]; exact Sample.system_buildable)

section
attribute [local irreducible] Sample.systemFile Sample.sysDict
example : ∃ file d, commandUserBuild SimpleTrie.trie 9 (Sample.shell (.ok Sample.systemFile)) (some Sample.systemDic) [Sample.userCsv] Sample.userDic [117] =
      ((Sample.shell (.ok Sample.systemFile)).put Sample.userDic file, .done) ∧
    DictSource.Builds SimpleTrie.trie (some Sample.sysDict) ⟨Sample.userHeader, Sample.userRows2, none⟩ file ∧ fromUserDictionary file = .ok d := by
  obtain ⟨d, h1, h2⟩ := Sample.loaded rfl Sample.system_loads
  have h := C75_ubuild_makes (depth := 9) SimpleTrie.ok (S := Sample.shell (.ok Sample.systemFile)) (name := some Sample.systemDic) (system := Sample.systemDic)
    (ins := [Sample.userCsv]) (out := Sample.userDic) (description := [117]) (.inl ⟨rfl, by decide⟩) rfl h1 (.cons (Sample.shell_user _) .nil)
    (by decide) (Sample.shell_present _).1 (Sample.shell_present _).2 rfl
    (by rw [show [Sample.userRows2].flatten = Sample.userRows2 from List.append_nil _, ← Sample.sysDict_eq h2]
        exact Sample.sources_buildable.users ⟨Sample.userHeader, Sample.userRows2, none⟩ (by simp [Sample.sources]))
  rw [← Sample.sysDict_eq h2] at h
  exact h

end

/-- With the source as output file: the command succeeds, and the source is gone. -/
example : (commandBuild SimpleTrie.trie (Sample.shell (.error .io)) Sample.matrixFile [Sample.csvFile] Sample.csvFile [100]).2 = .done ∧
    (commandBuild SimpleTrie.trie (Sample.shell (.error .io)) Sample.matrixFile [Sample.csvFile] Sample.csvFile [100]).1.file Sample.csvFile ≠
      .ok Sample.csvText := by
  decide +kernel

end Sudachi
